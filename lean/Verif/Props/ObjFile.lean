import Verif.Lemmas.ObjFile
import Verif.Props.BuildMeshes

set_option autoImplicit false

/-! The files that are made of a road geometry. -/
namespace Maliput.Props

open Maliput.GenerateObj
open Maliput.GenerateObj.Spec
open Maliput.RoadMesh (Lane Pos RBounds Srh SrhFace)
open Maliput.RouteGraph (Stop lift)
open Maliput.Mesh.Spec (Built)

/-- What is left to do after the meshes are built. -/
private theorem files_ok {env : Env} {f : Features} {rg : RoadGeometry} {root : String}
    {meshes : Map String (GeoMesh × Material)} (hb : buildMeshes env f rg = .ok meshes) {p : ℕ}
    (hp : precision rg.linearTolerance = .ok p) (ht : 0 < rg.linearTolerance)
    {obj : List (Mesh.Line Text3 Text3)} {mtl : List MaterialText}
    (h1 : (Mesh.emitAll 0 0 [(meshOf meshes "asphalt", "bland_asphalt"), (meshOf meshes "lane", "lane_haze"),
    (meshOf meshes "marker", "marker_paint"), (meshOf meshes "branch_point", "branch_point_glow"),
    (meshOf meshes "grayed_asphalt", "grayed_bland_asphalt"), (meshOf meshes "grayed_lane", "grayed_lane_haze"),
    (meshOf meshes "grayed_marker", "grayed_marker_paint"), (meshOf meshes "h_bounds", "h_bounds_haze"),
    (meshOf meshes "sidewalk", "sidewalk")]).mapM (formatLine p f.origin) = .ok obj)
    (h2 : ((["asphalt", "branch_point", "grayed_asphalt", "grayed_lane", "grayed_marker", "h_bounds", "lane", "marker",
      "sidewalk"].filterMap fun key => if key == "sidewalk" then none else meshes.get? key).mapM fun m =>
        formatMaterial m.2 p) = .ok mtl) :
    generateObjFile env f rg root = .ok ⟨root ++ ".obj", root ++ ".mtl", obj, root ++ ".mtl", mtl⟩ := by
  have ok : ∀ {α β : Type} (a : α) (k : α → Except Stop β), (Except.ok a >>= k) = k a := fun _ _ => rfl
  have lok : ∀ {α : Type} (a : α), lift (Except.ok a) = Except.ok a := fun _ => rfl
  have t : throwUnless (decide (rg.linearTolerance > 0)) = .ok () := by simp [throwUnless, ht]
  unfold generateObjFile
  rw [hb, ok, hp, lok, ok, t, lok, ok]
  dsimp only
  rw [h1, lok, ok, h2, lok, ok]
  rfl

/-- Two names after the same prefix. -/
private theorem usemtl_inj {a b : String} (h : "usemtl " ++ a = "usemtl " ++ b) : a = b := by
  have := congrArg String.toList h
  exact String.toList_injective (by simpa using this)

/-! ### C90 -/

/-- C90.  For a road geometry that can be drawn, two files are made.  The first one refers to the second one.  Reading its
faces, whose indices count the vertices and normals of the whole file, gives the faces of all meshes: the coordinates of
each vertex relative to the origin and those of each normal are off by at most a tenth of the tolerance.  Each number has
no more digits than needed for that. -/
theorem obj_file (env : Env) (f : Features) (rg : RoadGeometry) (root : String)
    (simplify : List (List (Pos × Pos)) → List (List (Pos × Pos))) (hrg : GoodRoad rg) (hf : GoodFeatures f)
    (hS : Simplifies env f simplify) :
    let d := drawing env f rg simplify
    ∃ (files : Files) (drawn : List Drawn) (p : ℕ) (texts : List (List (Text3 × Text3))),
      Returns (fun n => generateObjFile { env with bound := n } f rg root) files ∧ BranchPointsDrawn f rg drawn ∧
      Enough rg.linearTolerance p ∧
      files.objName = root ++ ".obj" ∧ files.mtlName = root ++ ".mtl" ∧ files.mtllib = files.mtlName ∧
      Mesh.Spec.read files.obj = texts.map (·.map fun vn => (some vn.1, some vn.2)) ∧
      List.Forall₂ (List.Forall₂ fun (text : Text3 × Text3) (vn : Pos × Pos) =>
          Shows rg.linearTolerance p text.1 (fun i => vn.1 i - f.origin i) ∧ Shows rg.linearTolerance p text.2 vn.2) texts
        ((usual f rg).flatMap d.asphalt ++ (usual f rg).flatMap d.haze ++ (usual f rg).flatMap d.markers ++
          (drawn.flatMap fun b => b.faces f.branchPointHeight) ++
          (gray f rg).flatMap d.asphalt ++ (gray f rg).flatMap d.haze ++ (gray f rg).flatMap d.markers ++
          (segmentsOf rg).flatMap d.hBounds) ∧
      (∀ name, Mesh.Line.other ("usemtl " ++ name) ∈ files.obj → ∃ m ∈ files.mtl, m.newmtl = name) ∧
      files.mtl.map (·.newmtl) = ["bland_asphalt", "branch_point_glow", "grayed_bland_asphalt", "grayed_lane_haze",
        "grayed_marker_paint", "h_bounds_haze", "lane_haze", "marker_paint"] ∧
      ∀ text ∈ files.mtl, ∃ m ∈ materials, Describes p text m := by
  intro d
  obtain ⟨meshes, drawn, ⟨N, hb⟩, hd, -, ⟨m1, y1, k1, n1, e1, b1⟩, ⟨m2, y2, k2, n2, e2, b2⟩, ⟨m3, y3, k3, n3, e3, b3⟩,
    ⟨m4, y4, k4, n4, e4, b4⟩, ⟨m5, y5, k5, n5, e5, b5⟩, ⟨m6, y6, k6, n6, e6, b6⟩, ⟨m7, y7, k7, n7, e7, b7⟩,
    ⟨m8, y8, k8, n8, e8, b8⟩, ⟨m9, y9, k9, -, -, b9⟩⟩ := build_meshes env f rg simplify hrg hf hS
  obtain ⟨p, hp, enough⟩ := precision_ok hrg.tolerance
  obtain ⟨tv, tn, hv, hn, hl⟩ := exists_texts enough f.origin
  have hl' : ∀ l, formatLine p f.origin l = .ok (mapLine tv tn l) := by
    intro l
    rw [hl l]
    cases l <;> rfl
  obtain ⟨t1, f1, g1⟩ := formatMaterial_ok e1 p
  obtain ⟨t2, f2, g2⟩ := formatMaterial_ok e2 p
  obtain ⟨t3, f3, g3⟩ := formatMaterial_ok e3 p
  obtain ⟨t4, f4, g4⟩ := formatMaterial_ok e4 p
  obtain ⟨t5, f5, g5⟩ := formatMaterial_ok e5 p
  obtain ⟨t6, f6, g6⟩ := formatMaterial_ok e6 p
  obtain ⟨t7, f7, g7⟩ := formatMaterial_ok e7 p
  obtain ⟨t8, f8, g8⟩ := formatMaterial_ok e8 p
  have hmeshOf : ∀ {key : String} {m : GeoMesh} {y : Material}, meshes.get? key = some (m, y) → meshOf meshes key = m := by
    intro key m y h
    simp [meshOf, h]
  have h2 : ((["asphalt", "branch_point", "grayed_asphalt", "grayed_lane", "grayed_marker", "h_bounds", "lane", "marker",
      "sidewalk"].filterMap fun key => if key == "sidewalk" then none else meshes.get? key).mapM fun m =>
        formatMaterial m.2 p) = .ok [t1, t5, t6, t7, t8, t4, t2, t3] := by
    have : (["asphalt", "branch_point", "grayed_asphalt", "grayed_lane", "grayed_marker", "h_bounds", "lane", "marker",
        "sidewalk"].filterMap fun key => if key == "sidewalk" then none else meshes.get? key) =
        [(m1, y1), (m5, y5), (m6, y6), (m7, y7), (m8, y8), (m4, y4), (m2, y2), (m3, y3)] := by
      simp [k1, k2, k3, k4, k5, k6, k7, k8]
    rw [this]
    exact mapM_of_forall₂ (.cons f1 (.cons f5 (.cons f6 (.cons f7 (.cons f8 (.cons f4 (.cons f2 (.cons f3 .nil))))))))
  have h1 := mapM_pure hl' (Mesh.emitAll 0 0 [(meshOf meshes "asphalt", "bland_asphalt"), (meshOf meshes "lane", "lane_haze"),
    (meshOf meshes "marker", "marker_paint"), (meshOf meshes "branch_point", "branch_point_glow"),
    (meshOf meshes "grayed_asphalt", "grayed_bland_asphalt"), (meshOf meshes "grayed_lane", "grayed_lane_haze"),
    (meshOf meshes "grayed_marker", "grayed_marker_paint"), (meshOf meshes "h_bounds", "h_bounds_haze"),
    (meshOf meshes "sidewalk", "sidewalk")])
  refine ⟨_, drawn, p, ((usual f rg).flatMap d.asphalt ++ (usual f rg).flatMap d.haze ++ (usual f rg).flatMap d.markers ++
      (drawn.flatMap fun b => b.faces f.branchPointHeight) ++
      (gray f rg).flatMap d.asphalt ++ (gray f rg).flatMap d.haze ++ (gray f rg).flatMap d.markers ++
      (segmentsOf rg).flatMap d.hBounds).map (·.map fun vn => (tv vn.1, tn vn.2)), ⟨N, fun n hn => files_ok (hb n hn) hp hrg.tolerance h1 h2⟩, hd, enough, rfl, rfl, rfl, ?_, ?_, ?_, ?_,
    ?_⟩
  · dsimp only
    rw [read_mapLine, hmeshOf k1, hmeshOf k2, hmeshOf k3, hmeshOf k4, hmeshOf k5, hmeshOf k6, hmeshOf k7, hmeshOf k8,
      hmeshOf k9, obj_faces_read _ _ (.cons b1 (.cons b2 (.cons b3 (.cons b5 (.cons b6 (.cons b7 (.cons b8 (.cons b4
        (.cons b9 .nil)))))))))]
    simp only [List.flatten_cons, List.flatten_nil, List.append_nil, List.append_assoc, List.map_map]
    refine List.map_congr_left fun face _ => ?_
    simp
  · rw [List.forall₂_map_left_iff]
    refine List.forall₂_same.2 fun face _ => ?_
    rw [List.forall₂_map_left_iff]
    exact List.forall₂_same.2 fun vn _ => ⟨hv _, hn _⟩
  · intro name hname
    dsimp only at hname ⊢
    obtain ⟨l, hl, he⟩ := List.mem_map.1 hname
    cases l with
    | v x => simp [mapLine] at he
    | vn x => simp [mapLine] at he
    | f x => simp [mapLine] at he
    | other s =>
      simp only [mapLine, Mesh.Line.other.injEq] at he
      subst he
      rcases emitAll_other _ _ _ _ hl with h | ⟨m, hm, hne, h⟩
      · simp only [List.mem_cons, List.not_mem_nil, or_false] at h
        rcases h with h | h | h | h <;> (have := congrArg String.toList h; simp at this)
      · have hname := usemtl_inj h
        simp only [List.mem_cons, List.not_mem_nil, or_false] at hm
        have he9 : m9.faces = [] := by
          have := mesh_faces_decode b9
          simpa using this
        rcases hm with rfl | rfl | rfl | rfl | rfl | rfl | rfl | rfl | rfl
        · exact ⟨t1, by simp, by rw [g1.name, n1, hname]⟩
        · exact ⟨t2, by simp, by rw [g2.name, n2, hname]⟩
        · exact ⟨t3, by simp, by rw [g3.name, n3, hname]⟩
        · exact ⟨t5, by simp, by rw [g5.name, n5, hname]⟩
        · exact ⟨t6, by simp, by rw [g6.name, n6, hname]⟩
        · exact ⟨t7, by simp, by rw [g7.name, n7, hname]⟩
        · exact ⟨t8, by simp, by rw [g8.name, n8, hname]⟩
        · exact ⟨t4, by simp, by rw [g4.name, n4, hname]⟩
        · exact absurd (by dsimp only; rw [hmeshOf k9, he9]) hne
  · simp only [List.map_cons, List.map_nil, g1.name, g2.name, g3.name, g4.name, g5.name, g6.name, g7.name, g8.name, n1, n2,
      n3, n4, n5, n6, n7, n8]
  · intro text ht
    simp only [List.mem_cons, List.not_mem_nil, or_false] at ht
    rcases ht with rfl | rfl | rfl | rfl | rfl | rfl | rfl | rfl
    · exact ⟨y1, e1, g1⟩
    · exact ⟨y5, e5, g5⟩
    · exact ⟨y6, e6, g6⟩
    · exact ⟨y7, e7, g7⟩
    · exact ⟨y8, e8, g8⟩
    · exact ⟨y4, e4, g4⟩
    · exact ⟨y2, e2, g2⟩
    · exact ⟨y3, e3, g3⟩

/-- C90.  A tolerance of zero is undefined, not an exception: the number of digits is infinite and converted to an
integer first.  A negative tolerance throws. -/
theorem obj_file_zero_tolerance (env : Env) (f : Features) (rg : RoadGeometry) (root : String)
    (meshes : Map String (GeoMesh × Material)) (hb : buildMeshes env f rg = .ok meshes) :
    (rg.linearTolerance = 0 → generateObjFile env f rg root = .error (.err .ub)) ∧
    (rg.linearTolerance < 0 → generateObjFile env f rg root = .error (.err .throws)) := by
  have ok : ∀ {α β : Type} (a : α) (k : α → Except Stop β), (Except.ok a >>= k) = k a := fun _ _ => rfl
  have lok : ∀ {α : Type} (a : α), lift (Except.ok a) = Except.ok a := fun _ => rfl
  constructor
  · intro h
    have hp : precision rg.linearTolerance = .error .ub := by simp [precision, h]
    unfold generateObjFile
    rw [hb, ok, hp]
    rfl
  · intro h
    have hp : precision rg.linearTolerance = .ok 0 := by simp [precision, h.le, h.ne]
    have t : throwUnless (decide (rg.linearTolerance > 0)) = .error .throws := by simp [throwUnless, h.le]
    unfold generateObjFile
    rw [hb, ok, hp, lok, ok, t]
    rfl

/-- C90.  The opacity of materials is written with as many digits as the tolerance asks for: with a tolerance of ten
there are none, so that materials that are 80 percent transparent become invisible. -/
theorem obj_file_opacity_lost : precision 10 = .ok 0 ∧
    ∃ m ∈ materials, m.name = "lane_haze" ∧ m.transparency = 8 / 10 ∧ ∃ text, formatMaterial m 0 = .ok text ∧ text.d = "0" := by
  refine ⟨?_, ?_⟩
  · have : Nat.find (exists_precision (show (0 : ℚ) < 10 by norm_num)) = 0 := by
      rw [Nat.find_eq_zero]
      norm_num
    simp [precision, this]
  · refine ⟨⟨"lane_haze", (9 / 10, 9 / 10, 9 / 10), (9 / 10, 9 / 10, 9 / 10), (9 / 10, 9 / 10, 9 / 10), 101 / 10, 8 / 10⟩,
      by simp [materials], rfl, rfl, ?_⟩
    have hr : row (9 / 10, 9 / 10, 9 / 10) = .ok ⟨"0.900000", "0.900000", "0.900000"⟩ := by decide +kernel
    have h1 : toStr (101 / 10) 6 = .ok "10.100000" := by decide +kernel
    have h2 : toStr (1 - 8 / 10) ((0 : ℕ) : ℤ) = .ok "0" := by decide +kernel
    exact ⟨⟨"lane_haze", ⟨"0.900000", "0.900000", "0.900000"⟩, ⟨"0.900000", "0.900000", "0.900000"⟩,
      ⟨"0.900000", "0.900000", "0.900000"⟩, "10.100000", "0"⟩, by
        simp only [formatMaterial, hr, h1, h2, bind, Except.bind, pure, Except.pure], rfl⟩

/-- Files are made of the example road, with three digits. -/
example (env : Env) : ∃ (files : Files) (texts : List (List (Text3 × Text3))), Returns (fun n => generateObjFile { env with bound := n } {} bpRoad "road") files ∧
    files.objName = "road.obj" ∧ files.mtllib = "road.mtl" ∧
    Mesh.Spec.read files.obj = texts.map (·.map fun vn => (some vn.1, some vn.2)) := by
  obtain ⟨files, _, _, texts, h1, -, -, h2, h3, h4, h5, -⟩ := obj_file env {} bpRoad "road" id bpRoad_good
    ⟨by norm_num, by norm_num, by norm_num⟩ (no_simplification env {} rfl)
  exact ⟨files, texts, h1, h2, h4.trans h3, h5⟩

/-- With the usual tolerance of a centimeter there are three digits. -/
example : ∃ p, precision (1 / 100) = .ok p ∧ p = 3 := by
  obtain ⟨p, h1, h2, h3⟩ := precision_ok (t := 1 / 100) (by norm_num)
  refine ⟨p, h1, ?_⟩
  rcases Nat.lt_trichotomy p 3 with h | h | h
  · interval_cases p <;> norm_num at h2
  · exact h
  · have := h3 3 h
    norm_num at this

end Maliput.Props
