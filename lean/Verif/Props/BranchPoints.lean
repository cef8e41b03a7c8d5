import Verif.Lemmas.BranchPoints

set_option autoImplicit false

/-! Drawing branch points. -/
namespace Maliput.Props

open Maliput.GenerateObj
open Maliput.GenerateObj.Spec
open Maliput.RoadMesh (Lane Pos RBounds Srh SrhFace)
open Maliput.RouteGraph (Stop lift)
open Maliput.Mesh.Spec (Built)

/-- A road that starts at the origin and points along the first axis. -/
def bpLane : Lane where
  id := "first"
  length := 20
  laneBounds _ := ⟨-2, 2, by norm_num, by norm_num⟩
  segmentBounds _ := ⟨-2, 2, by norm_num, by norm_num⟩
  elevationBounds _ _ := ⟨0, 5, by norm_num, by norm_num⟩
  toInertial p i := if i = 0 then p.s else if i = 1 then p.r else p.h
  orientation _ i j := if i = j then 1 else 0
  linearTolerance := 1 / 100

/-- A branch point at its start. -/
def bpStart : BranchPoint := ⟨"start", [⟨bpLane, true⟩], []⟩

/-- The example road is upright. -/
theorem bpLane_upright (b : Bool) : Upright ⟨bpLane, b⟩ := by
  refine ⟨fun h => rfl, ?_, ?_⟩
  · cases b <;> decide +kernel
  · intro h i
    rcases (by omega : i = 0 ∨ i = 1 ∨ i = 2) with rfl | rfl | rfl <;>
      simp [LaneEnd.above, LaneEnd.frame, LaneEnd.s, bpLane]

/-! ### C88 -/

/-- C88.  Drawing a branch point with at least one lane end, with an elevation and a height that are not negative, ends
after at most one more attempt than twice the number of branch points that were drawn before.  The elevation it is
drawn at is the first of the base elevation plus a multiple of the height at which its center is apart from all centers
before; its center is remembered.  Drawn are a diamond at the first of its lane ends and an arrow at each of them. -/
theorem branch_point_rendered {bp : BranchPoint} {e : LaneEnd} (hfirst : (bp.aSide ++ bp.bSide).head? = some e)
    (he : Upright e) {base height : ℚ} (h1 : 0 ≤ base) (h2 : 0 ≤ height) (centers : List Pos) {m : GeoMesh}
    {fs : List (List (Pos × Pos))} (hm : Built m fs) :
    ∃ (k : ℕ) (m' : GeoMesh), k ≤ 2 * centers.length ∧
      (∀ p ∈ centers, Apart e height (base + k * height) p) ∧
      (∀ j < k, ∃ p ∈ centers, ¬ Apart e height (base + j * height) p) ∧
      (∀ n ≥ 2 * centers.length + 1, renderBranchPoint n bp base height m centers =
        .ok (m', centers ++ [LaneEnd.above e (base + k * height)])) ∧
      Built m' (fs ++ placed e.lane (branchFaces (base + k * height) height e true) ++
        (bp.aSide ++ bp.bSide).flatMap fun e => placed e.lane (branchFaces (base + k * height) height e false)) :=
  renderBranchPoint_ok hfirst he h1 h2 centers hm

/-- C88.  Of all branch points those that have lane ends are drawn, in their order.  The center of each of them is apart
from those that were drawn before. -/
theorem branch_points_apart (env : Env) (f : Features) (rg : RoadGeometry) (h1 : 0 ≤ f.branchPointElevation)
    (h2 : 0 ≤ f.branchPointHeight) (hd : f.drawBranchPoints = true)
    (hu : ∀ bp e, some bp ∈ rg.branchPoints → (bp.aSide ++ bp.bSide).head? = some e → Upright e) :
    ∃ (m : GeoMesh) (drawn : List Drawn),
      (∀ n ≥ 2 * rg.branchPoints.length + 1,
        renderBranchPoints { env with bound := n } f rg = .ok (m, drawn.map Drawn.center)) ∧
      Built m (drawn.flatMap fun d => d.faces f.branchPointHeight) ∧
      drawn.map (·.bp) = (rg.branchPoints.filterMap id).filter (fun bp => !(bp.aSide ++ bp.bSide).isEmpty) ∧
      (∀ d ∈ drawn, (d.bp.aSide ++ d.bp.bSide).head? = some d.first) ∧
      drawn.Pairwise fun a b => Apart b.first f.branchPointHeight b.elevation a.center := by
  have key : ∀ (bps : List (Option BranchPoint)) (m : GeoMesh) (drawn : List Drawn),
      (∀ bp e, some bp ∈ bps → (bp.aSide ++ bp.bSide).head? = some e → Upright e) →
      Built m (drawn.flatMap fun d => d.faces f.branchPointHeight) →
      (∀ d ∈ drawn, (d.bp.aSide ++ d.bp.bSide).head? = some d.first) →
      drawn.Pairwise (fun a b => Apart b.first f.branchPointHeight b.elevation a.center) →
      ∃ (m' : GeoMesh) (drawn' : List Drawn),
        (∀ n ≥ 2 * (drawn.length + bps.length) + 1, bps.foldlM (fun (x : GeoMesh × List Pos) bp => match bp with
        | none => .ok x
        | some bp => renderBranchPoint n bp f.branchPointElevation f.branchPointHeight x.1 x.2)
          (m, drawn.map Drawn.center) = Except.ok (ε := Stop) (m', drawn'.map Drawn.center)) ∧
        Built m' (drawn'.flatMap fun d => d.faces f.branchPointHeight) ∧
        drawn'.map (·.bp) = drawn.map (·.bp) ++
          (bps.filterMap id).filter (fun bp => !(bp.aSide ++ bp.bSide).isEmpty) ∧
        (∀ d ∈ drawn', (d.bp.aSide ++ d.bp.bSide).head? = some d.first) ∧
        drawn'.Pairwise (fun a b => Apart b.first f.branchPointHeight b.elevation a.center) := by
    intro bps
    induction bps with
    | nil => intro m drawn _ hm hf hp; exact ⟨m, drawn, fun n _ => rfl, hm, by simp, hf, hp⟩
    | cons bp bps ih =>
      intro m drawn hu hm hf hp
      simp only [List.length_cons]
      have skip : (∃ x, bp = some x ∧ x.aSide ++ x.bSide = []) ∨ bp = none ∨
          ∃ x e, bp = some x ∧ (x.aSide ++ x.bSide).head? = some e := by
        rcases bp with _ | x
        · exact .inr (.inl rfl)
        · rcases hx : (x.aSide ++ x.bSide) with _ | ⟨e, es⟩
          · exact .inl ⟨x, rfl, hx⟩
          · exact .inr (.inr ⟨x, e, rfl, by simp [hx]⟩)
      rcases skip with ⟨x, rfl, hx⟩ | rfl | ⟨x, e, rfl, hx⟩
      · obtain ⟨hxa, hxb⟩ := List.append_eq_nil_iff.1 hx
        have hr : ∀ (n : ℕ) (m : GeoMesh) (c : List Pos),
            renderBranchPoint n x f.branchPointElevation f.branchPointHeight m c = .ok (m, c) :=
          fun n m c => by simp [renderBranchPoint, hxa, hxb]
        obtain ⟨m', d', a, b, c, g, d⟩ := ih m drawn (fun bp e h => hu bp e (by simp [h])) hm hf hp
        refine ⟨m', d', fun n hn => ?_, b, by simpa [hxa, hxb] using c, g, d⟩
        rw [List.foldlM_cons]
        simp only [hr, bind, Except.bind]
        exact a n (by omega)
      · obtain ⟨m', d', a, b, c, g, d⟩ := ih m drawn (fun bp e h => hu bp e (by simp [h])) hm hf hp
        exact ⟨m', d', fun n hn => by rw [List.foldlM_cons]; exact a n (by omega), b, by simpa using c, g, d⟩
      · obtain ⟨k, m1, hk, hap, -, hr, hm1⟩ := renderBranchPoint_ok hx (hu x e (by simp) hx) h1 h2
          (drawn.map Drawn.center) hm
        have hne : (x.aSide ++ x.bSide).isEmpty = false := by
          rcases hl : x.aSide ++ x.bSide with _ | _
          · rw [hl] at hx; simp at hx
          · rfl
        obtain ⟨m', d', a, b, c, g, d⟩ := ih m1 (drawn ++ [⟨x, e, f.branchPointElevation + k * f.branchPointHeight⟩])
          (fun bp e h => hu bp e (by simp [h]))
          (by
            rw [List.flatMap_append]
            simpa [Drawn.faces] using hm1)
          (by
            intro d hd
            rcases List.mem_append.1 hd with hd | hd
            · exact hf d hd
            · simp only [List.mem_singleton] at hd
              subst hd
              exact hx)
          (by
            rw [List.pairwise_append]
            refine ⟨hp, by simp, ?_⟩
            intro a ha b hb
            simp only [List.mem_singleton] at hb
            subst hb
            exact hap _ (List.mem_map.2 ⟨a, ha, rfl⟩))
        refine ⟨m', d', ?_, b, ?_, g, d⟩
        · intro n hn
          rw [List.foldlM_cons]
          simp only [hr n (by rw [List.length_map]; omega), bind, Except.bind]
          simpa [Drawn.center] using a n (by
            simp only [List.length_append, List.length_cons, List.length_nil]; omega)
        · rw [c, List.filterMap_cons]
          simp only [id, List.filter_cons, hne, Bool.not_false, if_true, List.map_append, List.map_cons, List.map_nil,
            List.append_assoc, List.cons_append, List.nil_append]
  obtain ⟨m, d, a, b, c, g, e⟩ := key rg.branchPoints .empty [] hu .new (by simp) (by simp)
  refine ⟨m, d, fun n hn => ?_, b, by simpa using c, g, e⟩
  unfold renderBranchPoints
  rw [if_pos hd]
  exact a n (by simpa using hn)

/-- C88.  An arrow points from the end of the lane into the lane: it reaches as far into it as the lane is wide, but at
most two fifths of its length.  It is a tenth as wide as the lane at its base and as high as asked for, and gets thinner
towards its tip.  Both of its faces are counterclockwise when seen from where their normals point to, one of which points
up and the other one sideways. -/
theorem branch_arrow (elevation height : ℚ) (e : LaneEnd) (hl : 0 < e.lane.length) (hw : 0 < LaneEnd.width e) (hh : 0 ≤ height) :
    let into : ℚ := if e.atStart then 1 else -1
    let reach := min (2 / 5 * e.lane.length) (LaneEnd.width e)
    ∃ flat upright, branchFaces elevation height e false = [flat, upright] ∧ Faces flat ∧ Faces upright ∧
      flat.normal = ⟨0, 0, 1⟩ ∧ upright.normal = ⟨0, into, 0⟩ ∧
      (∀ v ∈ flat.vertices, v.h = elevation ∧
        (v.s = LaneEnd.s e ∧ |v.r| = LaneEnd.width e / 20 ∨ v.s = LaneEnd.s e + into * reach ∧ |v.r| = LaneEnd.width e / 200)) ∧
      (∀ v ∈ upright.vertices, v.r = 0 ∧
        (v.s = LaneEnd.s e ∧ |v.h - elevation| = height / 2 ∨ v.s = LaneEnd.s e + into * reach ∧ |v.h - elevation| = height / 20)) ∧
      ∀ v ∈ flat.vertices ++ upright.vertices, 0 ≤ v.s ∧ v.s ≤ e.lane.length := by
  intro into reach
  have hr : 0 < reach := lt_min (by linarith) hw
  have hr' : reach ≤ 2 / 5 * e.lane.length := min_le_left _ _
  obtain ⟨l, b⟩ := e
  have hW : LaneEnd.width ⟨l, b⟩ = (l.laneBounds (if b = true then 0 else l.length)).max -
    (l.laneBounds (if b = true then 0 else l.length)).min := rfl
  generalize hwd : LaneEnd.width ⟨l, b⟩ = w at hw hW
  have hwr := mul_pos hw hr
  have hhr := mul_nonneg hh hr.le
  cases b
  · simp only [Bool.false_eq_true, if_false] at hW
    have hi : into = -1 := rfl
    simp only [branchFaces, Bool.false_eq_true, if_false, one_mul, ← hW]
    have er : min (2 / 5 * l.length) w = reach := by simp only [reach, hwd]
    rw [er]
    refine ⟨_, _, rfl, ?_, ?_, rfl, ?_, ?_, ?_, ?_⟩
    · refine faces4 ?_ ?_ ?_ ?_ <;> simp only [wound] <;> linarith
    · have : ¬ reach * -1 > 0 := by linarith
      simp only [this, if_false]
      refine faces4 ?_ ?_ ?_ ?_ <;> simp only [wound] <;> linarith
    · have : ¬ reach * -1 > 0 := by linarith
      simp only [this, if_false, hi]
    · intro v hv
      simp only [List.mem_cons, List.not_mem_nil, or_false] at hv
      have a1 : |w * (1 / 10) * (1 / 2) * -1| = w / 20 := by rw [abs_of_neg (by linarith)]; ring
      have a2 : |w * (1 / 10) * (1 / 2) * -1 * (1 / 10)| = w / 200 := by rw [abs_of_neg (by linarith)]; ring
      have hs : LaneEnd.s ⟨l, false⟩ = l.length := rfl
      rcases hv with rfl | rfl | rfl | rfl <;> refine ⟨rfl, ?_⟩ <;> simp only [hs]
      · exact .inl ⟨trivial, a1⟩
      · exact .inl ⟨trivial, by rw [abs_neg, a1]⟩
      · exact .inr ⟨by rw [hi]; ring, by rw [neg_mul, abs_neg, a2]⟩
      · exact .inr ⟨by rw [hi]; ring, a2⟩
    · intro v hv
      simp only [List.mem_cons, List.not_mem_nil, or_false] at hv
      have hs : LaneEnd.s ⟨l, false⟩ = l.length := rfl
      rcases hv with rfl | rfl | rfl | rfl <;> refine ⟨rfl, ?_⟩ <;> simp only [hs]
      · exact .inl ⟨trivial, by rw [show elevation - 1 / 2 * height - elevation = -(height / 2) by ring, abs_neg, abs_of_nonneg (by linarith)]⟩
      · exact .inl ⟨trivial, by rw [show elevation + 1 / 2 * height - elevation = height / 2 by ring, abs_of_nonneg (by linarith)]⟩
      · exact .inr ⟨by rw [hi]; ring, by
          rw [show elevation + 1 / 2 * (1 / 10) * height - elevation = height / 20 by ring, abs_of_nonneg (by linarith)]⟩
      · exact .inr ⟨by rw [hi]; ring, by
          rw [show elevation - 1 / 2 * (1 / 10) * height - elevation = -(height / 20) by ring, abs_neg, abs_of_nonneg (by linarith)]⟩
    · intro v hv
      simp only [List.cons_append, List.nil_append, List.mem_cons, List.not_mem_nil, or_false] at hv
      simp only at hl hr'
      rcases hv with rfl | rfl | rfl | rfl | rfl | rfl | rfl | rfl <;> constructor <;> dsimp only <;> linarith
  · simp only [if_true] at hW
    have hi : into = 1 := rfl
    simp only [branchFaces, if_true, one_mul, ← hW]
    have er : min (2 / 5 * l.length) w = reach := by simp only [reach, hwd]
    rw [er]
    refine ⟨_, _, rfl, ?_, ?_, rfl, ?_, ?_, ?_, ?_⟩
    · refine faces4 ?_ ?_ ?_ ?_ <;> simp only [wound] <;> linarith
    · have : reach * 1 > 0 := by linarith
      simp only [this, if_true]
      refine faces4 ?_ ?_ ?_ ?_ <;> simp only [wound] <;> linarith
    · have : reach * 1 > 0 := by linarith
      simp only [this, if_true, hi]
    · intro v hv
      simp only [List.mem_cons, List.not_mem_nil, or_false] at hv
      have a1 : |w * (1 / 10) * (1 / 2) * 1| = w / 20 := by rw [abs_of_pos (by linarith)]; ring
      have a2 : |w * (1 / 10) * (1 / 2) * 1 * (1 / 10)| = w / 200 := by rw [abs_of_pos (by linarith)]; ring
      have hs : LaneEnd.s ⟨l, true⟩ = 0 := rfl
      rcases hv with rfl | rfl | rfl | rfl <;> refine ⟨rfl, ?_⟩ <;> simp only [hs]
      · exact .inl ⟨trivial, a1⟩
      · exact .inl ⟨trivial, by rw [abs_neg, a1]⟩
      · exact .inr ⟨by rw [hi]; ring, by rw [neg_mul, abs_neg, a2]⟩
      · exact .inr ⟨by rw [hi]; ring, a2⟩
    · intro v hv
      simp only [List.mem_cons, List.not_mem_nil, or_false] at hv
      have hs : LaneEnd.s ⟨l, true⟩ = 0 := rfl
      rcases hv with rfl | rfl | rfl | rfl <;> refine ⟨rfl, ?_⟩ <;> simp only [hs]
      · exact .inl ⟨trivial, by rw [show elevation - 1 / 2 * height - elevation = -(height / 2) by ring, abs_neg, abs_of_nonneg (by linarith)]⟩
      · exact .inl ⟨trivial, by rw [show elevation + 1 / 2 * height - elevation = height / 2 by ring, abs_of_nonneg (by linarith)]⟩
      · exact .inr ⟨by rw [hi]; ring, by
          rw [show elevation + 1 / 2 * (1 / 10) * height - elevation = height / 20 by ring, abs_of_nonneg (by linarith)]⟩
      · exact .inr ⟨by rw [hi]; ring, by
          rw [show elevation - 1 / 2 * (1 / 10) * height - elevation = -(height / 20) by ring, abs_neg, abs_of_nonneg (by linarith)]⟩
    · intro v hv
      simp only [List.cons_append, List.nil_append, List.mem_cons, List.not_mem_nil, or_false] at hv
      simp only at hl hr'
      rcases hv with rfl | rfl | rfl | rfl | rfl | rfl | rfl | rfl <;> constructor <;> dsimp only <;> linarith

/-- C88.  The diamond is at the end of the lane, upright, a tenth as wide as the lane and as high as asked for.  Its
normal points into the lane, but its corners are in clockwise order when seen from there. -/
theorem branch_diamond (elevation height : ℚ) (e : LaneEnd) (hl : 0 < e.lane.length) (hw : 0 < LaneEnd.width e) (hh : 0 < height) :
    ∃ f, branchFaces elevation height e true = [f] ∧ f.normal = ⟨if e.atStart then 1 else -1, 0, 0⟩ ∧
      (∀ v ∈ f.vertices, v.s = LaneEnd.s e ∧
        (v.r = 0 ∧ |v.h - elevation| = height / 2 ∨ |v.r| = LaneEnd.width e / 20 ∧ v.h = elevation)) ∧
      FacesAway f := by
  obtain ⟨l, b⟩ := e
  have hW : LaneEnd.width ⟨l, b⟩ = (l.laneBounds (if b = true then 0 else l.length)).max -
    (l.laneBounds (if b = true then 0 else l.length)).min := rfl
  generalize hwd : LaneEnd.width ⟨l, b⟩ = w at hw hW ⊢
  simp only at hl
  have hwh := mul_pos hw hh
  have h1 : |elevation - 1 / 2 * height - elevation| = height / 2 := by
    rw [show elevation - 1 / 2 * height - elevation = -(height / 2) by ring, abs_neg, abs_of_nonneg (by linarith)]
  have h2 : |elevation + 1 / 2 * height - elevation| = height / 2 := by
    rw [show elevation + 1 / 2 * height - elevation = height / 2 by ring, abs_of_nonneg (by linarith)]
  cases b
  · simp only [Bool.false_eq_true, if_false] at hW
    simp only [branchFaces, Bool.false_eq_true, if_false, if_true, one_mul, ← hW, hl.ne']
    refine ⟨_, rfl, rfl, ?_, ?_⟩
    · intro v hv
      simp only [List.mem_cons, List.not_mem_nil, or_false] at hv
      have a1 : |w * (1 / 10) * (1 / 2) * -1| = w / 20 := by rw [abs_of_neg (by linarith)]; ring
      rcases hv with rfl | rfl | rfl | rfl <;> refine ⟨rfl, ?_⟩ <;> dsimp only
      · exact .inl ⟨rfl, h1⟩
      · exact .inr ⟨by rw [abs_neg, a1], rfl⟩
      · exact .inl ⟨rfl, h2⟩
      · exact .inr ⟨a1, rfl⟩
    · refine facesAway4 ?_ ?_ ?_ ?_ <;> simp only [wound] <;> linarith
  · simp only [if_true] at hW
    simp only [branchFaces, if_true, one_mul, ← hW]
    refine ⟨_, rfl, rfl, ?_, ?_⟩
    · intro v hv
      simp only [List.mem_cons, List.not_mem_nil, or_false] at hv
      have a1 : |w * (1 / 10) * (1 / 2) * 1| = w / 20 := by rw [abs_of_pos (by linarith)]; ring
      rcases hv with rfl | rfl | rfl | rfl <;> refine ⟨rfl, ?_⟩ <;> dsimp only
      · exact .inl ⟨rfl, h1⟩
      · exact .inr ⟨by rw [abs_neg, a1], rfl⟩
      · exact .inl ⟨rfl, h2⟩
      · exact .inr ⟨a1, rfl⟩
    · refine facesAway4 ?_ ?_ ?_ ?_ <;> simp only [wound] <;> linarith

/-- C88.  A negative height makes drawing a branch point throw. -/
theorem branch_point_negative {bp : BranchPoint} {e : LaneEnd} (hfirst : (bp.aSide ++ bp.bSide).head? = some e)
    {base height : ℚ} (h2 : height < 0) (centers : List Pos) (m : GeoMesh) (n : ℕ) :
    renderBranchPoint (n + 1) bp base height m centers = .error (.err .throws) := by
  have hne : (bp.aSide.isEmpty && bp.bSide.isEmpty) = false := by
    rcases ha : bp.aSide with _ | ⟨a, as⟩
    · rcases hb : bp.bSide with _ | ⟨b, bs⟩
      · simp [ha, hb] at hfirst
      · simp
    · simp
  have hl := elevationLoop_ok e height centers 0 base (by simp)
    (fun p _ => .inr (h2.le.trans (abs_nonneg _))) (n + 1) (by omega)
  simp only [LaneEnd.width, LaneEnd.s, Nat.cast_zero, zero_mul, add_zero] at hl
  have : ¬ height ≥ 0 := not_le.2 h2
  simp only [renderBranchPoint, hne, Bool.false_eq_true, if_false, referenceEnd_ok hfirst, lift, hl, drawBranch, this,
    decide_false, Bool.and_false, throwUnless, bind, Except.bind]

/-- The second of two branch points at one place is raised until it is apart from the first one. -/
example : ∃ m, renderBranchPoint 3 bpStart (1 / 2) (1 / 2) .empty [![0, 0, 1 / 2]] = .ok (m, [![0, 0, 1 / 2], ![0, 0, 1]]) := by
  obtain ⟨k, m, -, h1, h2, h3, -⟩ := branch_point_rendered (bp := bpStart) rfl (bpLane_upright true) (base := 1 / 2)
    (height := 1 / 2) (by norm_num) (by norm_num) [![0, 0, 1 / 2]] .new
  have ap : ∀ h : ℚ, Apart ⟨bpLane, true⟩ (1 / 2) h ![0, 0, 1 / 2] ↔ 1 / 2 ≤ |1 / 2 - h| := by
    intro h
    simp [Apart, offset, LaneEnd.frame, LaneEnd.above, LaneEnd.width, LaneEnd.s, bpLane]
  have hk : k = 1 := by
    rcases Nat.lt_trichotomy k 1 with h | h | h
    · interval_cases k
      have := (ap _).1 (h1 _ (by simp))
      norm_num at this
    · exact h
    · obtain ⟨p, hp, hn⟩ := h2 1 h
      simp only [List.mem_singleton] at hp
      subst hp
      exact absurd ((ap _).2 (by norm_num)) hn
  subst hk
  refine ⟨m, ?_⟩
  rw [h3 3 (by simp)]
  congr 3
  simp only [LaneEnd.above, LaneEnd.s, bpLane, List.cons_append, List.nil_append]
  norm_num
  decide +kernel

end Maliput.Props
