import Verif.Lemmas.Mesh
import Verif.Lemmas.RoadMeshArrows

set_option autoImplicit false

/-! Lemmas about what whole lanes are covered with. -/
namespace Maliput.RoadMesh

open Maliput.RoadMesh.Spec
open Maliput.RouteGraph (Stop)

/-- Each number from the first to the last station is in a strip. -/
theorem strips_cover {L : ℚ} : ∀ (l : List ℚ) (s0 s : ℚ), (s0 :: l).getLast? = some L → (s0 :: l).Pairwise (· < ·) →
    s0 ≤ s → s ≤ L → s0 < L → ∃ p ∈ strips (s0 :: l), p.1 ≤ s ∧ s ≤ p.2 := by
  intro l
  induction l with
  | nil =>
    intro s0 s h1 _ _ _ h5
    simp only [List.getLast?_singleton, Option.some.injEq] at h1
    exact absurd h5 (by rw [h1]; exact lt_irrefl _)
  | cons s1 l ih =>
    intro s0 s h1 h2 h3 h4 h5
    rcases le_total s s1 with h | h
    · exact ⟨(s0, s1), by simp [strips], h3, h⟩
    · rw [List.getLast?_cons_cons] at h1
      rcases eq_or_lt_of_le h with rfl | h
      · exact ⟨(s0, s1), by simp [strips], h3, le_rfl⟩
      · obtain ⟨p, hp, a, b⟩ := ih s1 s h1 (List.pairwise_cons.1 h2).2 h.le h4 (h.trans_le h4)
        exact ⟨p, by simp only [strips, List.tail_cons, List.zip_cons_cons, List.mem_cons] at hp ⊢; exact .inr hp, a, b⟩

/-- Strips are within the stations. -/
theorem strips_within {L : ℚ} : ∀ (l : List ℚ) (s0 : ℚ), (s0 :: l).getLast? = some L → (s0 :: l).Pairwise (· < ·) →
    ∀ p ∈ strips (s0 :: l), s0 ≤ p.1 ∧ p.1 < p.2 ∧ p.2 ≤ L := by
  intro l
  induction l with
  | nil => intro s0 _ _ p hp; simp [strips] at hp
  | cons s1 l ih =>
    intro s0 h1 h2 p hp
    rw [List.getLast?_cons_cons] at h1
    have hlast : s1 ≤ L := by
      have hm := List.mem_of_getLast? h1
      rcases List.mem_cons.1 hm with rfl | hm
      · exact le_rfl
      · exact ((List.pairwise_cons.1 (List.pairwise_cons.1 h2).2).1 L hm).le
    have h01 : s0 < s1 := (List.pairwise_cons.1 h2).1 s1 (by simp)
    simp only [strips, List.tail_cons, List.zip_cons_cons, List.mem_cons] at hp
    rcases hp with rfl | hp
    · exact ⟨le_rfl, h01, hlast⟩
    · obtain ⟨a, b, c⟩ := ih s1 h1 (List.pairwise_cons.1 h2).2 p hp
      exact ⟨h01.le.trans a, b, c⟩

/-- What the faces of all strips cover. -/
theorem covered_flatten {ps : List (ℚ × ℚ)} {fss : List (List SrhFace)} {R : ℚ × ℚ → Set (ℚ × ℚ)}
    (h : List.Forall₂ (fun p fs => covered fs = R p) ps fss) :
    covered fss.flatten = {q | ∃ p ∈ ps, q ∈ R p} := by
  induction h with
  | nil => ext q; simp [covered]
  | @cons p fs ps fss h1 _ ih =>
    rw [List.flatten_cons, covered_append, ih, h1]
    ext q
    simp

/-- Strips of constant width make a rectangle. -/
theorem rectangle {L : ℚ} (hL : 0 < L) {l : List ℚ} (hl : Stations L l) (lo hi : ℚ) :
    {q : ℚ × ℚ | ∃ p ∈ strips l, q ∈ Strip p.1 p.2 lo lo hi hi} =
      {q | 0 ≤ q.1 ∧ q.1 ≤ L ∧ lo ≤ q.2 ∧ q.2 ≤ hi} := by
  obtain ⟨h1, h2, h3⟩ := hl
  match l, h1, h2, h3 with
  | s0 :: l, h1, h2, h3 =>
    simp only [List.head?_cons, Option.some.injEq] at h1
    subst h1
    ext ⟨x, y⟩
    constructor
    · rintro ⟨p, hp, t, t0, t1, e1, e2, e3⟩
      obtain ⟨a, b, c⟩ := strips_within l 0 h2 h3 p hp
      simp only at e1 e2 e3
      refine ⟨?_, ?_, by simp only; linarith, by simp only; linarith⟩ <;> simp only
      · rw [e1]; nlinarith
      · rw [e1]; nlinarith
    · rintro ⟨a, b, c, d⟩
      simp only at a b c d
      obtain ⟨p, hp, p0, p1⟩ := strips_cover l 0 x h2 h3 a b hL
      obtain ⟨-, q, -⟩ := strips_within l 0 h2 h3 p hp
      have hd : 0 < p.2 - p.1 := sub_pos.2 q
      refine ⟨p, hp, (x - p.1) / (p.2 - p.1), div_nonneg (by linarith) hd.le, (div_le_one hd).2 (by linarith), ?_, ?_, ?_⟩
      · simp only; field_simp; ring
      · simp only; linarith
      · simp only; linarith

/-- The faces of a side reach to the edge if the numbers of faces at both ends are the same. -/
theorem reach_full {g m0 m1 : ℚ} (hg : 0 < g) (h : ⌈m0 / g⌉ = ⌈m1 / g⌉) : reach g m0 m1 = (m0, m1) := by
  have key : ∀ m k : ℚ, m / g ≤ k → m ≤ g * k := by
    intro m k h
    rw [div_le_iff₀ hg] at h
    linarith
  have hc : ⌈min m0 m1 / g⌉ = ⌈m0 / g⌉ ∧ ⌈min m0 m1 / g⌉ = ⌈m1 / g⌉ := by
    rcases le_total m0 m1 with h' | h'
    · rw [min_eq_left h']; exact ⟨rfl, h⟩
    · rw [min_eq_right h']; exact ⟨h.symm, rfl⟩
  unfold reach
  have e0 : m0 ≤ g * ((⌈min m0 m1 / g⌉ : ℤ) : ℚ) := by rw [hc.1]; exact key _ _ (Int.le_ceil _)
  have e1 : m1 ≤ g * ((⌈min m0 m1 / g⌉ : ℤ) : ℚ) := by rw [hc.2]; exact key _ _ (Int.le_ceil _)
  rw [min_eq_left e0, min_eq_left e1]

/-- The sides of a strip cover it if the numbers of faces at both ends are the same. -/
theorem sides_full {g s0 s1 : ℚ} {b0 b1 : RBounds} (hg : 0 < g) (hl : ⌈b0.max / g⌉ = ⌈b1.max / g⌉)
    (hr : ⌈-b0.min / g⌉ = ⌈-b1.min / g⌉) (hw : b0.min < b0.max) :
    LeftSide g s0 s1 b0 b1 ∪ RightSide g s0 s1 b0 b1 = Between s0 s1 b0 b1 := by
  have zero : ∀ x y : ℚ, 0 ≤ x → 0 ≤ y → ⌈x / g⌉ = ⌈y / g⌉ → (0 < x ↔ 0 < y) := by
    intro x y hx hy h
    have : ∀ x : ℚ, 0 < x ↔ 1 ≤ ⌈x / g⌉ := by
      intro x
      rw [Int.one_le_ceil_iff]
      exact ⟨fun h => div_pos h hg, fun h => by rw [div_pos_iff_of_pos_right hg] at h; exact h⟩
    rw [this, this, h]
  have zl := zero _ _ b0.le_max b1.le_max hl
  have zr := zero _ _ (neg_nonneg.2 b0.min_le) (neg_nonneg.2 b1.min_le) hr
  have hL : 0 < b0.max → LeftSide g s0 s1 b0 b1 = Strip s0 s1 0 0 b0.max b1.max := by
    intro h
    ext p
    simp only [LeftSide, reach_full hg hl, Set.mem_ofPred_eq]
    exact ⟨fun hp => hp.2, fun hp => ⟨lt_min h (zl.1 h), hp⟩⟩
  have hR : b0.min < 0 → RightSide g s0 s1 b0 b1 = Strip s0 s1 b0.min b1.min 0 0 := by
    intro h
    ext p
    simp only [RightSide, reach_full hg hr, Set.mem_ofPred_eq, neg_neg]
    refine ⟨fun hp => hp.2, fun hp => ⟨max_lt h ?_, hp⟩⟩
    exact neg_pos.1 (zr.1 (neg_pos.2 h))
  have hL0 : ¬ 0 < b0.max → LeftSide g s0 s1 b0 b1 = ∅ ∧ b0.max = 0 ∧ b1.max = 0 := by
    intro h
    refine ⟨?_, le_antisymm (not_lt.1 h) b0.le_max, le_antisymm (not_lt.1 (mt zl.2 h)) b1.le_max⟩
    ext p
    simp only [LeftSide, Set.mem_ofPred_eq, Set.mem_empty_iff_false, iff_false]
    exact fun hp => h (lt_min_iff.1 hp.1).1
  have hR0 : ¬ b0.min < 0 → RightSide g s0 s1 b0 b1 = ∅ ∧ b0.min = 0 ∧ b1.min = 0 := by
    intro h
    refine ⟨?_, le_antisymm b0.min_le (not_lt.1 h), le_antisymm b1.min_le ?_⟩
    · ext p
      simp only [RightSide, Set.mem_ofPred_eq, Set.mem_empty_iff_false, iff_false]
      exact fun hp => h (max_lt_iff.1 hp.1).1
    · have := mt zr.2 (by simpa using h)
      simpa using this
  unfold Between
  by_cases h1 : 0 < b0.max
  · rw [hL h1]
    by_cases h2 : b0.min < 0
    · rw [hR h2, Set.union_comm]
      exact strip_union b0.min_le b1.min_le b0.le_max b1.le_max
    · obtain ⟨e, e0, e1⟩ := hR0 h2
      rw [e, e0, e1, Set.union_empty]
  · obtain ⟨e, e0, e1⟩ := hL0 h1
    rw [e, Set.empty_union, hR (by rw [e0] at hw; exact hw), e0, e1]

/-- The sides of a strip are within it. -/
theorem sides_within (g s0 s1 : ℚ) (b0 b1 : RBounds) :
    LeftSide g s0 s1 b0 b1 ∪ RightSide g s0 s1 b0 b1 ⊆ Between s0 s1 b0 b1 := by
  rintro ⟨x, y⟩ (⟨-, t, t0, t1, e, h1, h2⟩ | ⟨-, t, t0, t1, e, h1, h2⟩) <;> simp only [reach, mul_zero, add_zero] at e h1 h2
  · refine ⟨t, t0, t1, e, ?_, ?_⟩ <;> simp only
    · have := mul_nonpos_of_nonneg_of_nonpos (sub_nonneg.2 t1) b0.min_le
      have := mul_nonpos_of_nonneg_of_nonpos t0 b1.min_le
      linarith
    · have a := mul_le_mul_of_nonneg_left (min_le_left b0.max (g * ⌈min b0.max b1.max / g⌉)) (sub_nonneg.2 t1)
      have b := mul_le_mul_of_nonneg_left (min_le_left b1.max (g * ⌈min b0.max b1.max / g⌉)) t0
      linarith
  · refine ⟨t, t0, t1, e, ?_, ?_⟩ <;> simp only
    · have a := mul_le_mul_of_nonneg_left (min_le_left (-b0.min) (g * ⌈min (-b0.min) (-b1.min) / g⌉)) (sub_nonneg.2 t1)
      have b := mul_le_mul_of_nonneg_left (min_le_left (-b1.min) (g * ⌈min (-b0.min) (-b1.min) / g⌉)) t0
      linarith
    · have := mul_nonneg (sub_nonneg.2 t1) b0.le_max
      have := mul_nonneg t0 b1.le_max
      linarith

/-- What faces whose corners are not to the left of a line cover. -/
theorem covered_le {fs : List SrhFace} {c : ℚ} (h : ∀ f ∈ fs, ∀ v ∈ f.vertices, v.r ≤ c) :
    ∀ p ∈ covered fs, p.2 ≤ c := by
  rintro p ⟨f, hf, hp⟩
  have hc : Convex ℚ {q : ℚ × ℚ | q.2 ≤ c} := by
    rw [convex_iff_forall_pos]
    intro x hx y hy a b ha hb hab
    simp only [Set.mem_ofPred_eq, Prod.snd_add, Prod.smul_snd, smul_eq_mul] at hx hy ⊢
    calc a * x.2 + b * y.2 ≤ a * c + b * c := by gcongr
      _ = c := by rw [← add_mul, hab, one_mul]
  exact convexHull_min (by rintro q ⟨v, hv, rfl⟩; exact h f hf v hv) hc hp

/-! ### Pushing faces -/

open Maliput.Mesh.Spec (Built)

/-- The face with inertial positions and normals. -/
theorem toGeoFace_eq (f : SrhFace) (l : Lane) :
    f.toGeoFace l = ⟨f.vertices.map fun v => (toVn l f.normal v).1, f.vertices.map fun v => (toVn l f.normal v).2⟩ := by
  have : ∀ (vs : List Srh) (g : Mesh.GeoFace Pos Pos),
      vs.foldl (fun g v => g.pushVn (toVn l f.normal v).1 (toVn l f.normal v).2) g =
      ⟨g.vertices ++ vs.map fun v => (toVn l f.normal v).1, g.normals ++ vs.map fun v => (toVn l f.normal v).2⟩ := by
    intro vs
    induction vs with
    | nil => intro g; simp
    | cons v vs ih => intro g; rw [List.foldl_cons, ih]; simp [Mesh.GeoFace.pushVn]
  unfold SrhFace.toGeoFace
  rw [this]
  simp

/-- Pushing faces into a mesh. -/
theorem pushFaces_ok (l : Lane) : ∀ (fs : List SrhFace) {m : Mesh.GeoMesh Pos Pos} {gs : List (List (Pos × Pos))},
    Built m gs → ∃ m', pushFaces l m fs = .ok m' ∧ Built m' (gs ++ fs.map fun f => f.vertices.map (toVn l f.normal)) := by
  intro fs
  induction fs with
  | nil => intro m gs h; exact ⟨m, rfl, by simpa using h⟩
  | cons f fs ih =>
    intro m gs h
    have hlen : (f.toGeoFace l).vertices.length = (f.toGeoFace l).normals.length := by simp [toGeoFace_eq]
    have hp : m.pushFace (f.toGeoFace l) = .ok (m.addFace ((f.toGeoFace l).vertices.zip (f.toGeoFace l).normals)) := by
      simp [Mesh.GeoMesh.pushFace, Mesh.pairs_ok hlen]
    have h1 := Built.push (f.toGeoFace l) h hlen hp
    obtain ⟨m', a, b⟩ := ih h1
    refine ⟨m', ?_, ?_⟩
    · unfold pushFaces at a ⊢
      rw [List.foldlM_cons, hp]
      exact a
    · have hz : (f.toGeoFace l).vertices.zip (f.toGeoFace l).normals = f.vertices.map (toVn l f.normal) := by
        rw [toGeoFace_eq, List.zip_map']
      rw [hz] at b
      simpa [List.append_assoc] using b

end Maliput.RoadMesh
