import Mathlib.Combinatorics.Pigeonhole
import Mathlib.Tactic.Linarith
import Verif.Lemmas.RoadMeshCover
import Verif.Lemmas.Decimals

set_option autoImplicit false

/-! Lemmas about drawing branch points. -/
namespace Maliput.GenerateObj

open Maliput.GenerateObj.Spec
open Maliput.RoadMesh (Lane Pos RBounds Srh SrhFace pushFaces pushFaces_ok toVn)
open Maliput.RouteGraph (Stop lift)
open Maliput.Mesh.Spec (Built)

/-- A conflict is being too near. -/
theorem conflicts_iff (e : LaneEnd) (height h : ℚ) (p : Pos) :
    conflicts e (LaneEnd.width e) height h p = true ↔ ¬ Apart e height h p := by
  unfold conflicts Apart
  simp only [Bool.and_eq_true, decide_eq_true_eq, not_or, not_le]
  have : ∀ i, delta e h p i = offset e h p i := fun i => rfl
  rw [this, this, this, ← sq, ← sq, ← sq]

/-- Offsets from positions above the end of a lane. -/
theorem offset_upright {e : LaneEnd} (he : Upright e) (h : ℚ) (p : Pos) :
    offset e h p 0 = offset e 0 p 0 ∧ offset e h p 1 = offset e 0 p 1 ∧ offset e h p 2 = offset e 0 p 2 - h := by
  have key : ∀ i, offset e h p i = offset e 0 p i - h * (if i = 2 then 1 else 0) := by
    intro i
    unfold offset
    rw [he.frame h, he.above h 0, he.above h 1, he.above h 2, ← he.orthonormal i 2]
    ring
  refine ⟨?_, ?_, ?_⟩
  · simpa using key 0
  · simpa using key 1
  · simpa using key 2

/-- One of so many elevations is free. -/
theorem exists_free {e : LaneEnd} (he : Upright e) (height base : ℚ) (centers : List Pos) :
    ∃ k ≤ 2 * centers.length, ∀ p ∈ centers, Apart e height (base + k * height) p := by
  by_contra hcon
  simp only [not_exists, not_and, not_forall, exists_prop] at hcon
  choose! f hf using hcon
  have hcard : centers.toFinset.card * 2 < (Finset.range (2 * centers.length + 1)).card := by
    rw [Finset.card_range]
    have := centers.toFinset_card_le
    omega
  obtain ⟨p, -, hp⟩ := Finset.exists_lt_card_fiber_of_mul_lt_card_of_maps_to
    (fun k hk => List.mem_toFinset.2 (hf k (by simpa [Nat.lt_succ_iff] using hk)).1) hcard
  obtain ⟨i, j, hi, hj, hij⟩ : ∃ i j, i ∈ (Finset.range (2 * centers.length + 1)).filter (fun k => f k = p) ∧
      j ∈ (Finset.range (2 * centers.length + 1)).filter (fun k => f k = p) ∧ i + 2 ≤ j := by
    generalize (Finset.range (2 * centers.length + 1)).filter (fun k => f k = p) = S at hp
    have hne : S.Nonempty := Finset.card_pos.1 (by omega)
    refine ⟨S.min' hne, S.max' hne, S.min'_mem hne, S.max'_mem hne, ?_⟩
    by_contra hlt
    have hsub : S ⊆ {S.min' hne, S.min' hne + 1} := by
      intro x hx
      have h1 := S.min'_le x hx
      have h2 := S.le_max' x hx
      simp only [Finset.mem_insert, Finset.mem_singleton]
      omega
    have := Finset.card_le_card hsub
    have h2 : ({S.min' hne, S.min' hne + 1} : Finset ℕ).card ≤ 2 := Finset.card_le_two
    omega
  simp only [Finset.mem_filter, Finset.mem_range, Nat.lt_succ_iff] at hi hj
  have ci := (hf i hi.1).2
  have cj := (hf j hj.1).2
  rw [hi.2] at ci
  rw [hj.2] at cj
  simp only [Apart, not_or, not_le] at ci cj
  rw [(offset_upright he _ p).2.2, abs_lt] at ci cj
  have hh : 0 < height := by linarith
  have : (i : ℚ) + 2 ≤ j := by exact_mod_cast hij
  have h1 := mul_le_mul_of_nonneg_right this hh.le
  linarith [ci.2.1, cj.2.2, ci.2.2, cj.2.1]

/-- The loop finds the first elevation that is free. -/
theorem elevationLoop_ok (e : LaneEnd) (height : ℚ) (centers : List Pos) : ∀ (k : ℕ) (base : ℚ),
    (∀ j < k, ∃ p ∈ centers, ¬ Apart e height (base + j * height) p) →
    (∀ p ∈ centers, Apart e height (base + k * height) p) →
    ∀ n ≥ k + 1, elevationLoop e (LaneEnd.width e) height centers n base = .ok (base + k * height) := by
  intro k
  induction k with
  | zero =>
    intro base _ h n hn
    obtain ⟨n, rfl⟩ : ∃ m, n = m + 1 := ⟨n - 1, by omega⟩
    simp only [Nat.cast_zero, zero_mul, add_zero] at h ⊢
    have : centers.any (conflicts e (LaneEnd.width e) height base) = false := by
      rw [List.any_eq_false]
      intro p hp hc
      exact (conflicts_iff e height base p).1 hc (h p hp)
    simp [elevationLoop, this]
  | succ k ih =>
    intro base h1 h2 n hn
    obtain ⟨n, rfl⟩ : ∃ m, n = m + 1 := ⟨n - 1, by omega⟩
    obtain ⟨p, hp, hc⟩ := h1 0 (by omega)
    simp only [Nat.cast_zero, zero_mul, add_zero] at hc
    have : centers.any (conflicts e (LaneEnd.width e) height base) = true :=
      List.any_eq_true.2 ⟨p, hp, (conflicts_iff e height base p).2 hc⟩
    simp only [elevationLoop, this, if_true]
    have hs : ∀ j : ℕ, base + height + j * height = base + (j + 1 : ℕ) * height := by intro j; push_cast; ring
    rw [ih (base + height) (fun j hj => by rw [hs]; exact h1 (j + 1) (by omega)) (fun p hp => by rw [hs]; exact h2 p hp) n
      (by omega), hs]

/-- Drawing one branch. -/
theorem drawBranch_ok {elevation height : ℚ} (h1 : 0 ≤ elevation) (h2 : 0 ≤ height) (e : LaneEnd) (d : Bool)
    {m : GeoMesh} {fs : List (List (Pos × Pos))} (hm : Built m fs) :
    ∃ m', drawBranch elevation height e d m = .ok m' ∧ Built m' (fs ++ placed e.lane (branchFaces elevation height e d)) := by
  obtain ⟨m', a, b⟩ := pushFaces_ok e.lane (branchFaces elevation height e d) hm
  refine ⟨m', ?_, b⟩
  simp [drawBranch, throwUnless, h1, h2, a, bind, Except.bind]

/-- Drawing all branches of a set. -/
theorem drawArrows_ok {elevation height : ℚ} (h1 : 0 ≤ elevation) (h2 : 0 ≤ height) : ∀ (es : List LaneEnd)
    {m : GeoMesh} {fs : List (List (Pos × Pos))}, Built m fs →
    ∃ m', drawArrows elevation height es m = .ok m' ∧
      Built m' (fs ++ es.flatMap fun e => placed e.lane (branchFaces elevation height e false)) := by
  intro es
  induction es with
  | nil => intro m fs hm; exact ⟨m, rfl, by simpa using hm⟩
  | cons e es ih =>
    intro m fs hm
    obtain ⟨m1, a, b⟩ := drawBranch_ok h1 h2 e false hm
    obtain ⟨m2, c, d⟩ := ih b
    refine ⟨m2, ?_, by simpa [List.append_assoc] using d⟩
    unfold drawArrows at c ⊢
    rw [List.foldlM_cons, a]
    exact c

/-- The reference end is the first end. -/
theorem referenceEnd_ok {bp : BranchPoint} {e : LaneEnd} (h : (bp.aSide ++ bp.bSide).head? = some e) :
    referenceEnd bp = .ok e := by
  unfold referenceEnd
  rcases ha : bp.aSide with _ | ⟨a, as⟩
  · rcases hb : bp.bSide with _ | ⟨b, bs⟩
    · simp [ha, hb] at h
    · simp [ha, hb] at h; simp [h]
  · simp [ha] at h; simp [h]

/-- Drawing a branch point. -/
theorem renderBranchPoint_ok {bp : BranchPoint} {e : LaneEnd} (hfirst : (bp.aSide ++ bp.bSide).head? = some e)
    (he : Upright e) {base height : ℚ} (h1 : 0 ≤ base) (h2 : 0 ≤ height) (centers : List Pos) {m : GeoMesh}
    {fs : List (List (Pos × Pos))} (hm : Built m fs) :
    ∃ (k : ℕ) (m' : GeoMesh), k ≤ 2 * centers.length ∧
      (∀ p ∈ centers, Apart e height (base + k * height) p) ∧
      (∀ j < k, ∃ p ∈ centers, ¬ Apart e height (base + j * height) p) ∧
      (∀ n ≥ 2 * centers.length + 1, renderBranchPoint n bp base height m centers =
        .ok (m', centers ++ [LaneEnd.above e (base + k * height)])) ∧
      Built m' (fs ++ placed e.lane (branchFaces (base + k * height) height e true) ++
        (bp.aSide ++ bp.bSide).flatMap fun e => placed e.lane (branchFaces (base + k * height) height e false)) := by
  classical
  obtain ⟨k0, hk0, hfree⟩ := exists_free he height base centers
  have hex : ∃ k : ℕ, ∀ p ∈ centers, Apart e height (base + k * height) p := ⟨k0, hfree⟩
  have hk := Nat.find_spec hex
  have hmin : ∀ j < Nat.find hex, ∃ p ∈ centers, ¬ Apart e height (base + j * height) p := by
    intro j hj
    have := Nat.find_min hex hj
    push Not at this
    exact this
  have hle : Nat.find hex ≤ 2 * centers.length := (Nat.find_min' hex hfree).trans hk0
  generalize Nat.find hex = k at hk hmin hle
  have hpos : 0 ≤ base + k * height := by positivity
  obtain ⟨m1, a1, b1⟩ := drawBranch_ok hpos h2 e true hm
  obtain ⟨m2, a2, b2⟩ := drawArrows_ok hpos h2 bp.aSide b1
  obtain ⟨m3, a3, b3⟩ := drawArrows_ok hpos h2 bp.bSide b2
  refine ⟨k, m3, hle, hk, hmin, fun n hn => ?_, ?_⟩
  · have hne : (bp.aSide.isEmpty && bp.bSide.isEmpty) = false := by
      rcases ha : bp.aSide with _ | ⟨a, as⟩
      · rcases hb : bp.bSide with _ | ⟨b, bs⟩
        · simp [ha, hb] at hfirst
        · simp
      · simp
    have hl := elevationLoop_ok e height centers k base hmin hk n (by omega)
    simp only [LaneEnd.width, LaneEnd.s] at hl
    simp only [renderBranchPoint, hne, Bool.false_eq_true, if_false, referenceEnd_ok hfirst, lift, hl, a1, a2, a3, bind,
      Except.bind, pure, Except.pure]
    rfl
  · simpa [List.flatMap_append, List.append_assoc] using b3

/-- Four corners. -/
theorem faces4 {a b c d n : Srh} (h1 : 0 ≤ wound n a b c) (h2 : 0 ≤ wound n b c d) (h3 : 0 ≤ wound n c d a)
    (h4 : 0 ≤ wound n d a b) : Faces ⟨[a, b, c, d], n⟩ := by
  intro i hi x y z
  simp only [List.length_cons, List.length_nil] at hi ⊢
  interval_cases i <;> simp <;> rintro rfl rfl rfl <;> assumption

/-- Four corners. -/
theorem facesAway4 {a b c d n : Srh} (h1 : wound n a b c < 0) (h2 : wound n b c d < 0) (h3 : wound n c d a < 0)
    (h4 : wound n d a b < 0) : FacesAway ⟨[a, b, c, d], n⟩ := by
  intro i hi x y z
  simp only [List.length_cons, List.length_nil] at hi ⊢
  interval_cases i <;> simp <;> rintro rfl rfl rfl <;> assumption

end Maliput.GenerateObj
