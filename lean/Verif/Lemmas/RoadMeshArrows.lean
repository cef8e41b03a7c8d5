import Verif.Lemmas.RoadMeshLoops

set_option autoImplicit false

/-! Lemmas about the arrows and stripes of a lane. -/
namespace Maliput.RoadMesh

open Maliput.RoadMesh.Spec
open Maliput.RouteGraph (Stop)

/-- Four corners in counterclockwise order. -/
theorem ccw4 {a b c d n : Srh} (h1 : 0 ≤ turn a b c) (h2 : 0 ≤ turn b c d) (h3 : 0 ≤ turn c d a)
    (h4 : 0 ≤ turn d a b) : Counterclockwise ⟨[a, b, c, d], n⟩ := by
  intro i hi x y z
  simp only [List.length_cons, List.length_nil] at hi ⊢
  interval_cases i <;> simp <;> rintro rfl rfl rfl <;> assumption

/-- The left half of a row of an arrow. -/
theorem arrowLeft_ok {s0 s1 h unit : ℚ} (hs : s0 ≤ s1) (hu : 0 ≤ unit) : ∀ (n : ℕ) (r : ℚ),
    covered (arrowLeft s0 s1 h unit n r r) = Strip s0 s1 r r (r + (n + 1) * unit) (r + n * unit) ∧
    ∀ f ∈ arrowLeft s0 s1 h unit n r r, Flat h f := by
  have hm : 0 ≤ (s1 - s0) * unit := mul_nonneg (sub_nonneg.2 hs) hu
  intro n
  induction n with
  | zero =>
    intro r
    constructor
    · rw [arrowLeft, covered_cons, covered_nil, Set.union_empty, Nat.cast_zero]
      simp only [zero_add, one_mul, zero_mul, add_zero]
      exact area_strip (by linarith) le_rfl _ (by intro p; simp; tauto)
    · intro f hf
      simp only [arrowLeft, List.mem_cons, List.not_mem_nil, or_false] at hf
      subst hf
      refine ⟨ccw3 ?_ ?_ ?_, rfl, by simp⟩ <;> simp only [turn] <;> linarith
  | succ n ih =>
    intro r
    obtain ⟨i1, i2⟩ := ih (r + unit)
    have hn : (0 : ℚ) ≤ n * unit := mul_nonneg (Nat.cast_nonneg n) hu
    constructor
    · rw [arrowLeft, covered_cons, i1, area_strip (s0 := s0) (s1 := s1) (lo0 := r) (lo1 := r) (hi0 := r + unit)
        (hi1 := r + unit) (by linarith) (by linarith) _ (by intro p; simp; tauto)]
      have e0 : r + unit + ((n : ℚ) + 1) * unit = r + (((n + 1 : ℕ) : ℚ) + 1) * unit := by push_cast; ring
      have e1 : r + unit + (n : ℚ) * unit = r + ((n + 1 : ℕ) : ℚ) * unit := by push_cast; ring
      rw [e0, e1]
      refine strip_union (by linarith) (by linarith) ?_ ?_ <;> push_cast <;> linarith
    · intro f hf
      rcases List.mem_cons.1 hf with rfl | hf
      · refine ⟨ccw4 ?_ ?_ ?_ ?_, rfl, by simp⟩ <;> simp only [turn] <;> linarith
      · exact i2 f hf

/-- The right half of a row of an arrow. -/
theorem arrowRight_ok {s0 s1 h unit : ℚ} (hs : s0 ≤ s1) (hu : 0 ≤ unit) : ∀ (n : ℕ) (r : ℚ),
    covered (arrowRight s0 s1 h unit n r r) = Strip s0 s1 (r - (n + 1) * unit) (r - n * unit) r r ∧
    ∀ f ∈ arrowRight s0 s1 h unit n r r, Flat h f := by
  have hm : 0 ≤ (s1 - s0) * unit := mul_nonneg (sub_nonneg.2 hs) hu
  intro n
  induction n with
  | zero =>
    intro r
    constructor
    · rw [arrowRight, covered_cons, covered_nil, Set.union_empty, Nat.cast_zero]
      simp only [zero_add, one_mul, zero_mul, sub_zero]
      exact area_strip (by linarith) le_rfl _ (by intro p; simp; tauto)
    · intro f hf
      simp only [arrowRight, List.mem_cons, List.not_mem_nil, or_false] at hf
      subst hf
      refine ⟨ccw3 ?_ ?_ ?_, rfl, by simp⟩ <;> simp only [turn] <;> linarith
  | succ n ih =>
    intro r
    obtain ⟨i1, i2⟩ := ih (r - unit)
    have hn : (0 : ℚ) ≤ n * unit := mul_nonneg (Nat.cast_nonneg n) hu
    constructor
    · rw [arrowRight, covered_cons, i1, area_strip (s0 := s0) (s1 := s1) (lo0 := r - unit) (lo1 := r - unit) (hi0 := r)
        (hi1 := r) (by linarith) (by linarith) _ (by intro p; simp; tauto)]
      have e0 : r - unit - ((n : ℚ) + 1) * unit = r - (((n + 1 : ℕ) : ℚ) + 1) * unit := by push_cast; ring
      have e1 : r - unit - (n : ℚ) * unit = r - ((n + 1 : ℕ) : ℚ) * unit := by push_cast; ring
      rw [e0, e1, Set.union_comm]
      refine strip_union ?_ ?_ (by linarith) (by linarith) <;> push_cast <;> linarith
    · intro f hf
      rcases List.mem_cons.1 hf with rfl | hf
      · refine ⟨ccw4 ?_ ?_ ?_ ?_, rfl, by simp⟩ <;> simp only [turn] <;> linarith
      · exact i2 f hf

/-- Rows of an arrow. -/
theorem arrowRows_ok {offset h su rl rr : ℚ} (hsu : 0 ≤ su) (hl : 0 ≤ rl) (hr : 0 ≤ rr) : ∀ (rows si : ℕ),
    (∀ p, p ∈ covered (arrowRows offset h su rl rr rows si) ↔ 0 < rows ∧ ∃ x : ℚ, si ≤ x ∧ x ≤ si + rows ∧
      p.1 = offset + x * su ∧ -((si + rows - x) * rr) ≤ p.2 ∧ p.2 ≤ (si + rows - x) * rl) ∧
    ∀ f ∈ arrowRows offset h su rl rr rows si, Flat h f := by
  intro rows
  induction rows with
  | zero => intro si; simp [arrowRows, covered_nil]
  | succ n ih =>
    intro si
    obtain ⟨i1, i2⟩ := ih (si + 1)
    have hs : offset + (si : ℚ) * su ≤ offset + ((si : ℚ) + 1) * su := by linarith
    obtain ⟨l1, l2⟩ := arrowLeft_ok (h := h) hs hl n 0
    obtain ⟨r1, r2⟩ := arrowRight_ok (h := h) hs hr n 0
    simp only [zero_add, zero_sub] at l1 r1
    have nl : (0 : ℚ) ≤ n * rl := mul_nonneg (Nat.cast_nonneg n) hl
    have nr : (0 : ℚ) ≤ n * rr := mul_nonneg (Nat.cast_nonneg n) hr
    constructor
    · intro p
      rw [arrowRows, covered_append, covered_append, l1, r1, Set.union_comm (Strip _ _ _ _ _ _),
        strip_union (by linarith) (by linarith) (by linarith) (by linarith), Set.mem_union, i1]
      constructor
      · rintro (⟨t, t0, t1, hp, hlo, hhi⟩ | ⟨hn, x, x0, x1, hp, hlo, hhi⟩)
        · refine ⟨by omega, si + t, by linarith, by push_cast; linarith [(Nat.cast_nonneg n : (0 : ℚ) ≤ n)], ?_, ?_, ?_⟩
          · rw [hp]; ring
          · push_cast; linarith
          · push_cast; linarith
        · refine ⟨by omega, x, by push_cast at x0; linarith, by push_cast at x1 ⊢; linarith, hp, ?_, ?_⟩
          · push_cast at hlo ⊢; linarith
          · push_cast at hhi ⊢; linarith
      · rintro ⟨-, x, x0, x1, hp, hlo, hhi⟩
        push_cast at x1 hlo hhi
        rcases le_or_gt x (si + 1) with h | h
        · refine .inl ⟨x - si, by linarith, by linarith, ?_, ?_, ?_⟩
          · rw [hp]; ring
          · linarith
          · linarith
        · have hn : 0 < n := by
            rcases Nat.eq_zero_or_pos n with rfl | hn
            · push_cast at x1; linarith
            · exact hn
          refine .inr ⟨hn, x, by push_cast; linarith, by push_cast; linarith, hp, ?_, ?_⟩
          · push_cast; linarith
          · push_cast; linarith
    · intro f hf
      rw [arrowRows, List.mem_append, List.mem_append] at hf
      rcases hf with (hf | hf) | hf
      · exact l2 f hf
      · exact r2 f hf
      · exact i2 f hf

/-- An arrow. -/
theorem drawArrow_ok (l : Lane) {g offset size : ℚ} (h : ℚ) (hg : 0 < g) (h0 : 0 ≤ offset) (hsize : 0 < size)
    (h1 : offset + size ≤ l.length) :
    ∃ fs, drawArrow l g offset size h = .ok fs ∧ (∀ f ∈ fs, Flat h f) ∧
      covered fs = Triangle offset size ((l.laneBounds offset).max * (4 / 5)) (-(l.laneBounds offset).min * (4 / 5)) := by
  unfold drawArrow
  rw [if_neg (by rintro (h | h) <;> linarith)]
  simp only
  generalize hU : max ⌈size / g⌉ (max ⌈(l.laneBounds offset).max * (4 / 5) / g⌉
    ⌈-(l.laneBounds offset).min * (4 / 5) / g⌉) = U
  have hU1 : 1 ≤ U := by
    rw [← hU]
    refine le_trans ?_ (le_max_left _ _)
    exact Int.one_le_ceil_iff.2 (div_pos hsize hg)
  have hUq : (0 : ℚ) < U := by exact_mod_cast hU1
  rw [if_neg (by omega)]
  have hN : ((U.toNat : ℕ) : ℚ) = (U : ℚ) := by
    have : ((U.toNat : ℕ) : ℤ) = U := Int.toNat_of_nonneg (by omega)
    exact_mod_cast congrArg (Int.cast : ℤ → ℚ) this
  have hl : 0 ≤ (l.laneBounds offset).max * (4 / 5) := mul_nonneg (l.laneBounds offset).le_max (by norm_num)
  have hr : 0 ≤ -(l.laneBounds offset).min * (4 / 5) :=
    mul_nonneg (neg_nonneg.2 (l.laneBounds offset).min_le) (by norm_num)
  obtain ⟨a, b⟩ := arrowRows_ok (offset := offset) (h := h) (div_nonneg hsize.le hUq.le) (div_nonneg hl hUq.le)
    (div_nonneg hr hUq.le) U.toNat 0
  refine ⟨_, rfl, b, ?_⟩
  ext p
  rw [a]
  simp only [Triangle, Set.mem_ofPred_eq, Nat.cast_zero, zero_add, hN]
  generalize (l.laneBounds offset).max * (4 / 5) = left at hl ⊢
  generalize -(l.laneBounds offset).min * (4 / 5) = right at hr ⊢
  constructor
  · rintro ⟨-, x, x0, x1, hp, hlo, hhi⟩
    refine ⟨x / U, div_nonneg x0 hUq.le, (div_le_one hUq).2 x1, ?_, ?_, ?_⟩
    · rw [hp]; field_simp
    · convert hlo using 2; field_simp
    · convert hhi using 1; field_simp
  · rintro ⟨t, t0, t1, hp, hlo, hhi⟩
    refine ⟨by omega, t * U, mul_nonneg t0 hUq.le, by nlinarith, ?_, ?_, ?_⟩
    · rw [hp]; field_simp
    · convert hlo using 2; field_simp
    · convert hhi using 1; field_simp

end Maliput.RoadMesh
