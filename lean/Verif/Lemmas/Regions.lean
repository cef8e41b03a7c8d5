import Mathlib.Data.List.Nodup
import Mathlib.Tactic.Ring
import Mathlib.Tactic.Linarith
import Mathlib.Tactic.NormNum
import Mathlib.Algebra.Order.Field.Rat
import Verif.Spec.Regions

set_option autoImplicit false

namespace Maliput
open Spec

theorem throwUnless_true : throwUnless true = .ok () := rfl
theorem throwUnless_false : throwUnless false = .error .throws := rfl

theorem covers_iff (r : SRange) (s : ℚ) : Covers r s ↔ min r.s0 r.s1 ≤ s ∧ s ≤ max r.s0 r.s1 := by
  unfold Covers
  rcases le_total r.s0 r.s1 with h | h
  · rw [min_eq_left h, max_eq_right h]
    constructor
    · rintro (h' | h')
      · exact h'
      · exact ⟨by linarith, by linarith⟩
    · exact Or.inl
  · rw [min_eq_right h, max_eq_left h]
    constructor
    · rintro (h' | h')
      · exact ⟨by linarith, by linarith⟩
      · exact h'
    · exact Or.inr

/-- Lower end of a range. -/
def lo (r : SRange) : ℚ := min r.s0 r.s1
/-- Upper end of a range. -/
def hi (r : SRange) : ℚ := max r.s0 r.s1

theorem lo_le_hi (r : SRange) : lo r ≤ hi r := min_le_max

theorem covers_lo_hi (r : SRange) (s : ℚ) : Covers r s ↔ lo r ≤ s ∧ s ≤ hi r := covers_iff r s

theorem size_eq (r : SRange) : r.size = hi r - lo r := by
  unfold SRange.size hi lo
  rcases le_total r.s0 r.s1 with h | h
  · rw [min_eq_left h, max_eq_right h, abs_of_nonneg (by linarith)]
  · rw [min_eq_right h, max_eq_left h, abs_of_nonpos (by linarith)]; ring

theorem lo_nonneg {r : SRange} (h : ValidRange r) : 0 ≤ lo r := le_min h.1 h.2

theorem valid_check {a b : SRange} (ha : ValidRange a) (hb : ValidRange b) :
    (decide (min a.s0 a.s1 ≥ 0) && decide (min b.s0 b.s1 ≥ 0)) = true := by
  have h1 : min a.s0 a.s1 ≥ 0 := lo_nonneg ha
  have h2 : min b.s0 b.s1 ≥ 0 := lo_nonneg hb
  rw [decide_eq_true h1, decide_eq_true h2]; rfl

/-- The tolerances `Intersects` and `Contains` accept. -/
def TolOk (a b : SRange) (tol : ℚ) : Prop := 0 ≤ tol ∨ |tol| ≤ min a.size b.size / 2

theorem make_ok {x y : ℚ} (hx : 0 ≤ x) (hy : 0 ≤ y) : SRange.make x y = .ok ⟨x, y⟩ := by
  simp only [SRange.make, ge_iff_le, decide_eq_true hx, decide_eq_true hy, throwUnless_true]; rfl

theorem hi_tol_nonneg {a b : SRange} (ha : ValidRange a) {tol : ℚ} (h : TolOk a b tol) :
    0 ≤ hi a + tol := by
  have h1 := lo_nonneg ha
  have h2 := lo_le_hi a
  rcases h with h | h
  · linarith
  · have h3 := neg_abs_le tol
    have h4 := min_le_left a.size b.size
    rw [size_eq] at h4
    rw [size_eq] at h
    linarith

theorem intersects_eq {a b : SRange} (ha : ValidRange a) (hb : ValidRange b) {tol : ℚ}
    (h : TolOk a b tol) :
    a.intersects b tol = .ok (decide (lo a - tol ≤ hi b ∧ lo b ≤ hi a + tol)) := by
  have h1 := hi_tol_nonneg ha h
  have hb1 := lo_nonneg hb
  have hb2 := lo_le_hi b
  unfold SRange.intersects
  rw [valid_check ha hb, throwUnless_true]
  have hmk : SRange.make (max (min a.s0 a.s1 - tol) 0) (max a.s0 a.s1 + tol)
      = .ok ⟨max (lo a - tol) 0, hi a + tol⟩ := make_ok (le_max_right _ _) h1
  have hres : (!(decide (max b.s0 b.s1 < max (lo a - tol) 0) || decide (min b.s0 b.s1 > hi a + tol)))
      = decide (lo a - tol ≤ hi b ∧ lo b ≤ hi a + tol) := by
    rw [← Bool.decide_or, ← decide_not]
    apply decide_eq_decide.mpr
    rw [not_or, not_lt, gt_iff_lt, not_lt, max_le_iff]
    change (lo a - tol ≤ hi b ∧ 0 ≤ hi b) ∧ lo b ≤ hi a + tol ↔ _
    constructor
    · rintro ⟨⟨h1, h2⟩, h3⟩; exact ⟨h1, h3⟩
    · rintro ⟨h1, h2⟩; exact ⟨⟨h1, by linarith⟩, h2⟩
  by_cases ht : tol < 0
  · have h' : min a.size b.size / 2 ≥ |tol| := by
      rcases h with h | h
      · linarith
      · exact h
    rw [hmk, if_pos ht, decide_eq_true h', throwUnless_true]
    show Except.ok _ = _
    rw [hres]
  · rw [hmk, if_neg ht]
    show Except.ok _ = _
    rw [hres]

theorem intersects_throws {a b : SRange} (ha : ValidRange a) (hb : ValidRange b) {tol : ℚ}
    (h : ¬ TolOk a b tol) : a.intersects b tol = .error .throws := by
  unfold TolOk at h
  rw [not_or, not_le] at h
  unfold SRange.intersects
  have h' : ¬ (min a.size b.size / 2 ≥ |tol|) := h.2
  rw [valid_check ha hb, throwUnless_true, if_pos h.1, decide_eq_false h', throwUnless_false]
  rfl

theorem contains_eq {a b : SRange} (ha : ValidRange a) (hb : ValidRange b) {tol : ℚ}
    (h : TolOk a b tol) :
    a.contains b tol = .ok (decide (hi b ≤ hi a + tol ∧ lo a - tol ≤ lo b)) := by
  have hb0 : 0 ≤ b.s0 := hb.1
  have hb1 : 0 ≤ b.s1 := hb.2
  unfold SRange.contains
  rw [valid_check ha hb, throwUnless_true]
  have hmin : (if a.withS = true then a.s0 - tol else a.s1 - tol) = lo a - tol := by
    unfold SRange.withS lo
    by_cases hw : a.s1 > a.s0
    · rw [decide_eq_true hw, if_pos rfl, min_eq_left (le_of_lt hw)]
    · rw [decide_eq_false hw, if_neg (by simp), min_eq_right (not_lt.mp hw)]
  have hmax : (if a.withS = true then a.s1 + tol else a.s0 + tol) = hi a + tol := by
    unfold SRange.withS hi
    by_cases hw : a.s1 > a.s0
    · rw [decide_eq_true hw, if_pos rfl, max_eq_right (le_of_lt hw)]
    · rw [decide_eq_false hw, if_neg (by simp), max_eq_left (not_lt.mp hw)]
  rw [hmin, hmax]
  have hres : ((decide (b.s1 ≤ hi a + tol) && decide (b.s1 ≥ max (lo a - tol) 0)) &&
      (decide (b.s0 ≤ hi a + tol) && decide (b.s0 ≥ max (lo a - tol) 0)))
      = decide (hi b ≤ hi a + tol ∧ lo a - tol ≤ lo b) := by
    rw [← Bool.decide_and, ← Bool.decide_and, ← Bool.decide_and]
    apply decide_eq_decide.mpr
    unfold hi lo
    rw [ge_iff_le, ge_iff_le, max_le_iff, max_le_iff, max_le_iff, le_min_iff]
    constructor
    · rintro ⟨⟨h1, h2, h3⟩, h4, h5, h6⟩; exact ⟨⟨h4, h1⟩, h5, h2⟩
    · rintro ⟨⟨h1, h2⟩, h3, h4⟩; exact ⟨⟨h2, h4, hb1⟩, h1, h3, hb0⟩
  by_cases ht : tol < 0
  · have h' : min a.size b.size / 2 ≥ |tol| := by
      rcases h with h | h
      · linarith
      · exact h
    rw [if_pos ht, decide_eq_true h', throwUnless_true]
    show Except.ok _ = _
    rw [hres]
  · rw [if_neg ht]
    show Except.ok _ = _
    rw [hres]

theorem getIntersection_eq {a b : SRange} (ha : ValidRange a) (hb : ValidRange b) {tol : ℚ}
    (h : TolOk a b tol) :
    a.getIntersection b tol = .ok (if lo a - tol ≤ hi b ∧ lo b ≤ hi a + tol then
      some ⟨if lo b ≤ max (lo a - tol) 0 then lo a else lo b,
            if hi b ≥ hi a + tol then hi a else hi b⟩ else none) := by
  unfold SRange.getIntersection
  rw [intersects_eq ha hb h]
  by_cases hc : lo a - tol ≤ hi b ∧ lo b ≤ hi a + tol
  · have hmk : SRange.make (max (min a.s0 a.s1 - tol) 0) (max a.s0 a.s1 + tol)
        = .ok ⟨max (lo a - tol) 0, hi a + tol⟩ := make_ok (le_max_right _ _) (hi_tol_nonneg ha h)
    rw [if_pos hc, decide_eq_true hc, hmk]
    have hla := lo_nonneg ha
    have hlb := lo_nonneg hb
    have h2 := lo_le_hi a
    have h3 := lo_le_hi b
    change (do
      let r ← SRange.make (if lo b ≤ max (lo a - tol) 0 then lo a else lo b)
        (if hi b ≥ hi a + tol then hi a else hi b)
      pure (some r)) = _
    rw [make_ok]
    · rfl
    · split <;> linarith
    · split <;> linarith
  · rw [if_neg hc, decide_eq_false hc]
    rfl

end Maliput
