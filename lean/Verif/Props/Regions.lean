import Verif.Lemmas.Regions

set_option autoImplicit false

/-! Properties C01 - C05: s-ranges, lane ranges and routes. -/
namespace Maliput.Props
open Maliput Maliput.Spec

/-! ### C01 -/

/-- C01: for a non-negative tolerance `Intersects` always answers, and answers `true` exactly when
some covered point of one range is within the tolerance of a covered point of the other. -/
theorem srange_intersects_iff (a b : SRange) (ha : ValidRange a) (hb : ValidRange b) (tol : ℚ)
    (ht : 0 ≤ tol) :
    ∃ r, a.intersects b tol = .ok r ∧ (r = true ↔ CloseRanges a b tol) := by
  refine ⟨_, intersects_eq ha hb (Or.inl ht), ?_⟩
  rw [decide_eq_true_iff]
  have h2 := lo_le_hi a
  have h3 := lo_le_hi b
  constructor
  · rintro ⟨h, h'⟩
    -- choose the closest points
    rcases le_total (lo a) (hi b) with h4 | h4
    · rcases le_total (lo b) (hi a) with h5 | h5
      · refine ⟨max (lo a) (lo b), max (lo a) (lo b), ?_, ?_, by simpa using ht⟩
        · rw [covers_lo_hi]; exact ⟨le_max_left _ _, max_le h2 h5⟩
        · rw [covers_lo_hi]; exact ⟨le_max_right _ _, max_le h4 h3⟩
      · refine ⟨hi a, lo b, ?_, ?_, ?_⟩
        · rw [covers_lo_hi]; exact ⟨h2, le_refl _⟩
        · rw [covers_lo_hi]; exact ⟨le_refl _, h3⟩
        · rw [abs_le]; constructor <;> linarith
    · refine ⟨lo a, hi b, ?_, ?_, ?_⟩
      · rw [covers_lo_hi]; exact ⟨le_refl _, h2⟩
      · rw [covers_lo_hi]; exact ⟨h3, le_refl _⟩
      · rw [abs_le]; constructor <;> linarith
  · rintro ⟨x, y, hx, hy, hxy⟩
    rw [covers_lo_hi] at hx hy
    rw [abs_le] at hxy
    constructor <;> linarith [hx.1, hx.2, hy.1, hy.2, hxy.1, hxy.2]

/-- The hypotheses are met by ranges in opposite directions that touch only within tolerance. -/
example : ValidRange ⟨0, 5⟩ ∧ ValidRange ⟨9, 6⟩ ∧ (0 : ℚ) ≤ 1 ∧
    SRange.intersects ⟨0, 5⟩ ⟨9, 6⟩ 1 = .ok true ∧ SRange.intersects ⟨0, 5⟩ ⟨9, 6⟩ (1/2) = .ok false := by
  refine ⟨by norm_num [ValidRange], by norm_num [ValidRange], by norm_num, by decide +kernel, by decide +kernel⟩

/-- C01, negative tolerances: when accepted, `Intersects` answers `true` exactly when the ranges
share an interval of length `-tol`. -/
theorem srange_intersects_neg_iff (a b : SRange) (ha : ValidRange a) (hb : ValidRange b) (tol : ℚ)
    (ht : tol < 0) (hs : -tol ≤ a.size / 2 ∧ -tol ≤ b.size / 2) :
    ∃ r, a.intersects b tol = .ok r ∧ (r = true ↔ ShareLength a b (-tol)) := by
  have hok : TolOk a b tol := by
    right
    rw [abs_of_neg ht]
    have := le_min hs.1 hs.2
    rcases min_choice a.size b.size with h | h <;> rw [h] <;> linarith [hs.1, hs.2]
  refine ⟨_, intersects_eq ha hb hok, ?_⟩
  rw [decide_eq_true_iff]
  rw [size_eq, size_eq] at hs
  constructor
  · rintro ⟨h, h'⟩
    refine ⟨max (lo a) (lo b), ?_⟩
    rw [covers_lo_hi, covers_lo_hi, covers_lo_hi, covers_lo_hi]
    rcases le_total (lo a) (lo b) with h4 | h4
    · rw [max_eq_right h4]
      refine ⟨⟨?_, ?_⟩, ⟨?_, ?_⟩, ⟨?_, ?_⟩, ⟨?_, ?_⟩⟩ <;> linarith [hs.1, hs.2]
    · rw [max_eq_left h4]
      refine ⟨⟨?_, ?_⟩, ⟨?_, ?_⟩, ⟨?_, ?_⟩, ⟨?_, ?_⟩⟩ <;> linarith [hs.1, hs.2]
  · rintro ⟨x, h1, h2, h3, h4⟩
    rw [covers_lo_hi] at h1 h2 h3 h4
    constructor <;> linarith [h1.1, h1.2, h2.1, h2.2, h3.1, h3.2, h4.1, h4.2]

example : ValidRange ⟨0, 5⟩ ∧ ValidRange ⟨9, 4⟩ ∧ ((-1 : ℚ) < 0) ∧
    (-(-1 : ℚ) ≤ SRange.size ⟨0, 5⟩ / 2 ∧ -(-1 : ℚ) ≤ SRange.size ⟨9, 4⟩ / 2) ∧
    SRange.intersects ⟨0, 5⟩ ⟨9, 4⟩ (-1) = .ok true ∧
    SRange.intersects ⟨0, 5⟩ ⟨9, 4⟩ (-2) = .ok false := by
  refine ⟨by norm_num [ValidRange], by norm_num [ValidRange], by norm_num, by decide +kernel, by decide +kernel,
    by decide +kernel⟩

/-- C01: the test throws exactly for the negative tolerances that exceed half of the smaller range. -/
theorem srange_intersects_throws_iff (a b : SRange) (ha : ValidRange a) (hb : ValidRange b) (tol : ℚ) :
    (∃ e, a.intersects b tol = .error e) ↔ tol < 0 ∧ (a.size / 2 < -tol ∨ b.size / 2 < -tol) := by
  have key : TolOk a b tol ↔ ¬ (tol < 0 ∧ (a.size / 2 < -tol ∨ b.size / 2 < -tol)) := by
    unfold TolOk
    rw [not_and, not_or, not_lt, not_lt]
    constructor
    · rintro (h | h) ht
      · linarith
      · rw [abs_of_neg ht] at h
        have h1 := min_le_left a.size b.size
        have h2 := min_le_right a.size b.size
        constructor <;> linarith
    · intro h
      rcases le_or_gt 0 tol with ht | ht
      · exact Or.inl ht
      · right
        rw [abs_of_neg ht]
        have := h ht
        rcases min_choice a.size b.size with h' | h' <;> rw [h'] <;> linarith [this.1, this.2]
  rw [← not_iff_not, ← key]
  constructor
  · intro h
    by_contra hc
    exact h ⟨_, intersects_throws ha hb hc⟩
  · rintro h ⟨e, he⟩
    rw [intersects_eq ha hb h] at he
    cases he

/-- C01: swapping the ranges never changes the outcome (including whether it throws). -/
theorem srange_intersects_comm (a b : SRange) (ha : ValidRange a) (hb : ValidRange b) (tol : ℚ) :
    a.intersects b tol = b.intersects a tol := by
  by_cases h : TolOk a b tol
  · have h' : TolOk b a tol := by unfold TolOk at *; rwa [min_comm]
    rw [intersects_eq ha hb h, intersects_eq hb ha h']
    congr 1
    apply decide_eq_decide.mpr
    constructor <;> rintro ⟨h1, h2⟩ <;> constructor <;> linarith
  · have h' : ¬ TolOk b a tol := by unfold TolOk at *; rwa [min_comm]
    rw [intersects_throws ha hb h, intersects_throws hb ha h']

/-- C01: the outcome does not depend on the direction either range is written in. -/
theorem srange_intersects_flip (a b : SRange) (tol : ℚ) :
    (Spec.flip a).intersects b tol = a.intersects b tol ∧ a.intersects (Spec.flip b) tol = a.intersects b tol := by
  unfold SRange.intersects Spec.flip SRange.size
  constructor
  · rw [min_comm a.s1, max_comm a.s1, abs_sub_comm a.s0]
  · simp only [min_comm b.s1, max_comm b.s1, abs_sub_comm b.s0]

/-! ### C02 -/

/-- C02: `GetIntersection` returns a range exactly when `Intersects` answers `true`, and throws
exactly when `Intersects` throws. -/
theorem srange_getIntersection_isSome (a b : SRange) (ha : ValidRange a) (hb : ValidRange b) (tol : ℚ) :
    (a.getIntersection b tol).map Option.isSome = a.intersects b tol := by
  by_cases h : TolOk a b tol
  · rw [getIntersection_eq ha hb h, intersects_eq ha hb h]
    simp only [Except.map]
    congr 1
    split <;> simp_all
  · unfold SRange.getIntersection
    rw [intersects_throws ha hb h]
    rfl

/-- C02: with tolerance zero the returned range covers exactly the common points. -/
theorem srange_getIntersection_exact (a b : SRange) (ha : ValidRange a) (hb : ValidRange b) :
    ∃ r, a.getIntersection b 0 = .ok r ∧
      ∀ s, (∃ i, r = some i ∧ Covers i s) ↔ (Covers a s ∧ Covers b s) := by
  have hla := lo_nonneg ha
  have h2 := lo_le_hi a
  have h3 := lo_le_hi b
  refine ⟨_, getIntersection_eq ha hb (Or.inl (le_refl 0)), ?_⟩
  intro s
  rw [sub_zero, add_zero, max_eq_left hla]
  by_cases hc : lo a ≤ hi b ∧ lo b ≤ hi a
  · rw [if_pos hc]
    constructor
    · rintro ⟨i, hi', hs⟩
      cases hi'
      rw [covers_iff] at hs
      rw [covers_lo_hi, covers_lo_hi]
      simp only at hs
      split_ifs at hs with h4 h5 h5
      · rw [min_eq_left h2, max_eq_right h2] at hs
        exact ⟨hs, by linarith [hs.1], by linarith [hs.2]⟩
      · rw [min_eq_left hc.1, max_eq_right hc.1] at hs
        exact ⟨⟨hs.1, by linarith [hs.2, not_le.mp h5]⟩, by linarith [hs.1], hs.2⟩
      · rw [min_eq_left hc.2, max_eq_right hc.2] at hs
        exact ⟨⟨by linarith [hs.1, not_le.mp h4], hs.2⟩, hs.1, by linarith [hs.2]⟩
      · rw [min_eq_left h3, max_eq_right h3] at hs
        exact ⟨⟨by linarith [hs.1, not_le.mp h4], by linarith [hs.2, not_le.mp h5]⟩, hs⟩
    · rintro ⟨h4, h5⟩
      rw [covers_lo_hi] at h4 h5
      refine ⟨_, rfl, ?_⟩
      rw [covers_iff]
      simp only
      constructor
      · apply le_trans (min_le_left _ _); split <;> linarith [h4.1, h5.1]
      · apply le_trans _ (le_max_right _ _); split <;> linarith [h4.2, h5.2]
  · rw [if_neg hc]
    constructor
    · rintro ⟨i, hi', -⟩; cases hi'
    · rintro ⟨h4, h5⟩
      rw [covers_lo_hi] at h4 h5
      exact absurd ⟨by linarith [h4.1, h5.2], by linarith [h4.2, h5.1]⟩ hc

example : ValidRange ⟨0, 5⟩ ∧ ValidRange ⟨9, 4⟩ ∧
    SRange.getIntersection ⟨0, 5⟩ ⟨9, 4⟩ 0 = .ok (some ⟨4, 5⟩) := by
  refine ⟨by norm_num [ValidRange], by norm_num [ValidRange], by decide +kernel⟩

/-- C02: with any non-negative tolerance every point of the returned range is within the tolerance of
a point of each argument. -/
theorem srange_getIntersection_close (a b : SRange) (ha : ValidRange a) (hb : ValidRange b) (tol : ℚ)
    (ht : 0 ≤ tol) (i : SRange) (hi' : a.getIntersection b tol = .ok (some i)) (s : ℚ) (hs : Covers i s) :
    (∃ x, Covers a x ∧ |x - s| ≤ tol) ∧ (∃ y, Covers b y ∧ |y - s| ≤ tol) := by
  have hla := lo_nonneg ha
  have hlb := lo_nonneg hb
  have h2 := lo_le_hi a
  have h3 := lo_le_hi b
  rw [getIntersection_eq ha hb (Or.inl ht)] at hi'
  by_cases hc : lo a - tol ≤ hi b ∧ lo b ≤ hi a + tol
  · rw [if_pos hc] at hi'
    injection hi' with hi'; injection hi' with hi'
    subst hi'
    rw [covers_iff] at hs
    simp only at hs
    -- bounds of the points of the result
    have key : max (lo a) (lo b) - tol ≤ s ∧ s ≤ min (hi a) (hi b) + tol := by
      rcases le_or_gt (lo a - tol) 0 with h0 | h0
      · rw [max_eq_right h0] at hs
        split_ifs at hs with h4 h5 h5 <;>
        · constructor
          · rw [sub_le_iff_le_add]; apply max_le <;>
              rcases min_le_iff.mp hs.1 with h | h <;> linarith [hc.1, hc.2]
          · rw [← sub_le_iff_le_add]; apply le_min <;>
              rcases le_max_iff.mp hs.2 with h | h <;> linarith [hc.1, hc.2]
      · rw [max_eq_left h0.le] at hs
        split_ifs at hs with h4 h5 h5 <;>
        · constructor
          · rw [sub_le_iff_le_add]; apply max_le <;>
              rcases min_le_iff.mp hs.1 with h | h <;> linarith [hc.1, hc.2]
          · rw [← sub_le_iff_le_add]; apply le_min <;>
              rcases le_max_iff.mp hs.2 with h | h <;> linarith [hc.1, hc.2]
    have near : ∀ r : SRange, lo r - tol ≤ s → s ≤ hi r + tol → ∃ x, Covers r x ∧ |x - s| ≤ tol := by
      intro r h4 h5
      have h6 := lo_le_hi r
      refine ⟨max (lo r) (min s (hi r)), ?_, ?_⟩
      · rw [covers_lo_hi]; exact ⟨le_max_left _ _, max_le h6 (min_le_right _ _)⟩
      · rw [abs_le]
        rcases le_total s (hi r) with h7 | h7
        · rw [min_eq_left h7]
          rcases le_total (lo r) s with h8 | h8
          · rw [max_eq_right h8]; constructor <;> linarith
          · rw [max_eq_left h8]; constructor <;> linarith
        · rw [min_eq_right h7, max_eq_right h6]; constructor <;> linarith
    have k1 := le_max_left (lo a) (lo b)
    have k2 := le_max_right (lo a) (lo b)
    have k3 := min_le_left (hi a) (hi b)
    have k4 := min_le_right (hi a) (hi b)
    exact ⟨near a (by linarith [key.1]) (by linarith [key.2]),
      near b (by linarith [key.1]) (by linarith [key.2])⟩
  · rw [if_neg hc] at hi'; cases hi'

/-- The hypotheses are met, and the returned range may be reversed (10.5 → 10) when the arguments
only touch within tolerance. -/
example : ValidRange ⟨0, 10⟩ ∧ ValidRange ⟨21/2, 20⟩ ∧ (0:ℚ) ≤ 1 ∧
    SRange.getIntersection ⟨0, 10⟩ ⟨21/2, 20⟩ 1 = .ok (some ⟨21/2, 10⟩) ∧ Covers ⟨21/2, 10⟩ 10 := by
  refine ⟨by norm_num [ValidRange], by norm_num [ValidRange], by norm_num, by decide +kernel, ?_⟩
  right; norm_num

/-! ### C03 -/

/-- C03: for a non-negative tolerance `Contains` always answers, and answers `true` exactly when every
point of the argument is within the tolerance of the callee. -/
theorem srange_contains_iff (a b : SRange) (ha : ValidRange a) (hb : ValidRange b) (tol : ℚ)
    (ht : 0 ≤ tol) :
    ∃ r, a.contains b tol = .ok r ∧ (r = true ↔ CoversAllOf a b tol) := by
  refine ⟨_, contains_eq ha hb (Or.inl ht), ?_⟩
  rw [decide_eq_true_iff]
  have h2 := lo_le_hi a
  have h3 := lo_le_hi b
  constructor
  · rintro ⟨h, h'⟩ y hy
    rw [covers_lo_hi] at hy
    refine ⟨max (lo a) (min y (hi a)), ?_, ?_⟩
    · rw [covers_lo_hi]; exact ⟨le_max_left _ _, max_le h2 (min_le_right _ _)⟩
    · rw [abs_le]
      rcases le_total y (hi a) with h7 | h7
      · rw [min_eq_left h7]
        rcases le_total (lo a) y with h8 | h8
        · rw [max_eq_right h8]; constructor <;> linarith
        · rw [max_eq_left h8]; constructor <;> linarith [hy.1]
      · rw [min_eq_right h7, max_eq_right h2]; constructor <;> linarith [hy.2]
  · intro h
    obtain ⟨x, hx, hxy⟩ := h (hi b) ((covers_lo_hi b _).mpr ⟨h3, le_refl _⟩)
    obtain ⟨x', hx', hxy'⟩ := h (lo b) ((covers_lo_hi b _).mpr ⟨le_refl _, h3⟩)
    rw [covers_lo_hi] at hx hx'
    rw [abs_le] at hxy hxy'
    constructor <;> linarith [hx.1, hx.2, hx'.1, hx'.2, hxy.1, hxy.2, hxy'.1, hxy'.2]

example : ValidRange ⟨8, 2⟩ ∧ ValidRange ⟨3, 9⟩ ∧ (0:ℚ) ≤ 1 ∧
    SRange.contains ⟨8, 2⟩ ⟨3, 9⟩ 1 = .ok true ∧ SRange.contains ⟨8, 2⟩ ⟨3, 9⟩ 0 = .ok false := by
  refine ⟨by norm_num [ValidRange], by norm_num [ValidRange], by norm_num, by decide +kernel, by decide +kernel⟩

/-- C03: reflexive, for every non-negative tolerance. -/
theorem srange_contains_refl (a : SRange) (ha : ValidRange a) (tol : ℚ) (ht : 0 ≤ tol) :
    a.contains a tol = .ok true := by
  rw [contains_eq ha ha (Or.inl ht), decide_eq_true (by constructor <;> linarith)]

/-- C03: transitive, tolerances add up. -/
theorem srange_contains_trans (a b c : SRange) (ha : ValidRange a) (hb : ValidRange b) (hc : ValidRange c)
    (t u : ℚ) (ht : 0 ≤ t) (hu : 0 ≤ u)
    (hab : a.contains b t = .ok true) (hbc : b.contains c u = .ok true) :
    a.contains c (t + u) = .ok true := by
  rw [contains_eq ha hb (Or.inl ht)] at hab
  rw [contains_eq hb hc (Or.inl hu)] at hbc
  rw [contains_eq ha hc (Or.inl (by linarith))]
  injection hab with hab
  injection hbc with hbc
  rw [decide_eq_true_iff] at hab hbc
  rw [decide_eq_true (by constructor <;> linarith [hab.1, hab.2, hbc.1, hbc.2])]

example : SRange.contains ⟨8, 2⟩ ⟨3, 9⟩ 1 = .ok true ∧ SRange.contains ⟨3, 9⟩ ⟨1, 10⟩ 2 = .ok true ∧
    SRange.contains ⟨8, 2⟩ ⟨1, 10⟩ 3 = .ok true ∧ SRange.contains ⟨8, 2⟩ ⟨1, 10⟩ 1 = .ok false := by
  refine ⟨by decide +kernel, by decide +kernel, by decide +kernel, by decide +kernel⟩

/-- C03: monotone in the tolerance. -/
theorem srange_contains_mono (a b : SRange) (ha : ValidRange a) (hb : ValidRange b) (t u : ℚ)
    (ht : 0 ≤ t) (htu : t ≤ u) (hab : a.contains b t = .ok true) : a.contains b u = .ok true := by
  rw [contains_eq ha hb (Or.inl ht)] at hab
  rw [contains_eq ha hb (Or.inl (by linarith))]
  injection hab with hab
  rw [decide_eq_true_iff] at hab
  rw [decide_eq_true (by constructor <;> linarith [hab.1, hab.2])]

/-- C03: containment implies intersection, for every tolerance that is accepted. -/
theorem srange_contains_intersects (a b : SRange) (ha : ValidRange a) (hb : ValidRange b) (tol : ℚ)
    (h : a.contains b tol = .ok true) : a.intersects b tol = .ok true := by
  by_cases hok : TolOk a b tol
  · rw [contains_eq ha hb hok] at h
    rw [intersects_eq ha hb hok]
    injection h with h
    rw [decide_eq_true_iff] at h
    have h3 := lo_le_hi b
    rw [decide_eq_true (by constructor <;> linarith [h.1, h.2])]
  · exfalso
    unfold TolOk at hok
    rw [not_or, not_le] at hok
    unfold SRange.contains at h
    have h' : ¬ (min a.size b.size / 2 ≥ |tol|) := hok.2
    rw [valid_check ha hb, throwUnless_true, if_pos hok.1, decide_eq_false h', throwUnless_false] at h
    cases h

example : SRange.contains ⟨8, 2⟩ ⟨3, 7⟩ (-1) = .ok true ∧ ValidRange ⟨8, 2⟩ ∧ ValidRange ⟨3, 7⟩ := by
  refine ⟨by decide +kernel, by norm_num [ValidRange], by norm_num [ValidRange]⟩

/-! ### C47 -/

/-- C47: `LaneSRange::Intersects` answers `true` exactly for ranges on the same lane that come within the
tolerance of each other. -/
theorem laneSRange_intersects_iff (a b : LaneSRange) (ha : ValidRange a.sRange) (hb : ValidRange b.sRange)
    (tol : ℚ) (ht : 0 ≤ tol) : ∃ r, a.intersects b tol = .ok r ∧ (r = true ↔ CloseLaneRanges a b tol) := by
  unfold LaneSRange.intersects CloseLaneRanges
  split
  · rename_i h
    obtain ⟨r, h1, h2⟩ := srange_intersects_iff _ _ ha hb tol ht
    exact ⟨r, h1, by rw [h2]; simp [h]⟩
  · rename_i h
    exact ⟨false, rfl, by simp [h]⟩

/-- C47: `LaneSRange::Contains` answers `true` exactly for ranges on the same lane with all points within
the tolerance. -/
theorem laneSRange_contains_iff (a b : LaneSRange) (ha : ValidRange a.sRange) (hb : ValidRange b.sRange)
    (tol : ℚ) (ht : 0 ≤ tol) :
    ∃ r, a.contains b tol = .ok r ∧ (r = true ↔ a.laneId = b.laneId ∧ CoversAllOf a.sRange b.sRange tol) := by
  unfold LaneSRange.contains
  split
  · rename_i h
    obtain ⟨r, h1, h2⟩ := srange_contains_iff _ _ ha hb tol ht
    exact ⟨r, h1, by rw [h2]; simp [h]⟩
  · rename_i h
    exact ⟨false, rfl, by simp [h]⟩

/-- C47: `LaneSRange::GetIntersection` always answers; it returns nothing for different lanes, and the
intersection of the s-ranges, on that lane, otherwise. -/
theorem laneSRange_getIntersection (a b : LaneSRange) (ha : ValidRange a.sRange) (hb : ValidRange b.sRange)
    (tol : ℚ) (ht : 0 ≤ tol) :
    ∃ r, a.getIntersection b tol = .ok r ∧ (a.laneId ≠ b.laneId → r = none) ∧
      (a.laneId = b.laneId → (∀ i, r = some i → i.laneId = a.laneId) ∧
        a.sRange.getIntersection b.sRange tol = .ok (r.map LaneSRange.sRange)) := by
  have h1 := srange_getIntersection_isSome _ _ ha hb tol
  obtain ⟨q, h2, -⟩ := srange_intersects_iff _ _ ha hb tol ht
  unfold LaneSRange.getIntersection LaneSRange.intersects
  split
  · rename_i h
    rw [h2] at h1 ⊢
    cases hg : a.sRange.getIntersection b.sRange tol with
    | error e => rw [hg] at h1; cases h1
    | ok i =>
      rw [hg] at h1
      have hq : i.isSome = q := Except.ok.inj h1
      cases i with
      | none =>
        subst hq
        exact ⟨none, rfl, fun _ => rfl, fun _ => ⟨by simp, rfl⟩⟩
      | some i =>
        subst hq
        exact ⟨some ⟨a.laneId, i⟩, rfl, fun e => absurd h e, fun _ => ⟨by simp, rfl⟩⟩
  · rename_i h
    exact ⟨none, rfl, fun _ => rfl, fun e => absurd e h⟩

example : LaneSRange.getIntersection ⟨"a", ⟨0, 5⟩⟩ ⟨"a", ⟨9, 4⟩⟩ 0 = .ok (some ⟨"a", ⟨4, 5⟩⟩) ∧
    LaneSRange.getIntersection ⟨"a", ⟨0, 5⟩⟩ ⟨"b", ⟨9, 4⟩⟩ 0 = .ok none ∧
    LaneSRange.intersects ⟨"a", ⟨0, 5⟩⟩ ⟨"b", ⟨9, 4⟩⟩ 0 = .ok false ∧
    LaneSRange.contains ⟨"a", ⟨0, 5⟩⟩ ⟨"a", ⟨4, 1⟩⟩ 0 = .ok true := by
  refine ⟨by decide +kernel, by decide +kernel, by decide +kernel, by decide +kernel⟩

/-! ### C04 -/

/-- C04 as stated (any overlapping pair is found) is false of the code: only the first range of
`other` on the same lane is compared. Here `other` covers lane "a" in two pieces. -/
theorem laneSRoute_intersects_not_complete :
    ∃ a b : LaneSRoute, ValidRoute a ∧ ValidRoute b ∧ RoutesOverlap a b 0 ∧
      a.intersects b 0 = .ok false ∧ b.intersects a 0 = .ok true := by
  refine ⟨⟨[⟨"a", ⟨20, 30⟩⟩]⟩, ⟨[⟨"a", ⟨0, 10⟩⟩, ⟨"a", ⟨25, 40⟩⟩]⟩, ?_, ?_, ?_, by decide +kernel, by decide +kernel⟩
  · intro x hx; simp only [List.mem_singleton] at hx; subst hx; constructor <;> norm_num
  · intro x hx; simp only [List.mem_cons, List.not_mem_nil, or_false] at hx
    rcases hx with rfl | rfl <;> constructor <;> norm_num
  · refine ⟨⟨"a", ⟨20, 30⟩⟩, by simp, ⟨"a", ⟨25, 40⟩⟩, by simp, rfl, 27, 27, ?_, ?_, by norm_num⟩
    · left; norm_num
    · left; norm_num

/-- C04, soundness for all routes: the call always answers (tolerance >= 0), and `true` means that
two ranges do overlap. -/
theorem laneSRoute_intersects_sound_partial (a b : LaneSRoute) (ha : ValidRoute a) (hb : ValidRoute b)
    (tol : ℚ) (ht : 0 ≤ tol) :
    ∃ r, a.intersects b tol = .ok r ∧ (r = true → RoutesOverlap a b tol) := by
  unfold LaneSRoute.intersects RoutesOverlap
  have ha' : ∀ x ∈ a.ranges, ValidRange x.sRange := ha
  clear ha
  generalize a.ranges = l at *
  induction l with
  | nil => exact ⟨false, rfl, by simp⟩
  | cons x xs ih =>
    obtain ⟨r, hr, hr'⟩ := ih (fun y hy => ha' y (List.mem_cons_of_mem _ hy))
    have lift : r = true → ∃ z ∈ x :: xs, ∃ y ∈ b.ranges, CloseLaneRanges z y tol := by
      intro h
      obtain ⟨z, hz, y, hy, hzy⟩ := hr' h
      exact ⟨z, List.mem_cons_of_mem _ hz, y, hy, hzy⟩
    rw [LaneSRoute.intersectsLoop]
    cases hf : b.ranges.find? (fun y => x.laneId == y.laneId) with
    | none => exact ⟨r, hr, lift⟩
    | some y =>
      have hy := List.mem_of_find?_eq_some hf
      have hyl : x.laneId = y.laneId := by simpa using List.find?_some hf
      obtain ⟨q, hq, hq'⟩ := srange_intersects_iff x.sRange y.sRange (ha' x (by simp)) (hb y hy) tol ht
      simp only [LaneSRange.intersects, if_pos hyl, hq]
      cases q with
      | true => exact ⟨true, rfl, fun _ => ⟨x, by simp, y, hy, hyl, hq'.mp rfl⟩⟩
      | false => exact ⟨r, hr, lift⟩

/-- C04 for routes in which `other` lists every lane at most once: the answer is exact. -/
theorem laneSRoute_intersects_iff_partial (a b : LaneSRoute) (ha : ValidRoute a) (hb : ValidRoute b)
    (tol : ℚ) (ht : 0 ≤ tol) (hd : (b.ranges.map (·.laneId)).Nodup) :
    ∃ r, a.intersects b tol = .ok r ∧ (r = true ↔ RoutesOverlap a b tol) := by
  obtain ⟨r, hr, hr'⟩ := laneSRoute_intersects_sound_partial a b ha hb tol ht
  refine ⟨r, hr, hr', ?_⟩
  rintro ⟨x, hx, y, hy, hxy, hc⟩
  revert hr
  unfold LaneSRoute.intersects
  have ha' : ∀ x ∈ a.ranges, ValidRange x.sRange := ha
  clear ha hr'
  generalize a.ranges = l at *
  induction l with
  | nil => simp at hx
  | cons z zs ih =>
    intro hr
    rw [LaneSRoute.intersectsLoop] at hr
    have ih' := fun h => ih h (fun y hy => ha' y (List.mem_cons_of_mem _ hy))
    cases hf : b.ranges.find? (fun y => z.laneId == y.laneId) with
    | none =>
      rw [hf] at hr
      rcases List.mem_cons.mp hx with rfl | hx
      · exfalso
        have := List.find?_eq_none.mp hf y hy
        simp [hxy] at this
      · exact ih' hx hr
    | some w =>
      rw [hf] at hr
      have hw := List.mem_of_find?_eq_some hf
      have hwl : z.laneId = w.laneId := by simpa using List.find?_some hf
      obtain ⟨q, hq, hq'⟩ := srange_intersects_iff z.sRange w.sRange (ha' z (by simp)) (hb w hw) tol ht
      simp only [LaneSRange.intersects, if_pos hwl, hq] at hr
      cases q with
      | true => injection hr with hr; exact hr.symm
      | false =>
        rcases List.mem_cons.mp hx with rfl | hx
        · exfalso
          have : w = y := List.inj_on_of_nodup_map hd hw hy (hwl.symm.trans hxy)
          subst this
          exact absurd (hq'.mpr hc) (by simp)
        · exact ih' hx hr

/-- C04: if both routes list every lane at most once, the test is symmetric. -/
theorem laneSRoute_intersects_comm_partial (a b : LaneSRoute) (ha : ValidRoute a) (hb : ValidRoute b)
    (tol : ℚ) (ht : 0 ≤ tol) (hda : (a.ranges.map (·.laneId)).Nodup)
    (hdb : (b.ranges.map (·.laneId)).Nodup) : a.intersects b tol = b.intersects a tol := by
  obtain ⟨r, hr, hr'⟩ := laneSRoute_intersects_iff_partial a b ha hb tol ht hdb
  obtain ⟨q, hq, hq'⟩ := laneSRoute_intersects_iff_partial b a hb ha tol ht hda
  rw [hr, hq]
  have hsw : ∀ a b : LaneSRoute, RoutesOverlap a b tol → RoutesOverlap b a tol := by
    rintro a b ⟨x, hx, y, hy, hl, s, t, hs, ht', hst⟩
    exact ⟨y, hy, x, hx, hl.symm, t, s, ht', hs, by rwa [abs_sub_comm]⟩
  have : r = q := by
    rw [Bool.eq_iff_iff, hr', hq']
    exact ⟨hsw a b, hsw b a⟩
  rw [this]

/-- The hypotheses are met by two two-lane routes that overlap on their second/first lane only. -/
example : let a : LaneSRoute := ⟨[⟨"a", ⟨0, 10⟩⟩, ⟨"b", ⟨9, 4⟩⟩]⟩
    let b : LaneSRoute := ⟨[⟨"b", ⟨0, 5⟩⟩, ⟨"c", ⟨0, 5⟩⟩]⟩
    ValidRoute a ∧ ValidRoute b ∧ (a.ranges.map (·.laneId)).Nodup ∧ (b.ranges.map (·.laneId)).Nodup ∧
    a.intersects b 0 = .ok true := by
  refine ⟨?_, ?_, by decide, by decide, by decide +kernel⟩
  all_goals
    intro x hx; simp only [List.mem_cons, List.not_mem_nil, or_false] at hx
    rcases hx with rfl | rfl <;> constructor <;> norm_num

/-! ### C05 -/

/-- C05 as stated is false of the code: `IsIncluded` decides at the first range whose lane is within
tolerance. The region below contains the position, yet the answer is `false`; with the two ranges
listed in the other order it is `true`. -/
theorem isIncluded_not_complete :
    ∃ (g : IncludeGeometry ℚ) (p : ℚ) (r1 r2 : LaneSRange),
      ValidRange r1.sRange ∧ ValidRange r2.sRange ∧ 0 ≤ g.linearTolerance ∧
      InRegion g p [r1, r2] ∧ isIncluded g p [r1, r2] = .ok false ∧
      isIncluded g p [r2, r1] = .ok true := by
  refine ⟨⟨fun _ => some (fun p => (p, 0)), 0⟩, 25, ⟨"a", ⟨0, 10⟩⟩, ⟨"a", ⟨20, 30⟩⟩, ?_, ?_, le_refl _, ?_,
    by decide +kernel, by decide +kernel⟩
  · constructor <;> norm_num
  · constructor <;> norm_num
  · exact ⟨⟨"a", ⟨20, 30⟩⟩, by simp, _, rfl, le_refl _, 25, Or.inl (by norm_num), by norm_num⟩

/-- What a region and a geometry must satisfy for `IsIncluded` not to throw: the region is not empty,
its ranges are valid, all its lanes exist, and `ToLanePosition` yields `s >= 0`. -/
def RegionOk {Pos : Type} (g : IncludeGeometry Pos) (region : List LaneSRange) : Prop :=
  region ≠ [] ∧ (∀ r ∈ region, ValidRange r.sRange) ∧ 0 ≤ g.linearTolerance ∧
  (∀ r ∈ region, ∃ f, g.toLane r.laneId = some f) ∧
  (∀ id f, g.toLane id = some f → ∀ p, 0 ≤ (f p).1)

theorem close_point_iff (r : SRange) (s tol : ℚ) :
    CloseRanges r ⟨s, s⟩ tol ↔ ∃ x, Covers r x ∧ |x - s| ≤ tol := by
  unfold CloseRanges
  constructor
  · rintro ⟨x, y, hx, hy, h⟩
    have : y = s := by
      rcases hy with ⟨h1, h2⟩ | ⟨h1, h2⟩ <;> exact le_antisymm h2 h1
    exact ⟨x, hx, this ▸ h⟩
  · rintro ⟨x, hx, h⟩
    exact ⟨x, s, hx, Or.inl ⟨le_refl _, le_refl _⟩, h⟩

theorem isIncluded_loop_sound {Pos : Type} (g : IncludeGeometry Pos) (p : Pos) (region : List LaneSRange)
    (hv : ∀ r ∈ region, ValidRange r.sRange) (ht : 0 ≤ g.linearTolerance)
    (hl : ∀ r ∈ region, ∃ f, g.toLane r.laneId = some f)
    (hs : ∀ id f, g.toLane id = some f → ∀ p, 0 ≤ (f p).1) :
    ∃ b, isIncludedLoop g p region = .ok b ∧ (b = true → InRegion g p region) := by
  induction region with
  | nil => exact ⟨false, rfl, by simp⟩
  | cons x xs ih =>
    obtain ⟨f, hf⟩ := hl x (by simp)
    rw [isIncludedLoop, hf]
    simp only
    by_cases hd : (f p).2 ≤ g.linearTolerance
    · rw [if_pos hd, make_ok (hs _ _ hf p) (hs _ _ hf p)]
      obtain ⟨q, hq, hq'⟩ := srange_intersects_iff x.sRange ⟨(f p).1, (f p).1⟩ (hv x (by simp))
        ⟨hs _ _ hf p, hs _ _ hf p⟩ _ ht
      refine ⟨q, hq, fun h => ⟨x, by simp, f, hf, hd, (close_point_iff _ _ _).mp (hq'.mp h)⟩⟩
    · rw [if_neg hd]
      obtain ⟨b, hb, hb'⟩ := ih (fun r hr => hv r (List.mem_cons_of_mem _ hr))
        (fun r hr => hl r (List.mem_cons_of_mem _ hr))
      refine ⟨b, hb, fun h => ?_⟩
      obtain ⟨r, hr, hrest⟩ := hb' h
      exact ⟨r, List.mem_cons_of_mem _ hr, hrest⟩

theorem isIncluded_eq_loop {Pos : Type} (g : IncludeGeometry Pos) (p : Pos) (region : List LaneSRange)
    (h : RegionOk g region) : isIncluded g p region = isIncludedLoop g p region := by
  unfold isIncluded
  have h1 : (!region.isEmpty) = true := by simpa using h.1
  have h2 : (region.all fun r => (g.toLane r.laneId).isSome) = true := by
    rw [List.all_eq_true]
    intro r hr
    obtain ⟨f, hf⟩ := h.2.2.2.1 r hr
    rw [hf]; rfl
  rw [h1, h2]; rfl

/-- C05, soundness for all regions: `IsIncluded` answers, and `true` means that the position is in
the region. -/
theorem isIncluded_sound_partial {Pos : Type} (g : IncludeGeometry Pos) (p : Pos) (region : List LaneSRange)
    (h : RegionOk g region) :
    ∃ b, isIncluded g p region = .ok b ∧ (b = true → InRegion g p region) := by
  rw [isIncluded_eq_loop g p region h]
  exact isIncluded_loop_sound g p region h.2.1 h.2.2.1 h.2.2.2.1 h.2.2.2.2

/-- The lane of range `r` is within linear tolerance of `p`. -/
def LaneNear {Pos : Type} (g : IncludeGeometry Pos) (p : Pos) (r : LaneSRange) : Prop :=
  ∃ f, g.toLane r.laneId = some f ∧ (f p).2 ≤ g.linearTolerance

/-- C05 where at most one range of the region has its lane within tolerance of the position: the
answer is exact, so it does not depend on the order of the ranges. -/
theorem isIncluded_iff_partial {Pos : Type} (g : IncludeGeometry Pos) (p : Pos) (region : List LaneSRange)
    (h : RegionOk g region)
    (hone : ∀ r ∈ region, ∀ r' ∈ region, LaneNear g p r → LaneNear g p r' → r = r') :
    ∃ b, isIncluded g p region = .ok b ∧ (b = true ↔ InRegion g p region) := by
  rw [isIncluded_eq_loop g p region h]
  obtain ⟨-, hv, ht, hl, hs⟩ := h
  obtain ⟨b, hb, hb'⟩ := isIncluded_loop_sound g p region hv ht hl hs
  refine ⟨b, hb, hb', ?_⟩
  rintro ⟨r, hr, f, hf, hd, hc⟩
  clear hb'
  induction region with
  | nil => simp at hr
  | cons x xs ih =>
    obtain ⟨k, hk⟩ := hl x (by simp)
    rw [isIncludedLoop, hk] at hb
    simp only at hb
    by_cases hd' : (k p).2 ≤ g.linearTolerance
    · rw [if_pos hd', make_ok (hs _ _ hk p) (hs _ _ hk p)] at hb
      have hx : x = r := hone x (by simp) r hr ⟨k, hk, hd'⟩ ⟨f, hf, hd⟩
      subst hx
      have : k = f := by rw [hk] at hf; exact Option.some.inj hf
      subst this
      obtain ⟨q, hq, hq'⟩ := srange_intersects_iff x.sRange ⟨(k p).1, (k p).1⟩ (hv x (by simp))
        ⟨hs _ _ hf p, hs _ _ hf p⟩ _ ht
      have hqb : q = b := by
        have h1 : Except.ok q = Except.ok (ε := Err) b := hq.symm.trans hb
        exact Except.ok.inj h1
      rw [← hqb, hq']
      exact (close_point_iff _ _ _).mpr hc
    · rw [if_neg hd'] at hb
      have hr' : r ∈ xs := by
        rcases List.mem_cons.mp hr with rfl | hr
        · rw [hf] at hk
          rw [Option.some.inj hk] at hd
          exact absurd hd hd'
        · exact hr
      exact ih (fun r h r' h' => hone r (List.mem_cons_of_mem _ h) r' (List.mem_cons_of_mem _ h'))
        (fun r hr => hv r (List.mem_cons_of_mem _ hr)) (fun r hr => hl r (List.mem_cons_of_mem _ hr)) hb hr'

/-- A two-range region over two far apart lanes meets the hypotheses, with a position in the second. -/
example : let g : IncludeGeometry ℚ :=
      ⟨fun id => some (fun p => if id = "a" then (0, 50) else (max p 0, 0)), 1/100⟩
    RegionOk g [⟨"a", ⟨0, 10⟩⟩, ⟨"b", ⟨20, 30⟩⟩] ∧
    isIncluded g 25 [⟨"a", ⟨0, 10⟩⟩, ⟨"b", ⟨20, 30⟩⟩] = .ok true ∧
    ¬ LaneNear g 25 ⟨"a", ⟨0, 10⟩⟩ := by
  refine ⟨⟨by simp, ?_, by norm_num, fun r hr => ⟨_, rfl⟩, ?_⟩, by decide +kernel, ?_⟩
  · intro x hx; simp only [List.mem_cons, List.not_mem_nil, or_false] at hx
    rcases hx with rfl | rfl <;> constructor <;> norm_num
  · intro id f hf p
    simp only [Option.some.injEq] at hf
    subst hf
    simp only
    split
    · exact le_refl _
    · exact le_max_right _ _
  · rintro ⟨f, hf, h⟩
    simp only [↓reduceIte, Option.some.injEq] at hf
    subst hf
    norm_num at h

end Maliput.Props
