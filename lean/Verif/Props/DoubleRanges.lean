import Verif.Spec.DoubleRanges
import Verif.Lemmas.DoubleOrder
import Verif.Lemmas.Monad
import Mathlib.Tactic.FinCases

set_option autoImplicit false

/-! C125, C126, C127: ranges with the arithmetic of `double`. -/
namespace Maliput.Props

open Maliput.Dbl Maliput.Dbl.Spec

private theorem ge_iff (a b : Double) : ge a b = true ↔ Le b a := le_iff b a

/-! ## C125: NaN is refused -/

/-- C125: the ends of a range are numbers that are not negative, whatever was given to constructors and setters. -/
theorem srange_numbers {r : Dbl.SRange} (h : ReachableSRange r) : Le 0 r.s0 ∧ Le 0 r.s1 := by
  induction h with
  | default => exact ⟨by simp [zero_def], by simp [zero_def]⟩
  | make h =>
    simp only [Dbl.SRange.make, bind_ok, throwUnless_ok, pure_ok, ge_iff] at h
    obtain ⟨-, h1, -, h2, rfl⟩ := h
    exact ⟨h1, h2⟩
  | setS0 s0 h ih =>
    unfold Dbl.SRange.setS0 throwUnless
    by_cases hg : ge s0 0
    · rw [if_pos hg]; exact ⟨(ge_iff _ _).mp hg, ih.2⟩
    · rw [if_neg hg]; exact ih
  | setS1 s1 h ih =>
    unfold Dbl.SRange.setS1 throwUnless
    by_cases hg : ge s1 0
    · rw [if_pos hg]; exact ⟨ih.1, (ge_iff _ _).mp hg⟩
    · rw [if_neg hg]; exact ih

/-- A range is constructed, or an end of it set, exactly for numbers that are not negative; otherwise an exception is thrown and
nothing changes. -/
theorem srange_refuses (r : Dbl.SRange) (a b : Double) :
    (Le 0 a ∧ Le 0 b → Dbl.SRange.make a b = .ok ⟨a, b⟩) ∧ (¬ (Le 0 a ∧ Le 0 b) → Dbl.SRange.make a b = .error .throws) ∧
    (Le 0 a → r.setS0 a = ({ r with s0 := a }, .ok ()) ∧ r.setS1 a = ({ r with s1 := a }, .ok ())) ∧
    (¬ Le 0 a → r.setS0 a = (r, .error .throws) ∧ r.setS1 a = (r, .error .throws)) := by
  simp only [← ge_iff]
  cases ha : ge a 0 <;> cases hb : ge b 0 <;>
    simp [Dbl.SRange.make, Dbl.SRange.setS0, Dbl.SRange.setS1, throwUnless, ha, hb, bind, Except.bind, pure, Except.pure]

/-- The bounds of a lane straddle zero and are numbers. -/
theorem bounds_numbers {b : Bounds} (h : ReachableBounds b) : Le b.min 0 ∧ Le 0 b.max := by
  induction h with
  | default => exact ⟨by simp [zero_def], by simp [zero_def]⟩
  | make h =>
    simp only [Bounds.make, bind_ok, throwUnless_ok, pure_ok, ge_iff, le_iff] at h
    obtain ⟨-, h1, -, h2, rfl⟩ := h
    exact ⟨h1, h2⟩
  | setMin m h ih =>
    unfold Bounds.setMin throwUnless
    by_cases hg : le m 0
    · rw [if_pos hg]; exact ⟨(le_iff _ _).mp hg, ih.2⟩
    · rw [if_neg hg]; exact ih
  | setMax m h ih =>
    unfold Bounds.setMax throwUnless
    by_cases hg : ge m 0
    · rw [if_pos hg]; exact ⟨ih.1, (ge_iff _ _).mp hg⟩
    · rw [if_neg hg]; exact ih

/-- Bounds are constructed or set exactly if they straddle zero. -/
theorem bounds_refuse (r : Bounds) (a b : Double) :
    (Le a 0 ∧ Le 0 b → Bounds.make a b = .ok ⟨a, b⟩) ∧ (¬ (Le a 0 ∧ Le 0 b) → Bounds.make a b = .error .throws) ∧
    (Le a 0 → r.setMin a = ({ r with min := a }, .ok ())) ∧ (¬ Le a 0 → r.setMin a = (r, .error .throws)) ∧
    (Le 0 b → r.setMax b = ({ r with max := b }, .ok ())) ∧ (¬ Le 0 b → r.setMax b = (r, .error .throws)) := by
  simp only [← le_iff]
  have h : le 0 b = ge b 0 := rfl
  rw [h]
  cases ha : le a 0 <;> cases hb : ge b 0 <;>
    simp [Bounds.make, Bounds.setMin, Bounds.setMax, throwUnless, ha, hb, bind, Except.bind, pure, Except.pure]

/-- `saturate` gives the nearest number of the range for every number, infinities included; NaN is given back; bounds that are
NaN or in the wrong order are refused. -/
theorem saturate_double (x min max : Double) :
    (¬ Le min max → saturate x min max = .error .throws) ∧
    (Le min max → ∃ y, saturate x min max = .ok y ∧ (x = .nan → y = .nan) ∧
      (IsNumber x → Le min y ∧ Le y max ∧ (Le min x → Le x max → y = x) ∧ (¬ Le min x → y = min) ∧ (¬ Le x max → y = max))) := by
  constructor
  · intro h
    rw [← le_iff] at h
    simp [saturate, throwUnless, h, bind, Except.bind]
  · intro h
    have h' := (le_iff _ _).mpr h
    obtain ⟨hn, hx⟩ := h.numbers
    by_cases h1 : lt x min = true
    · refine ⟨min, by simp [saturate, throwUnless, h', h1, bind, Except.bind, pure, Except.pure], ?_, fun hxn => ?_⟩
      · rintro rfl; simp [lt] at h1
      · obtain ⟨-, -, h2⟩ := (lt_iff _ _).mp h1
        have h3 := (Le.total hxn hn).resolve_right h2
        exact ⟨le_refl_of hn, h, fun g => absurd g h2, fun _ => rfl, fun g => absurd (h3.trans h) g⟩
    · by_cases h2 : lt max x = true
      · refine ⟨max, by simp [saturate, throwUnless, h', h1, gt, h2, bind, Except.bind, pure, Except.pure], ?_, fun hxn => ?_⟩
        · rintro rfl; cases max <;> simp [lt] at h2
        · obtain ⟨-, -, h3⟩ := (lt_iff _ _).mp h2
          have h4 := (Le.total hxn hx).resolve_left h3
          exact ⟨h, le_refl_of hx, fun _ g => absurd g h3, fun g => absurd (h.trans h4) g, fun _ => rfl⟩
      · refine ⟨x, by simp [saturate, throwUnless, h', h1, gt, h2, bind, Except.bind, pure, Except.pure], fun g => g, fun hxn => ?_⟩
        have h3 : Le min x := by
          by_contra hc; exact h1 ((lt_iff _ _).mpr ⟨hxn, hn, hc⟩)
        have h4 : Le x max := by
          by_contra hc; exact h2 ((lt_iff _ _).mpr ⟨hx, hxn, hc⟩)
        exact ⟨h3, h4, fun _ _ => rfl, fun g => absurd h3 g, fun g => absurd h4 g⟩

/-- The limits of a speed limit rule are numbers, not negative and in order; others are refused. -/
theorem speedLimits_double (min max : Double) :
    (Le 0 min ∧ Le min max → speedLimits min max = .ok (min, max)) ∧
    (¬ (Le 0 min ∧ Le min max) → speedLimits min max = .error .throws) := by
  have ht : Le 0 min → Le min max → Le 0 max := fun h h' => h.trans h'
  simp only [← le_iff] at ht ⊢
  have h : le 0 min = ge min 0 := rfl
  have h' : le 0 max = ge max 0 := rfl
  rw [h]
  rw [h, h'] at ht
  revert ht
  cases ha : ge min 0 <;> cases hb : ge max 0 <;> cases hc : le min max <;>
    simp [speedLimits, throwUnless, ha, hb, hc, bind, Except.bind, pure, Except.pure]

/-- The corners of a box are numbers in order. -/
theorem box_numbers {min max : Fin 3 → Double} {tol : Double} {b : Box} (h : Box.make min max tol = .ok b) :
    b.min = min ∧ b.max = max ∧ b.tolerance = tol ∧ Le 0 tol ∧ ∀ i, Le (min i) (max i) := by
  simp only [Box.make, bind_ok, throwUnless_ok, pure_ok, ge_iff, le_iff] at h
  obtain ⟨-, h1, -, h2, -, h3, -, h4, rfl⟩ := h
  refine ⟨rfl, rfl, rfl, h1, fun i => ?_⟩
  fin_cases i
  exacts [h2, h3, h4]

/-- Boxes are constructed exactly from corners in order and a tolerance that is not negative. -/
theorem box_refuses (min max : Fin 3 → Double) (tol : Double) (h : ¬ (Le 0 tol ∧ ∀ i, Le (min i) (max i))) :
    Box.make min max tol = .error .throws := by
  have h' : ¬ (ge tol 0 = true ∧ le (min 0) (max 0) = true ∧ le (min 1) (max 1) = true ∧ le (min 2) (max 2) = true) := by
    simp only [ge_iff, le_iff]
    rintro ⟨h1, h2, h3, h4⟩
    refine h ⟨h1, fun i => ?_⟩
    fin_cases i
    exacts [h2, h3, h4]
  revert h'
  cases h1 : ge tol 0 <;> cases h2 : le (min 0) (max 0) <;> cases h3 : le (min 1) (max 1) <;> cases h4 : le (min 2) (max 2) <;>
    simp [Box.make, throwUnless, h1, h2, h3, h4, bind, Except.bind]

private theorem le_nan (a : Double) : le a .nan = false := by cases a <;> rfl
private theorem nan_le (a : Double) : le .nan a = false := rfl
private theorem lt_nan (a : Double) : lt a .nan = false := by cases a <;> rfl
private theorem add_nan (a : Double) : add a .nan = .nan := by cases a <;> rfl

/-- No lane and no box contains a position one of whose coordinates is NaN, nor any position if the tolerance is NaN. -/
theorem nan_never_inside :
    (∀ length r h tol s pr ph, s = .nan ∨ pr = .nan ∨ ph = .nan ∨ tol = .nan →
      laneContains length r h tol s pr ph = false) ∧
    (∀ (b : Box) (p : Fin 3 → Double), b.tolerance = .nan ∨ (∃ i, p i = .nan) → b.contains p = false) := by
  constructor
  · rintro length r h tol s pr ph (rfl | rfl | rfl | rfl) <;>
      simp [laneContains, isWithinRange, ge, nan_le, le_nan, add_nan]
  · rintro b p (h | ⟨i, h⟩)
    · simp [Box.contains, h, le_nan, add_nan]
    · fin_cases i <;> simp only [Fin.zero_eta, Fin.mk_one, Fin.reduceFinMk, Fin.isValue] at h <;>
        simp [Box.contains, ge, h, nan_le, le_nan]

/-- With NaN as tolerance, `Intersects` throws and `Contains` is false. -/
theorem srange_nan_tolerance {r o : Dbl.SRange} (hr : ReachableSRange r) (ho : ReachableSRange o) :
    r.intersects o .nan = .error .throws ∧ r.contains o .nan = .ok false := by
  have hmin : ∀ {a b : Double}, Le 0 a → Le 0 b → ge (stdMin a b) 0 = true := by
    intro a b ha hb
    unfold stdMin
    split
    · exact (ge_iff _ _).mpr hb
    · exact (ge_iff _ _).mpr ha
  have h1 := hmin (srange_numbers hr).1 (srange_numbers hr).2
  have h2 := hmin (srange_numbers ho).1 (srange_numbers ho).2
  have h3 : ∀ a, stdMax (sub a .nan) 0 = .nan := by
    intro a; simp [sub, Dbl.neg, add_nan, stdMax, lt]
  constructor
  · have hn : ge .nan 0 = false := rfl
    have hl : lt .nan 0 = false := rfl
    simp [Dbl.SRange.intersects, h1, h2, throwUnless, hl, Dbl.SRange.make, h3, hn, bind, Except.bind]
  · have h4 : stdMax (if r.withS = true then sub r.s0 .nan else sub r.s1 .nan) 0 = .nan := by
      split <;> exact h3 _
    have hn : ∀ a, ge a .nan = false := nan_le
    have hl : lt .nan 0 = false := rfl
    simp [Dbl.SRange.contains, h1, h2, throwUnless, hl, h4, hn, bind, Except.bind, pure, Except.pure]

example : Dbl.SRange.make 3 .nan = .error .throws ∧ Dbl.SRange.make .pinf 1 = .ok ⟨.pinf, 1⟩ ∧
    ((Dbl.SRange.mk 3 4).setS1 .nan) = (⟨3, 4⟩, .error .throws) ∧ Bounds.make .nan 1 = .error .throws ∧
    saturate 5 0 .nan = .error .throws ∧ saturate .pinf 0 4 = .ok 4 ∧ speedLimits .nan 4 = .error .throws := by decide +kernel

/-! ## C126: rounding -/

/-- The comparisons of a number with a range and a tolerance, when all are finite. -/
private theorem within_rounded {x lo hi tol : ℚ} (hx : Representable x) :
    (lo - tol ≤ x ∧ x ≤ hi + tol → Le (toDouble (lo - tol)) (.fin x) ∧ Le (.fin x) (toDouble (hi + tol))) ∧
    (Le (toDouble (lo - tol)) (.fin x) ∧ Le (.fin x) (toDouble (hi + tol)) →
      lo - tol - slack (lo - tol) ≤ x ∧ x ≤ hi + tol + slack (hi + tol)) :=
  ⟨fun h => ⟨toDouble_le hx h.1, le_toDouble hx h.2⟩, fun h => ⟨le_of_toDouble_le hx h.1, le_of_le_toDouble hx h.2⟩⟩

private theorem within_exact {x lo hi : ℚ} (hlo : Representable lo) (hhi : Representable hi) :
    (Le (toDouble (lo - 0)) (.fin x) ∧ Le (.fin x) (toDouble (hi + 0))) ↔ lo ≤ x ∧ x ≤ hi := by
  rw [sub_zero, add_zero, toDouble_representable hlo, toDouble_representable hhi, le_fin, le_fin]

private theorem isWithinRange_iff (x lo hi tol : ℚ) :
    isWithinRange (.fin x) (.fin lo) (.fin hi) (.fin tol) = true ↔
      Le (toDouble (lo - tol)) (.fin x) ∧ Le (.fin x) (toDouble (hi + tol)) := by
  unfold isWithinRange
  rw [Bool.and_eq_true, ge_iff, le_iff, sub_fin, add_fin]

/-- C126: with rounding, `Lane::Contains` accepts every position within the tolerance of the volume of the lane, and no position
further away than the tolerance and half a unit in the last place. -/
theorem lane_contains_rounded {length rmin rmax hmin hmax tol s r h : ℚ} (hs : Representable s) (hr : Representable r)
    (hh : Representable h) :
    let answer := laneContains (.fin length) ⟨.fin rmin, .fin rmax⟩ ⟨.fin hmin, .fin hmax⟩ (.fin tol) (.fin s) (.fin r) (.fin h)
    (((0 - tol ≤ s ∧ s ≤ length + tol) ∧ (rmin - tol ≤ r ∧ r ≤ rmax + tol) ∧ (hmin - tol ≤ h ∧ h ≤ hmax + tol)) →
      answer = true) ∧
    (answer = true →
      (0 - tol - slack (0 - tol) ≤ s ∧ s ≤ length + tol + slack (length + tol)) ∧
      (rmin - tol - slack (rmin - tol) ≤ r ∧ r ≤ rmax + tol + slack (rmax + tol)) ∧
      (hmin - tol - slack (hmin - tol) ≤ h ∧ h ≤ hmax + tol + slack (hmax + tol))) := by
  intro answer
  have hiff : answer = true ↔ (Le (toDouble (0 - tol)) (.fin s) ∧ Le (.fin s) (toDouble (length + tol))) ∧
      (Le (toDouble (rmin - tol)) (.fin r) ∧ Le (.fin r) (toDouble (rmax + tol))) ∧
      (Le (toDouble (hmin - tol)) (.fin h) ∧ Le (.fin h) (toDouble (hmax + tol))) := by
    simp only [answer, laneContains, Bool.and_eq_true, zero_def, isWithinRange_iff, and_assoc]
  rw [hiff]
  exact ⟨fun ⟨h1, h2, h3⟩ => ⟨(within_rounded hs).1 h1, (within_rounded hr).1 h2, (within_rounded hh).1 h3⟩,
    fun ⟨h1, h2, h3⟩ => ⟨(within_rounded hs).2 h1, (within_rounded hr).2 h2, (within_rounded hh).2 h3⟩⟩

private theorem box_contains_iff (b : Box) (lo hi x : Fin 3 → ℚ) (tol : ℚ) (hl : ∀ i, b.min i = .fin (lo i))
    (hh : ∀ i, b.max i = .fin (hi i)) (ht : b.tolerance = .fin tol) :
    b.contains (fun i => .fin (x i)) = true ↔
      ∀ i, Le (toDouble (lo i - tol)) (.fin (x i)) ∧ Le (.fin (x i)) (toDouble (hi i + tol)) := by
  simp only [Box.contains, hl, hh, ht, Bool.and_eq_true, ge_iff, le_iff, sub_fin, add_fin]
  constructor
  · rintro ⟨⟨h0, h1⟩, h2⟩ i
    fin_cases i
    exacts [h0, h1, h2]
  · intro h
    exact ⟨⟨h 0, h 1⟩, h 2⟩

/-- With rounding, a box contains every point of it, every point within its tolerance, and no point further away than that and
half a unit in the last place; without tolerance exactly its points. -/
theorem box_contains_rounded (b : Box) (lo hi x : Fin 3 → ℚ) (tol : ℚ) (hl : ∀ i, b.min i = .fin (lo i))
    (hh : ∀ i, b.max i = .fin (hi i)) (ht : b.tolerance = .fin tol) (hx : ∀ i, Representable (x i)) :
    ((∀ i, lo i - tol ≤ x i ∧ x i ≤ hi i + tol) → b.contains (fun i => .fin (x i)) = true) ∧
    (b.contains (fun i => .fin (x i)) = true →
      ∀ i, lo i - tol - slack (lo i - tol) ≤ x i ∧ x i ≤ hi i + tol + slack (hi i + tol)) ∧
    (tol = 0 → (∀ i, Representable (lo i) ∧ Representable (hi i)) →
      (b.contains (fun i => .fin (x i)) = true ↔ ∀ i, lo i ≤ x i ∧ x i ≤ hi i)) := by
  rw [box_contains_iff b lo hi x tol hl hh ht]
  refine ⟨fun h i => (within_rounded (hx i)).1 (h i), fun h i => (within_rounded (hx i)).2 (h i), ?_⟩
  rintro rfl hr
  exact forall_congr' fun i => within_exact (hr i).1 (hr i).2

/-- Rounding does not matter to whether two boxes have a point in common. -/
theorem box_intersected_rounded (b o : Box) (lo hi lo' hi' : Fin 3 → ℚ) (hl : ∀ i, b.min i = .fin (lo i))
    (hh : ∀ i, b.max i = .fin (hi i)) (hl' : ∀ i, o.min i = .fin (lo' i)) (hh' : ∀ i, o.max i = .fin (hi' i))
    (hb : ∀ i, lo i ≤ hi i) (ho : ∀ i, lo' i ≤ hi' i) :
    b.intersected o = true ↔ ∃ x : Fin 3 → ℚ, ∀ i, (lo i ≤ x i ∧ x i ≤ hi i) ∧ (lo' i ≤ x i ∧ x i ≤ hi' i) := by
  have h : b.intersected o = true ↔ ∀ i, lo' i ≤ hi i ∧ lo i ≤ hi' i := by
    simp only [Box.intersected, hl, hh, hl', hh', lt, Bool.not_eq_true', Bool.or_eq_false_iff, decide_eq_false_iff_not, not_lt]
    constructor
    · rintro ⟨⟨⟨⟨⟨h1, h2⟩, h3⟩, h4⟩, h5⟩, h6⟩ i
      fin_cases i
      exacts [⟨h1, h2⟩, ⟨h3, h4⟩, ⟨h5, h6⟩]
    · intro h
      exact ⟨⟨⟨⟨⟨(h 0).1, (h 0).2⟩, (h 1).1⟩, (h 1).2⟩, (h 2).1⟩, (h 2).2⟩
  rw [h]
  constructor
  · intro h
    exact ⟨fun i => max (lo i) (lo' i), fun i => ⟨⟨le_max_left _ _, max_le (hb i) (h i).1⟩, le_max_right _ _,
      max_le (h i).2 (ho i)⟩⟩
  · rintro ⟨x, hx⟩ i
    exact ⟨(hx i).2.1.trans (hx i).1.2, (hx i).1.1.trans (hx i).2.2⟩

/-- With rounding, a box is contained in another when every point of it is within the tolerance of the other, and not when one of
its points is further away than the tolerance and half a unit in the last place. -/
theorem box_contained_rounded (b o : Box) (lo hi lo' hi' : Fin 3 → ℚ) (tol : ℚ) (hl : ∀ i, b.min i = .fin (lo i))
    (hh : ∀ i, b.max i = .fin (hi i)) (ht : b.tolerance = .fin tol) (hl' : ∀ i, o.min i = .fin (lo' i))
    (hh' : ∀ i, o.max i = .fin (hi' i)) (ho : ∀ i, lo' i ≤ hi' i)
    (hr : ∀ i, Representable (lo' i) ∧ Representable (hi' i)) :
    ((∀ x : Fin 3 → ℚ, (∀ i, lo' i ≤ x i ∧ x i ≤ hi' i) → ∀ i, lo i - tol ≤ x i ∧ x i ≤ hi i + tol) →
      b.contained o = true) ∧
    (b.contained o = true → ∀ x : Fin 3 → ℚ, (∀ i, lo' i ≤ x i ∧ x i ≤ hi' i) →
      ∀ i, lo i - tol - slack (lo i - tol) ≤ x i ∧ x i ≤ hi i + tol + slack (hi i + tol)) ∧
    (tol = 0 → (∀ i, Representable (lo i) ∧ Representable (hi i)) →
      (b.contained o = true ↔ ∀ x : Fin 3 → ℚ, (∀ i, lo' i ≤ x i ∧ x i ≤ hi' i) → ∀ i, lo i ≤ x i ∧ x i ≤ hi i)) := by
  have h : b.contained o = true ↔ ∀ i, (Le (toDouble (lo i - tol)) (.fin (lo' i)) ∧ Le (.fin (lo' i)) (toDouble (hi i + tol))) ∧
      (Le (toDouble (lo i - tol)) (.fin (hi' i)) ∧ Le (.fin (hi' i)) (toDouble (hi i + tol))) := by
    simp only [Box.contained, Box.vertices, List.all_cons, List.all_nil, Bool.and_true, Bool.and_eq_true, Box.contains, hl, hh, ht,
      hl', hh', ge_iff, le_iff, sub_fin, add_fin, Matrix.cons_val_zero, Matrix.cons_val_one, Matrix.cons_val, Fin.forall_fin_succ,
      Fin.isValue]
    constructor
    · intro h
      simp_all
    · intro h
      simp_all
  rw [h]
  refine ⟨fun g i => ⟨(within_rounded (hr i).1).1 (g lo' (fun i => ⟨le_refl _, ho i⟩) i),
    (within_rounded (hr i).2).1 (g hi' (fun i => ⟨ho i, le_refl _⟩) i)⟩, fun g x hx i => ?_, ?_⟩
  · have g1 := (within_rounded (hr i).1).2 (g i).1
    have g2 := (within_rounded (hr i).2).2 (g i).2
    exact ⟨g1.1.trans (hx i).1, (hx i).2.trans g2.2⟩
  · rintro rfl hb
    constructor
    · intro g x hx i
      have g1 := (within_exact (hb i).1 (hb i).2).mp (g i).1
      have g2 := (within_exact (hb i).1 (hb i).2).mp (g i).2
      exact ⟨g1.1.trans (hx i).1, (hx i).2.trans g2.2⟩
    · intro g i
      exact ⟨(within_exact (hb i).1 (hb i).2).mpr (g lo' (fun i => ⟨le_refl _, ho i⟩) i),
        (within_exact (hb i).1 (hb i).2).mpr (g hi' (fun i => ⟨ho i, le_refl _⟩) i)⟩

private theorem ge_stdMin (a b : ℚ) (ha : 0 ≤ a) (hb : 0 ≤ b) : ge (.fin (min a b)) 0 = true := by
  rw [ge_iff, zero_def, le_fin]
  exact le_min ha hb

private theorem stdMax_number {d : Double} (hd : IsNumber d) :
    Le 0 (stdMax d 0) ∧ ∀ m : ℚ, 0 ≤ m → (lt (.fin m) (stdMax d 0) = true ↔ ¬ Le d (.fin m)) := by
  unfold stdMax
  by_cases h : lt d 0 = true
  · rw [if_pos h]
    refine ⟨by simp [zero_def], fun m hm => ?_⟩
    obtain ⟨h1, -, h2⟩ := (lt_iff _ _).mp h
    have h3 : Le d 0 := (Le.total hd (by simp [zero_def, IsNumber])).resolve_right h2
    have h4 : Le d (.fin m) := h3.trans (by simp [zero_def, hm])
    simp [lt, hm, h4]
  · rw [if_neg h]
    have h0 : IsNumber (0 : Double) := by simp [zero_def, IsNumber]
    refine ⟨?_, fun m hm => ?_⟩
    · by_contra hc
      exact h ((lt_iff _ _).mpr ⟨hd, h0, hc⟩)
    · rw [lt_iff]
      exact ⟨fun g => g.2.2, fun g => ⟨by simp [IsNumber], hd, g⟩⟩

private theorem lt_false_of_nonneg {t : ℚ} (h : 0 ≤ t) : lt (.fin t) 0 = false := by
  rw [zero_def]
  simp [lt, h]

private theorem intersects_iff {a0 a1 b0 b1 tol : ℚ} (ha0 : 0 ≤ a0) (ha1 : 0 ≤ a1) (hb0 : 0 ≤ b0) (hb1 : 0 ≤ b1)
    (ht : 0 ≤ tol) :
    ∃ b, (Dbl.SRange.mk (.fin a0) (.fin a1)).intersects ⟨.fin b0, .fin b1⟩ (.fin tol) = .ok b ∧
      (b = true ↔ Le (toDouble (min a0 a1 - tol)) (.fin (max b0 b1)) ∧
        Le (.fin (min b0 b1)) (toDouble (max a0 a1 + tol))) := by
  have hd := toDouble_isNumber (min a0 a1 - tol)
  have hm := stdMax_number hd
  have h1 : ge (stdMax (toDouble (min a0 a1 - tol)) 0) 0 = true := (ge_iff _ _).mpr hm.1
  have h2 : ge (toDouble (max a0 a1 + tol)) 0 = true := by
    rw [ge_iff, zero_def]
    exact le_toDouble representable_zero (add_nonneg (ha0.trans (le_max_left _ _)) ht)
  refine ⟨!(lt (.fin (max b0 b1)) (stdMax (toDouble (min a0 a1 - tol)) 0) ||
    gt (.fin (min b0 b1)) (toDouble (max a0 a1 + tol))), ?_, ?_⟩
  · simp only [Dbl.SRange.intersects, ge_stdMin _ _ ha0 ha1, ge_stdMin _ _ hb0 hb1, throwUnless, lt_false_of_nonneg ht,
      Dbl.SRange.make, stdMin_fin, stdMax_fin, sub_fin, add_fin, h1, h2]
    rfl
  · rw [Bool.not_eq_true', Bool.or_eq_false_iff, ← Bool.not_eq_true, ← Bool.not_eq_true,
      hm.2 _ (hb0.trans (le_max_left _ _)), not_not]
    unfold gt
    rw [lt_iff]
    have h3 := toDouble_isNumber (max a0 a1 + tol)
    have h4 : IsNumber (.fin (min b0 b1)) := by simp [IsNumber]
    simp only [h3, h4, true_and, not_not]

/-- With rounding, `SRange::Intersects` is true for every two ranges with points within the tolerance of each other, and for no
ranges further apart than the tolerance and half a unit in the last place; without tolerance exactly for ranges with a point in
common. -/
theorem srange_intersects_rounded {a0 a1 b0 b1 tol : ℚ} (ha0 : 0 ≤ a0) (ha1 : 0 ≤ a1) (hb0 : 0 ≤ b0) (hb1 : 0 ≤ b1)
    (ht : 0 ≤ tol) (hra : Representable a0 ∧ Representable a1) (hrb : Representable b0 ∧ Representable b1) :
    ∃ b, (Dbl.SRange.mk (.fin a0) (.fin a1)).intersects ⟨.fin b0, .fin b1⟩ (.fin tol) = .ok b ∧
      ((∃ x y, Between a0 a1 x ∧ Between b0 b1 y ∧ |x - y| ≤ tol) → b = true) ∧
      (b = true → ∃ x y, Between a0 a1 x ∧ Between b0 b1 y ∧
        |x - y| ≤ tol + max (slack (min a0 a1 - tol)) (slack (max a0 a1 + tol))) ∧
      (tol = 0 → (b = true ↔ ∃ x, Between a0 a1 x ∧ Between b0 b1 x)) := by
  obtain ⟨b, hb, hiff⟩ := intersects_iff ha0 ha1 hb0 hb1 ht
  refine ⟨b, hb, ?_, ?_, ?_⟩
  · rintro ⟨x, y, hx, hy, hxy⟩
    rw [abs_le] at hxy
    rw [hiff]
    exact ⟨toDouble_le (hrb.1.max hrb.2) (by linarith [hx.1, hy.2]), le_toDouble (hrb.1.min hrb.2) (by linarith [hx.2, hy.1])⟩
  · intro h
    obtain ⟨h1, h2⟩ := hiff.mp h
    have h1' := le_of_toDouble_le (hrb.1.max hrb.2) h1
    have h2' := le_of_le_toDouble (hrb.1.min hrb.2) h2
    have hm1 := le_max_left (slack (min a0 a1 - tol)) (slack (max a0 a1 + tol))
    have hm2 := le_max_right (slack (min a0 a1 - tol)) (slack (max a0 a1 + tol))
    have hs := slack_nonneg (min a0 a1 - tol)
    have hma : min a0 a1 ≤ max a0 a1 := min_le_max
    have hmb : min b0 b1 ≤ max b0 b1 := min_le_max
    rcases le_total (max b0 b1) (min a0 a1) with hc | hc
    · refine ⟨min a0 a1, max b0 b1, ⟨le_refl _, hma⟩, ⟨hmb, le_refl _⟩, ?_⟩
      rw [abs_of_nonneg (by linarith)]
      linarith
    · rcases le_total (max a0 a1) (min b0 b1) with hc' | hc'
      · refine ⟨max a0 a1, min b0 b1, ⟨hma, le_refl _⟩, ⟨le_refl _, hmb⟩, ?_⟩
        rw [abs_of_nonpos (by linarith)]
        linarith
      · refine ⟨max (min a0 a1) (min b0 b1), max (min a0 a1) (min b0 b1), ⟨le_max_left _ _, max_le hma hc'⟩,
          ⟨le_max_right _ _, max_le hc hmb⟩, ?_⟩
        rw [sub_self, abs_zero]
        linarith
  · rintro rfl
    rw [hiff, sub_zero, add_zero, toDouble_representable (hra.1.min hra.2), toDouble_representable (hra.1.max hra.2), le_fin,
      le_fin]
    constructor
    · rintro ⟨h1, h2⟩
      exact ⟨max (min a0 a1) (min b0 b1), ⟨le_max_left _ _, max_le min_le_max h2⟩, le_max_right _ _, max_le h1 min_le_max⟩
    · rintro ⟨x, hx, hy⟩
      exact ⟨hx.1.trans hy.2, hy.1.trans hx.2⟩

/-- With rounding, `SRange::Contains` is true for every range within the tolerance of the other, and for none that goes further
than the tolerance and half a unit in the last place. -/
theorem srange_contains_rounded {a0 a1 b0 b1 tol : ℚ} (ha0 : 0 ≤ a0) (ha1 : 0 ≤ a1) (hb0 : 0 ≤ b0) (hb1 : 0 ≤ b1)
    (ht : 0 ≤ tol) (hrb : Representable b0 ∧ Representable b1) :
    ∃ b, (Dbl.SRange.mk (.fin a0) (.fin a1)).contains ⟨.fin b0, .fin b1⟩ (.fin tol) = .ok b ∧
      ((∀ y, Between b0 b1 y → min a0 a1 - tol ≤ y ∧ y ≤ max a0 a1 + tol) → b = true) ∧
      (b = true → ∀ y, Between b0 b1 y → min a0 a1 - tol - slack (min a0 a1 - tol) ≤ y ∧
        y ≤ max a0 a1 + tol + slack (max a0 a1 + tol)) := by
  have hw : ∀ f : ℚ → ℚ → Double,
      (if decide (a0 < a1) = true then f a0 a1 else f a1 a0) = f (min a0 a1) (max a0 a1) := by
    intro f
    by_cases h : a0 < a1
    · rw [if_pos (decide_eq_true h), min_eq_left h.le, max_eq_right h.le]
    · rw [if_neg (by simpa using h), min_eq_right (not_lt.mp h), max_eq_left (not_lt.mp h)]
  have hd := toDouble_isNumber (min a0 a1 - tol)
  have hm := stdMax_number hd
  have hge : ∀ m : ℚ, 0 ≤ m → (ge (.fin m) (stdMax (toDouble (min a0 a1 - tol)) 0) = true ↔
      Le (toDouble (min a0 a1 - tol)) (.fin m)) := by
    intro m h0
    have := hm.2 m h0
    rw [lt_iff] at this
    have hn := hm.1.numbers.2
    rw [ge_iff]
    have h1 : IsNumber (.fin m) := by simp [IsNumber]
    simp only [hn, h1, true_and, not_iff_not] at this
    exact this
  refine ⟨(le (.fin b1) (toDouble (max a0 a1 + tol)) && ge (.fin b1) (stdMax (toDouble (min a0 a1 - tol)) 0)) &&
      (le (.fin b0) (toDouble (max a0 a1 + tol)) && ge (.fin b0) (stdMax (toDouble (min a0 a1 - tol)) 0)), ?_, ?_, ?_⟩
  · have h1 := hw (fun x _ => toDouble (x - tol))
    have h2 := hw (fun _ x => toDouble (x + tol))
    have h3 : (Dbl.SRange.mk (.fin a0) (.fin a1)).withS = decide (a0 < a1) := rfl
    simp only [Dbl.SRange.contains, ge_stdMin _ _ ha0 ha1, ge_stdMin _ _ hb0 hb1, throwUnless, lt_false_of_nonneg ht, h3,
      stdMin_fin, sub_fin, add_fin, h1, h2]
    rfl
  · intro h
    simp only [Bool.and_eq_true, le_iff, hge _ hb0, hge _ hb1]
    have h0 := h b0 ⟨min_le_left _ _, le_max_left _ _⟩
    have h1 := h b1 ⟨min_le_right _ _, le_max_right _ _⟩
    exact ⟨⟨le_toDouble hrb.2 h1.2, toDouble_le hrb.2 h1.1⟩, le_toDouble hrb.1 h0.2, toDouble_le hrb.1 h0.1⟩
  · intro h y hy
    simp only [Bool.and_eq_true, le_iff, hge _ hb0, hge _ hb1] at h
    obtain ⟨⟨h1, h2⟩, h3, h4⟩ := h
    have h1 := le_of_le_toDouble hrb.2 h1
    have h3 := le_of_le_toDouble hrb.1 h3
    have h2 := le_of_toDouble_le hrb.2 h2
    have h4 := le_of_toDouble_le hrb.1 h4
    exact ⟨(le_min h4 h2).trans hy.1, hy.2.trans (max_le h3 h1)⟩

private theorem slack_mono {q q' : ℚ} (h : |q| ≤ |q'|) : slack q ≤ slack q' :=
  max_le_max (div_le_div_of_nonneg_right h (by positivity)) (le_refl _)

private theorem representable_double {t : ℚ} (h : Representable t) (hb : 2 * |t| < overflow) : Representable (2 * |t|) := by
  obtain ⟨m, e, h1, h2, h3, rfl⟩ := h
  have hp : (0 : ℚ) < 2 ^ e := zpow_pos (by norm_num) e
  have ha : |(m : ℚ) * 2 ^ e| = (|m| : ℤ) * 2 ^ e := by rw [abs_mul, abs_of_pos hp]; push_cast; rfl
  rw [ha] at hb ⊢
  rcases lt_or_eq_of_le h3 with h3 | rfl
  · refine ⟨|m|, e + 1, by rwa [abs_abs], by omega, by omega, ?_⟩
    rw [zpow_add₀ (by norm_num)]
    ring
  · refine ⟨2 * |m|, 971, ?_, by norm_num, by norm_num, by push_cast; rw [mul_assoc]⟩
    have ho : overflow = (2 : ℚ) ^ 53 * 2 ^ (971 : ℤ) := by
      rw [overflow, zpow_ofNat, ← pow_add]
    rw [ho, ← mul_assoc] at hb
    have := lt_of_mul_lt_mul_right hb hp.le
    rw [abs_of_nonneg (by positivity)]
    exact_mod_cast this

private theorem fin_difference {a b : ℚ} (ha : 0 ≤ a) (hb : 0 ≤ b) (hra : Representable a) (hrb : Representable b) :
    ∃ x, toDouble (a - b) = .fin x ∧ x ≤ a ∧ -b ≤ x := by
  have h1 := toDouble_le hra (show a - b ≤ a by linarith)
  have h2 := le_toDouble hrb.neg (show -b ≤ a - b by linarith)
  cases h : toDouble (a - b) with
  | nan => rw [h] at h1; simp [Le] at h1
  | pinf => rw [h] at h1; simp [Le] at h1
  | ninf => rw [h] at h2; simp [Le] at h2
  | fin x =>
    rw [h, le_fin] at h1 h2
    exact ⟨x, rfl, h1, h2⟩

private theorem abs_rounded_ge {q x t : ℚ} (hx : toDouble q = .fin x) (ht : Representable t) (h : t ≤ |q|) : t ≤ |x| := by
  rcases abs_cases q with ⟨hq, -⟩ | ⟨hq, -⟩
  · have := le_toDouble ht (hq ▸ h)
    rw [hx, le_fin] at this
    exact this.trans (le_abs_self x)
  · have := toDouble_le ht.neg (show q ≤ -t by linarith)
    rw [hx, le_fin] at this
    exact (by linarith : t ≤ -x).trans (neg_le_abs x)

private theorem abs_rounded_le {q x : ℚ} (hx : toDouble q = .fin x) (hrx : Representable x) : |x| ≤ |q| + slack q := by
  have h1 := le_of_le_toDouble hrx (by rw [hx]; simp : Le (.fin x) (toDouble q))
  have h2 := le_of_toDouble_le hrx (by rw [hx]; simp : Le (toDouble q) (.fin x))
  rw [abs_le]
  constructor
  · linarith [neg_abs_le q]
  · linarith [le_abs_self q]

/-- A negative tolerance narrows a range. With rounding, one of at most half the length of the shorter range is accepted by
`SRange::Intersects` and `SRange::Contains`; one longer than that by more than the rounding is refused by both. The answers are
those for the narrower range, up to half a unit in the last place. -/
theorem srange_negative_tolerance {a0 a1 b0 b1 tol : ℚ} (ha0 : 0 ≤ a0) (ha1 : 0 ≤ a1) (hb0 : 0 ≤ b0) (hb1 : 0 ≤ b1)
    (ht : tol < 0) (hrt : Representable tol) (hra : Representable a0 ∧ Representable a1)
    (hrb : Representable b0 ∧ Representable b1) :
    (2 * |tol| ≤ min |a1 - a0| |b1 - b0| → ∃ b b',
      (Dbl.SRange.mk (.fin a0) (.fin a1)).intersects ⟨.fin b0, .fin b1⟩ (.fin tol) = .ok b ∧
      (Dbl.SRange.mk (.fin a0) (.fin a1)).contains ⟨.fin b0, .fin b1⟩ (.fin tol) = .ok b' ∧
      ((∃ x, Between b0 b1 x ∧ min a0 a1 + |tol| ≤ x ∧ x ≤ max a0 a1 - |tol|) → b = true) ∧
      (b = true → min a0 a1 + |tol| - slack (min a0 a1 + |tol|) ≤ max b0 b1 ∧
        min b0 b1 ≤ max a0 a1 - |tol| + slack (max a0 a1 - |tol|)) ∧
      ((∀ y, Between b0 b1 y → min a0 a1 + |tol| ≤ y ∧ y ≤ max a0 a1 - |tol|) → b' = true) ∧
      (b' = true → ∀ y, Between b0 b1 y → min a0 a1 + |tol| - slack (min a0 a1 + |tol|) ≤ y ∧
        y ≤ max a0 a1 - |tol| + slack (max a0 a1 - |tol|))) ∧
    (∀ l, l ∈ [|a1 - a0|, |b1 - b0|] → (l + slack l) / 2 + slack ((l + slack l) / 2) < |tol| →
      (Dbl.SRange.mk (.fin a0) (.fin a1)).intersects ⟨.fin b0, .fin b1⟩ (.fin tol) = .error .throws ∧
      (Dbl.SRange.mk (.fin a0) (.fin a1)).contains ⟨.fin b0, .fin b1⟩ (.fin tol) = .error .throws) := by
  obtain ⟨x, hx, -, -⟩ := fin_difference ha1 ha0 hra.2 hra.1
  obtain ⟨y, hy, -, -⟩ := fin_difference hb1 hb0 hrb.2 hrb.1
  have hrx : Representable x := by have := toDouble_isDouble (a1 - a0); rwa [hx] at this
  have hry : Representable y := by have := toDouble_isDouble (b1 - b0); rwa [hy] at this
  have hneg : lt (.fin tol) 0 = true := by rw [zero_def]; simp [lt, ht]
  have hsize : stdMin (Dbl.SRange.mk (.fin a0) (.fin a1)).size (Dbl.SRange.mk (.fin b0) (.fin b1)).size
      = .fin (min |x| |y|) := by
    simp only [Dbl.SRange.size, sub_fin, hx, hy, fabs, stdMin_fin]
  have hrabs : ∀ {z : ℚ}, Representable z → Representable |z| := by
    intro z hz
    rcases abs_choice z with h | h <;> rw [h]
    exacts [hz, hz.neg]
  have habs : |tol| = -tol := abs_of_neg ht
  refine ⟨fun hok => ?_, ?_⟩
  · have hcheck : ge (half (.fin (min |x| |y|))) (fabs (.fin tol)) = true := by
      rw [ge_iff]
      refine le_toDouble (hrabs hrt) ?_
      have hlt : 2 * |tol| < overflow := by
        refine lt_of_le_of_lt (hok.trans (min_le_left _ _)) (lt_of_le_of_lt ?_ (representable_lt (hra.1.max hra.2)).2)
        rw [abs_le]
        constructor <;> linarith [le_max_left a0 a1, le_max_right a0 a1]
      have h2 := representable_double hrt hlt
      have := le_min (abs_rounded_ge hx h2 (hok.trans (min_le_left _ _))) (abs_rounded_ge hy h2 (hok.trans (min_le_right _ _)))
      linarith
    have hd := toDouble_isNumber (min a0 a1 - tol)
    have hm := stdMax_number hd
    have h1 : ge (stdMax (toDouble (min a0 a1 - tol)) 0) 0 = true := (ge_iff _ _).mpr hm.1
    have hwide : |a1 - a0| ≤ max a0 a1 := by
      rw [abs_le]
      constructor <;> linarith [le_max_left a0 a1, le_max_right a0 a1]
    have h2 : ge (toDouble (max a0 a1 + tol)) 0 = true := by
      rw [ge_iff, zero_def]
      refine le_toDouble representable_zero ?_
      linarith [hok.trans (min_le_left _ _), abs_nonneg tol]
    have hw : ∀ f : ℚ → ℚ → Double,
        (if decide (a0 < a1) = true then f a0 a1 else f a1 a0) = f (min a0 a1) (max a0 a1) := by
      intro f
      by_cases h : a0 < a1
      · rw [if_pos (decide_eq_true h), min_eq_left h.le, max_eq_right h.le]
      · rw [if_neg (by simpa using h), min_eq_right (not_lt.mp h), max_eq_left (not_lt.mp h)]
    have hge : ∀ m : ℚ, 0 ≤ m → (ge (.fin m) (stdMax (toDouble (min a0 a1 - tol)) 0) = true ↔
        Le (toDouble (min a0 a1 - tol)) (.fin m)) := by
      intro m h0
      have := hm.2 m h0
      rw [lt_iff] at this
      have hn := hm.1.numbers.2
      rw [ge_iff]
      have h1 : IsNumber (.fin m) := by simp [IsNumber]
      simp only [hn, h1, true_and, not_iff_not] at this
      exact this
    have e1 : min a0 a1 + |tol| = min a0 a1 - tol := by rw [habs]; ring
    have e2 : max a0 a1 - |tol| = max a0 a1 + tol := by rw [habs]; ring
    simp only [e1, e2]
    refine ⟨!(lt (.fin (max b0 b1)) (stdMax (toDouble (min a0 a1 - tol)) 0) ||
      gt (.fin (min b0 b1)) (toDouble (max a0 a1 + tol))),
      (le (.fin b1) (toDouble (max a0 a1 + tol)) && ge (.fin b1) (stdMax (toDouble (min a0 a1 - tol)) 0)) &&
      (le (.fin b0) (toDouble (max a0 a1 + tol)) && ge (.fin b0) (stdMax (toDouble (min a0 a1 - tol)) 0)), ?_, ?_, ?_⟩
    · simp only [Dbl.SRange.intersects, ge_stdMin _ _ ha0 ha1, ge_stdMin _ _ hb0 hb1, throwUnless, hneg, hsize, hcheck,
        Dbl.SRange.make, stdMin_fin, stdMax_fin, sub_fin, add_fin, h1, h2]
      rfl
    · have h3 := hw (fun x _ => toDouble (x - tol))
      have h4 := hw (fun _ x => toDouble (x + tol))
      have h5 : (Dbl.SRange.mk (.fin a0) (.fin a1)).withS = decide (a0 < a1) := rfl
      simp only [Dbl.SRange.contains, ge_stdMin _ _ ha0 ha1, ge_stdMin _ _ hb0 hb1, throwUnless, hneg, hsize, hcheck, h5,
        stdMin_fin, sub_fin, add_fin, h3, h4]
      rfl
    · have hiff : (!(lt (.fin (max b0 b1)) (stdMax (toDouble (min a0 a1 - tol)) 0) ||
          gt (.fin (min b0 b1)) (toDouble (max a0 a1 + tol)))) = true ↔
          Le (toDouble (min a0 a1 - tol)) (.fin (max b0 b1)) ∧ Le (.fin (min b0 b1)) (toDouble (max a0 a1 + tol)) := by
        rw [Bool.not_eq_true', Bool.or_eq_false_iff, ← Bool.not_eq_true, ← Bool.not_eq_true,
          hm.2 _ (hb0.trans (le_max_left _ _)), not_not]
        unfold gt
        rw [lt_iff]
        have h3 := toDouble_isNumber (max a0 a1 + tol)
        have h4 : IsNumber (.fin (min b0 b1)) := by simp [IsNumber]
        simp only [h3, h4, true_and, not_not]
      rw [hiff]
      simp only [Bool.and_eq_true, le_iff, hge _ hb0, hge _ hb1]
      refine ⟨?_, ?_, ?_, ?_⟩
      · rintro ⟨z, hz, hz1, hz2⟩
        exact ⟨toDouble_le (hrb.1.max hrb.2) (hz1.trans hz.2), le_toDouble (hrb.1.min hrb.2) (hz.1.trans hz2)⟩
      · rintro ⟨g1, g2⟩
        exact ⟨le_of_toDouble_le (hrb.1.max hrb.2) g1, le_of_le_toDouble (hrb.1.min hrb.2) g2⟩
      · intro h
        have g0 := h b0 ⟨min_le_left _ _, le_max_left _ _⟩
        have g1 := h b1 ⟨min_le_right _ _, le_max_right _ _⟩
        exact ⟨⟨le_toDouble hrb.2 g1.2, toDouble_le hrb.2 g1.1⟩, le_toDouble hrb.1 g0.2, toDouble_le hrb.1 g0.1⟩
      · rintro ⟨⟨g1, g2⟩, g3, g4⟩ z hz
        have g1 := le_of_le_toDouble hrb.2 g1
        have g3 := le_of_le_toDouble hrb.1 g3
        have g2 := le_of_toDouble_le hrb.2 g2
        have g4 := le_of_toDouble_le hrb.1 g4
        exact ⟨(le_min g4 g2).trans hz.1, hz.2.trans (max_le g3 g1)⟩
  · intro l hl hlong
    have hq : min |x| |y| ≤ l + slack l := by
      simp only [List.mem_cons, List.not_mem_nil, or_false] at hl
      rcases hl with rfl | rfl
      · refine (min_le_left _ _).trans ((abs_rounded_le hx hrx).trans ?_)
        have := slack_mono (show |a1 - a0| ≤ |(|a1 - a0|)| by rw [abs_abs])
        linarith
      · refine (min_le_right _ _).trans ((abs_rounded_le hy hry).trans ?_)
        have := slack_mono (show |b1 - b0| ≤ |(|b1 - b0|)| by rw [abs_abs])
        linarith
    have hq0 : 0 ≤ min |x| |y| := le_min (abs_nonneg _) (abs_nonneg _)
    have hcheck : ge (half (.fin (min |x| |y|))) (fabs (.fin tol)) = false := by
      rw [← Bool.not_eq_true, ge_iff]
      intro hle
      have h1 := le_of_le_toDouble (hrabs hrt) hle
      have h2 : slack (min |x| |y| / 2) ≤ slack ((l + slack l) / 2) := by
        apply slack_mono
        rw [abs_of_nonneg (show 0 ≤ min |x| |y| / 2 by linarith), abs_of_nonneg (show 0 ≤ (l + slack l) / 2 by linarith)]
        linarith
      linarith
    constructor
    · simp only [Dbl.SRange.intersects, stdMin_fin, ge_stdMin _ _ ha0 ha1, ge_stdMin _ _ hb0 hb1, throwUnless, hneg, hsize, hcheck]
      rfl
    · simp only [Dbl.SRange.contains, stdMin_fin, ge_stdMin _ _ ha0 ha1, ge_stdMin _ _ hb0 hb1, throwUnless, hneg, hsize, hcheck]
      rfl

/-- The range from 0 to 0.3. -/
def upToPoint3 : Dbl.SRange := ⟨0, toDouble (3 / 10)⟩
/-- The range from 0.4 to 1. -/
def fromPoint4 : Dbl.SRange := ⟨toDouble (4 / 10), 1⟩

/-- With rounding the overlap test is not symmetric: with the tolerance 0.1, the range from 0 to 0.3 intersects the range from
0.4 to 1, which does not intersect it. -/
theorem srange_intersects_not_symmetric :
    ReachableSRange upToPoint3 ∧ ReachableSRange fromPoint4 ∧
    upToPoint3.intersects fromPoint4 (toDouble (1 / 10)) = .ok true ∧
    fromPoint4.intersects upToPoint3 (toDouble (1 / 10)) = .ok false :=
  ⟨.make (s0 := 0) (s1 := toDouble (3 / 10)) (by decide +kernel),
    .make (s0 := toDouble (4 / 10)) (s1 := 1) (by decide +kernel), by decide +kernel, by decide +kernel⟩

/-! ## C127: the range validator -/

private theorem fin_between {a b : ℚ} {d : Double} (h : Le (.fin a) d) (h' : Le d (.fin b)) : ∃ q, d = .fin q := by
  cases d <;> simp_all [Le]

private theorem le_of_fin_toDouble {q r : ℚ} (h : toDouble q = .fin r) : |r - q| ≤ slack q := by
  have : r = roundUnbounded q := by
    unfold toDouble at h
    by_cases h1 : overflow ≤ roundUnbounded q
    · rw [if_pos h1] at h
      cases h
    rw [if_neg h1] at h
    by_cases h2 : roundUnbounded q ≤ -overflow
    · rw [if_pos h2] at h
      cases h
    rw [if_neg h2] at h
    cases h
    rfl
  rw [this]
  exact roundUnbounded_error q

private theorem slack_le (q : ℚ) : slack q ≤ |q| / 2 ^ 53 + 1 / 2 ^ 1075 :=
  max_le (le_add_of_nonneg_right (by positivity)) (le_add_of_nonneg_left (by positivity))

private theorem infTimes_not_fin (q e : ℚ) : mul .pinf (.fin q) ≠ .fin e ∧ mul .ninf (.fin q) ≠ .fin e := by
  unfold mul infTimes
  by_cases h : q = 0
  · simp [h, Dbl.neg]
  · by_cases h' : 0 < q <;> simp [h, h', Dbl.neg]

private theorem relative_error {W w a eps e u : ℚ} (hW : 0 ≤ W) (hu : 0 ≤ u) (ha : a = |eps|)
    (hw : |w - W| ≤ W / 2 ^ 53 + u) (he : |e - w * eps| ≤ |w * eps| / 2 ^ 53 + u) :
    |e - W * eps| ≤ W * a / 2 ^ 51 + (1 + a) * (2 * u) := by
  have ha0 : 0 ≤ a := ha ▸ abs_nonneg eps
  have h1 : |e - W * eps| ≤ |e - w * eps| + |w - W| * a := by
    have : e - W * eps = (e - w * eps) + (w - W) * eps := by ring
    rw [this, ha, ← abs_mul]
    exact abs_add_le _ _
  have h2 : |w| ≤ W + (W / 2 ^ 53 + u) := by
    have h3 := abs_le.mp hw
    rw [abs_le]
    constructor <;> linarith
  have h3 : |w * eps| ≤ (W + (W / 2 ^ 53 + u)) * a := by
    rw [abs_mul, ← ha]
    exact mul_le_mul_of_nonneg_right h2 ha0
  have h4 : |w - W| * a ≤ (W / 2 ^ 53 + u) * a := mul_le_mul_of_nonneg_right hw ha0
  have h5 : 0 ≤ W * a := mul_nonneg hW ha0
  have h6 : 0 ≤ u * a := mul_nonneg hu ha0
  have h7 : (W + (W / 2 ^ 53 + u)) * a / 2 ^ 53 = W * a / 2 ^ 53 + W * a / 2 ^ 106 + u * a / 2 ^ 53 := by ring
  have h8 : (W / 2 ^ 53 + u) * a = W * a / 2 ^ 53 + u * a := by ring
  have h9 : |w * eps| / 2 ^ 53 ≤ (W + (W / 2 ^ 53 + u)) * a / 2 ^ 53 := by gcongr
  have h10 : (1 + a) * (2 * u) = 2 * u + 2 * (u * a) := by ring
  generalize W * a = p at *
  generalize u * a = q at *
  linarith

/-- C127: with rounding, what a validator returns is in the closed range, and is the number itself if that is further than the
epsilon, and half a unit in the last place, from the extremes of the range; no number within the tolerance of the range is
refused, and every number further away than that and half a unit in the last place is. -/
theorem validator_rounded_partial {min max tol eps : ℚ} {relative : Bool} {v : Dbl.RangeValidator}
    (hmin : Representable min) (hmax : Representable max)
    (hv : Dbl.RangeValidator.make (.fin min) (.fin max) (.fin tol) (.fin eps) relative = .ok v) :
    (∃ e, v.epsilon = .fin e ∧ 0 ≤ e ∧ e ≤ tol ∧ (relative = false → e = eps) ∧
      (relative = true → |e - (max - min) * eps| ≤ (max - min) * |eps| / 2 ^ 51 + (1 + |eps|) / 2 ^ 1074) ∧
      ∀ s, Representable s → ∀ d, v.apply (.fin s) = .ok d → ∃ r, d = .fin r ∧ min ≤ r ∧ r ≤ max ∧
        (min + e + slack (min + e) ≤ s → s ≤ max - e - slack (max - e) → r = s)) ∧
    (∀ s, Representable s → min - tol ≤ s → s ≤ max + tol → v.apply (.fin s) ≠ .error .throws) ∧
    (∀ s, Representable s → s < min - tol - slack (min - tol) ∨ max + tol + slack (max + tol) < s →
      v.apply (.fin s) = .error .throws) ∧
    v.apply .nan = .error .throws := by
  unfold Dbl.RangeValidator.make at hv
  obtain ⟨_, ht, hv⟩ := bind_ok.mp hv
  obtain ⟨_, h0, hv⟩ := bind_ok.mp hv
  obtain ⟨_, h1, hv⟩ := bind_ok.mp hv
  obtain ⟨_, h2, hv⟩ := bind_ok.mp hv
  obtain ⟨_, h3, hv⟩ := bind_ok.mp hv
  rw [throwUnless_ok] at ht h0 h1 h2 h3
  have hv := pure_ok.mp hv
  subst hv
  rw [ge_iff, zero_def] at h0
  rw [le_iff] at h1 h2 h3
  obtain ⟨e, he, he0, het⟩ : ∃ e, (if relative = true then mul (sub (.fin max) (.fin min)) (.fin eps) else .fin eps) = .fin e ∧
      0 ≤ e ∧ e ≤ tol := by
    obtain ⟨e, he⟩ := fin_between h0 h1
    rw [he, le_fin] at h0 h1
    exact ⟨e, he, h0, h1⟩
  rw [he, add_fin] at h2
  rw [he, sub_fin] at h3
  have hlo := le_toDouble hmin (le_add_of_nonneg_right he0)
  have hhi := toDouble_le hmax (sub_le_self max he0)
  obtain ⟨lo, elo⟩ := fin_between hlo h2
  obtain ⟨hi, ehi⟩ := fin_between h3 hhi
  rw [elo, le_fin] at hlo h2
  rw [ehi, le_fin] at hhi h3
  classical
  have happly : ∀ s, Dbl.RangeValidator.apply ⟨.fin min, .fin max, .fin tol, .fin e⟩ (.fin s) =
      (if Le (toDouble (min - tol)) (.fin s) ∧ Le (.fin s) (toDouble (max + tol)) then
        (if hi < lo then .error .ub else if s < lo then .ok (.fin lo) else if hi < s then .ok (.fin hi) else .ok (.fin s))
        else .error .throws) := by
    intro s
    unfold Dbl.RangeValidator.apply Dbl.RangeValidator.clamp
    rw [sub_fin, sub_fin, add_fin, add_fin, elo, ehi]
    by_cases ha : Le (toDouble (min - tol)) (.fin s)
    · by_cases hb : Le (.fin s) (toDouble (max + tol))
      · rw [if_pos (show Le (toDouble (min - tol)) (.fin s) ∧ Le (.fin s) (toDouble (max + tol)) from ⟨ha, hb⟩), (ge_iff _ _).mpr ha, (le_iff _ _).mpr hb]
        simp only [throwUnless, lt, decide_eq_true_eq]
        rfl
      · have hb' : le (.fin s) (toDouble (max + tol)) = false := by
          rw [← Bool.not_eq_true, le_iff]
          exact hb
        rw [if_neg (show ¬ (Le (toDouble (min - tol)) (.fin s) ∧ Le (.fin s) (toDouble (max + tol))) from fun h => hb h.2), (ge_iff _ _).mpr ha, hb']
        rfl
    · have ha' : ge (.fin s) (toDouble (min - tol)) = false := by
        rw [← Bool.not_eq_true, ge_iff]
        exact ha
      rw [if_neg (show ¬ (Le (toDouble (min - tol)) (.fin s) ∧ Le (.fin s) (toDouble (max + tol))) from fun h => ha h.1), ha']
      rfl
  simp only [he]
  refine ⟨⟨e, rfl, he0, het, ?_, ?_, ?_⟩, ?_, ?_, ?_⟩
  · rintro rfl
    simpa using he.symm
  · rintro rfl
    rw [if_pos rfl, sub_fin] at he
    have hle : min ≤ max := hlo.trans h2
    obtain ⟨w, hw⟩ : ∃ w, toDouble (max - min) = .fin w := by
      cases hd : toDouble (max - min) with
      | fin w => exact ⟨w, rfl⟩
      | nan => exact absurd hd (toDouble_isNumber _)
      | pinf => rw [hd] at he; exact absurd he (infTimes_not_fin eps e).1
      | ninf => rw [hd] at he; exact absurd he (infTimes_not_fin eps e).2
    have hw' := le_of_fin_toDouble hw
    rw [hw] at he
    have he' := le_of_fin_toDouble (q := w * eps) he
    have hs1 : slack (max - min) ≤ (max - min) / 2 ^ 53 + 1 / 2 ^ 1075 := by
      have := slack_le (max - min)
      rwa [abs_of_nonneg (by linarith)] at this
    have hs2 := slack_le (w * eps)
    have hu : (1 + |eps|) / 2 ^ 1074 = (1 + |eps|) * (2 * (1 / 2 ^ 1075)) := by
      have h : (2 : ℚ) ^ 1075 = 2 ^ 1074 * 2 := pow_succ 2 1074
      rw [h]
      generalize (2 : ℚ) ^ 1074 = p
      rw [div_eq_mul_inv, one_div, mul_inv]
      ring
    rw [hu]
    exact relative_error (by linarith) (by positivity) rfl (hw'.trans hs1) (he'.trans hs2)
  · intro s hs d hd
    rw [happly] at hd
    by_cases hw : Le (toDouble (min - tol)) (.fin s) ∧ Le (.fin s) (toDouble (max + tol))
    swap
    · rw [if_neg hw] at hd
      cases hd
    rw [if_pos hw] at hd
    by_cases hc : hi < lo
    · rw [if_pos hc] at hd
      cases hd
    rw [if_neg hc] at hd
    by_cases hc1 : s < lo
    · rw [if_pos hc1] at hd
      cases hd
      refine ⟨lo, rfl, hlo, h2, fun hfar _ => absurd hc1 (not_lt.mpr ?_)⟩
      have := le_of_fin_toDouble elo
      linarith [(abs_le.mp this).2]
    rw [if_neg hc1] at hd
    by_cases hc2 : hi < s
    · rw [if_pos hc2] at hd
      cases hd
      refine ⟨hi, rfl, h3, hhi, fun _ hfar => absurd hc2 (not_lt.mpr ?_)⟩
      have := le_of_fin_toDouble ehi
      linarith [(abs_le.mp this).1]
    rw [if_neg hc2] at hd
    cases hd
    exact ⟨s, rfl, hlo.trans (not_lt.mp hc1), (not_lt.mp hc2).trans hhi, fun _ _ => rfl⟩
  · intro s hs hs1 hs2
    rw [happly, if_pos (show Le (toDouble (min - tol)) (.fin s) ∧ Le (.fin s) (toDouble (max + tol)) from
      ⟨toDouble_le hs hs1, le_toDouble hs hs2⟩)]
    by_cases hc : hi < lo
    · simp [hc]
    · rw [if_neg hc]
      by_cases hc1 : s < lo
      · simp [hc1]
      · rw [if_neg hc1]
        by_cases hc2 : hi < s <;> simp [hc2]
  · intro s hs hf
    rw [happly, if_neg]
    rintro ⟨ha, hb⟩
    rcases hf with hf | hf
    · exact absurd (le_of_toDouble_le hs ha) (not_le.mpr hf)
    · exact absurd (le_of_le_toDouble hs hb) (not_le.mpr hf)
  · unfold Dbl.RangeValidator.apply
    have : ge .nan (sub (.fin min) (.fin tol)) = false := le_nan _
    rw [this]
    rfl

/-- A validator for the range from 100000 to 100001. -/
def farValidator : Dbl.RangeValidator := ⟨100000, 100001, toDouble (1 / 1000), toDouble (1 / 10 ^ 14)⟩

/-- With rounding, the extreme of the range itself is returned instead of a number inside the open range: the epsilon is lost. -/
theorem validator_returns_extreme :
    Dbl.RangeValidator.make 100000 100001 (toDouble (1 / 1000)) (toDouble (1 / 10 ^ 14)) true = .ok farValidator ∧
    farValidator.apply 100000 = .ok 100000 := by decide +kernel

/-- An epsilon above half the width is accepted, and then no number has a defined result. -/
theorem validator_wide_epsilon :
    ∃ v, Dbl.RangeValidator.make 0 1 1 (.fin (3 / 4)) false = .ok v ∧ v.apply (.fin (1 / 2)) = .error .ub :=
  ⟨⟨0, 1, 1, .fin (3 / 4)⟩, by decide +kernel, by decide +kernel⟩

private theorem representable_int (m : ℤ) (h : |m| < 2 ^ 53) : Representable m := ⟨m, 0, h, by norm_num, by norm_num, by simp⟩

-- The hypotheses of the theorems about rounding hold of ordinary ranges.
example : (∃ b, (Dbl.SRange.mk (.fin (0 : ℤ)) (.fin (3 : ℤ))).intersects ⟨.fin (4 : ℤ), .fin (5 : ℤ)⟩ (.fin (1 : ℤ)) = .ok b ∧ b = true) := by
  obtain ⟨b, hb, h, -⟩ := srange_intersects_rounded (a0 := (0 : ℤ)) (a1 := (3 : ℤ)) (b0 := (4 : ℤ)) (b1 := (5 : ℤ))
    (tol := (1 : ℤ)) (by norm_num) (by norm_num) (by norm_num) (by norm_num) (by norm_num)
    ⟨representable_int 0 (by norm_num), representable_int 3 (by norm_num)⟩
    ⟨representable_int 4 (by norm_num), representable_int 5 (by norm_num)⟩
  exact ⟨b, hb, h ⟨3, 4, by norm_num [Between], by norm_num [Between], by norm_num⟩⟩

example : ∃ v r, Dbl.RangeValidator.make (.fin (0 : ℤ)) (.fin (100 : ℤ)) (.fin (1 / 2 : ℚ)) (.fin (1 / 4 : ℚ)) false = .ok v ∧
    v.apply (.fin (50 : ℤ)) = .ok (.fin r) ∧ r = 50 := by
  refine ⟨⟨.fin (0 : ℤ), .fin (100 : ℤ), .fin (1 / 2), .fin (1 / 4)⟩, 50, ?_, ?_, rfl⟩ <;> decide +kernel

private theorem half_finite (x : ℚ) (hx : Representable x) : ∃ z, mul (.fin (1 / 2)) (.fin x) = .fin z := by
  have h1 := toDouble_le (hx.max representable_zero)
    (show 1 / 2 * x ≤ max x 0 by rcases le_total x 0 with h | h <;> [rw [max_eq_right h]; rw [max_eq_left h]] <;> linarith)
  have h2 := le_toDouble (hx.min representable_zero)
    (show min x 0 ≤ 1 / 2 * x by rcases le_total x 0 with h | h <;> [rw [min_eq_left h]; rw [min_eq_right h]] <;> linarith)
  exact fin_between h2 h1

/-- The position of a box with finite corners is the rounded midpoint, and in the box, wherever halving the corners is exact. With
one infinite corner it is at infinity, and with two it is NaN (`box_position_nan`). -/
theorem box_position_double {min max : Fin 3 → Double} {tol : Double} {b : Box} (h : Box.make min max tol = .ok b) (i : Fin 3) :
    (∀ x y, min i = .fin x → max i = .fin y → Representable (x / 2) → Representable (y / 2) →
      b.position i = toDouble ((x + y) / 2) ∧
      (Representable x → Representable y → Le (min i) (b.position i) ∧ Le (b.position i) (max i))) ∧
    (∀ x, Representable x → min i = .fin x → max i = .pinf → b.position i = .pinf) ∧
    (∀ y, Representable y → min i = .ninf → max i = .fin y → b.position i = .ninf) := by
  have hb : b.position i = add (mul (.fin (1 / 2)) (min i)) (mul (.fin (1 / 2)) (max i)) := by
    simp only [Box.make, bind_ok, throwUnless_ok, pure_ok] at h
    obtain ⟨_, -, _, -, _, -, _, -, rfl⟩ := h
    rfl
  have hhalf : ∀ x : ℚ, Representable (x / 2) → mul (.fin (1 / 2)) (.fin x) = .fin (x / 2) := by
    intro x hx
    show toDouble (1 / 2 * x) = _
    rw [show 1 / 2 * x = x / 2 by ring, toDouble_representable hx]
  have hp : mul (.fin (1 / 2)) .pinf = .pinf := by decide +kernel
  have hn : mul (.fin (1 / 2)) .ninf = .ninf := by decide +kernel
  refine ⟨fun x y hx hy hrx hry => ?_, fun x hr hx hy => ?_, fun y hr hx hy => ?_⟩
  · have hp : b.position i = toDouble ((x + y) / 2) := by
      rw [hb, hx, hy, hhalf x hrx, hhalf y hry, add_fin]
      congr 1
      ring
    refine ⟨hp, fun h1 h2 => ?_⟩
    have hxy : x ≤ y := by
      have := (box_numbers h).2.2.2.2 i
      rwa [hx, hy, le_fin] at this
    rw [hp, hx, hy]
    exact ⟨le_toDouble h1 (by linarith), toDouble_le h2 (by linarith)⟩
  · rw [hb, hx, hy, hp]
    obtain ⟨z, hz⟩ := half_finite x hr
    rw [hz]
    rfl
  · rw [hb, hx, hy, hn]
    obtain ⟨z, hz⟩ := half_finite y hr
    rw [hz]
    rfl

/-- The whole space: a box with infinite corners is made, and its position is NaN. -/
theorem box_position_nan :
    ∃ b, Dbl.Box.make (fun _ => .ninf) (fun _ => .pinf) 0 = .ok b ∧ b.position 0 = .nan :=
  ⟨_, rfl, by decide +kernel⟩

-- A box of the size of a car.
example : ∃ b, Box.make (fun _ => .fin (0 : ℤ)) (fun _ => .fin (3 : ℤ)) 0 = .ok b ∧ b.position 0 = .fin (3 / 2) ∧
    Le (.fin (0 : ℤ)) (b.position 0) ∧ Le (b.position 0) (.fin (3 : ℤ)) := by
  obtain ⟨b, hb⟩ : ∃ b, Box.make (fun _ => .fin (0 : ℤ)) (fun _ => .fin (3 : ℤ)) 0 = .ok b := ⟨_, rfl⟩
  have hr : Representable ((3 : ℤ) / 2 : ℚ) := ⟨3, -1, by norm_num, by norm_num, by norm_num, by norm_num⟩
  have h0 : Representable ((0 : ℤ) / 2 : ℚ) := by simpa using representable_zero
  obtain ⟨h1, h2⟩ := (box_position_double hb 0).1 (0 : ℤ) (3 : ℤ) rfl rfl h0 hr
  refine ⟨b, hb, ?_, h2 (representable_int 0 (by norm_num)) (representable_int 3 (by norm_num))⟩
  rw [h1]
  decide +kernel

-- Shrinking the range from 0 to 3 by 1/2 on each side.
example : ∃ b b', (Dbl.SRange.mk (.fin (0 : ℤ)) (.fin (3 : ℤ))).intersects ⟨.fin (1 : ℤ), .fin (2 : ℤ)⟩ (.fin (-1 / 2)) = .ok b ∧
    (Dbl.SRange.mk (.fin (0 : ℤ)) (.fin (3 : ℤ))).contains ⟨.fin (1 : ℤ), .fin (2 : ℤ)⟩ (.fin (-1 / 2)) = .ok b' ∧
    b = true ∧ b' = true := by
  obtain ⟨b, b', h1, h2, h3, -, h4, -⟩ := (srange_negative_tolerance (a0 := (0 : ℤ)) (a1 := (3 : ℤ)) (b0 := (1 : ℤ))
    (b1 := (2 : ℤ)) (tol := -1 / 2) (by norm_num) (by norm_num) (by norm_num) (by norm_num) (by norm_num)
    ⟨-1, -1, by norm_num, by norm_num, by norm_num, by norm_num⟩
    ⟨representable_int 0 (by norm_num), representable_int 3 (by norm_num)⟩
    ⟨representable_int 1 (by norm_num), representable_int 2 (by norm_num)⟩).1 (by norm_num [abs_of_neg, abs_of_pos])
  refine ⟨b, b', h1, h2, h3 ⟨1, ?_, ?_, ?_⟩, h4 ?_⟩
  · norm_num [Between]
  · norm_num [abs_of_neg]
  · norm_num [abs_of_neg]
  · intro y hy
    norm_num [Between] at hy
    norm_num [abs_of_neg]
    constructor <;> linarith [hy.1, hy.2]

-- Shrinking it by 2 is refused.
example : (Dbl.SRange.mk (.fin (0 : ℤ)) (.fin (3 : ℤ))).intersects ⟨.fin (1 : ℤ), .fin (2 : ℤ)⟩ (.fin (-2 : ℤ)) = .error .throws :=
  ((srange_negative_tolerance (a0 := (0 : ℤ)) (a1 := (3 : ℤ)) (b0 := (1 : ℤ)) (b1 := (2 : ℤ)) (tol := (-2 : ℤ)) (by norm_num)
    (by norm_num) (by norm_num) (by norm_num) (by norm_num) (representable_int (-2) (by norm_num))
    ⟨representable_int 0 (by norm_num), representable_int 3 (by norm_num)⟩
    ⟨representable_int 1 (by norm_num), representable_int 2 (by norm_num)⟩).2 3 (by norm_num)
    (by unfold slack; decide +kernel)).1

-- A box in a larger one.
example (b o : Box) (hb : b = ⟨fun _ => .fin (0 : ℤ), fun _ => .fin (3 : ℤ), 0, fun _ => 0⟩)
    (ho : o = ⟨fun _ => .fin (1 : ℤ), fun _ => .fin (2 : ℤ), 0, fun _ => 0⟩) : b.contained o = true := by
  subst hb ho
  refine (box_contained_rounded _ _ (fun _ => (0 : ℤ)) (fun _ => (3 : ℤ)) (fun _ => (1 : ℤ)) (fun _ => (2 : ℤ)) 0 (fun _ => rfl)
    (fun _ => rfl) zero_def (fun _ => rfl) (fun _ => rfl) (fun _ => by norm_num)
    (fun _ => ⟨representable_int 1 (by norm_num), representable_int 2 (by norm_num)⟩)).1 ?_
  intro x hx i
  have := hx i
  norm_num at this ⊢
  constructor <;> linarith [this.1, this.2]

end Maliput.Props
