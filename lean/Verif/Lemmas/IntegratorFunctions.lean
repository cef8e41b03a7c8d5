import Verif.Lemmas.IntegratorDense
import Verif.Lemmas.IntegratorValues
import Verif.Lemmas.PiecewiseShape

set_option autoImplicit false
set_option linter.unusedSectionVars false

/-! Lemmas for the integrators: the functions with dense output. -/
namespace Maliput.Ode

open Maliput Poly Piecewise Spec Piecewise.Spec
open Maliput.RouteGraph (Stop)

variable {R κ : Type} [Field R] [LinearOrder R] [IsStrictOrderedRing R] [DecidableEq κ]
variable {c : Setup R κ} {s s' : State R κ}

/-- The curve of a dense output. -/
def curveOf (c : Setup R κ) (k : κ) (l : List (R × R)) (t : R) : R :=
  evalPieces 0 (saturated (hermite c k l) t) (hermite c k l).breaks (hermite c k l).polynomials

theorem pieceOf_value (c : Setup R κ) (k : κ) (a b : R × R) (t : R) (h : b.1 - a.1 ≠ 0) :
    derivAt 0 (t - a.1) (pieceOf c k a b).monomials = cubic (c.rhs k) a b t := by
  unfold pieceOf
  rw [hermiteQ_value _ _ _ h]
  simp only [cubic, Setup.rhs]
  field_simp
  ring

theorem curveOf_interpolates {k : κ} {l : List (R × R)} (h2 : 2 ≤ l.length) (ha : Apart (l.map (·.1))) :
    Interpolates (c.rhs k) l (curveOf c k l) := by
  rintro l1 a b r rfl t h1 h2'
  have hv := hermite_valid c k h2 ha
  have hi : l1.length + 1 < ((l1 ++ a :: b :: r).map (·.1)).length := by simp
  have hg := gap_ne ha l1.length hi
  have e0 : ((l1 ++ a :: b :: r).map (·.1))[l1.length]'(by omega) = a.1 := by simp
  have e1 : ((l1 ++ a :: b :: r).map (·.1))[l1.length + 1] = b.1 := by simp [List.getElem_append_right]
  have := hermitePP_eval (by simp) (by simp) (by simpa using h2) ha 0 (by norm_num) l1.length hi t (by rw [e0]; exact h1)
    (by rw [e1]; exact h2') (ys := (l1 ++ a :: b :: r).map (·.2)) (ds := (l1 ++ a :: b :: r).map fun p => c.f p.1 p.2 k)
  rw [e0, e1] at hg
  have hv' := hv.evalDerivative t 0
  unfold hermite at hv'
  rw [this] at hv'
  have hv'' := (Except.ok.inj hv').symm
  unfold curveOf hermite
  rw [hv'', ← pieceOf_value c k a b t hg.ne']
  unfold pieceOf
  simp [List.getElem_append_right]

/-- The function that a call returns. -/
theorem intervalFunction_curve (hu : Usable c) (n m : Nat) (p0 p1 : R) (k : κ) (tolerance epsilon : R) (s : State R κ)
    (g : R → Except Err R) (h : (intervalFunction c n m p0 p1 k tolerance epsilon s).2 = .ok g) :
    ∃ knots curve, Steps (c.rhs k) (Accurate (c.rhs k) c.maxStep (min c.accuracy (1 / 10))) c.t0 c.x0 knots ∧
      knots.getLast? = some (p1, (intervalFunction c n m p0 p1 k tolerance epsilon s).1.state) ∧ 2 ≤ knots.length ∧
      Interpolates (c.rhs k) knots curve ∧ c.t0 ≤ p0 ∧
      ∀ p, g p = if p0 ≤ p1 ∧ |max p0 (min p p1) - p| < tolerance then .ok (curve (max p0 (min p p1))) else .error .throws := by
  obtain ⟨d, e1, e2, rfl⟩ := intervalFunction_ok h
  rw [intervalFunction_fst]
  obtain ⟨l, h1, h2, h3, h4, rfl⟩ := denseSolve_dense hu n m p1 k s d e1
  have hv := hermite_valid c k h3 h4
  have hf : first (hermite c k l) = c.t0 := by
    unfold first; rw [hermite_breaks]
    have := h1.1
    cases l with
    | nil => cases this
    | cons x l => cases this; rfl
  have hl : last (hermite c k l) = p1 := by
    obtain ⟨l', rfl⟩ := List.getLast?_eq_some_iff.1 h2
    exact last_hermite c k l' _
  have h0 := (checkTimes_ok hv).1 e2
  rw [hf] at h0
  refine ⟨l, curveOf c k l, h1, h2, h3, curveOf_interpolates h3 h4, h0.1, fun p => ?_⟩
  rw [denseFunction_eq]
  by_cases hp : p0 ≤ p1 ∧ |max p0 (min p p1) - p| < tolerance
  · rw [if_pos hp, if_pos hp, denseEvaluate_eq hv, if_pos, hv.evalDerivative]
    · rfl
    · rw [hf, hl]
      exact ⟨h0.1.trans (le_max_left _ _), max_le hp.1 (min_le_right _ _)⟩
  · rw [if_neg hp, if_neg hp]

/-- The ends of a cubic piece. -/
theorem cubic_start (f : R → R → R) (a b : R × R) : cubic f a b a.1 = a.2 := by
  simp [cubic]

theorem cubic_end (f : R → R → R) (a b : R × R) (h : b.1 - a.1 ≠ 0) : cubic f a b b.1 = b.2 := by
  simp only [cubic, div_self h]; ring

/-- Two neighbouring points of a run. -/
theorem Spec.Steps.pair {f : R → R → R} {allowed : R → R → R → Prop} {t0 x0 : R} {l1 r : List (R × R)} {a b : R × R}
    (h : Steps f allowed t0 x0 (l1 ++ a :: b :: r)) : ∃ d, allowed a.1 a.2 d ∧ b = (a.1 + d, kutta f a.1 a.2 d) := by
  have := h.2
  rw [List.isChain_append] at this
  exact (List.isChain_cons_cons.1 this.2.1).1

/-- A run up to one of its points. -/
theorem Spec.Steps.upTo {f : R → R → R} {allowed : R → R → R → Prop} {t0 x0 : R} {l1 r : List (R × R)} {a : R × R}
    (h : Steps f allowed t0 x0 (l1 ++ a :: r)) : Reaches f allowed t0 x0 a.1 a.2 := by
  refine ⟨l1 ++ [a], ⟨?_, ?_⟩, by simp⟩
  · have := h.1
    cases l1 with
    | nil => simpa using this
    | cons x l => simpa using this
  · have := h.2
    rw [show l1 ++ a :: r = (l1 ++ [a]) ++ r by simp, List.isChain_append] at this
    exact this.1

/-- The points of a run are not after its last one. -/
theorem Spec.Steps.le_last {f : R → R → R} {allowed : R → R → R → Prop} {t0 x0 : R} {l1 r : List (R × R)} {a d : R × R}
    (h : Steps f allowed t0 x0 (l1 ++ a :: r)) (hd : (l1 ++ a :: r).getLast? = some d) (hp : ∀ t x h, allowed t x h → 0 < h) :
    a.1 ≤ d.1 := by
  have hl : ∀ (r : List (R × R)) (a : R × R), (a :: r).getLast? = some d →
      (a :: r).IsChain (fun a b => ∃ h, allowed a.1 a.2 h ∧ b = (a.1 + h, kutta f a.1 a.2 h)) → a.1 ≤ d.1 := by
    intro r
    induction r with
    | nil => intro b hb _; cases hb; exact le_refl _
    | cons y r ih =>
      intro b hb hch
      obtain ⟨⟨h', hh, hy⟩, hch'⟩ := List.isChain_cons_cons.1 hch
      have := ih y (by rwa [List.getLast?_cons_cons] at hb) hch'
      rw [hy] at this
      have h2 := hp _ _ _ hh
      dsimp only at this
      linarith
  have ch := h.2
  rw [List.isChain_append] at ch
  exact hl r a (by rwa [List.getLast?_append_of_ne_nil _ (by simp)] at hd) ch.2.1

/-- Between which points of a list a time lies. -/
theorem exists_between : ∀ (l : List (R × R)) (x y : R × R), l.head? = some x → l.getLast? = some y → 2 ≤ l.length → ∀ t,
    x.1 ≤ t → t ≤ y.1 → ∃ l1 a b r, l = l1 ++ a :: b :: r ∧ a.1 ≤ t ∧ t ≤ b.1
  | [], _, _, h, _, _, _, _, _ => by cases h
  | [_], _, _, _, _, h, _, _, _ => by simp at h
  | [a, b], x, y, hx, hy, _, t, h1, h2 => by
    cases hx; cases hy
    exact ⟨[], _, _, [], rfl, h1, h2⟩
  | a :: b :: d :: r, x, y, hx, hy, _, t, h1, h2 => by
    cases hx
    by_cases hb : t ≤ b.1
    · exact ⟨[], _, _, _, rfl, h1, hb⟩
    · obtain ⟨l1, u, v, r', e, q1, q2⟩ := exists_between (b :: d :: r) b y rfl (by rwa [List.getLast?_cons_cons] at hy)
        (by simp) t (not_le.1 hb).le h2
      exact ⟨a :: l1, u, v, r', by rw [e]; rfl, q1, q2⟩

/-- A curve that does not fall between neighbouring points does not fall. -/
theorem glue {curve : R → R} : ∀ (l : List (R × R)) (x y : R × R), l.head? = some x → l.getLast? = some y →
    (∀ l1 a b r, l = l1 ++ a :: b :: r → ∀ s t, a.1 ≤ s → s ≤ t → t ≤ b.1 → curve s ≤ curve t) →
    (∀ l1 a b r, l = l1 ++ a :: b :: r → a.1 ≤ b.1) →
    ∀ s t, x.1 ≤ s → s ≤ t → t ≤ y.1 → curve s ≤ curve t
  | [], _, _, h, _, _, _, _, _, _, _, _ => by cases h
  | [a], x, y, hx, hy, _, _, s, t, h1, h2, h3 => by
    cases hx; cases hy
    rw [show s = t from le_antisymm h2 (h3.trans h1)]
  | a :: b :: r, x, y, hx, hy, hp, ho, s, t, h1, h2, h3 => by
    cases hx
    have hpair := hp [] a b r rfl
    have hrest := glue (b :: r) b y rfl (by rwa [List.getLast?_cons_cons] at hy)
      (fun l1 u v r' e => hp (a :: l1) u v r' (by rw [e]; rfl)) (fun l1 u v r' e => ho (a :: l1) u v r' (by rw [e]; rfl))
    rcases le_total t b.1 with ht | ht
    · exact hpair s t h1 h2 ht
    · rcases le_total b.1 s with hs | hs
      · exact hrest s t hs h2 h3
      · exact (hpair s b.1 h1 hs (le_refl _)).trans (hrest b.1 t (le_refl _) ht h3)

/-- A cubic piece does not fall if both slopes are between zero and three times the slope between the points. -/
theorem cubic_monotone (f : R → R → R) (a b : R × R) (h : 0 < b.1 - a.1) (ha0 : 0 ≤ f a.1 a.2) (hb0 : 0 ≤ f b.1 b.2)
    (ha : f a.1 a.2 * (b.1 - a.1) ≤ 3 * (b.2 - a.2)) (hb : f b.1 b.2 * (b.1 - a.1) ≤ 3 * (b.2 - a.2)) {s t : R} (hs : a.1 ≤ s)
    (hst : s ≤ t) (ht : t ≤ b.1) : cubic f a b s ≤ cubic f a b t := by
  let e : Setup R Unit := ⟨fun u x _ => f u x, id, 0, 0, (), 0, 0, 0⟩
  have he : e.rhs () = f := rfl
  have hab : 0 ≤ b.2 - a.2 := by nlinarith
  have hl : ∀ d, 0 ≤ d → d * (b.1 - a.1) ≤ 3 * (b.2 - a.2) → Limited d ((b.2 - a.2) / (b.1 - a.1)) := by
    intro d h0 hd
    have : d ≤ 3 * ((b.2 - a.2) / (b.1 - a.1)) := by rw [← mul_div_assoc, le_div_iff₀ h]; exact hd
    have hp : 0 ≤ (b.2 - a.2) / (b.1 - a.1) := div_nonneg hab h.le
    exact ⟨fun _ => ⟨h0, this⟩, fun h' => ⟨by linarith, by linarith⟩⟩
  rw [← he, ← pieceOf_value e () a b s h.ne', ← pieceOf_value e () a b t h.ne']
  exact hermiteQ_mono (a := (a.1, a.2, f a.1 a.2)) (b := (b.1, b.2, f b.1 b.2)) h (hl _ ha0 ha) (hl _ hb0 hb) (by linarith)
    (by linarith) (by linarith) (by dsimp only; linarith)

/-- A cubic piece between points of a cubic polynomial. -/
theorem cubic_exact (f : R → R → R) (a b : R × R) (h : b.1 - a.1 ≠ 0) (q0 q1 q2 q3 : R)
    (h1 : a.2 = q0 + q1 * a.1 + q2 * a.1 ^ 2 + q3 * a.1 ^ 3) (h2 : b.2 = q0 + q1 * b.1 + q2 * b.1 ^ 2 + q3 * b.1 ^ 3)
    (h3 : f a.1 a.2 = q1 + 2 * q2 * a.1 + 3 * q3 * a.1 ^ 2) (h4 : f b.1 b.2 = q1 + 2 * q2 * b.1 + 3 * q3 * b.1 ^ 2) (t : R) :
    cubic f a b t = q0 + q1 * t + q2 * t ^ 2 + q3 * t ^ 3 := by
  simp only [cubic, h3, h4]
  rw [h1, h2]
  field_simp
  ring_nf

/-- Kutta's method for a quadratic polynomial. -/
theorem kutta_quadratic {f : R → R → R} {c0 c1 c2 : R} (hf : ∀ t x, f t x = c0 + c1 * t + c2 * t ^ 2) (t x h : R) :
    kutta f t x h = x + (c0 * h + c1 / 2 * ((t + h) ^ 2 - t ^ 2) + c2 / 3 * ((t + h) ^ 3 - t ^ 3)) := by
  simp only [kutta, hf]
  field_simp
  ring

/-! The dense output stays off. -/

theorem step_off (f : R → R → κ → R) (hd : s.dense = none) (h : R) : (step f s h).1.dense = none := by
  unfold step
  rw [hd]
  exact hd

theorem attempts_off (c : Setup R κ) (hmax : R) : ∀ (n : Nat) (s : State R κ) (attempt : R) (atMin : Bool), s.dense = none →
    (attempts c hmax n s attempt atMin).1.dense = none
  | 0, s, _, _, hd => hd
  | n + 1, s, attempt, atMin, hd => by
    have := step_off c.f hd (stepSize c.maxStep hmax attempt)
    unfold attempts
    dsimp only
    generalize step c.f s (stepSize c.maxStep hmax attempt) = r at this ⊢
    obtain ⟨s', r⟩ := r
    dsimp only at this
    cases r with
    | error e => exact this
    | ok err =>
      dsimp only
      cases calcAdjusted c.root s'.accuracy c.maxStep s'.time err (stepSize c.maxStep hmax attempt) atMin with
      | error e => exact this
      | ok v =>
        obtain ⟨b, next, at'⟩ := v
        cases b with
        | true => exact this
        | false =>
          rw [this]
          exact attempts_off c hmax n _ next at' rfl

theorem integrateNoFurther_off (c : Setup R κ) (n : Nat) (s : State R κ) (boundary : R) (hd : s.dense = none) :
    (integrateNoFurther c n s boundary).1.dense = none := by
  unfold integrateNoFurther
  split
  · exact hd
  · split
    · exact hd
    · dsimp only
      generalize (if s.time + c.maxStep < boundary then s.time + c.maxStep else boundary) = target
      split
      · exact hd
      · have := attempts_off c (target - s.time) n s (s.ideal.getD c.initialStep) false hd
        unfold stepOnce
        generalize attempts c (target - s.time) n s (s.ideal.getD c.initialStep) false = r at this ⊢
        obtain ⟨s', r⟩ := r
        cases r with
        | error e => exact this
        | ok full => dsimp only at this ⊢; split <;> exact this

theorem integrateTo_off (c : Setup R κ) (n : Nat) (tf : R) : ∀ (m : Nat) (s : State R κ), s.dense = none →
    (integrateTo c n tf m s).1.dense = none
  | 0, s, hd => hd
  | m + 1, s, hd => by
    have := integrateNoFurther_off c n s (min tf (s.time + c.maxStep)) hd
    unfold integrateTo
    generalize integrateNoFurther c n s (min tf (s.time + c.maxStep)) = r at this ⊢
    obtain ⟨s', r⟩ := r
    cases r with
    | error e => exact this
    | ok u =>
      dsimp only at this ⊢
      split
      · exact integrateTo_off c n tf m s' this
      · exact this

theorem solve_off (c : Setup R κ) (n m : Nat) (tf : R) (k : κ) (s : State R κ) (hd : s.dense = none) :
    (solve c n m tf k s).1.dense = none := by
  unfold solve
  split
  · exact hd
  · dsimp only
    have h1 : (if k ≠ s.current ∨ tf < s.time then reset c k s else s).dense = none := by split <;> [rfl; exact hd]
    generalize (if k ≠ s.current ∨ tf < s.time then reset c k s else s) = s1 at h1 ⊢
    have h2 : (if s1.initialized = false then setUp c s1 else (s1, .ok ())).1.dense = none := by
      split
      · unfold setUp
        split
        · exact h1
        · split
          · exact h1
          · split <;> exact h1
      · exact h1
    generalize (if s1.initialized = false then setUp c s1 else (s1, .ok ())) = r at h2 ⊢
    obtain ⟨s2, r⟩ := r
    cases r with
    | error e => exact h2
    | ok u =>
      have := integrateTo_off c n tf m s2 h2
      dsimp only
      generalize integrateTo c n tf m s2 = r at this ⊢
      obtain ⟨s3, r⟩ := r
      cases r <;> exact this

/-- The dense output is off if every function that was asked for has been made. -/
theorem after_off (hu : Usable c) (n m : Nat) (calls : List (Call R κ))
    (hc : ∀ pre p0 p1 k tolerance epsilon post, calls = pre ++ .function p0 p1 k tolerance epsilon :: post →
      ∃ g, (intervalFunction c n m p0 p1 k tolerance epsilon (after c n m pre)).2 = .ok g) :
    (after c n m calls).dense = none := by
  induction calls using List.reverseRecOn with
  | nil => rfl
  | append_singleton l a ih =>
    have h1 := ih fun pre p0 p1 k tolerance epsilon post e =>
      hc pre p0 p1 k tolerance epsilon (post ++ [a]) (by rw [e]; simp)
    rw [after_snoc]
    cases a with
    | evaluate p k => exact solve_off c n m p k _ h1
    | function p0 p1 k tolerance epsilon =>
      obtain ⟨g, hg⟩ := hc l p0 p1 k tolerance epsilon [] rfl
      obtain ⟨d, hd, -⟩ := intervalFunction_ok hg
      show (intervalFunction c n m p0 p1 k tolerance epsilon (after c n m l)).1.dense = none
      rw [intervalFunction_fst]
      exact ((denseSolve_spec hu n m p1 k _ (after_inv hu n m l)).2 d hd).2.2.1

end Maliput.Ode
