import Verif.Lemmas.Monad
import Verif.Lemmas.MatrixTrajectory
import Verif.Model.ImplicitDerivatives
import Mathlib.Algebra.Order.Ring.Rat

set_option autoImplicit false
set_option linter.unusedSectionVars false

/-! C156: time derivatives in implicit form, and the maps between velocities and derivatives of positions. -/
namespace Maliput.Props
open Maliput Implicit

variable {R C : Type} [Field R]

/-- An override of the derivatives that keeps the number of values, as any override does. -/
def KeepsLength (s : Sys R C) : Prop := ∀ f ∈ s.derive, ∀ c l l', f c l = .ok l' → l'.length = l.length

/-- x' = -y, y' = x, unless the time is negative. -/
def rotating : Sys ℚ (ℚ × ℚ × ℚ) :=
  ⟨7, 2, none, some fun c _ => if c.1 < 0 then .error .throws else .ok [-c.2.2, c.2.1]⟩

/-- A context of it. -/
def rotatingContext : Ctx (ℚ × ℚ × ℚ) := ⟨7, 0, 3, 4⟩

/-- C156: the size of the residual is the one that was declared last; without a declaration, or if that was not positive, it is the
number of continuous states. -/
theorem implicit_residual_size (s : Sys R C) (h : s.residualSize = none) (ds : List Int) :
    (ds.foldl Sys.declareResidualSize s).size =
      match ds.getLast? with
      | some n => if n > 0 then n.toNat else s.numStates
      | none => s.numStates := by
  have hn : ∀ (ds : List Int) (s : Sys R C), (ds.foldl Sys.declareResidualSize s).numStates = s.numStates := by
    intro ds
    induction ds with
    | nil => intro s; rfl
    | cons d ds ih => intro s; rw [List.foldl_cons, ih]; rfl
  rcases List.eq_nil_or_concat ds with rfl | ⟨l, n, rfl⟩
  · simp [Sys.size, h]
  · rw [List.concat_eq_append, List.foldl_concat, List.getLast?_concat]
    unfold Sys.size Sys.declareResidualSize
    dsimp only
    by_cases hp : n > 0
    · simp [hp]
    · simp only [hp, if_false]
      exact hn l s

example : (([3, 5, -1, 4] : List Int).foldl Sys.declareResidualSize rotating).size = 4 ∧
    (([3, 0] : List Int).foldl Sys.declareResidualSize rotating).size = 2 := by decide +kernel

/-- C156: the derivatives of a context of the system. -/
theorem eval_time_derivatives (s : Sys R C) (hk : KeepsLength s) (initial : R) (c : Ctx C) (d : Derivatives R)
    (h : s.evalTimeDerivatives initial c = .ok d) :
    c.id = s.id ∧ d.id = some s.id ∧ d.values.length = s.numStates ∧ (s.derive = none → s.numStates = 0) := by
  simp only [Sys.evalTimeDerivatives, Sys.calcTimeDerivatives, Sys.validateContext, Sys.validateCreated, Sys.allocate, bind_ok,
    throwUnless_ok, decide_eq_true_eq] at h
  obtain ⟨_, h1, _, -, _, -, h2⟩ := h
  unfold Sys.doCalc at h2
  cases e : s.derive with
  | none =>
    rw [e] at h2
    dsimp only at h2
    split at h2
    · rename_i h0
      obtain rfl := Except.ok.inj h2
      exact ⟨h1, rfl, by simp, fun _ => by simpa using h0⟩
    · cases h2
  | some f =>
    rw [e] at h2
    simp only [bind_ok, pure_ok] at h2
    obtain ⟨l, hl, rfl⟩ := h2
    exact ⟨h1, rfl, by rw [hk f e _ _ _ hl]; simp, fun h => (by cases h)⟩

/-- C156: the residual is computed exactly for contexts and derivatives of the system, if the residual has the declared size, this is
the number of states, and the derivatives can be computed.  It is then the difference of the derivatives, element by element. -/
theorem implicit_residual_iff (s : Sys R C) (hk : KeepsLength s) (initial : R) (c : Ctx C) (proposed : Derivatives R) (buffer r : List R)
    (hp : proposed.id = some s.id → proposed.values.length = s.numStates) :
    s.residual initial c proposed buffer = (r, .ok ()) ↔
      buffer.length = s.size ∧ s.size = s.numStates ∧ c.id = s.id ∧ proposed.id = some s.id ∧
      ∃ d, s.evalTimeDerivatives initial c = .ok d ∧ r.length = s.numStates ∧
        ∀ (i : Nat) (x y : R), proposed.values[i]? = some x → d.values[i]? = some y → r[i]? = some (x - y) := by
  unfold Sys.residual Sys.validateContext Sys.validateCreated
  by_cases h1 : buffer.length = s.size
  swap
  · rw [if_pos h1]
    exact ⟨fun h => (by cases h), fun h => absurd h.1 h1⟩
  rw [if_neg (not_not.2 h1)]
  by_cases h2 : c.id = s.id
  swap
  · rw [Piecewise.throwUnless_neg h2]
    exact ⟨fun h => (by cases h), fun h => absurd h.2.2.1 h2⟩
  rw [Piecewise.throwUnless_pos h2]
  dsimp only
  by_cases h3 : proposed.id = some s.id
  swap
  · rw [Piecewise.throwUnless_neg h3]
    exact ⟨fun h => (by cases h), fun h => absurd h.2.2.2.1 h3⟩
  rw [Piecewise.throwUnless_pos h3]
  dsimp only
  unfold Sys.doResidual
  rw [h1, hp h3]
  by_cases h4 : s.size = s.numStates
  swap
  · rw [if_pos h4]
    exact ⟨fun h => (by cases h), fun h => absurd h.2.1 h4⟩
  rw [if_neg (not_not.2 h4)]
  cases e : s.evalTimeDerivatives initial c with
  | error err => exact ⟨fun h => (by cases h), fun ⟨_, _, _, _, d, h, _⟩ => (by cases h)⟩
  | ok d =>
    have hd := (eval_time_derivatives s hk initial c d e).2.2.1
    dsimp only
    rw [if_pos hd]
    constructor
    · intro h
      have hr : List.zipWith (· - ·) proposed.values d.values = r := congrArg Prod.fst h
      subst hr
      refine ⟨rfl, h4, h2, h3, d, rfl, by simp [hp h3, hd], fun i x y hx hy => ?_⟩
      rw [List.getElem?_zipWith, hx, hy]
    · rintro ⟨-, -, -, -, d', h, hl, hr⟩
      obtain rfl := Except.ok.inj h
      refine Prod.ext ?_ rfl
      dsimp only
      refine List.ext_getElem? fun i => ?_
      by_cases hi : i < s.numStates
      · have hx := List.getElem?_eq_getElem (l := proposed.values) (i := i) (by rw [hp h3]; exact hi)
        have hy := List.getElem?_eq_getElem (l := d.values) (i := i) (by rw [hd]; exact hi)
        rw [hr i _ _ hx hy, List.getElem?_zipWith, hx, hy]
      · rw [List.getElem?_eq_none (by simp [hp h3, hd]; omega), List.getElem?_eq_none (by rw [hl]; omega)]

/-- C156: the implicit form has the solution of the explicit form and no other: the residual is zero exactly if the proposed derivatives
are those that the system computes. -/
theorem implicit_residual_zero (s : Sys R C) (hk : KeepsLength s) (initial : R) (c : Ctx C) (proposed : Derivatives R) (buffer r : List R)
    (hp : proposed.id = some s.id → proposed.values.length = s.numStates)
    (h : s.residual initial c proposed buffer = (r, .ok ())) :
    (∀ x ∈ r, x = 0) ↔ s.evalTimeDerivatives initial c = .ok proposed := by
  obtain ⟨-, -, -, h3, d, hd, hl, hr⟩ := (implicit_residual_iff s hk initial c proposed buffer r hp).1 h
  obtain ⟨-, hid, hlen, -⟩ := eval_time_derivatives s hk initial c d hd
  rw [hd]
  have key : (∀ x ∈ r, x = 0) ↔ d.values = proposed.values := by
    constructor
    · intro hz
      refine List.ext_getElem (by rw [hlen, hp h3]) fun i hi hj => ?_
      have hri := hr i _ _ (List.getElem?_eq_getElem hj) (List.getElem?_eq_getElem hi)
      exact (sub_eq_zero.1 (hz _ (List.mem_of_getElem? hri))).symm
    · intro hz x hx
      obtain ⟨i, hi, rfl⟩ := List.getElem_of_mem hx
      have hi' : i < proposed.values.length := by rw [hp h3, ← hl]; exact hi
      have := hr i _ _ (List.getElem?_eq_getElem hi') (by rw [hz]; exact List.getElem?_eq_getElem hi')
      rw [List.getElem?_eq_getElem hi, sub_self] at this
      exact Option.some.inj this
  rw [key]
  constructor
  · intro hv
    have : d = proposed := by
      cases d; cases proposed
      simp_all
    rw [this]
  · intro hv
    rw [Except.ok.inj hv]

/-- As many values as there are states. -/
def rotatingKeeps : Sys ℚ (ℚ × ℚ × ℚ) :=
  { rotating with derive := some fun c l => if c.1 < 0 then .error .throws else .ok ((l.zip [-c.2.2, c.2.1]).map (·.2) ++ l.drop 2) }

example : KeepsLength rotatingKeeps ∧ rotatingKeeps.residual 0 rotatingContext ⟨some 7, [1, 1]⟩ [9, 9] = ([5, -2], .ok ()) := by
  refine ⟨?_, by decide +kernel⟩
  intro f hf c l l' h
  obtain rfl := Option.some.inj hf
  dsimp only at h
  split at h
  · cases h
  · obtain rfl := Except.ok.inj h
    simp
    omega

example : rotating.residual 0 rotatingContext ⟨some 7, [1, 1]⟩ [9, 9] = ([5, -2], .ok ()) ∧
    rotating.residual 0 rotatingContext ⟨some 7, [-4, 3]⟩ [9, 9] = ([0, 0], .ok ()) ∧
    (rotating.declareResidualSize 3).residual 0 rotatingContext ⟨some 7, [-4, 3]⟩ [9, 9, 9] = ([9, 9, 9], .error .throws) := by
  decide +kernel

/-- C156: a residual is not changed by a call that is refused; if computing the derivatives throws, it is left with the proposed ones. -/
theorem implicit_residual_failed (s : Sys R C) (initial : R) (c : Ctx C) (proposed : Derivatives R) (buffer r : List R) (e : Err)
    (h : s.residual initial c proposed buffer = (r, .error e)) :
    (r = buffer ∧ e = .throws) ∨ r = proposed.values := by
  have ht : ∀ (b : Bool) (e : Err), throwUnless b = .error e → e = .throws := by
    intro b e hb
    cases b
    · exact (Except.error.inj hb).symm
    · cases hb
  unfold Sys.residual Sys.validateContext Sys.validateCreated Sys.doResidual at h
  split at h
  · obtain ⟨rfl, h⟩ := Prod.ext_iff.1 h
    exact Or.inl ⟨rfl, (Except.error.inj h).symm⟩
  · split at h
    · rename_i e' he'
      obtain ⟨rfl, h⟩ := Prod.ext_iff.1 h
      obtain rfl := Except.error.inj h
      exact Or.inl ⟨rfl, ht _ _ he'⟩
    · split at h
      · rename_i e' he'
        obtain ⟨rfl, h⟩ := Prod.ext_iff.1 h
        obtain rfl := Except.error.inj h
        exact Or.inl ⟨rfl, ht _ _ he'⟩
      · split at h
        · obtain ⟨rfl, h⟩ := Prod.ext_iff.1 h
          exact Or.inl ⟨rfl, (Except.error.inj h).symm⟩
        · split at h
          · exact Or.inr (congrArg Prod.fst h).symm
          · split at h
            · cases h
            · exact Or.inr (congrArg Prod.fst h).symm

example : (rotating.residual 0 ⟨7, -1, 3, 4⟩ ⟨some 7, [1, 1]⟩ [9, 9]).1 = [1, 1] ∧
    (rotating.residual 0 ⟨8, 0, 3, 4⟩ ⟨some 7, [1, 1]⟩ [9, 9]) = ([9, 9], .error .throws) := by decide +kernel

/-- C156: velocities become derivatives of positions and back without a change; both maps throw if the sizes differ or the context is
of another system. -/
theorem velocity_maps (s : Sys R C) (c : Ctx C) (v q w : List R) :
    (s.velocityToQDot c v q = .ok w ↔ c.id = s.id ∧ q.length = v.length ∧ w = v) ∧
    (s.qDotToVelocity c q v = .ok w ↔ c.id = s.id ∧ v.length = q.length ∧ w = q) ∧
    (c.id = s.id → q.length = v.length → (s.velocityToQDot c v q).bind (fun d => s.qDotToVelocity c d v) = .ok v) ∧
    (¬(c.id = s.id ∧ q.length = v.length) → s.velocityToQDot c v q = .error .throws ∧ s.qDotToVelocity c q v = .error .throws) := by
  unfold Sys.velocityToQDot Sys.qDotToVelocity Sys.validateContext
  by_cases h1 : c.id = s.id
  · rw [Piecewise.throwUnless_pos h1]
    by_cases h2 : q.length = v.length
    · simp [bind, Except.bind, pure, Except.pure, h1, h2, throwUnless, eq_comm]
    · have h2' : ¬ v.length = q.length := fun h => h2 h.symm
      simp [bind, Except.bind, h1, h2, h2', throwUnless]
  · simp [bind, Except.bind, h1, throwUnless]

example : rotating.velocityToQDot rotatingContext [1, 2] [0, 0] = .ok [1, 2] := by decide +kernel

end Maliput.Props
