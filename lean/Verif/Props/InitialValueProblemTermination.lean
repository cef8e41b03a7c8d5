import Verif.Lemmas.InitialValueProblemTermination
import Verif.Props.ScalarInitialValueProblem

set_option autoImplicit false
set_option linter.unusedSectionVars false

/-!
Properties of initial value problems (C144): calls of `Solve` and `DenseSolve` come to an end, and when `Solve` returns.

The numbers `n` and `m` of C142 and C143 bound the attempts of a step and the steps of a call; `.error .depth` says that they were used up.
-/
namespace Maliput.Props

open Maliput Ivp Ivp.Spec
open Maliput.RouteGraph (Stop)

section
variable {R : Type} [Field R] [LinearOrder R] [IsStrictOrderedRing R] [Archimedean R]

/-- C144. With a positive maximum step size and an accuracy that is not negative every call of `Solve` comes to an end, after any calls,
whatever the right hand side does: with enough attempts and steps the result is the same and not that they were used up. -/
theorem ivp_solve_terminates (c : Setup R) (hroot : ∀ x, 0 ≤ x → x ≤ 1 → c.root x ≤ 1) (ha : 0 ≤ c.accuracy) (hmax : 0 < c.maxStep)
    (calls : List (Call R)) (tf : R) (v : Values R) :
    ∃ N r, r ≠ .error .depth ∧ ∀ n m, N ≤ n → N ≤ m → (solve c n m tf v (after c n m calls)).2 = r := by
  have hu : Usable c := ⟨hroot, ha⟩
  obtain ⟨N, s, hi, hs⟩ := after_settles hu hmax calls
  obtain ⟨N', r, -, h1, h2⟩ := solve_returns hu hmax tf v s hi
  exact ⟨max N N', r.2, h1, fun n m hn hm => by rw [hs n m (by omega) (by omega), h2 n m (by omega) (by omega)]⟩

/-- C144. So does every call of `DenseSolve`. -/
theorem ivp_denseSolve_terminates (c : Setup R) (hroot : ∀ x, 0 ≤ x → x ≤ 1 → c.root x ≤ 1) (ha : 0 ≤ c.accuracy) (hmax : 0 < c.maxStep)
    (calls : List (Call R)) (tf : R) (v : Values R) :
    ∃ N r, r ≠ .error .depth ∧ ∀ n m, N ≤ n → N ≤ m → (denseSolve c n m tf v (after c n m calls)).2 = r := by
  have hu : Usable c := ⟨hroot, ha⟩
  obtain ⟨N, s, hi, hs⟩ := after_settles hu hmax calls
  obtain ⟨N', r, -, h1, h2⟩ := denseSolve_returns hu hmax tf v s hi
  exact ⟨max N N', r.2, h1, fun n m hn hm => by rw [hs n m (by omega) (by omega), h2 n m (by omega) (by omega)]⟩

/-- C144. `Solve` returns a state for every time that is not before the initial one and values of the right sizes, after any other calls of
`Solve` (refused or not), if the initial step size is neither negative nor above the maximum step size, which is positive, and the right
hand sides of all these calls are defined and smooth where they are integrated. -/
theorem ivp_solve_returns (c : Setup R) (hroot : ∀ x, 0 ≤ x → x ≤ 1 → c.root x ≤ 1) (ha : 0 ≤ c.accuracy) (h0 : 0 ≤ c.initialStep)
    (h1 : c.initialStep ≤ c.maxStep) (hmax : 0 < c.maxStep) (calls : List (R × Values R)) (tf : R) (v : Values R)
    (htf : v.t0.getD c.defaults.t0 ≤ tf) (hx : (v.x0.getD c.defaults.x0).length = c.defaults.x0.length)
    (hk : (v.k.getD c.defaults.k).length = c.defaults.k.length)
    (hc : ∀ q ∈ (tf, v) :: calls,
      Total (fun t x => c.f t x (q.2.k.getD c.defaults.k)) c.defaults.x0.length (q.2.t0.getD c.defaults.t0) q.1 ∧
      Smooth (fun t x => c.f t x (q.2.k.getD c.defaults.k)) c.defaults.x0.length (min c.accuracy (1 / 10)) (q.2.t0.getD c.defaults.t0) q.1) :
    ∃ x N, ∀ n m, N ≤ n → N ≤ m → (solve c n m tf v (after c n m (calls.map fun q => .solve q.1 q.2))).2 = .ok x := by
  have hu : Usable c := ⟨hroot, ha⟩
  obtain ⟨N, r, e1, e2⟩ := ivp_solve_terminates c hroot ha hmax (calls.map fun q => .solve q.1 q.2) tf v
  have key : ∀ n m, Quiet c (after c n m (calls.map fun q => .solve q.1 q.2)) := by
    intro n m
    refine after_induct c n m (P := Quiet c) (quiet_fresh c) _ ?_
    rintro a hm s hq
    obtain ⟨q, hmem, rfl⟩ := List.mem_map.1 hm
    obtain ⟨b1, b2⟩ := hc q (List.mem_cons_of_mem _ hmem)
    show Quiet c (solve c n m q.1 q.2 s).1
    cases hp : sanitize c.defaults q.1 q.2 with
    | error e => unfold solve; rw [hp]; exact hq
    | ok p =>
      obtain ⟨rfl, -⟩ := sanitize_ok.1 hp
      exact (solve_no_throw hu h0 h1 n m hp hq b1 b2).1
  obtain ⟨b1, b2⟩ := hc (tf, v) List.mem_cons_self
  have hp : sanitize c.defaults tf v = .ok ⟨v.t0.getD c.defaults.t0, v.x0.getD c.defaults.x0, v.k.getD c.defaults.k⟩ :=
    sanitize_ok.2 ⟨rfl, htf, hx, hk⟩
  have hno := (solve_no_throw hu h0 h1 N N hp (key N N) b1 b2).2
  rw [e2 N N (le_refl _) (le_refl _)] at hno
  match r with
  | .error .depth => exact absurd rfl e1
  | .error (.err e) => exact absurd rfl (hno e)
  | .ok x => exact ⟨x, N, e2⟩

end

section
variable {R : Type} [Field R] [LinearOrder R] [IsStrictOrderedRing R]

/-- C144. A right hand side is smooth if its slopes are bounded by `B` in every element and `10^-13 B max(1, |a|, |b|)` is not above the
accuracy. -/
theorem ivp_smooth_of_bounded (f : Rhs R) (size : Nat) (accuracy a b B : R)
    (hf : ∀ t x d, a ≤ t → t ≤ b → x.length = size → Slope f t x d → ∀ i < size, |elem d i| ≤ B)
    (h : 1 / 10000000000000 * B * max 1 (max |a| |b|) ≤ accuracy) : Smooth f size accuracy a b := by
  intro t x s k1 k2 k3 hl h1 h2 h3 h4 hst i hi
  have hv : ∀ g : Nat → R, (vector x.length g).length = size := fun g => by simp [vector, hl]
  have e1 := hf _ _ _ h1 (by linarith) hl hst.first i hi
  have e2 := hf _ _ _ (by linarith) (by linarith) (hv _) hst.second i hi
  have e3 := hf _ _ _ (by linarith) h2 (hv _) hst.third i hi
  have hB : 0 ≤ B := (abs_nonneg _).trans e1
  have ht : |t + s| ≤ max |a| |b| := abs_le_of_between (by linarith) h2
  have hs : s ≤ 1 / 10000000000000 * max 1 (max |a| |b|) :=
    h4.le.trans (mul_le_mul_of_nonneg_left (max_le_max (le_refl _) ht) (by norm_num))
  refine le_trans ?_ h
  rw [abs_le] at e1 e2 e3
  generalize elem k1 i = y1 at e1 ⊢
  generalize elem k2 i = y2 at e2 ⊢
  generalize elem k3 i = y3 at e3 ⊢
  have hk : |y1 - 2 * y2 + y3| ≤ 4 * B := by rw [abs_le]; constructor <;> linarith [e1.1, e1.2, e2.1, e2.2, e3.1, e3.2]
  rw [abs_div, abs_mul, abs_of_pos h3, show |(6 : R)| = 6 from abs_of_pos (by norm_num)]
  have hx : s * |y1 - 2 * y2 + y3| ≤ 1 / 10000000000000 * max 1 (max |a| |b|) * (4 * B) :=
    mul_le_mul hs hk (abs_nonneg _) (h3.le.trans hs)
  have hn : 0 ≤ 1 / 10000000000000 * B * max 1 (max |a| |b|) :=
    mul_nonneg (mul_nonneg (by norm_num) hB) (zero_le_one.trans (le_max_left _ _))
  rw [div_le_iff₀ (by norm_num)]
  linarith

/-- C144 fails for a maximum step size of zero: `Solve` never returns for any time after the initial one, after any calls, whatever the
right hand side is. -/
theorem ivp_solve_never_returns (c : Setup R) (hroot : ∀ x, 0 ≤ x → x ≤ 1 → c.root x ≤ 1) (ha : 0 ≤ c.accuracy) (hne : c.defaults.x0 ≠ [])
    (hmax : c.maxStep = 0) (calls : List (Call R)) (n m : Nat) (tf : R) (v : Values R) (htf : v.t0.getD c.defaults.t0 < tf) (x : List R) :
    (solve c n m tf v (after c n m calls)).2 ≠ .ok x := by
  intro h
  obtain ⟨knots, ⟨h1, h2⟩, h3⟩ := ivp_solve_reaches c hroot ha hne n m calls tf v x h
  match knots with
  | [] => cases h1
  | [a] =>
    cases h1
    cases h3
    exact lt_irrefl _ htf
  | a :: b :: l =>
    obtain ⟨h, k1, k2, k3, ⟨p1, p2⟩, -⟩ := (List.isChain_cons_cons.1 h2).1
    rw [hmax] at p2
    exact absurd p1 (not_lt.2 p2)

end

/-! ### Scalars -/

section
variable {R : Type} [Field R] [LinearOrder R] [IsStrictOrderedRing R] [Archimedean R]
variable {f : R → R → List R → Except Err R} {root : R → R} {initialStep maxStep accuracy : R} {w : ScalarIvp.Values R} {c : Setup R}

/-- C144. The calls of scalar problems come to an end too. -/
theorem scalar_ivp_terminates (hmake : ScalarIvp.make f root initialStep maxStep accuracy w = .ok c)
    (hroot : ∀ x, 0 ≤ x → x ≤ 1 → root x ≤ 1) (ha : 0 ≤ accuracy) (hmax : 0 < maxStep) (calls : List (ScalarIvp.Call R)) (tf : R)
    (v : ScalarIvp.Values R) :
    (∃ N r, r ≠ .error .depth ∧ ∀ n m, N ≤ n → N ≤ m → (ScalarIvp.solve c n m tf v (ScalarIvp.after c n m calls)).2 = r) ∧
    ∃ N r, r ≠ .error .depth ∧ ∀ n m, N ≤ n → N ≤ m → (ScalarIvp.denseSolve c n m tf v (ScalarIvp.after c n m calls)).2 = r := by
  obtain ⟨t0, x0, k0, rfl, rfl⟩ := ScalarIvp.make_ok hmake
  generalize hc : (⟨ScalarIvp.vectorFunction f, root, ⟨t0, [x0], k0⟩, initialStep, maxStep, accuracy⟩ : Setup R) = c
  have e1 : c.root = root := by rw [← hc]
  have e2 : c.accuracy = accuracy := by rw [← hc]
  have e3 : c.maxStep = maxStep := by rw [← hc]
  constructor
  · obtain ⟨N, r, h1, h2⟩ := ivp_solve_terminates c (e1 ▸ hroot) (e2 ▸ ha) (e3 ▸ hmax) (calls.map ScalarIvp.Call.toVector) tf v.toVector
    have h3 : ∀ n m, N ≤ n → N ≤ m → (ScalarIvp.solve c n m tf v (ScalarIvp.after c n m calls)).2 = r >>= fun x =>
        match x with
        | [] => .error (.err .ub)
        | y :: _ => .ok y := by
      intro n m hn hm
      rw [ScalarIvp.after_toVector, ← h2 n m hn hm]
      unfold ScalarIvp.solve
      generalize Ivp.solve c n m tf v.toVector _ = q
      obtain ⟨s', q⟩ := q
      rcases q with e | (_ | ⟨x, l⟩) <;> rfl
    refine ⟨N, _, ?_, h3⟩
    rcases r with e | (_ | ⟨x, l⟩)
    · exact fun h => h1 (by cases h; rfl)
    · exact nofun
    · exact nofun
  · obtain ⟨N, r, h1, h2⟩ := ivp_denseSolve_terminates c (e1 ▸ hroot) (e2 ▸ ha) (e3 ▸ hmax) (calls.map ScalarIvp.Call.toVector) tf v.toVector
    have h3 : ∀ n m, N ≤ n → N ≤ m → (ScalarIvp.denseSolve c n m tf v (ScalarIvp.after c n m calls)).2 = r >>= fun d =>
        if c.defaults.x0.length ≤ 0 then .error (.err .throws) else .ok d := by
      intro n m hn hm
      rw [ScalarIvp.after_toVector, ← h2 n m hn hm]
      unfold ScalarIvp.denseSolve
      generalize Ivp.denseSolve c n m tf v.toVector _ = q
      obtain ⟨s', q⟩ := q
      rcases q with e | d <;> rfl
    refine ⟨N, _, ?_, h3⟩
    rcases r with e | d
    · exact fun h => h1 (by cases h; rfl)
    · show (if c.defaults.x0.length ≤ 0 then (Except.error (.err .throws) : Except Stop (List (Piece R))) else .ok d) ≠ _
      split <;> simp

/-- C144. `Evaluate` of an antiderivative returns a number for every upper bound that is not below the lower one, after any other calls of
`Evaluate`, if the function is defined and bounded by `B` where these calls integrate it and `10^-13 B max(1, |lower|, |upper|)` is not
above the accuracy.  The lower bound is 0 and the parameters are none unless others are given to the constructor or the call. -/
theorem antiderivative_returns {a : R → List R → Except Err R} {b0 : ScalarIvp.Bound R}
    (hmake : ScalarIvp.antiderivative a root initialStep maxStep accuracy b0 = .ok c)
    (hroot : ∀ x, 0 ≤ x → x ≤ 1 → root x ≤ 1) (ha : 0 ≤ accuracy) (h0 : 0 ≤ initialStep) (h1 : initialStep ≤ maxStep) (hmax : 0 < maxStep)
    (calls : List (R × ScalarIvp.Bound R)) (u : R) (b : ScalarIvp.Bound R) (hu : b.v.getD (b0.v.getD 0) ≤ u)
    (hk : (b.k.getD (b0.k.getD [])).length = (b0.k.getD []).length)
    (hc : ∀ q ∈ (u, b) :: calls, ∃ B, 1 / 10000000000000 * B * max 1 (max |q.2.v.getD (b0.v.getD 0)| |q.1|) ≤ min accuracy (1 / 10) ∧
      ∀ t, q.2.v.getD (b0.v.getD 0) ≤ t → t ≤ q.1 → ∃ d, a t (q.2.k.getD (b0.k.getD [])) = .ok d ∧ |d| ≤ B) :
    ∃ x N, ∀ n m, N ≤ n → N ≤ m →
      (ScalarIvp.evaluate c n m u b (ScalarIvp.after c n m (calls.map fun q => .solve q.1 q.2.values))).2 = .ok x := by
  cases hmake
  generalize hcc : (⟨ScalarIvp.vectorFunction fun t _ k => a t k, root, ⟨b0.v.getD 0, [0], b0.k.getD []⟩, initialStep, maxStep, accuracy⟩ : Setup R) = c
  have key := ivp_solve_returns c (by rw [← hcc]; exact hroot) (by rw [← hcc]; exact ha) (by rw [← hcc]; exact h0)
    (by rw [← hcc]; exact h1) (by rw [← hcc]; exact hmax) (calls.map fun q => (q.1, q.2.values.toVector)) u b.values.toVector
    (by rw [← hcc]; exact hu) rfl (by rw [← hcc]; exact hk) (by
      intro q hq0
      have hq : ∃ q' ∈ (u, b) :: calls, q = (q'.1, q'.2.values.toVector) := by
        rcases List.mem_cons.1 hq0 with rfl | hq
        · exact ⟨(u, b), List.mem_cons_self, rfl⟩
        · obtain ⟨q', h1, h2⟩ := List.mem_map.1 hq
          exact ⟨q', List.mem_cons_of_mem _ h1, h2.symm⟩
      clear hq0
      obtain ⟨q, hq, rfl⟩ := hq
      obtain ⟨B, hB, hf⟩ := hc q hq
      subst hcc
      have val : ∀ t (x : List R) d, x.length = 1 → a t (q.2.k.getD (b0.k.getD [])) = .ok d →
          ScalarIvp.vectorFunction (fun t _ k => a t k) t x (q.2.k.getD (b0.k.getD [])) = .ok [d] := by
        intro t x d hx hd
        match x, hx with
        | [y], _ => simp only [ScalarIvp.vectorFunction, hd]; rfl
      constructor
      · intro t x ht1 ht2 hx
        obtain ⟨d, hd, -⟩ := hf t ht1 ht2
        exact ⟨[d], val t x d hx hd, hx.symm⟩
      · refine ivp_smooth_of_bounded _ _ _ _ _ B (fun t x d ht1 ht2 hx hd i hi => ?_) hB
        obtain ⟨e, he, hb⟩ := hf t ht1 ht2
        have := (val t x e hx he).symm.trans hd.1
        cases this
        have : i = 0 := by
          have : i < 1 := hi
          omega
        subst this
        exact hb)
  obtain ⟨x, N, key⟩ := key
  have hm : ∀ n m, ScalarIvp.after c n m (calls.map fun q => .solve q.1 q.2.values) =
      after c n m ((calls.map fun q => (q.1, q.2.values.toVector)).map fun q => .solve q.1 q.2) := by
    intro n m
    rw [ScalarIvp.after_toVector, List.map_map, List.map_map]
    rfl
  have hlen : x.length = 1 := by
    have hs := key N N (le_refl _) (le_refl _)
    obtain ⟨N', s, hi, hs'⟩ := after_settles (c := c) ⟨by rw [← hcc]; exact hroot, by rw [← hcc]; exact ha⟩ (by rw [← hcc]; exact hmax)
      ((calls.map fun q => (q.1, q.2.values.toVector)).map fun q => .solve q.1 q.2)
    obtain ⟨N'', r, hr, -, hr'⟩ := solve_returns (c := c) ⟨by rw [← hcc]; exact hroot, by rw [← hcc]; exact ha⟩ (by rw [← hcc]; exact hmax)
      u b.values.toVector s hi
    have h3 := key (max N (max N' N'')) (max N (max N' N'')) (by omega) (by omega)
    rw [hs' _ _ (by omega) (by omega)] at h3
    have h4 := hr' (max N (max N' N'')) (max N (max N' N'')) (by omega) (by omega)
    have h5 := solve_ok_state h3
    rw [← h4] at hr
    rw [← h5, hr.len, ← hcc]
    rfl
  match x, hlen with
  | [x], _ =>
    refine ⟨x, N, fun n m hn hm' => ?_⟩
    have := key n m hn hm'
    unfold ScalarIvp.evaluate ScalarIvp.solve
    rw [hm]
    generalize Ivp.solve c n m u b.values.toVector _ = q at this
    obtain ⟨s', q⟩ := q
    dsimp only at this
    subst this
    rfl

end

/-! ### Examples -/

/-- The hypotheses of `ivp_solve_returns` for constant slopes from the time 1, after a call that was refused. -/
example : ∃ x N, ∀ n m, N ≤ n → N ≤ m →
    (solve drift n m 4 ⟨some 1, none, none⟩ (after drift n m ([((-1 : ℚ), nothing)].map fun q => .solve q.1 q.2))).2 = .ok x := by
  refine ivp_solve_returns drift stepRoot_ok (by decide +kernel) (by decide +kernel) (by decide +kernel) (by decide +kernel) _ _ _
    (by decide +kernel) rfl rfl fun q hq => ⟨fun t x _ _ hx => ⟨_, rfl, hx.symm⟩, ?_⟩
  refine ivp_smooth_of_bounded _ _ _ _ _ 3 (fun t x d _ _ hx hd i hi => ?_) ?_
  · cases hd.1
    simp only [List.mem_cons, List.not_mem_nil, or_false] at hq
    have : q.2.k = none := by rcases hq with rfl | rfl <;> rfl
    rw [this]
    have : i = 0 ∨ i = 1 := by
      have : i < 2 := hi
      omega
    rcases this with rfl | rfl <;> decide +kernel
  · simp only [List.mem_cons, List.not_mem_nil, or_false] at hq
    rcases hq with rfl | rfl <;> decide +kernel

/-- A problem with a maximum step size of zero. -/
def still : Setup ℚ := { drift with initialStep := 0, maxStep := 0 }

example (x : List ℚ) : (solve still 30 30 1 nothing (after still 30 30 [.denseSolve 1 nothing])).2 ≠ .ok x :=
  ivp_solve_never_returns still stepRoot_ok (by decide +kernel) (by decide +kernel) rfl _ 30 30 1 nothing (by decide +kernel) x

example : (solve still 30 30 1 nothing (fresh still)).2 = .error .depth ∧ (solve still 30 30 0 nothing (fresh still)).2 = .ok [0, 1] := by
  decide +kernel

/-- The antiderivative of 2 + t^3 from 1, up to 3, after the one from 0 up to 2. -/
example : ∃ x N, ∀ n m, N ≤ n → N ≤ m →
    (ScalarIvp.evaluate powerIntegral n m 3 ⟨none, none⟩
      (ScalarIvp.after powerIntegral n m ([((2 : ℚ), (⟨some 0, none⟩ : ScalarIvp.Bound ℚ))].map fun q => .solve q.1 q.2.values))).2 = .ok x := by
  refine antiderivative_returns (a := power) (b0 := ⟨some 1, some [2]⟩) (c := powerIntegral) rfl stepRoot_ok (by norm_num) (by norm_num)
    (by norm_num) (by norm_num) _ _ _ (by decide +kernel) rfl fun q hq => ⟨29, ?_, fun t h1 h2 => ?_⟩
  · simp only [List.mem_cons, List.not_mem_nil, or_false] at hq
    rcases hq with rfl | rfl <;> decide +kernel
  · have : q.2.k = none ∧ 0 ≤ t ∧ t ≤ 3 := by
      simp only [List.mem_cons, List.not_mem_nil, or_false] at hq
      rcases hq with rfl | rfl
      · simp only [Option.getD] at h1 h2; exact ⟨rfl, by linarith, by linarith⟩
      · simp only [Option.getD] at h1 h2; exact ⟨rfl, by linarith, by linarith⟩
    obtain ⟨e, l, g⟩ := this
    rw [e]
    refine ⟨2 + t ^ 3, rfl, ?_⟩
    have p3 : t ^ 3 ≤ 3 ^ 3 := pow_le_pow_left₀ l g 3
    have p0 : 0 ≤ t ^ 3 := by positivity
    rw [abs_of_nonneg (by positivity)]; linarith

end Maliput.Props
