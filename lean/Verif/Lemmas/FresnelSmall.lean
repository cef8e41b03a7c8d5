import Verif.Lemmas.FresnelTaylor
import Verif.Model.Fresnel

set_option autoImplicit false

/-!
# The Fresnel functions of the model for small arguments
-/

namespace Maliput.Fresnel

theorem pev_append (l : List ℚ) (a : ℚ) (x : ℝ) : pev (l ++ [a]) x = pev l x + a * x ^ l.length := by
  induction l with
  | nil => simp [pev]
  | cons b l ih => simp only [List.cons_append, pev, ih, List.length_cons]; ring

theorem foldl_pev (x : ℝ) (l : List ℚ) : ∀ c : ℝ,
    l.foldl (fun (ans : ℝ) (k : ℚ) => ans * x + k) c = c * x ^ l.length + pev l.reverse x := by
  induction l with
  | nil => intro c; simp [pev]
  | cons a l ih =>
    intro c
    rw [List.foldl_cons, ih, List.reverse_cons, pev_append, List.length_reverse, List.length_cons]
    ring

theorem polevl_ok (x : ℝ) (coef : List ℚ) (n : Nat) (h0 : n ≠ 0) (h : coef.length = n + 1) :
    polevl x coef n = .ok (pev coef.reverse x) := by
  rcases coef with _ | ⟨c, cs⟩
  · simp at h
  · have hl : cs.length = n := by simpa using h
    rw [polevl, if_neg (by omega), ← hl, List.take_length, foldl_pev, List.reverse_cons, pev_append, List.length_reverse,
      add_comm]

theorem p1evl_ok (x : ℝ) (coef : List ℚ) (n : Nat) (h0 : 2 ≤ n) (h : coef.length = n) :
    p1evl x coef n = .ok (pev (1 :: coef).reverse x) := by
  rcases coef with _ | ⟨c, cs⟩
  · simp at h; omega
  · have hl : cs.length = n - 1 := by simp at h; omega
    rw [p1evl, if_neg (by omega), ← hl, List.take_length, foldl_pev, List.reverse_cons, List.reverse_cons, pev_append, pev_append,
      List.length_append, List.length_reverse]
    congr 1
    simp
    ring

/-- The polynomials of the program, lowest power first. -/
def sN : List ℚ := kSn.reverse
@[inherit_doc sN] def sD : List ℚ := (1 :: kSd).reverse
@[inherit_doc sN] def cN : List ℚ := kCn.reverse
@[inherit_doc sN] def cD : List ℚ := kCd.reverse
@[inherit_doc sN] def fN : List ℚ := kFn.reverse
@[inherit_doc sN] def fD : List ℚ := (1 :: kFd).reverse
@[inherit_doc sN] def gN : List ℚ := kGn.reverse
@[inherit_doc sN] def gD : List ℚ := (1 :: kGd).reverse

theorem smallX_ok (x x2 : ℝ) : smallX x x2 =
    .ok (x * x2 * pev sN (x2 * x2) / pev sD (x2 * x2), x * pev cN (x2 * x2) / pev cD (x2 * x2)) := by
  unfold smallX
  dsimp only
  rw [polevl_ok _ kSn 5 (by decide) (by decide), p1evl_ok _ kSd 6 (by decide) (by decide),
    polevl_ok _ kCn 5 (by decide) (by decide), polevl_ok _ kCd 6 (by decide) (by decide)]
  rfl

theorem sD_nonneg : ∀ q ∈ sD, 0 ≤ q := by decide +kernel
theorem cD_nonneg : ∀ q ∈ cD, 0 ≤ q := by decide +kernel
theorem fD_nonneg : ∀ q ∈ fD, 0 ≤ q := by decide +kernel
theorem gD_nonneg : ∀ q ∈ gD, 0 ≤ q := by decide +kernel

theorem pev_pos {l : List ℚ} (hl : ∀ a ∈ l, 0 ≤ a) (h0 : 0 < pevQ l 0) {x : ℝ} (hx : 0 ≤ x) : 0 < pev l x := by
  have h1 := pev_mono hl (le_refl 0) hx
  have h2 : (0 : ℝ) < ((pevQ l 0 : ℚ) : ℝ) := by exact_mod_cast h0
  rw [pevQ_cast] at h2
  exact lt_of_lt_of_le (by simpa using h2) h1

theorem sD_pos {x : ℝ} (hx : 0 ≤ x) : 0 < pev sD x := pev_pos sD_nonneg (by decide +kernel) hx
theorem cD_pos {x : ℝ} (hx : 0 ≤ x) : 0 < pev cD x := pev_pos cD_nonneg (by decide +kernel) hx
theorem fD_pos {x : ℝ} (hx : 0 ≤ x) : 0 < pev fD x := pev_pos fD_nonneg (by decide +kernel) hx
theorem gD_pos {x : ℝ} (hx : 0 ≤ x) : 0 < pev gD x := pev_pos gD_nonneg (by decide +kernel) hx

theorem cos_bound : boundAlong (addL cN (smulL (-1) (mulL cD (cosSeries 20)))) cD 1e-15 [0, 3, 6.57] = true := by
  decide +kernel

theorem sin_bound : boundAlong (addL sN (smulL (-1) (mulL sD (sinSeries 20)))) sD 1e-15 [0, 3, 6.57] = true := by
  decide +kernel

/-- From the bound on polynomials to that on their quotient. -/
theorem quotient_bound {P Q T : List ℚ} {e : ℚ} (h : boundAlong (addL P (smulL (-1) (mulL Q T))) Q e [0, 3, 6.57] = true)
    (he : 0 ≤ e) (hQ : ∀ q ∈ Q, 0 ≤ q) {t : ℝ} (h0 : 0 ≤ t) (h1 : t ≤ 6.57) (hp : 0 < pev Q t) :
    |pev P t / pev Q t - pev T t| ≤ e := by
  have hb := boundAlong_spec hQ he 0 [3, 6.57] h (le_refl _) (by decide +kernel) t (by simpa using h0)
    (by simp only [List.getLast_cons_cons, List.getLast_singleton]; norm_num at h1 ⊢; exact h1) (by simp)
  rw [pev_addL, pev_smulL, pev_mulL] at hb
  have : pev P t / pev Q t - pev T t = (pev P t + ((-1 : ℚ) : ℝ) * (pev Q t * pev T t)) / pev Q t := by
    push_cast
    field_simp
    ring
  rw [this, abs_div, abs_of_pos hp, div_le_iff₀ hp]
  exact hb

theorem small_bounds {x : ℝ} (h0 : 0 ≤ x) (h : x * x ≤ 2.5625) : x ≤ 1.61 ∧ x ^ 4 ≤ 6.57 := by
  constructor
  · norm_num at h ⊢
    by_contra hc
    push Not at hc
    nlinarith
  · have h1 : 0 ≤ x * x := by positivity
    have : x ^ 4 = (x * x) * (x * x) := by ring
    rw [this]
    calc (x * x) * (x * x) ≤ 2.5625 * 2.5625 := by gcongr
      _ ≤ 6.57 := by norm_num

theorem small_within {x : ℝ} (h0 : 0 ≤ x) (h : x * x ≤ 2.5625) :
    Spec.Within 1e-14 x (x * pev cN (x * x * (x * x)) / pev cD (x * x * (x * x)),
      x * (x * x) * pev sN (x * x * (x * x)) / pev sD (x * x * (x * x))) := by
  obtain ⟨hx, ht⟩ := small_bounds h0 h
  obtain ⟨s1, s2⟩ := series h0 h
  rw [show x * x * (x * x) = x ^ 4 by ring]
  have h4 : 0 ≤ x ^ 4 := by positivity
  have b1 := quotient_bound cos_bound (by norm_num) cD_nonneg h4 ht (cD_pos h4)
  have b2 := quotient_bound sin_bound (by norm_num) sD_nonneg h4 ht (sD_pos h4)
  push_cast at b1 b2
  generalize pev (cosSeries 20) (x ^ 4) = T at *
  generalize pev (sinSeries 20) (x ^ 4) = U at *
  rw [abs_le] at *
  have hx3 : x ^ 3 ≤ 4.2 := by
    calc x ^ 3 ≤ 1.61 ^ 3 := by gcongr
      _ ≤ 4.2 := by norm_num
  have h3 : 0 ≤ x ^ 3 := by positivity
  constructor
  · have e : x * pev cN (x ^ 4) / pev cD (x ^ 4) - Spec.cosine x =
        x * (pev cN (x ^ 4) / pev cD (x ^ 4) - T) - (Spec.cosine x - x * T) := by ring
    show |x * pev cN (x ^ 4) / pev cD (x ^ 4) - Spec.cosine x| ≤ 1e-14
    rw [e, abs_le]
    generalize pev cN (x ^ 4) / pev cD (x ^ 4) - T = d at *
    generalize Spec.cosine x - x * T = d' at *
    norm_num at *
    constructor <;> nlinarith
  · have e : x * (x * x) * pev sN (x ^ 4) / pev sD (x ^ 4) - Spec.sine x =
        x ^ 3 * (pev sN (x ^ 4) / pev sD (x ^ 4) - U) - (Spec.sine x - x ^ 3 * U) := by ring
    show |x * (x * x) * pev sN (x ^ 4) / pev sD (x ^ 4) - Spec.sine x| ≤ 1e-14
    rw [e, abs_le]
    generalize pev sN (x ^ 4) / pev sD (x ^ 4) - U = d at *
    generalize Spec.sine x - x ^ 3 * U = d' at *
    generalize x ^ 3 = y at *
    norm_num at *
    constructor <;> nlinarith

end Maliput.Fresnel
