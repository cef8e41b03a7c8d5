import Verif.Lemmas.IntegratorValues
import Mathlib.Analysis.Calculus.MeanValue
import Mathlib.Analysis.Calculus.Deriv.Pow
import Mathlib.Analysis.Calculus.IteratedDeriv.Lemmas
import Mathlib.MeasureTheory.Integral.IntervalIntegral.FundThmCalculus

set_option autoImplicit false

/-! The error of Simpson's rule. -/
namespace Maliput.Ode

open Set Spec

/-- A function with a small derivative that starts at zero. -/
theorem fence {g g' : ℝ → ℝ} {B B' : ℝ → ℝ} {a : ℝ} (hg : ∀ s ∈ Icc 0 a, HasDerivAt g (g' s) s) (h0 : g 0 = 0)
    (hB : ∀ s, HasDerivAt B (B' s) s) (hB0 : B 0 = 0) (hle : ∀ s ∈ Icc 0 a, |g' s| ≤ B' s) : ∀ s ∈ Icc 0 a, |g s| ≤ B s := by
  intro s hs
  have := image_norm_le_of_norm_deriv_right_le_deriv_boundary (f := g) (f' := g') (a := 0) (b := a) (B := B) (B' := B')
    (fun x hx => (hg x hx).continuousAt.continuousWithinAt)
    (fun x hx => (hg x (Ico_subset_Icc_self hx)).hasDerivWithinAt) (by rw [h0, hB0]; simp) hB
    (fun x hx => by rw [Real.norm_eq_abs]; exact hle x (Ico_subset_Icc_self hx)) hs
  rwa [Real.norm_eq_abs] at this

/-- Simpson's rule on one interval. -/
theorem simpson_one {F f f1 f2 f3 : ℝ → ℝ} (hF : ∀ t, HasDerivAt F (f t) t) (hf : ∀ t, HasDerivAt f (f1 t) t)
    (hf1 : ∀ t, HasDerivAt f1 (f2 t) t) (hf2 : ∀ t, HasDerivAt f2 (f3 t) t) {m a M : ℝ} (ha : 0 ≤ a)
    (hM : ∀ s ∈ Icc 0 a, |f3 (m + s) - f3 (m - s)| ≤ M * (2 * s)) :
    |F (m + a) - F (m - a) - a / 3 * (f (m - a) + 4 * f m + f (m + a))| ≤ M * a ^ 5 / 90 := by
  have plus : ∀ {g g' : ℝ → ℝ}, (∀ t, HasDerivAt g (g' t) t) → ∀ s, HasDerivAt (fun s => g (m + s)) (g' (m + s)) s := by
    intro g g' hg s
    simpa using (hg (m + s)).comp_const_add m s
  have minus : ∀ {g g' : ℝ → ℝ}, (∀ t, HasDerivAt g (g' t) t) → ∀ s, HasDerivAt (fun s => g (m - s)) (-g' (m - s)) s := by
    intro g g' hg s
    simpa using (hg (m - s)).comp_const_sub m s
  -- the third derivative
  have h3 : ∀ s ∈ Icc 0 a, |-(s / 3 * (f3 (m + s) - f3 (m - s)))| ≤ 2 / 3 * M * s ^ 2 := by
    intro s hs
    rw [abs_neg, abs_mul, abs_of_nonneg (by linarith [hs.1])]
    have := mul_le_mul_of_nonneg_left (hM s hs) (show 0 ≤ s / 3 by linarith [hs.1])
    linarith
  have d2 : ∀ s, HasDerivAt (fun s => 1 / 3 * (f1 (m + s) - f1 (m - s)) - s / 3 * (f2 (m + s) + f2 (m - s)))
      (-(s / 3 * (f3 (m + s) - f3 (m - s)))) s := by
    intro s
    have := (((plus hf1 s).sub (minus hf1 s)).const_mul (1 / 3)).sub
      (((hasDerivAt_id s).div_const 3).mul ((plus hf2 s).add (minus hf2 s)))
    refine this.congr_deriv ?_
    simp only [Pi.add_apply, id]; ring
  have d1 : ∀ s, HasDerivAt (fun s => f (m + s) + f (m - s) - 1 / 3 * (f (m - s) + 4 * f m + f (m + s)) -
      s / 3 * (f1 (m + s) - f1 (m - s))) (1 / 3 * (f1 (m + s) - f1 (m - s)) - s / 3 * (f2 (m + s) + f2 (m - s))) s := by
    intro s
    have := (((plus hf s).add (minus hf s)).sub ((((minus hf s).add_const (4 * f m)).add (plus hf s)).const_mul (1 / 3))).sub
      (((hasDerivAt_id s).div_const 3).mul ((plus hf1 s).sub (minus hf1 s)))
    refine this.congr_deriv ?_
    simp only [Pi.sub_apply, id]; ring
  have d0 : ∀ s, HasDerivAt (fun s => F (m + s) - F (m - s) - s / 3 * (f (m - s) + 4 * f m + f (m + s)))
      (f (m + s) + f (m - s) - 1 / 3 * (f (m - s) + 4 * f m + f (m + s)) - s / 3 * (f1 (m + s) - f1 (m - s))) s := by
    intro s
    have := ((plus hF s).sub (minus hF s)).sub
      (((hasDerivAt_id s).div_const 3).mul (((minus hf s).add_const (4 * f m)).add (plus hf s)))
    refine this.congr_deriv ?_
    simp only [Pi.add_apply, id]; ring
  have b2 : ∀ s : ℝ, HasDerivAt (fun s => 2 / 9 * M * s ^ 3) (2 / 3 * M * s ^ 2) s := by
    intro s
    refine ((hasDerivAt_pow 3 s).const_mul (2 / 9 * M)).congr_deriv ?_
    simp; ring
  have b1 : ∀ s : ℝ, HasDerivAt (fun s => 1 / 18 * M * s ^ 4) (2 / 9 * M * s ^ 3) s := by
    intro s
    refine ((hasDerivAt_pow 4 s).const_mul (1 / 18 * M)).congr_deriv ?_
    simp; ring
  have b0 : ∀ s : ℝ, HasDerivAt (fun s => 1 / 90 * M * s ^ 5) (1 / 18 * M * s ^ 4) s := by
    intro s
    refine ((hasDerivAt_pow 5 s).const_mul (1 / 90 * M)).congr_deriv ?_
    simp; ring
  have g2 := fence (fun s _ => d2 s) (by simp) b2 (by simp) h3
  have g1 := fence (fun s _ => d1 s) (by simp; ring) b1 (by simp) g2
  have g0 := fence (fun s _ => d0 s) (by simp) b0 (by simp) g1
  have := g0 a ⟨ha, le_refl _⟩
  calc _ ≤ _ := this
    _ = _ := by ring

/-- Simpson's rule on a partition. -/
theorem simpson_error {f : ℝ → ℝ} (hf : ContDiff ℝ 4 f) {M bound b : ℝ} : ∀ (ts : List ℝ) (a : ℝ), Partition bound a b ts →
    (∀ t ∈ Icc a b, |iteratedDeriv 4 f t| ≤ M) → a ≤ b ∧ |simpson f ts - ∫ t in a..b, f t| ≤ M * (b - a) * bound ^ 4 / 2880 := by
  have hd : ∀ n : ℕ, (n : ℕ) < 4 → ∀ t, HasDerivAt (iteratedDeriv n f) (iteratedDeriv (n + 1) f t) t := by
    intro n hn t
    have := (hf.differentiable_iteratedDeriv n (by exact_mod_cast hn)) t
    rw [iteratedDeriv_succ]
    exact this.hasDerivAt
  have hc := hf.continuous
  have hF : ∀ t, HasDerivAt (fun u => ∫ t in (0 : ℝ)..u, f t) (f t) t := fun t =>
    intervalIntegral.integral_hasDerivAt_right (hc.intervalIntegrable _ _) (hc.stronglyMeasurableAtFilter _ _) hc.continuousAt
  intro ts
  induction ts with
  | nil => rintro a ⟨h, -⟩; cases h
  | cons x l ih =>
    rintro a ⟨h1, h2, h3⟩ hM
    have hxa : x = a := by simpa using h1
    subst hxa
    rename' x => a
    cases l with
    | nil => cases h2; simp [simpson]
    | cons y l =>
      obtain ⟨⟨hxy, hyb⟩, hch⟩ := List.isChain_cons_cons.1 h3
      obtain ⟨hle, ih'⟩ := ih y ⟨rfl, by rwa [List.getLast?_cons_cons] at h2, hch⟩ (fun t ht => by
        refine hM t ⟨?_, ht.2⟩
        exact hxy.le.trans ht.1)
      have hM0 : 0 ≤ M := (abs_nonneg _).trans (hM a ⟨le_refl _, by linarith⟩)
      refine ⟨by linarith, ?_⟩
      have hone := simpson_one (F := fun u => ∫ t in (0 : ℝ)..u, f t) (f := f) (f1 := iteratedDeriv 1 f) (f2 := iteratedDeriv 2 f)
        (f3 := iteratedDeriv 3 f) hF (fun t => by simpa using hd 0 (by norm_num) t) (hd 1 (by norm_num)) (hd 2 (by norm_num))
        (m := (a + y) / 2) (a := (y - a) / 2) (M := M) (by linarith) (by
          intro s hs
          have hsub : ∀ z ∈ Icc ((a + y) / 2 - s) ((a + y) / 2 + s), z ∈ Icc a b := by
            intro z hz
            constructor
            · linarith [hz.1, hs.2]
            · linarith [hz.2, hs.2]
          have := (convex_Icc ((a + y) / 2 - s) ((a + y) / 2 + s)).norm_image_sub_le_of_norm_hasDerivWithin_le
            (f := iteratedDeriv 3 f) (f' := iteratedDeriv 4 f) (C := M)
            (fun z hz => (hd 3 (by norm_num) z).hasDerivWithinAt) (fun z hz => by
              rw [Real.norm_eq_abs]; exact hM z (hsub z hz))
            (left_mem_Icc.2 (by linarith [hs.1])) (right_mem_Icc.2 (by linarith [hs.1]))
          rw [Real.norm_eq_abs, Real.norm_eq_abs] at this
          refine this.trans (le_of_eq ?_)
          rw [abs_of_nonneg (by linarith [hs.1])]; ring)
      have e1 : (a + y) / 2 + (y - a) / 2 = y := by ring
      have e2 : (a + y) / 2 - (y - a) / 2 = a := by ring
      rw [e1, e2] at hone
      have hint : (∫ t in (0 : ℝ)..y, f t) - ∫ t in (0 : ℝ)..a, f t = ∫ t in a..y, f t :=
        intervalIntegral.integral_interval_sub_left (hc.intervalIntegrable _ _) (hc.intervalIntegrable _ _)
      rw [hint] at hone
      have hadd : (∫ t in a..y, f t) + ∫ t in y..b, f t = ∫ t in a..b, f t :=
        intervalIntegral.integral_add_adjacent_intervals (hc.intervalIntegrable _ _) (hc.intervalIntegrable _ _)
      have hq : M * ((y - a) / 2) ^ 5 / 90 ≤ M * (y - a) * bound ^ 4 / 2880 := by
        have hp : (y - a) ^ 4 ≤ bound ^ 4 := pow_le_pow_left₀ (by linarith) (by linarith) 4
        have : M * (y - a) * (y - a) ^ 4 ≤ M * (y - a) * bound ^ 4 :=
          mul_le_mul_of_nonneg_left hp (mul_nonneg hM0 (by linarith))
        calc M * ((y - a) / 2) ^ 5 / 90 = M * (y - a) * (y - a) ^ 4 / 2880 := by ring
          _ ≤ _ := by linarith
      rw [simpson, ← hadd]
      rw [abs_le] at hone ih' ⊢
      have e3 : M * (b - a) * bound ^ 4 / 2880 = M * (y - a) * bound ^ 4 / 2880 + M * (b - y) * bound ^ 4 / 2880 := by ring
      have e4 : (y - a) / 2 / 3 * (f a + 4 * f ((a + y) / 2) + f y) = (y - a) / 6 * (f a + 4 * f ((a + y) / 2) + f y) := by ring
      rw [e4] at hone
      rw [e3]
      constructor <;> linarith [hone.1, hone.2, ih'.1, ih'.2]

end Maliput.Ode
