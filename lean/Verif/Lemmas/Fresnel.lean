import Verif.Lemmas.FresnelJoin

set_option autoImplicit false

/-!
# Errors of the Fresnel functions of the model
-/

namespace Maliput.Fresnel

theorem hasDerivAt_cosine (x : ℝ) : HasDerivAt Spec.cosine (Real.cos (Real.pi * x ^ 2 / 2)) x := by
  have h : Continuous fun s : ℝ => Real.cos (Real.pi * s ^ 2 / 2) := by fun_prop
  exact (h.integral_hasStrictDerivAt 0 x).hasDerivAt

theorem hasDerivAt_sine (x : ℝ) : HasDerivAt Spec.sine (Real.sin (Real.pi * x ^ 2 / 2)) x := by
  have h : Continuous fun s : ℝ => Real.sin (Real.pi * s ^ 2 / 2) := by fun_prop
  exact (h.integral_hasStrictDerivAt 0 x).hasDerivAt

/-- A function whose derivative decays stays near its first value. -/
theorem growth {f f' : ℝ → ℝ} {x0 α β : ℝ} (hx0 : 0 < x0) (hα : 0 ≤ α) (hβ : 0 ≤ β) (hf : ∀ x, x0 ≤ x → HasDerivAt f (f' x) x)
    (hb : ∀ x, x0 ≤ x → |f' x| ≤ 3 * α / x ^ 4 + β / x ^ 2) (x : ℝ) (hx : x0 ≤ x) :
    |f x - f x0| ≤ α / x0 ^ 3 + β / x0 := by
  have hg : ∀ y, x0 ≤ y → HasDerivAt (fun y : ℝ => α / y ^ 3 + β / y) (-(3 * α / y ^ 4 + β / y ^ 2)) y := by
    intro y hy
    have hy0 : 0 < y := hx0.trans_le hy
    have h1 := (hasDerivAt_const y α).div (hasDerivAt_pow 3 y) (by positivity)
    have h2 := (hasDerivAt_const y β).div (hasDerivAt_id y) hy0.ne'
    refine (h1.add h2).congr_deriv ?_
    simp only [id]
    field_simp
    push_cast
    ring
  have ha : AntitoneOn (fun y => f y + (α / y ^ 3 + β / y)) (Set.Ici x0) := by
    refine antitoneOn_of_deriv_nonpos (convex_Ici x0)
      (fun y hy => ((hf y hy).add (hg y hy)).continuousAt.continuousWithinAt) ?_ ?_
    · intro y hy
      rw [interior_Ici] at hy
      exact ((hf y (le_of_lt hy)).add (hg y (le_of_lt hy))).differentiableAt.differentiableWithinAt
    · intro y hy
      rw [interior_Ici] at hy
      have hd : deriv (fun y => f y + (α / y ^ 3 + β / y)) y = f' y + -(3 * α / y ^ 4 + β / y ^ 2) :=
        ((hf y (le_of_lt hy)).add (hg y (le_of_lt hy))).deriv
      rw [hd]
      have := (abs_le.1 (hb y (le_of_lt hy))).2
      linarith
  have hm : MonotoneOn (fun y => f y - (α / y ^ 3 + β / y)) (Set.Ici x0) := by
    refine monotoneOn_of_deriv_nonneg (convex_Ici x0)
      (fun y hy => ((hf y hy).sub (hg y hy)).continuousAt.continuousWithinAt) ?_ ?_
    · intro y hy
      rw [interior_Ici] at hy
      exact ((hf y (le_of_lt hy)).sub (hg y (le_of_lt hy))).differentiableAt.differentiableWithinAt
    · intro y hy
      rw [interior_Ici] at hy
      have hd : deriv (fun y => f y - (α / y ^ 3 + β / y)) y = f' y - -(3 * α / y ^ 4 + β / y ^ 2) :=
        ((hf y (le_of_lt hy)).sub (hg y (le_of_lt hy))).deriv
      rw [hd]
      have := (abs_le.1 (hb y (le_of_lt hy))).1
      linarith
  have h1 := ha (Set.mem_Ici.2 (le_refl x0)) (Set.mem_Ici.2 hx) hx
  have h2 := hm (Set.mem_Ici.2 (le_refl x0)) (Set.mem_Ici.2 hx) hx
  simp only at h1 h2
  have hx' : 0 < x := hx0.trans_le hx
  have hp : 0 ≤ α / x ^ 3 + β / x := by positivity
  rw [abs_le]
  constructor <;> linarith

/-- The residuals of the program. -/
noncomputable def r1 (u : ℝ) : ℝ := res1 u (auxA u) (auxH u) (pev (wronskian gN gD) u / pev gD u ^ 2)
@[inherit_doc r1] noncomputable def r2 (u : ℝ) : ℝ := res2 u (auxA u) (auxH u) (pev (wronskian fN fD) u / pev fD u ^ 2)

theorem r1_le {u : ℝ} (h0 : 0 ≤ u) (h1 : u ≤ 0.01544) : |r1 u| ≤ 5e-13 := by
  have hb := boundAlong_spec res1D_nonneg (by norm_num) 0 _ res1_bound (le_refl _) (by decide +kernel) u (by simpa using h0)
    (by simp only [List.getLast_cons_cons, List.getLast_singleton]; norm_num at h1 ⊢; exact h1) (by simp)
  have f0 := fD_pos h0
  have g0 := gD_pos h0
  have e : r1 u = pev res1N u / pev res1D u := by
    simp only [r1, res1, auxA, auxH, res1N, res1D, pev_addL, pev_smulL, pev_mulL, pev]
    push_cast
    field_simp
    ring
  have hD : 0 < pev res1D u := by simp only [res1D, pev_mulL]; positivity
  rw [e, abs_div, abs_of_pos hD, div_le_iff₀ hD]
  push_cast at hb
  exact hb

theorem r2_le {u : ℝ} (h0 : 0 ≤ u) (h1 : u ≤ 0.01544) : |r2 u| ≤ 2e-14 := by
  have hb := boundAlong_spec res2D_nonneg (by norm_num) 0 _ res2_bound (le_refl _) (by decide +kernel) u (by simpa using h0)
    (by simp only [List.getLast_cons_cons, List.getLast_singleton]; norm_num at h1 ⊢; exact h1) (by simp)
  have f0 := fD_pos h0
  have g0 := gD_pos h0
  have e : r2 u = pev res2N u / pev res2D u := by
    simp only [r2, res2, auxA, auxH, res2N, res2D, pev_addL, pev_smulL, pev_mulL, pev]
    push_cast
    field_simp
    ring
  have hD : 0 < pev res2D u := by simp only [res2D, pev_mulL]; positivity
  rw [e, abs_div, abs_of_pos hD, div_le_iff₀ hD]
  push_cast at hb
  exact hb

theorem meet_le {x : ℝ} (hx : 0 ≤ x) (h : 2.5625 ≤ x * x) : meet ≤ x := by
  by_contra hc
  push Not at hc
  have := meet_sq
  have := meet_pos
  nlinarith

theorem uOf_le {x : ℝ} (hx : meet ≤ x) : uOf x ≤ 0.01544 := by
  have h0 := meet_pos
  have hp := Real.pi_pos
  have hx0 := h0.le.trans hx
  have h1 : 2.5625 ≤ x * x := by rw [← meet_sq]; gcongr
  have h2 : 3.14159 * 2.5625 ≤ Real.pi * (x * x) := by
    have := Real.pi_gt_d6
    have : (3.14159 : ℝ) ≤ Real.pi := by norm_num at *; linarith
    gcongr
  have h3 : 3.14159 * 2.5625 * (3.14159 * 2.5625) ≤ Real.pi * (x * x) * (Real.pi * (x * x)) := by gcongr
  unfold uOf
  rw [div_le_iff₀ (by norm_num at *; linarith)]
  norm_num at *
  linarith

theorem residual_le {x : ℝ} (hx : meet ≤ x) {c s : ℝ} (hc : |c| ≤ 1) (hs : |s| ≤ 1) :
    |c * (uOf x * r1 (uOf x)) + s * (1 / (Real.pi * (x * x)) * r2 (uOf x))| ≤ 3 * 1.7e-14 / x ^ 4 + 6.4e-15 / x ^ 2 := by
  have h0 := meet_pos.trans_le hx
  have hu := uOf_pos h0
  have hul := uOf_le hx
  have b1 := r1_le hu.le hul
  have b2 := r2_le hu.le hul
  have hp := Real.pi_pos
  have hp3 : (3.14159 : ℝ) ≤ Real.pi := by have := Real.pi_gt_d6; norm_num at *; linarith
  have e1 : uOf x * 5e-13 ≤ 3 * 1.7e-14 / x ^ 4 := by
    unfold uOf
    rw [le_div_iff₀ (by positivity)]
    have : 1 / (Real.pi * (x * x) * (Real.pi * (x * x))) * 5e-13 * x ^ 4 = 5e-13 / (Real.pi * Real.pi) := by
      field_simp
    rw [this, div_le_iff₀ (by positivity)]
    have h4 : (3.14159 : ℝ) * 3.14159 ≤ Real.pi * Real.pi := by gcongr
    norm_num at *
    linarith
  have e2 : 1 / (Real.pi * (x * x)) * 2e-14 ≤ 6.4e-15 / x ^ 2 := by
    rw [le_div_iff₀ (by positivity)]
    have : 1 / (Real.pi * (x * x)) * 2e-14 * x ^ 2 = 2e-14 / Real.pi := by
      field_simp
    rw [this, div_le_iff₀ (by positivity)]
    norm_num at *
    linarith
  have h5 : 0 < 1 / (Real.pi * (x * x)) := by positivity
  refine (abs_add_le _ _).trans ?_
  rw [abs_mul, abs_mul, abs_mul, abs_mul, abs_of_pos hu, abs_of_pos h5]
  refine add_le_add (le_trans ?_ e1) (le_trans ?_ e2)
  · calc |c| * (uOf x * |r1 (uOf x)|) ≤ 1 * (uOf x * 5e-13) := by gcongr
      _ = _ := one_mul _
  · calc |s| * (1 / (Real.pi * (x * x)) * |r2 (uOf x)|) ≤ 1 * (1 / (Real.pi * (x * x)) * 2e-14) := by gcongr
      _ = _ := one_mul _

theorem meet_size : 1.7e-14 / meet ^ 3 + 6.4e-15 / meet ≤ (9e-15 : ℝ) := by
  have h := near_meet
  have h0 := meet_pos
  have h1 : (1.6 : ℝ) ≤ meet := by rw [abs_le] at h; norm_num at *; linarith
  calc 1.7e-14 / meet ^ 3 + 6.4e-15 / meet ≤ 1.7e-14 / 1.6 ^ 3 + 6.4e-15 / 1.6 := by gcongr
    _ ≤ (9e-15 : ℝ) := by norm_num

/-- The second formula is close to the integrals from the meeting point on, with no upper end. -/
theorem medium_within {x : ℝ} (hx : 0 ≤ x) (h : 2.5625 ≤ x * x) : Spec.Within 1e-14 x (genC auxA auxH x, genS auxA auxH x) := by
  have hmx := meet_le hx h
  have dA : ∀ y, meet ≤ y → HasDerivAt auxA (pev (wronskian fN fD) (uOf y) / pev fD (uOf y) ^ 2) (uOf y) := fun y hy =>
    hasDerivAt_quotient (fD_pos (uOf_pos (meet_pos.trans_le hy)).le).ne'
  have dH : ∀ y, meet ≤ y → HasDerivAt auxH (pev (wronskian gN gD) (uOf y) / pev gD (uOf y) ^ 2) (uOf y) := fun y hy =>
    hasDerivAt_quotient (gD_pos (uOf_pos (meet_pos.trans_le hy)).le).ne'
  have eθ : ∀ y : ℝ, Real.pi * 0.5 * (y * y) = Real.pi * y ^ 2 / 2 := by intro y; norm_num; ring
  constructor
  · have := growth (f := fun y => genC auxA auxH y - Spec.cosine y) (x0 := meet) (α := 1.7e-14) (β := 6.4e-15)
      (f' := fun y => Real.cos (Real.pi * y ^ 2 / 2) * (uOf y * r1 (uOf y)) +
        Real.sin (Real.pi * y ^ 2 / 2) * (1 / (Real.pi * (y * y)) * r2 (uOf y)))
      meet_pos (by norm_num) (by norm_num)
      (fun y hy => by
        refine (((hasDerivAt_gen (meet_pos.trans_le hy) (dA y hy) (dH y hy)).1).sub (hasDerivAt_cosine y)).congr_deriv ?_
        rw [eθ]
        simp only [r1, r2]
        ring)
      (fun y hy => residual_le hy (Real.abs_cos_le_one _) (Real.abs_sin_le_one _)) x hmx
    have h2 := meet_cosine
    have h3 := meet_size
    show |genC auxA auxH x - Spec.cosine x| ≤ 1e-14
    calc |genC auxA auxH x - Spec.cosine x| = |(genC auxA auxH x - Spec.cosine x - (genC auxA auxH meet - Spec.cosine meet)) +
          (genC auxA auxH meet - Spec.cosine meet)| := by congr 1; ring
      _ ≤ _ := abs_add_le _ _
      _ ≤ 9e-15 + 1e-15 := add_le_add (this.trans h3) h2
      _ ≤ 1e-14 := by norm_num
  · have := growth (f := fun y => genS auxA auxH y - Spec.sine y) (x0 := meet) (α := 1.7e-14) (β := 6.4e-15)
      (f' := fun y => Real.sin (Real.pi * y ^ 2 / 2) * (uOf y * r1 (uOf y)) +
        (-Real.cos (Real.pi * y ^ 2 / 2)) * (1 / (Real.pi * (y * y)) * r2 (uOf y)))
      meet_pos (by norm_num) (by norm_num)
      (fun y hy => by
        refine (((hasDerivAt_gen (meet_pos.trans_le hy) (dA y hy) (dH y hy)).2).sub (hasDerivAt_sine y)).congr_deriv ?_
        rw [eθ]
        simp only [r1, r2]
        ring)
      (fun y hy => residual_le hy (Real.abs_sin_le_one _) (by rw [abs_neg]; exact Real.abs_cos_le_one _)) x hmx
    have h2 := meet_sine
    have h3 := meet_size
    show |genS auxA auxH x - Spec.sine x| ≤ 1e-14
    calc |genS auxA auxH x - Spec.sine x| = |(genS auxA auxH x - Spec.sine x - (genS auxA auxH meet - Spec.sine meet)) +
          (genS auxA auxH meet - Spec.sine meet)| := by congr 1; ring
      _ ≤ _ := abs_add_le _ _
      _ ≤ 9e-15 + 1e-15 := add_le_add (this.trans h3) h2
      _ ≤ 1e-14 := by norm_num

/-- Comparison of coefficients. -/
def leL : List ℚ → List ℚ → Bool
  | [], m => m.all (0 ≤ ·)
  | a :: l, b :: m => decide (a ≤ b) && leL l m
  | _ :: _, [] => false

theorem pev_le : ∀ {l m : List ℚ}, leL l m = true → ∀ {x : ℝ}, 0 ≤ x → pev l x ≤ pev m x
  | [], m, h, x, hx => by
    refine pev_nonneg (fun a ha => ?_) hx
    simp only [leL, List.all_eq_true, decide_eq_true_eq] at h
    exact h a ha
  | a :: l, b :: m, h, x, hx => by
    simp only [leL, Bool.and_eq_true, decide_eq_true_eq] at h
    have h1 : (a : ℝ) ≤ b := by exact_mod_cast h.1
    have h2 := pev_le h.2 hx
    simp only [pev]
    gcongr
  | _ :: _, [], h, _, _ => by simp [leL] at h

theorem auxH_bounds {u : ℝ} (hu : 0 ≤ u) : 0 ≤ auxH u ∧ auxH u ≤ 1 := by
  have h1 := pev_le (l := gN) (m := gD) (by decide +kernel) hu
  have h2 : 0 ≤ pev gN u := pev_nonneg (by decide +kernel) hu
  have h3 := gD_pos hu
  exact ⟨div_nonneg h2 h3.le, (div_le_one h3).2 h1⟩

theorem auxA_bounds {u : ℝ} (hu : 0 ≤ u) : 0 ≤ auxA u ∧ auxA u ≤ 4 := by
  have h1 := pev_le (l := fN) (m := smulL 4 fD) (by decide +kernel) hu
  have h2 : 0 ≤ pev fN u := pev_nonneg (by decide +kernel) hu
  have h3 := fD_pos hu
  rw [pev_smulL] at h1
  push_cast at h1
  exact ⟨div_nonneg h2 h3.le, (div_le_iff₀ h3).2 h1⟩

theorem far_u {x : ℝ} (h : 36974 ≤ x) : 0 ≤ uOf x * auxA (uOf x) ∧ uOf x * auxA (uOf x) ≤ 1e-9 ∧
    0 ≤ 1 / (Real.pi * (x * x)) * auxH (uOf x) ∧ 1 / (Real.pi * (x * x)) * auxH (uOf x) ≤ 1e-9 := by
  have hx : 0 < x := by linarith
  have hp := Real.pi_pos
  have hp3 := Real.pi_gt_three
  have h2 : (3e9 : ℝ) ≤ Real.pi * (x * x) := by
    calc (3e9 : ℝ) ≤ 3 * (36974 * 36974) := by norm_num
      _ ≤ Real.pi * (x * x) := by gcongr
  have h4 : 1 / (Real.pi * (x * x)) ≤ 1 / 3e9 := by gcongr
  have h3 : uOf x ≤ 1 / 3e9 * (1 / 3e9) := by
    have : uOf x = 1 / (Real.pi * (x * x)) * (1 / (Real.pi * (x * x))) := by unfold uOf; field_simp
    rw [this]
    gcongr
  have hu := (uOf_pos hx).le
  obtain ⟨a1, a2⟩ := auxA_bounds hu
  obtain ⟨b1, b2⟩ := auxH_bounds hu
  refine ⟨by positivity, ?_, by positivity, ?_⟩
  · calc uOf x * auxA (uOf x) ≤ (1 / 3e9 * (1 / 3e9)) * 4 := by gcongr
      _ ≤ 1e-9 := by norm_num
  · calc 1 / (Real.pi * (x * x)) * auxH (uOf x) ≤ 1 / 3e9 * 1 := by gcongr
      _ ≤ 1e-9 := by norm_num

theorem far_near_half {x : ℝ} (h : 36974 ≤ x) : |genC auxA auxH x - 0.5| ≤ 8.6095e-6 ∧ |genS auxA auxH x - 0.5| ≤ 8.6095e-6 := by
  obtain ⟨a1, a2, b1, b2⟩ := far_u h
  have hx : 0 < x := by linarith
  have hp := Real.pi_pos
  have hp3 : (3.14159 : ℝ) ≤ Real.pi := by have := Real.pi_gt_d6; norm_num at *; linarith
  have key : ∀ c s : ℝ, |c| ≤ 1 → |s| ≤ 1 → |((1 - uOf x * auxA (uOf x)) * c +
      1 / (Real.pi * (x * x)) * auxH (uOf x) * s) / (Real.pi * x)| ≤ 8.6095e-6 := by
    intro c s hc hs
    rw [abs_div, abs_of_pos (show 0 < Real.pi * x by positivity), div_le_iff₀ (by positivity)]
    generalize uOf x * auxA (uOf x) = a at *
    generalize 1 / (Real.pi * (x * x)) * auxH (uOf x) = b at *
    have hA : |1 - a| ≤ 1 := by rw [abs_le]; constructor <;> norm_num at * <;> linarith
    have hB : |b| ≤ 1e-9 := by rw [abs_of_nonneg b1]; exact b2
    calc |(1 - a) * c + b * s| ≤ |(1 - a) * c| + |b * s| := abs_add_le _ _
      _ = |1 - a| * |c| + |b| * |s| := by rw [abs_mul, abs_mul]
      _ ≤ 1 * 1 + 1e-9 * 1 := by gcongr
      _ ≤ 8.6095e-6 * (3.14159 * 36974) := by norm_num
      _ ≤ 8.6095e-6 * (Real.pi * x) := by gcongr
  constructor
  · have := key (Real.sin (Real.pi * 0.5 * (x * x))) (-Real.cos (Real.pi * 0.5 * (x * x))) (Real.abs_sin_le_one _)
      (by rw [abs_neg]; exact Real.abs_cos_le_one _)
    refine le_trans (le_of_eq ?_) this
    unfold genC
    congr 1
    ring
  · have := key (Real.cos (Real.pi * 0.5 * (x * x))) (Real.sin (Real.pi * 0.5 * (x * x))) (Real.abs_cos_le_one _) (Real.abs_sin_le_one _)
    refine le_trans (le_of_eq ?_) this
    rw [← abs_neg]
    unfold genS
    congr 1
    ring

theorem far_within {x : ℝ} (h : 36974 ≤ x) : Spec.Within 8.61e-6 x (0.5, 0.5) := by
  obtain ⟨h1, h2⟩ := far_near_half h
  obtain ⟨w1, w2⟩ := medium_within (x := x) (by linarith) (by norm_num; nlinarith)
  constructor
  · simp only [abs_le] at *; norm_num at *; constructor <;> linarith
  · simp only [abs_le] at *; norm_num at *; constructor <;> linarith

theorem cosine_neg (t : ℝ) : Spec.cosine (-t) = -Spec.cosine t := by
  unfold Spec.cosine
  have h := intervalIntegral.integral_comp_neg (a := 0) (b := t) (fun s : ℝ => Real.cos (Real.pi * s ^ 2 / 2))
  simp only [neg_sq, neg_zero] at h
  rw [h, intervalIntegral.integral_symm]
  
theorem sine_neg (t : ℝ) : Spec.sine (-t) = -Spec.sine t := by
  unfold Spec.sine
  have h := intervalIntegral.integral_comp_neg (a := 0) (b := t) (fun s : ℝ => Real.sin (Real.pi * s ^ 2 / 2))
  simp only [neg_sq, neg_zero] at h
  rw [h, intervalIntegral.integral_symm]

/-- The pair for the absolute value of the argument. -/
noncomputable def plain (x : ℝ) : ℝ × ℝ :=
  if x * x < 2.5625 then (x * pev cN (x * x * (x * x)) / pev cD (x * x * (x * x)), x * (x * x) * pev sN (x * x * (x * x)) / pev sD (x * x * (x * x)))
  else if x > 36974 then (0.5, 0.5)
  else (genC auxA auxH x, genS auxA auxH x)

theorem compute_eq (t : ℝ) : computeFresnelCosineAndSine t =
    .ok (if t < 0 then (-(plain |t|).1, -(plain |t|).2) else plain |t|) := by
  unfold computeFresnelCosineAndSine fresnel plain
  dsimp only
  rw [smallX_ok, mediumX_ok]
  norm_num only
  split_ifs <;> rfl

theorem plain_within {x : ℝ} (h0 : 0 ≤ x) (h : x ≤ 36974) : Spec.Within 1e-14 x (plain x) := by
  unfold plain
  split_ifs with h1 h2
  · exact small_within h0 h1.le
  · exact absurd h2 (not_lt.2 h)
  · exact medium_within h0 (not_lt.1 h1)

theorem plain_far {x : ℝ} (h : 36974 < x) : plain x = (0.5, 0.5) := by
  unfold plain
  rw [if_neg (by norm_num; nlinarith), if_pos h]

theorem within_neg {e t : ℝ} {v : ℝ × ℝ} (h : Spec.Within e t v) : Spec.Within e (-t) (-v.1, -v.2) := by
  obtain ⟨h1, h2⟩ := h
  constructor
  · simp only [cosine_neg]
    rw [← abs_neg]
    refine le_trans (le_of_eq ?_) h1
    congr 1; ring
  · simp only [sine_neg]
    rw [← abs_neg]
    refine le_trans (le_of_eq ?_) h2
    congr 1; ring

theorem signed_within {e t : ℝ} (h : Spec.Within e |t| (plain |t|)) :
    Spec.Within e t (if t < 0 then (-(plain |t|).1, -(plain |t|).2) else plain |t|) := by
  split_ifs with ht
  · have := within_neg h
    rwa [abs_of_neg ht, neg_neg, ← abs_of_neg ht] at this
  · rwa [abs_of_nonneg (not_lt.1 ht)] at *

end Maliput.Fresnel
