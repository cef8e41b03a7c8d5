import Verif.Lemmas.IntegratorFunctions
import Verif.Lemmas.Simpson
import Mathlib.Analysis.Calculus.LocalExtr.Rolle

set_option autoImplicit false

/-! The error of cubic interpolation with derivatives. -/
namespace Maliput.Ode

open Set Spec

theorem width_bound {a b t : ℝ} (h1 : a ≤ t) (h2 : t ≤ b) : (t - a) ^ 2 * (t - b) ^ 2 ≤ (b - a) ^ 4 / 16 := by
  have h4 : 0 ≤ (t - a) * (b - t) := mul_nonneg (by linarith) (by linarith)
  have h5 : (t - a) * (b - t) ≤ (b - a) ^ 2 / 4 := by nlinarith [sq_nonneg (2 * t - a - b)]
  have : ((t - a) * (b - t)) ^ 2 ≤ ((b - a) ^ 2 / 4) ^ 2 := pow_le_pow_left₀ h4 h5 2
  calc (t - a) ^ 2 * (t - b) ^ 2 = ((t - a) * (b - t)) ^ 2 := by ring
    _ ≤ _ := this
    _ = _ := by ring

/-- A function with four derivatives that is zero at both ends of an interval with its first derivative. -/
theorem double_zeros {e e1 e2 e3 e4 : ℝ → ℝ} (h0 : ∀ t, HasDerivAt e (e1 t) t) (h1 : ∀ t, HasDerivAt e1 (e2 t) t)
    (h2 : ∀ t, HasDerivAt e2 (e3 t) t) {a b M : ℝ} (h3 : ∀ t ∈ Icc a b, HasDerivAt e3 (e4 t) t) (hM : ∀ t ∈ Icc a b, |e4 t| ≤ M)
    (ha : e a = 0) (hb : e b = 0) (ha1 : e1 a = 0) (hb1 : e1 b = 0) {t : ℝ} (ht : t ∈ Icc a b) :
    |e t| ≤ M * (b - a) ^ 4 / 384 := by
  have hM0 : 0 ≤ M := (abs_nonneg _).trans (hM t ht)
  have hnn : 0 ≤ M * (b - a) ^ 4 / 384 := by positivity
  rcases eq_or_lt_of_le ht.1 with rfl | hat
  · rw [ha, abs_zero]; exact hnn
  rcases eq_or_lt_of_le ht.2 with rfl | htb
  · rw [hb, abs_zero]; exact hnn
  set w := (t - a) ^ 2 * (t - b) ^ 2 with hw
  have hwp : 0 < w := mul_pos (pow_pos (by linarith) 2) (by rw [← neg_sq]; exact pow_pos (by linarith) 2)
  set K := e t / w with hK
  have hKw : e t = K * w := by rw [hK]; field_simp
  have p1 : ∀ s, HasDerivAt (fun s : ℝ => s - a) 1 s := fun s => (hasDerivAt_id s).sub_const a
  have p2 : ∀ s, HasDerivAt (fun s : ℝ => s - b) 1 s := fun s => (hasDerivAt_id s).sub_const b
  have p3 : ∀ s, HasDerivAt (fun s : ℝ => 2 * s - a - b) 2 s := fun s => by
    simpa using (((hasDerivAt_id s).const_mul 2).sub_const a).sub_const b
  have g0 : ∀ s, HasDerivAt (fun s => e s - K * ((s - a) ^ 2 * (s - b) ^ 2)) (e1 s - K * (2 * (s - a) * (s - b) * (2 * s - a - b))) s := by
    intro s
    refine ((h0 s).sub ((((p1 s).fun_pow 2).mul ((p2 s).fun_pow 2)).const_mul K)).congr_deriv ?_
    push_cast; ring
  have g1 : ∀ s, HasDerivAt (fun s => e1 s - K * (2 * (s - a) * (s - b) * (2 * s - a - b)))
      (e2 s - K * (2 * (2 * s - a - b) ^ 2 + 4 * (s - a) * (s - b))) s := by
    intro s
    refine ((h1 s).sub (((((p1 s).const_mul 2).mul (p2 s)).mul (p3 s)).const_mul K)).congr_deriv ?_
    simp only [Pi.mul_apply]; ring
  have g2 : ∀ s, HasDerivAt (fun s => e2 s - K * (2 * (2 * s - a - b) ^ 2 + 4 * (s - a) * (s - b)))
      (e3 s - K * (12 * (2 * s - a - b))) s := by
    intro s
    refine ((h2 s).sub (((((p3 s).fun_pow 2).const_mul 2).add (((p1 s).const_mul 4).mul (p2 s))).const_mul K)).congr_deriv ?_
    push_cast; ring
  have g3 : ∀ s ∈ Icc a b, HasDerivAt (fun s => e3 s - K * (12 * (2 * s - a - b))) (e4 s - K * 24) s := by
    intro s hs
    refine ((h3 s hs).sub (((p3 s).const_mul 12).const_mul K)).congr_deriv ?_
    ring
  have rolle : ∀ {g g' : ℝ → ℝ} {u v : ℝ}, u < v → (∀ s ∈ Icc u v, HasDerivAt g (g' s) s) → g u = 0 → g v = 0 → ∃ z ∈ Ioo u v, g' z = 0 :=
    fun huv hg h1 h2 => exists_hasDerivAt_eq_zero huv (fun s hs => (hg s hs).continuousAt.continuousWithinAt) (h1.trans h2.symm)
      (fun s hs => hg s (Ioo_subset_Icc_self hs))
  have zt : (fun s => e s - K * ((s - a) ^ 2 * (s - b) ^ 2)) t = 0 := by show e t - K * w = 0; rw [hKw]; ring
  obtain ⟨x1, ⟨i1, i2⟩, z1⟩ := rolle hat (fun s _ => g0 s) (by simp [ha]) zt
  obtain ⟨x2, ⟨i3, i4⟩, z2⟩ := rolle htb (fun s _ => g0 s) zt (by simp [hb])
  obtain ⟨y1, ⟨j1, j2⟩, w1⟩ := rolle i1 (fun s _ => g1 s) (by simp [ha1]) z1
  obtain ⟨y2, ⟨j3, j4⟩, w2⟩ := rolle (i2.trans i3) (fun s _ => g1 s) z1 z2
  obtain ⟨y3, ⟨j5, j6⟩, w3⟩ := rolle i4 (fun s _ => g1 s) z2 (by simp [hb1])
  obtain ⟨u1, ⟨k1, k2⟩, v1⟩ := rolle (j2.trans j3) (fun s _ => g2 s) w1 w2
  obtain ⟨u2, ⟨k3, k4⟩, v2⟩ := rolle (j4.trans j5) (fun s _ => g2 s) w2 w3
  obtain ⟨z, ⟨l1, l2⟩, hz⟩ := rolle (k2.trans k3) (fun s hs => g3 s ⟨(j1.trans k1).le.trans hs.1, hs.2.trans (k4.trans j6).le⟩) v1 v2
  have hz' := hM z ⟨(j1.trans (k1.trans l1)).le, (l2.trans (k4.trans j6)).le⟩
  have hKz : K = e4 z / 24 := by clear * - hz; linarith
  have hKM : |K| ≤ M / 24 := by rw [hKz, abs_div, abs_of_pos (show (0 : ℝ) < 24 by norm_num)]; linarith
  have hwb : w ≤ (b - a) ^ 4 / 16 := width_bound ht.1 ht.2
  rw [hKw, abs_mul, abs_of_pos hwp]
  calc |K| * w ≤ M / 24 * ((b - a) ^ 4 / 16) := mul_le_mul hKM hwb hwp.le (by linarith)
    _ = _ := by ring

/-- The cubic polynomial between two points as a polynomial. -/
theorem cubic_poly (f : ℝ → ℝ → ℝ) (a b : ℝ × ℝ) (h : b.1 - a.1 ≠ 0) :
    ∃ C D, ∀ t, cubic f a b t = a.2 + f a.1 a.2 * (t - a.1) + C * (t - a.1) ^ 2 + D * (t - a.1) ^ 3 := by
  refine ⟨(3 * (b.2 - a.2) / (b.1 - a.1) - 2 * f a.1 a.2 - f b.1 b.2) / (b.1 - a.1),
    (f a.1 a.2 + f b.1 b.2 - 2 * (b.2 - a.2) / (b.1 - a.1)) / (b.1 - a.1) ^ 2, fun t => ?_⟩
  simp only [cubic]
  field_simp
  ring

/-- The error of the cubic polynomial between two points with the exact slopes. -/
theorem cubic_error {F f f1 f2 f3 : ℝ → ℝ} (hF : ∀ t, HasDerivAt F (f t) t) (hf : ∀ t, HasDerivAt f (f1 t) t)
    (hf1 : ∀ t, HasDerivAt f1 (f2 t) t) {a b : ℝ × ℝ} {L E : ℝ} (hf2 : ∀ t, HasDerivAt f2 (f3 t) t)
    (hL : ∀ t ∈ Icc a.1 b.1, |f3 t| ≤ L) (hab : a.1 < b.1) (ha : |a.2 - F a.1| ≤ E) (hb : |b.2 - F b.1| ≤ E) {t : ℝ}
    (ht : t ∈ Icc a.1 b.1) : |cubic (fun t _ => f t) a b t - F t| ≤ E + L * (b.1 - a.1) ^ 4 / 384 := by
  have hne : b.1 - a.1 ≠ 0 := by linarith
  have hpos : 0 < b.1 - a.1 := by linarith
  obtain ⟨C, D, hCD⟩ := cubic_poly (fun t _ => f t) (a.1, F a.1) (b.1, F b.1) hne
  dsimp only at hCD
  have p1 : ∀ s, HasDerivAt (fun s : ℝ => s - a.1) 1 s := fun s => (hasDerivAt_id s).sub_const a.1
  have d0 : ∀ s, HasDerivAt (fun s => F s - (F a.1 + f a.1 * (s - a.1) + C * (s - a.1) ^ 2 + D * (s - a.1) ^ 3))
      (f s - (f a.1 + 2 * C * (s - a.1) + 3 * D * (s - a.1) ^ 2)) s := by
    intro s
    refine ((hF s).sub (((((p1 s).const_mul (f a.1)).const_add (F a.1)).add (((p1 s).fun_pow 2).const_mul C)).add
      (((p1 s).fun_pow 3).const_mul D))).congr_deriv ?_
    push_cast; ring
  have d1 : ∀ s, HasDerivAt (fun s => f s - (f a.1 + 2 * C * (s - a.1) + 3 * D * (s - a.1) ^ 2))
      (f1 s - (2 * C + 6 * D * (s - a.1))) s := by
    intro s
    refine ((hf s).sub ((((p1 s).const_mul (2 * C)).const_add (f a.1)).add (((p1 s).fun_pow 2).const_mul (3 * D)))).congr_deriv ?_
    push_cast; ring
  have d2 : ∀ s, HasDerivAt (fun s => f1 s - (2 * C + 6 * D * (s - a.1))) (f2 s - 6 * D) s := by
    intro s
    refine ((hf1 s).sub (((p1 s).const_mul (6 * D)).const_add (2 * C))).congr_deriv ?_
    simp
  have d3 : ∀ s ∈ Icc a.1 b.1, HasDerivAt (fun s => f2 s - 6 * D) (f3 s) s := fun s _ => (hf2 s).sub_const _
  have e1 := hCD b.1
  rw [cubic_end (fun t _ => f t) (a.1, F a.1) (b.1, F b.1) hne] at e1
  dsimp only at e1
  have e2 : f b.1 - (f a.1 + 2 * C * (b.1 - a.1) + 3 * D * (b.1 - a.1) ^ 2) = 0 := by
    -- the slope at the end of the polynomial
    have q1 := hCD ((a.1 + b.1) / 2)
    simp only [cubic] at q1
    have hs : ((a.1 + b.1) / 2 - a.1) / (b.1 - a.1) = 1 / 2 := by field_simp; ring
    rw [hs] at q1
    generalize hh : b.1 - a.1 = h at *
    have hm : (a.1 + b.1) / 2 - a.1 = h / 2 := by linarith
    rw [hm] at q1
    have : h * (f b.1 - (f a.1 + 2 * C * h + 3 * D * h ^ 2)) = 0 := by nlinarith
    rcases mul_eq_zero.1 this with h' | h'
    · exact absurd h' hne
    · exact h'
  have key := double_zeros d0 d1 d2 d3 hL (by simp) (by show F b.1 - _ = 0; linarith) (by simp) e2 ht
  rw [← hCD t] at key
  have hs0 : 0 ≤ (t - a.1) / (b.1 - a.1) := div_nonneg (by linarith [ht.1]) hpos.le
  have hs1 : (t - a.1) / (b.1 - a.1) ≤ 1 := by rw [div_le_one hpos]; linarith [ht.2]
  have hdiff : cubic (fun t _ => f t) a b t - cubic (fun t _ => f t) (a.1, F a.1) (b.1, F b.1) t =
      (1 + 2 * ((t - a.1) / (b.1 - a.1))) * (1 - (t - a.1) / (b.1 - a.1)) ^ 2 * (a.2 - F a.1) +
        ((t - a.1) / (b.1 - a.1)) ^ 2 * (3 - 2 * ((t - a.1) / (b.1 - a.1))) * (b.2 - F b.1) := by
    simp only [cubic]; ring
  generalize (t - a.1) / (b.1 - a.1) = s at hs0 hs1 hdiff
  have w1 : 0 ≤ (1 + 2 * s) * (1 - s) ^ 2 := by positivity
  have w2 : 0 ≤ s ^ 2 * (3 - 2 * s) := mul_nonneg (by positivity) (by linarith)
  have w3 : (1 + 2 * s) * (1 - s) ^ 2 + s ^ 2 * (3 - 2 * s) = 1 := by ring
  have hE : |cubic (fun t _ => f t) a b t - cubic (fun t _ => f t) (a.1, F a.1) (b.1, F b.1) t| ≤ E := by
    rw [hdiff]
    refine (abs_add_le _ _).trans ?_
    rw [abs_mul ((1 + 2 * s) * (1 - s) ^ 2), abs_mul (s ^ 2 * (3 - 2 * s)), abs_of_nonneg w1, abs_of_nonneg w2]
    have := mul_le_mul_of_nonneg_left ha w1
    have := mul_le_mul_of_nonneg_left hb w2
    calc _ ≤ (1 + 2 * s) * (1 - s) ^ 2 * E + s ^ 2 * (3 - 2 * s) * E := by linarith
      _ = ((1 + 2 * s) * (1 - s) ^ 2 + s ^ 2 * (3 - 2 * s)) * E := by ring
      _ = E := by rw [w3, one_mul]
  rw [abs_le] at key hE ⊢
  constructor <;> linarith [key.1, key.2, hE.1, hE.2]

end Maliput.Ode
