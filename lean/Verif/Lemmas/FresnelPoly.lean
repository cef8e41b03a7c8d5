import Mathlib.Analysis.Calculus.Deriv.Mul
import Mathlib.Analysis.Calculus.Deriv.Add
import Mathlib.Tactic.Linarith
import Mathlib.Tactic.Positivity
import Mathlib.Tactic.GCongr
import Mathlib.Tactic.Ring

set_option autoImplicit false

/-!
# Polynomials with rational coefficients, as lists

Lowest power first, with the operations computable so that the kernel evaluates the
coefficients that the bounds of `Lemmas/Fresnel*` need.
-/

namespace Maliput.Fresnel

/-- The value of a polynomial. -/
def pev : List ℚ → ℝ → ℝ
  | [], _ => 0
  | a :: l, x => a + x * pev l x

/-- The value at a rational. -/
def pevQ : List ℚ → ℚ → ℚ
  | [], _ => 0
  | a :: l, x => a + x * pevQ l x

/-- Sum. -/
def addL : List ℚ → List ℚ → List ℚ
  | [], m => m
  | a :: l, [] => a :: l
  | a :: l, b :: m => (a + b) :: addL l m

/-- Multiple. -/
def smulL (k : ℚ) (l : List ℚ) : List ℚ := l.map (k * ·)

/-- Product. -/
def mulL : List ℚ → List ℚ → List ℚ
  | [], _ => []
  | a :: l, m => addL (smulL a m) (0 :: mulL l m)

/-- Derivative. -/
def derL : List ℚ → List ℚ
  | [] => []
  | _ :: l => addL l (0 :: derL l)

/-- The polynomial in `x - c`. -/
def shiftL (c : ℚ) : List ℚ → List ℚ
  | [] => []
  | a :: l => addL (a :: shiftL c l) (smulL c (shiftL c l))

/-- Absolute values of the coefficients. -/
def absL (l : List ℚ) : List ℚ := l.map (fun q => |q|)

theorem pevQ_cast (l : List ℚ) (x : ℚ) : ((pevQ l x : ℚ) : ℝ) = pev l x := by
  induction l with
  | nil => simp [pevQ, pev]
  | cons a l ih => simp [pevQ, pev, ih]

theorem pev_addL : ∀ (l m : List ℚ) (x : ℝ), pev (addL l m) x = pev l x + pev m x
  | [], m, x => by simp [addL, pev]
  | a :: l, [], x => by simp [addL, pev]
  | a :: l, b :: m, x => by
    simp only [addL, pev, pev_addL l m x]; push_cast; ring

theorem pev_smulL (k : ℚ) (l : List ℚ) (x : ℝ) : pev (smulL k l) x = k * pev l x := by
  induction l with
  | nil => simp [smulL, pev]
  | cons a l ih =>
    simp only [smulL, List.map_cons, pev] at ih ⊢
    rw [ih]; push_cast; ring

theorem pev_mulL (l m : List ℚ) (x : ℝ) : pev (mulL l m) x = pev l x * pev m x := by
  induction l with
  | nil => simp [mulL, pev]
  | cons a l ih =>
    simp only [mulL, pev, pev_addL, pev_smulL, ih]; push_cast; ring

theorem pev_shiftL (c : ℚ) (l : List ℚ) (d : ℝ) : pev (shiftL c l) d = pev l (c + d) := by
  induction l with
  | nil => simp [shiftL, pev]
  | cons a l ih =>
    simp only [shiftL, pev, pev_addL, pev_smulL, ih]; ring

theorem hasDerivAt_pev (l : List ℚ) (x : ℝ) : HasDerivAt (pev l) (pev (derL l) x) x := by
  induction l with
  | nil =>
    have : pev [] = fun _ => (0 : ℝ) := by funext y; rfl
    rw [this]; simpa [derL, pev] using hasDerivAt_const x (0 : ℝ)
  | cons a l ih =>
    have h : pev (a :: l) = fun y => (a : ℝ) + y * pev l y := by funext y; rfl
    rw [h]
    have := ((hasDerivAt_id x).mul ih).const_add (a : ℝ)
    refine this.congr_deriv ?_
    simp only [derL, pev_addL, pev]
    push_cast
    simp only [id]
    ring

theorem abs_pev_le (l : List ℚ) {d r : ℝ} (h : |d| ≤ r) : |pev l d| ≤ pev (absL l) r := by
  induction l with
  | nil => simp [absL, pev]
  | cons a l ih =>
    simp only [absL, List.map_cons, pev] at ih ⊢
    calc |(a : ℝ) + d * pev l d| ≤ |(a : ℝ)| + |d * pev l d| := abs_add_le _ _
      _ = |(a : ℝ)| + |d| * |pev l d| := by rw [abs_mul]
      _ ≤ |(a : ℝ)| + r * pev (l.map fun q => |q|) r := by
        have := (abs_nonneg d).trans h
        have := abs_nonneg (pev l d)
        gcongr
      _ = _ := by push_cast; rfl

theorem pev_nonneg {l : List ℚ} (hl : ∀ a ∈ l, 0 ≤ a) {x : ℝ} (hx : 0 ≤ x) : 0 ≤ pev l x := by
  induction l with
  | nil => simp [pev]
  | cons a l ih =>
    have h1 : (0 : ℝ) ≤ a := by exact_mod_cast hl a (by simp)
    have h2 := ih (fun b hb => hl b (by simp [hb]))
    simp only [pev]; positivity

theorem pev_mono {l : List ℚ} (hl : ∀ a ∈ l, 0 ≤ a) {x y : ℝ} (hx : 0 ≤ x) (h : x ≤ y) : pev l x ≤ pev l y := by
  induction l with
  | nil => simp [pev]
  | cons a l ih =>
    have h2 := ih (fun b hb => hl b (by simp [hb]))
    have h4 : 0 ≤ pev l x := pev_nonneg (fun b hb => hl b (by simp [hb])) hx
    have h5 := hx.trans h
    simp only [pev]
    gcongr

/-- The bound on an interval: `N` is at most `e · D` on `[a, b]`, seen from the coefficients
around the middle of the interval; the coefficients of `D` are nonnegative. -/
def boundOn (N D : List ℚ) (e a b : ℚ) : Bool :=
  decide (pevQ (absL (shiftL ((a + b) / 2) N)) ((b - a) / 2) ≤ e * pevQ D a)

theorem boundOn_spec {N D : List ℚ} {e a b : ℚ} (h : boundOn N D e a b = true) (hD : ∀ q ∈ D, 0 ≤ q) (he : 0 ≤ e)
    (ha : 0 ≤ a) {x : ℝ} (h1 : (a : ℝ) ≤ x) (h2 : x ≤ b) : |pev N x| ≤ e * pev D x := by
  have h := of_decide_eq_true h
  have h3 : ((pevQ (absL (shiftL ((a + b) / 2) N)) ((b - a) / 2) : ℚ) : ℝ) ≤ ((e * pevQ D a : ℚ) : ℝ) := by
    exact_mod_cast h
  rw [Rat.cast_mul, pevQ_cast, pevQ_cast] at h3
  have h4 : |x - ((a + b) / 2 : ℚ)| ≤ (((b - a) / 2 : ℚ) : ℝ) := by
    push_cast
    rw [abs_le]; constructor <;> linarith
  have h5 := abs_pev_le (shiftL ((a + b) / 2) N) h4
  rw [pev_shiftL] at h5
  have h6 : (((a + b) / 2 : ℚ) : ℝ) + (x - ((a + b) / 2 : ℚ)) = x := by ring
  rw [h6] at h5
  have h7 : pev D a ≤ pev D x := pev_mono hD (by exact_mod_cast ha) h1
  have h8 : (0 : ℝ) ≤ e := by exact_mod_cast he
  calc |pev N x| ≤ _ := h5
    _ ≤ _ := h3
    _ ≤ _ := by gcongr

/-- The bound on consecutive intervals. -/
def boundAlong (N D : List ℚ) (e : ℚ) : List ℚ → Bool
  | a :: b :: l => boundOn N D e a b && boundAlong N D e (b :: l)
  | _ => true

theorem boundAlong_spec {N D : List ℚ} {e : ℚ} (hD : ∀ q ∈ D, 0 ≤ q) (he : 0 ≤ e) :
    ∀ (a : ℚ) (l : List ℚ), boundAlong N D e (a :: l) = true → 0 ≤ a → (a :: l).Pairwise (· ≤ ·) →
      ∀ x : ℝ, (a : ℝ) ≤ x → x ≤ ((a :: l).getLast (by simp) : ℚ) → l ≠ [] → |pev N x| ≤ e * pev D x
  | _, [], _, _, _, _, _, _, hn => absurd rfl hn
  | a, b :: l, h, ha, hs, x, h1, h2, _ => by
    simp only [boundAlong, Bool.and_eq_true] at h
    have hab : a ≤ b := (List.pairwise_cons.1 hs).1 b (by simp)
    rcases le_or_gt x b with hb | hb
    · exact boundOn_spec h.1 hD he ha h1 hb
    · rcases l with _ | ⟨c, l⟩
      · simp at h2; exact absurd h2 (not_le.2 hb)
      · exact boundAlong_spec hD he b (c :: l) h.2 (ha.trans hab) (List.pairwise_cons.1 hs).2 x hb.le
          (by simpa using h2) (by simp)

end Maliput.Fresnel
