import Mathlib.Analysis.SpecialFunctions.Trigonometric.Basic
import Verif.Model.Basic

set_option autoImplicit false

/-!
# Fresnel cosine and sine

`ComputeFresnelCosineAndSine`, `FresnelSpiralHeading` and `FresnelSpiralHeadingDot`
(`src/maliput/math/fresnel.cc`).  Doubles are real numbers: neither the rounding of the
arithmetic nor that of the literals, of `M_PI`, of `std::sin` and of `std::cos` is modelled,
and infinities and NaNs are not inputs.
-/

namespace Maliput.Fresnel

/-- `polevl`, src/maliput/math/fresnel.cc:86-96: reads `coef[0]` and then `n` more
coefficients, highest power first.  With `n = 0` the counter of the `do` loop goes below
zero, and with fewer than `n + 1` coefficients it reads past the array: both are `ub`. -/
noncomputable def polevl (x : ℝ) (coef : List ℚ) (n : Nat) : Except Err ℝ :=
  match coef with
  | [] => .error .ub
  | c :: cs =>
    if n = 0 ∨ cs.length < n then .error .ub
    else .ok ((cs.take n).foldl (fun (ans : ℝ) (k : ℚ) => ans * x + k) c)

/-- `p1evl`, src/maliput/math/fresnel.cc:98-108: the same with an implicit leading
coefficient 1, so that `n` coefficients are read. -/
noncomputable def p1evl (x : ℝ) (coef : List ℚ) (n : Nat) : Except Err ℝ :=
  match coef with
  | [] => .error .ub
  | c :: cs =>
    if n ≤ 1 ∨ cs.length < n - 1 then .error .ub
    else .ok ((cs.take (n - 1)).foldl (fun (ans : ℝ) (k : ℚ) => ans * x + k) (x + c))

/-- `kSn`, src/maliput/math/fresnel.cc:112-115. -/
def kSn : List ℚ :=
  [-2.99181919401019853726E3, 7.08840045257738576863E5, -6.29741486205862506537E7,
   2.54890880573376359104E9, -4.42979518059697779103E10, 3.18016297876567817986E11]

/-- `kSd`, src/maliput/math/fresnel.cc:116-120. -/
def kSd : List ℚ :=
  [2.81376268889994315696E2, 4.55847810806532581675E4, 5.17343888770096400730E6,
   4.19320245898111231129E8, 2.24411795645340920940E10, 6.07366389490084639049E11]

/-- `kCn`, src/maliput/math/fresnel.cc:123-126. -/
def kCn : List ℚ :=
  [-4.98843114573573548651E-8, 9.50428062829859605134E-6, -6.45191435683965050962E-4,
   1.88843319396703850064E-2, -2.05525900955013891793E-1, 9.99999999999999998822E-1]

/-- `kCd`, src/maliput/math/fresnel.cc:127-130. -/
def kCd : List ℚ :=
  [3.99982968972495980367E-12, 9.15439215774657478799E-10, 1.25001862479598821474E-7,
   1.22262789024179030997E-5, 8.68029542941784300606E-4, 4.12142090722199792936E-2,
   1.00000000000000000118E0]

/-- `kFn`, src/maliput/math/fresnel.cc:133-137. -/
def kFn : List ℚ :=
  [4.21543555043677546506E-1, 1.43407919780758885261E-1, 1.15220955073585758835E-2,
   3.45017939782574027900E-4, 4.63613749287867322088E-6, 3.05568983790257605827E-8,
   1.02304514164907233465E-10, 1.72010743268161828879E-13, 1.34283276233062758925E-16,
   3.76329711269987889006E-20]

/-- `kFd`, src/maliput/math/fresnel.cc:138-143. -/
def kFd : List ℚ :=
  [7.51586398353378947175E-1, 1.16888925859191382142E-1, 6.44051526508858611005E-3,
   1.55934409164153020873E-4, 1.84627567348930545870E-6, 1.12699224763999035261E-8,
   3.60140029589371370404E-11, 5.88754533621578410010E-14, 4.52001434074129701496E-17,
   1.25443237090011264384E-20]

/-- `kGn`, src/maliput/math/fresnel.cc:146-150. -/
def kGn : List ℚ :=
  [5.04442073643383265887E-1, 1.97102833525523411709E-1, 1.87648584092575249293E-2,
   6.84079380915393090172E-4, 1.15138826111884280931E-5, 9.82852443688422223854E-8,
   4.45344415861750144738E-10, 1.08268041139020870318E-12, 1.37555460633261799868E-15,
   8.36354435630677421531E-19, 1.86958710162783235106E-22]

/-- `kGd`, src/maliput/math/fresnel.cc:151-156. -/
def kGd : List ℚ :=
  [1.47495759925128324529E0, 3.37748989120019970451E-1, 2.53603741420338795122E-2,
   8.14679107184306179049E-4, 1.27545075667729118702E-5, 1.04314589657571990585E-7,
   4.60680728146520428211E-10, 1.10273215066240270757E-12, 1.38796531259578871258E-15,
   8.39158816283118707363E-19, 1.86958710162783236342E-22]

/-- `impl_small_x`, src/maliput/math/fresnel.cc:162-166: the pair `(*ssa, *cca)`. -/
noncomputable def smallX (x x2 : ℝ) : Except Err (ℝ × ℝ) := do
  let t := x2 * x2
  let sn ← polevl t kSn 5
  let sd ← p1evl t kSd 6
  let cn ← polevl t kCn 5
  let cd ← polevl t kCd 6
  pure (x * x2 * sn / sd, x * cn / cd)

/-- `impl_medium_x`, src/maliput/math/fresnel.cc:168-182: the pair `(*ssa, *cca)`. -/
noncomputable def mediumX (x x2 : ℝ) : Except Err (ℝ × ℝ) := do
  let t := Real.pi * x2
  let u := 1 / (t * t)
  let tInv := 1 / t
  let fn ← polevl u kFn 9
  let fd ← p1evl u kFd 10
  let gn ← polevl u kGn 10
  let gd ← p1evl u kGd 11
  let fU := 1 - u * fn / fd
  let gU := tInv * gn / gd
  let cT := Real.cos (Real.pi * 0.5 * x2)
  let sT := Real.sin (Real.pi * 0.5 * x2)
  pure (0.5 - (fU * cT + gU * sT) / (Real.pi * x), 0.5 + (fU * sT - gU * cT) / (Real.pi * x))

/-- `fresnel`, src/maliput/math/fresnel.cc:110-199: the pair `(*ssa, *cca)`. -/
noncomputable def fresnel (xxa : ℝ) : Except Err (ℝ × ℝ) := do
  let x := |xxa|
  let x2 := x * x
  let r ← (if x2 < 2.5625 then smallX x x2
           else if x > 36974.0 then pure (0.5, 0.5)
           else mediumX x x2)
  pure (if xxa < 0 then (-r.1, -r.2) else r)

/-- `ComputeFresnelCosineAndSine`, src/maliput/math/fresnel.cc:203-208: the vector
`(cosine, sine)`. -/
noncomputable def computeFresnelCosineAndSine (t : ℝ) : Except Err (ℝ × ℝ) := do
  let r ← fresnel t
  pure (r.2, r.1)

/-- `FresnelSpiralHeading`, src/maliput/math/fresnel.cc:210. -/
noncomputable def fresnelSpiralHeading (t kDot : ℝ) : ℝ := 0.5 * t * t * kDot

/-- `FresnelSpiralHeadingDot`, src/maliput/math/fresnel.cc:212. -/
noncomputable def fresnelSpiralHeadingDot (t kDot : ℝ) : ℝ := t * kDot

end Maliput.Fresnel
