import Mathlib.Algebra.Field.Defs
import Mathlib.Data.List.Basic
import Verif.Model.Basic
set_option autoImplicit false
/-!
Model of src/maliput/drake/common/polynomial.{h,cc}: polynomials with several variables as lists of monomials.

Simplifications: the coefficients are the elements of a field with decidable equality (`double` without
rounding); `VarType` is a natural number (`VariableNameToId` is modelled separately); `PowerType` is a natural
number (the class documents positive powers, a negative power is not modelled).
-/
namespace Maliput.Poly

/-- `Term`, src/maliput/drake/common/polynomial.h:61-73. -/
structure Term where
  var : Nat
  power : Nat
  deriving DecidableEq, Repr

/-- `Monomial`, src/maliput/drake/common/polynomial.h:77-99. -/
structure Monomial (R : Type) where
  coefficient : R
  terms : List Term
  deriving DecidableEq, Repr

/-- The polynomial class: its monomials `monomials_` and the flag `is_univariate_`,
src/maliput/drake/common/polynomial.h:442-446. -/
structure Polynomial (R : Type) where
  monomials : List (Monomial R)
  isUnivariate : Bool
  deriving DecidableEq, Repr

variable {R : Type} [Field R] [DecidableEq R]

/-- `Monomial::HasSameExponents`, src/maliput/drake/common/polynomial.cc:24-32. -/
def Monomial.hasSameExponents (m other : Monomial R) : Bool :=
  m.terms.length == other.terms.length && m.terms.all fun t => other.terms.contains t

/-- `Monomial::HasVariable`, src/maliput/drake/common/polynomial.cc:35-42. -/
def Monomial.hasVariable (m : Monomial R) (v : Nat) : Bool := m.terms.any fun t => t.var == v

/-- `Monomial::GetDegree`, src/maliput/drake/common/polynomial.cc:114-119: the product of the powers. -/
def Monomial.getDegree (m : Monomial R) : Nat :=
  match m.terms with
  | [] => 0
  | t :: ts => ts.foldl (fun d u => d * u.power) t.power

/-- `Polynomial()`, src/maliput/drake/common/polynomial.h:102. -/
def zero : Polynomial R := ⟨[], true⟩

/-- `Polynomial(const T& scalar)`, src/maliput/drake/common/polynomial.cc:45-50. -/
def const (c : R) : Polynomial R := ⟨[⟨c, []⟩], true⟩

/-- `Polynomial(const T& coeff, const VarType& v)`, src/maliput/drake/common/polynomial.cc:97-106. -/
def ofVar (c : R) (v : Nat) : Polynomial R := ⟨[⟨c, [⟨v, 1⟩]⟩], true⟩

/-- One round of the outer loop of the constructor from terms, src/maliput/drake/common/polynomial.cc:59-70: the
flag, then the search of an equal variable among the places `j < i - 1`. -/
def ctorRound (acc : List Term × Bool) (i : Nat) : List Term × Bool :=
  match acc.1[i]?, acc.1[0]? with
  | some ti, some t0 =>
    let uni := if 0 < i ∧ ti.var ≠ t0.var then false else acc.2
    match (acc.1.take (i - 1)).findIdx? fun tj => ti.var == tj.var with
    | some j => ((acc.1.modify j fun tj => ⟨tj.var, tj.power + ti.power⟩).eraseIdx i, uni)
    | none => (acc.1, uni)
  | _, _ => acc

/-- `Polynomial(const T coefficient, const vector<Term>& terms)`, src/maliput/drake/common/polynomial.cc:53-73. -/
def ofTerms (c : R) (terms : List Term) : Polynomial R :=
  let r := (List.range terms.length).reverse.foldl ctorRound (terms, true)
  ⟨[⟨c, r.1⟩], r.2⟩

/-- The state of `MakeMonomialsUnique`: the monomials, `unique_var` and `is_univariate_`. -/
structure UniqueState (R : Type) where
  monomials : List (Monomial R)
  uniqueVar : Nat
  isUnivariate : Bool

/-- The update of the flags for one monomial, src/maliput/drake/common/polynomial.cc:613-622. -/
def noteVariables (s : UniqueState R) (m : Monomial R) : UniqueState R :=
  match m.terms with
  | [] => s
  | t :: ts =>
    let uni := if ts = [] then s.isUnivariate else false
    if t.var ≠ s.uniqueVar then
      if 0 < s.uniqueVar then ⟨s.monomials, s.uniqueVar, false⟩
      else ⟨s.monomials, t.var, uni⟩
    else ⟨s.monomials, s.uniqueVar, uni⟩

/-- One round of the loop of `MakeMonomialsUnique`, src/maliput/drake/common/polynomial.cc:607-632. -/
def uniqueRound (s : UniqueState R) (i : Nat) : UniqueState R :=
  match s.monomials[i]? with
  | none => s
  | some mi =>
    if mi.coefficient = 0 then { s with monomials := s.monomials.eraseIdx i }
    else
      let s := noteVariables s mi
      match (s.monomials.take i).findIdx? fun mj => mi.hasSameExponents mj with
      | some j =>
        { s with monomials :=
            (s.monomials.modify j fun mj => ⟨mj.coefficient + mi.coefficient, mj.terms⟩).eraseIdx i }
      | none => s

/-- `MakeMonomialsUnique`, src/maliput/drake/common/polynomial.cc:605-633. -/
def makeUnique (p : Polynomial R) : Polynomial R :=
  let s := (List.range p.monomials.length).reverse.foldl uniqueRound ⟨p.monomials, 0, p.isUnivariate⟩
  ⟨s.monomials, s.isUnivariate⟩

/-- `Polynomial(start, finish)`: from a sequence of monomials, src/maliput/drake/common/polynomial.cc:76-82. -/
def ofMonomials (ms : List (Monomial R)) : Polynomial R := makeUnique ⟨ms, true⟩

/-- `operator+=(const Polynomial&)` and `operator+`, src/maliput/drake/common/polynomial.cc:335-341, 435-439. -/
def add (p q : Polynomial R) : Polynomial R := makeUnique ⟨p.monomials ++ q.monomials, p.isUnivariate⟩

/-- `operator-=(const Polynomial&)` and `operator-`, src/maliput/drake/common/polynomial.cc:344-351, 442-446. -/
def sub (p q : Polynomial R) : Polynomial R :=
  makeUnique ⟨p.monomials ++ q.monomials.map fun m => ⟨m.coefficient * -1, m.terms⟩, p.isUnivariate⟩

/-- The loop over the terms of the other monomial in `operator*=`,
src/maliput/drake/common/polynomial.cc:362-374. -/
def mulTerm (ts : List Term) (t : Term) : List Term :=
  match ts.findIdx? fun u => u.var == t.var with
  | some j => ts.modify j fun u => ⟨u.var, u.power + t.power⟩
  | none => ts ++ [t]

/-- The product of two monomials in `operator*=`, src/maliput/drake/common/polynomial.cc:359-375. -/
def mulMonomial (m n : Monomial R) : Monomial R :=
  ⟨m.coefficient * n.coefficient, n.terms.foldl mulTerm m.terms⟩

/-- `operator*=(const Polynomial&)` and `operator*`, src/maliput/drake/common/polynomial.cc:354-382, 458-462. -/
def mul (p q : Polynomial R) : Polynomial R :=
  makeUnique ⟨p.monomials.flatMap fun m => q.monomials.map fun n => mulMonomial m n, p.isUnivariate⟩

/-- `operator+=(const T& scalar)`, src/maliput/drake/common/polynomial.cc:385-399. -/
def addScalar (p : Polynomial R) (c : R) : Polynomial R :=
  match p.monomials.findIdx? fun m => m.terms.isEmpty with
  | some i => ⟨p.monomials.modify i fun m => ⟨m.coefficient + c, m.terms⟩, p.isUnivariate⟩
  | none => ⟨p.monomials ++ [⟨c, []⟩], p.isUnivariate⟩

/-- `operator-=(const T& scalar)`, src/maliput/drake/common/polynomial.cc:402-416. -/
def subScalar (p : Polynomial R) (c : R) : Polynomial R :=
  match p.monomials.findIdx? fun m => m.terms.isEmpty with
  | some i => ⟨p.monomials.modify i fun m => ⟨m.coefficient - c, m.terms⟩, p.isUnivariate⟩
  | none => ⟨p.monomials ++ [⟨-c, []⟩], p.isUnivariate⟩

/-- `operator*=(const T& scalar)`, src/maliput/drake/common/polynomial.cc:419-424. -/
def mulScalar (p : Polynomial R) (c : R) : Polynomial R :=
  ⟨p.monomials.map fun m => ⟨m.coefficient * c, m.terms⟩, p.isUnivariate⟩

/-- `operator/=(const T& scalar)`, src/maliput/drake/common/polynomial.cc:427-432. -/
def divScalar (p : Polynomial R) (c : R) : Polynomial R :=
  ⟨p.monomials.map fun m => ⟨m.coefficient / c, m.terms⟩, p.isUnivariate⟩

/-- Unary `operator-`, src/maliput/drake/common/polynomial.cc:449-455. -/
def neg (p : Polynomial R) : Polynomial R :=
  ⟨p.monomials.map fun m => ⟨-m.coefficient, m.terms⟩, p.isUnivariate⟩

/-- `operator-(const T& scalar, const Polynomial& p)`, src/maliput/drake/common/polynomial.h:336-340. -/
def scalarSub (c : R) (p : Polynomial R) : Polynomial R := addScalar (neg p) c

/-- `pow(base, exponent)`, src/maliput/drake/common/polynomial.h:454-465. -/
def pow (base : Polynomial R) (exponent : Nat) : Polynomial R :=
  if h : exponent = 0 then const 1
  else
    let half := pow base (exponent / 2)
    if exponent % 2 = 1 then mul (mul base half) half else mul half half
  termination_by exponent
  decreasing_by omega

/-- One term of `EvaluateMultivariate`, src/maliput/drake/common/polynomial.h:245-247.  The map of values is a
partial function; `at` throws `std::out_of_range` for a variable without a value. -/
def evaluateTerm (values : Nat → Option R) (acc : R) (t : Term) : Except Err R :=
  match values t.var with
  | some x => pure (acc * x ^ t.power)
  | none => .error .outOfRange

/-- One monomial of `EvaluateMultivariate`, src/maliput/drake/common/polynomial.h:243-249. -/
def evaluateMonomial (values : Nat → Option R) (value : R) (m : Monomial R) : Except Err R := do
  let v ← m.terms.foldlM (evaluateTerm values) m.coefficient
  pure (value + v)

/-- `EvaluateMultivariate`, src/maliput/drake/common/polynomial.h:239-251. -/
def evaluateMultivariate (p : Polynomial R) (values : Nat → Option R) : Except Err R :=
  p.monomials.foldlM (evaluateMonomial values) 0

/-- One monomial of `EvaluatePartial`, src/maliput/drake/common/polynomial.cc:221-233. -/
def partialMonomial (values : Nat → Option R) (m : Monomial R) : Monomial R :=
  m.terms.foldl (init := ⟨m.coefficient, []⟩) fun acc t =>
    match values t.var with
    | some x => ⟨acc.coefficient * x ^ t.power, acc.terms⟩
    | none => ⟨acc.coefficient, acc.terms ++ [t]⟩

/-- `EvaluatePartial`, src/maliput/drake/common/polynomial.cc:218-235. -/
def evaluatePartial (p : Polynomial R) (values : Nat → Option R) : Polynomial R :=
  ofMonomials (p.monomials.map (partialMonomial values))

/-- `Subs`, src/maliput/drake/common/polynomial.cc:238-244. -/
def subs (p : Polynomial R) (orig replacement : Nat) : Polynomial R :=
  ⟨p.monomials.map fun m =>
    ⟨m.coefficient, m.terms.map fun t => if t.var = orig then ⟨replacement, t.power⟩ else t⟩, p.isUnivariate⟩

/-- The loop over the terms of a monomial with the variable in `Substitute`: the product so far and the sum so
far, src/maliput/drake/common/polynomial.cc:254-261. -/
def substituteTerm (orig : Nat) (replacement : Polynomial R) (acc : Polynomial R × Polynomial R) (t : Term) :
    Polynomial R × Polynomial R :=
  let m := if t.var = orig then mul acc.1 (pow replacement t.power) else mul acc.1 (ofTerms 1 [t])
  (m, add acc.2 m)

/-- `Substitute`, src/maliput/drake/common/polynomial.cc:247-268. -/
def substitute (p : Polynomial R) (orig : Nat) (replacement : Polynomial R) : Polynomial R :=
  p.monomials.foldl (init := zero) fun acc m =>
    if m.hasVariable orig then (m.terms.foldl (substituteTerm orig replacement) (const m.coefficient, acc)).2
    else add acc (ofTerms m.coefficient m.terms)

/-- The legacy constructor from coefficients, src/maliput/drake/common/polynomial.h:144-158.  The parameter
`tVar` is `VariableNameToId("t")`. -/
def ofCoefficients (tVar : Nat) (cs : List R) : Polynomial R :=
  ⟨cs.mapIdx fun i c => ⟨c, if 0 < i then [⟨tVar, i⟩] else []⟩, true⟩

/-- The power of the first term, as `EvaluateUnivariate` reads it, src/maliput/drake/common/polynomial.h:211. -/
def Monomial.firstPower (m : Monomial R) : Nat := match m.terms with | [] => 0 | t :: _ => t.power

/-- `EvaluateUnivariate`, src/maliput/drake/common/polynomial.h:200-226. -/
def evaluateUnivariate (p : Polynomial R) (x : R) (order : Nat) : Except Err R :=
  if p.isUnivariate then
    pure <| p.monomials.foldl (init := 0) fun value m =>
      let degree := m.firstPower
      if degree < order then value
      else
        let c := (List.range order).foldl (fun c i => c * ((degree - i : Nat) : R)) m.coefficient
        let degree := degree - order
        if degree = 0 then value + c
        else if degree = 1 then value + c * x
        else value + c * x ^ degree
  else .error .throws

/-- `GetDegree`, src/maliput/drake/common/polynomial.cc:157-165. -/
def getDegree (p : Polynomial R) : Nat :=
  p.monomials.foldl (fun d m => if d < m.getDegree then m.getDegree else d) 0

/-- `GetCoefficients`, src/maliput/drake/common/polynomial.cc:191-204. -/
def getCoefficients (p : Polynomial R) : Except Err (List R) :=
  if p.isUnivariate then
    pure <| p.monomials.foldl (fun cs m => cs.set m.firstPower m.coefficient) (List.replicate (getDegree p + 1) 0)
  else .error .throws

/-- The derivative of one monomial, src/maliput/drake/common/polynomial.cc:279-289. -/
def derivativeMonomial (order : Nat) (m : Monomial R) : Option (Monomial R) :=
  match m.terms with
  | [] => none
  | t :: ts =>
    if order ≤ t.power then
      let c := (List.range order).foldl (fun c i => c * ((t.power - i : Nat) : R)) m.coefficient
      let power := t.power - order
      some (if power < 1 then ⟨c, ts⟩ else ⟨c, ⟨t.var, power⟩ :: ts⟩)
    else none

/-- `Derivative`, src/maliput/drake/common/polynomial.cc:271-292. -/
def derivative (p : Polynomial R) (order : Nat) : Except Err (Polynomial R) :=
  if p.isUnivariate then
    pure (if order = 0 then p else ⟨p.monomials.filterMap (derivativeMonomial order), true⟩)
  else .error .throws

/-- The variable the loop of `Integral` gives to a constant monomial: that of the first monomial with terms, 0 if
there is none, src/maliput/drake/common/polynomial.cc:301-308. -/
def firstVar (ms : List (Monomial R)) : Nat :=
  match ms with
  | [] => 0
  | m :: ms => match m.terms with | [] => firstVar ms | t :: _ => t.var

/-- One monomial of `Integral`, src/maliput/drake/common/polynomial.cc:300-315. -/
def integralMonomial (v : Nat) (m : Monomial R) : Except Err (Monomial R) :=
  match m.terms with
  | [] => if v < 1 then .error .throws else pure ⟨m.coefficient, [⟨v, 1⟩]⟩
  | t :: ts => pure ⟨m.coefficient / ((t.power + 1 : Nat) : R), ⟨t.var, t.power + 1⟩ :: ts⟩

/-- `Integral`, src/maliput/drake/common/polynomial.cc:295-322.  The search of the variable sees the monomials
that are already integrated, which does not change the first one that has a term unless a constant one precedes
it: then that constant has been given the same variable. -/
def integral (p : Polynomial R) (c : R) : Except Err (Polynomial R) :=
  if p.isUnivariate then do
    let ms ← p.monomials.mapM (integralMonomial (firstVar p.monomials))
    pure ⟨ms ++ [⟨c, []⟩], true⟩
  else .error .throws

/-- The cases of the degree in `Roots`, src/maliput/drake/common/polynomial.cc:483-498: only the degrees 0 and 1 are
supported.  A leading coefficient 0 makes a division by zero, the result of which is not modelled. -/
def rootsOf (cs : List R) : Except Err (List R) :=
  match cs with
  | [_] => pure []
  | [c0, c1] => pure [-c0 / c1]
  | _ => .error .throws

/-- `Roots` for `double`, src/maliput/drake/common/polynomial.cc:472-502. -/
def roots (p : Polynomial R) : Except Err (List R) := do
  let cs ← getCoefficients p
  rootsOf cs

/-! Variable names. -/

/-- `kNameChars`, src/maliput/drake/common/polynomial.cc:548. -/
def nameChars : List Char := "@#_.abcdefghijklmnopqrstuvwxyz".toList

/-- `kNumNameChars + 1`, src/maliput/drake/common/polynomial.cc:549. -/
def nameBase : Nat := 31

/-- `kMaxNamePart`, src/maliput/drake/common/polynomial.cc:551. -/
def maxNamePart : Nat := 923521

/-- `IsValidVariableName`, src/maliput/drake/common/polynomial.cc:554-560.  A name with a null character, which
`strchr` finds, is not modelled. -/
def isValidVariableName (name : List Char) : Bool := name.length ≥ 1 && name.all fun c => nameChars.contains c

/-- The loop over the characters from the last one, with `multiplier` and `name_part` in 32 bits,
src/maliput/drake/common/polynomial.cc:565-573. -/
def namePart (name : List Char) : Nat :=
  (name.foldr (init := (1, 0)) fun c acc =>
    ((acc.1 * nameBase) % 2 ^ 32, (acc.2 + (nameChars.idxOf c + 1) * acc.1) % 2 ^ 32)).2

/-- `VariableNameToId`, src/maliput/drake/common/polynomial.cc:563-581.  `maxId` is 2³² - 1 over 2 over
`kMaxNamePart`. -/
def variableNameToId (name : List Char) (m : Nat) : Except Err Nat := do
  throwUnless (isValidVariableName name)
  let part := namePart name
  throwUnless (decide (part ≤ maxNamePart))
  throwUnless (decide (m ≤ (2 ^ 32 - 1) / 2 / maxNamePart))
  throwUnless (decide (1 ≤ m))
  pure (2 * (part + maxNamePart * (m - 1)))

/-- The characters of the name of an id, src/maliput/drake/common/polynomial.cc:590-598. -/
def idDigits (part : Nat) : List Char :=
  [nameBase ^ 3, nameBase ^ 2, nameBase, 1].filterMap fun multiplier =>
    let i := (part / multiplier) % nameBase
    if 0 < i then some (nameChars.getD (i - 1) '@') else none

/-- `IdToVariableName`, src/maliput/drake/common/polynomial.cc:584-602. -/
def idToVariableName (id : Nat) : List Char :=
  let cs := idDigits ((id / 2) % maxNamePart)
  let cs := if cs = [] then ['@'] else cs
  cs ++ (toString (id / 2 / maxNamePart + 1)).toList

end Maliput.Poly
