import Verif.Model.Basic
import Mathlib.Algebra.Ring.Defs

set_option autoImplicit false

/-!
Model of the vectors of the systems framework, src/maliput/drake/systems/framework/vector_base.h with its two subclasses
`BasicVector`, which has the values, and `Subvector`, which is a range of another vector, and of `ContinuousState`.  The values of all
vectors are in one memory, so that vectors that share elements see what is written through the other one.  The assertions of a debug
build are left out, integers do not overflow, and vectors are not destroyed while they are used.
-/
namespace Maliput.StateVec
open Maliput

variable {K : Type}

/-- The memory: what the members `values_` of the vectors of the class `BasicVector` contain. The address of such a vector is its index. -/
abbrev Heap (K : Type) := List (List K)

/-- A vector: a `BasicVector` or a `Subvector`, src/maliput/drake/systems/framework/subvector.h:19-72. -/
inductive Vec
  | basic (address : Nat)
  | sub (vector : Vec) (firstElement numElements : Int)
deriving DecidableEq

/-- The member `values_` of the vector with this address, src/maliput/drake/systems/framework/basic_vector.h:175-175. -/
def valuesAt (h : Heap K) (address : Nat) : List K := h.getD address []

/-- `size`, src/maliput/drake/systems/framework/basic_vector.h:62-62 and subvector.h:42-42. -/
def Vec.size (h : Heap K) : Vec → Int
  | .basic a => (valuesAt h a).length
  | .sub _ _ n => n

/-- `DoGetAtIndexUnchecked`, src/maliput/drake/systems/framework/basic_vector.h:110-118 and subvector.h:45-53: where the element is. -/
def Vec.unchecked (h : Heap K) : Vec → Int → Except Err (Nat × Nat)
  | .basic a, index => if 0 ≤ index ∧ index < (valuesAt h a).length then .ok (a, index.toNat) else .error .ub
  | .sub v first _, index => v.unchecked h (first + index)

/-- `GetAtIndex`, src/maliput/drake/systems/framework/vector_base.h:61-76, with `DoGetAtIndexChecked`,
src/maliput/drake/systems/framework/basic_vector.h:120-132 and subvector.h:55-67: where the element is. -/
def Vec.checked (h : Heap K) (v : Vec) (index : Int) : Except Err (Nat × Nat) :=
  if index < 0 then .error .outOfRange else if index ≥ v.size h then .error .outOfRange else v.unchecked h index

/-- Reading an element. -/
def load (h : Heap K) (p : Nat × Nat) : Except Err K :=
  match (valuesAt h p.1)[p.2]? with
  | some x => .ok x
  | none => .error .ub

/-- Writing an element. -/
def store (h : Heap K) (p : Nat × Nat) (x : K) : Heap K := h.modify p.1 fun l => l.set p.2 x

/-- Reading with `operator[]`, src/maliput/drake/systems/framework/vector_base.h:53-56. -/
def Vec.get (h : Heap K) (v : Vec) (index : Int) : Except Err K := do load h (← v.unchecked h index)

/-- Writing with `operator[]`, src/maliput/drake/systems/framework/vector_base.h:46-49. -/
def Vec.put (h : Heap K) (v : Vec) (index : Int) (x : K) : Except Err (Heap K) := do return store h (← v.unchecked h index) x

/-- Reading with `GetAtIndex`, src/maliput/drake/systems/framework/vector_base.h:61-66. -/
def Vec.getAtIndex (h : Heap K) (v : Vec) (index : Int) : Except Err K := do load h (← v.checked h index)

/-- `SetAtIndex`, src/maliput/drake/systems/framework/vector_base.h:81-81. -/
def Vec.setAtIndex (h : Heap K) (v : Vec) (index : Int) (x : K) : Except Err (Heap K) := do return store h (← v.checked h index) x

/-- `SetFrom`, src/maliput/drake/systems/framework/vector_base.h:89-97. -/
def Vec.setFrom (h : Heap K) (v value : Vec) : Except Err (Heap K) :=
  let n := value.size h
  if n ≠ v.size h then .error .outOfRange
  else (List.range n.toNat).foldlM (fun h (i : Nat) => do v.put h i (← value.get h i)) h

/-- `values[i]` of a vector of Eigen. -/
def eigenAt (values : List K) (i : Nat) : Except Err K :=
  match values[i]? with
  | some x => .ok x
  | none => .error .ub

/-- `SetFromVector`, src/maliput/drake/systems/framework/vector_base.h:105-113, and basic_vector.h:67-73, 83-83. The argument is not a
reference to an element of the memory. -/
def Vec.setFromVector (h : Heap K) (v : Vec) (values : List K) : Except Err (Heap K) :=
  if (values.length : Int) ≠ v.size h then .error .outOfRange
  else
    match v with
    | .basic a => .ok (h.set a values)
    | .sub .. => (List.range values.length).foldlM (fun h (i : Nat) => do v.put h i (← eigenAt values i)) h

/-- `CopyToVector`, src/maliput/drake/systems/framework/vector_base.h:127-133 and basic_vector.h:85-85. -/
def Vec.copyToVector (h : Heap K) (v : Vec) : Except Err (List K) :=
  match v with
  | .basic a => .ok (valuesAt h a)
  | .sub .. => (List.range (v.size h).toNat).mapM fun (i : Nat) => v.get h i

/-- `CopyToPreSizedVector`, src/maliput/drake/systems/framework/vector_base.h:140-149: the contents of the argument before and
afterwards. -/
def Vec.copyToPreSizedVector (h : Heap K) (v : Vec) (values : List K) : Except Err (List K) :=
  if (values.length : Int) ≠ v.size h then .error .outOfRange
  else (List.range values.length).foldlM (fun values (i : Nat) => do return values.set i (← v.get h i)) values

/-- `Subvector`, the constructor, src/maliput/drake/systems/framework/subvector.h:28-40; `none` is a null pointer. -/
def Vec.mkSub (h : Heap K) (vector : Option Vec) (first num : Int) : Except Err Vec :=
  match vector with
  | none => .error .throws
  | some v => if first < 0 ∨ num < 0 ∨ first + num > v.size h then .error .throws else .ok (.sub v first num)

section
variable [Semiring K]

/-- `SetZero`, src/maliput/drake/systems/framework/vector_base.h:116-121 and basic_vector.h:96-96. -/
def Vec.setZero (h : Heap K) (v : Vec) : Except Err (Heap K) :=
  match v with
  | .basic a => .ok (h.modify a fun l => l.map fun _ => 0)
  | .sub .. => (List.range (v.size h).toNat).foldlM (fun h (i : Nat) => v.put h i 0) h

/-- `ScaleAndAddToVector`, src/maliput/drake/systems/framework/vector_base.h:156-165 and basic_vector.h:87-94, to the member `values_` of
the vector with this address: one element after the other. -/
def Vec.scaleAndAddToValues (h : Heap K) (v : Vec) (scale : K) (address : Nat) : Except Err (Heap K) :=
  let n := (valuesAt h address).length
  if (n : Int) ≠ v.size h then .error .outOfRange
  else (List.range n).foldlM (fun h (i : Nat) => do return store h (address, i) ((← load h (address, i)) + scale * (← v.get h i))) h

/-- `DoPlusEqScaled`, src/maliput/drake/systems/framework/vector_base.h:235-244 and basic_vector.h:170-172. -/
def Vec.doPlusEqScaled (h : Heap K) (v : Vec) (operands : List (K × Vec)) : Except Err (Heap K) :=
  match v with
  | .basic a => operands.foldlM (fun h o => o.2.scaleAndAddToValues h o.1 a) h
  | .sub .. =>
    (List.range (v.size h).toNat).foldlM
      (fun h (i : Nat) => do
        let value ← operands.foldlM (fun value o => do return value + (← o.2.get h i) * o.1) 0
        v.put h i ((← v.get h i) + value)) h

/-- `PlusEqScaled`, src/maliput/drake/systems/framework/vector_base.h:173-184. -/
def Vec.plusEqScaled (h : Heap K) (v : Vec) (operands : List (K × Vec)) : Except Err (Heap K) :=
  if operands.any fun o => o.2.size h != v.size h then .error .outOfRange else v.doPlusEqScaled h operands

/-- The calls that make or change vectors. Vectors are named by their places in the list of all vectors. -/
inductive Op (K : Type)
  | new (values : List K)
  | sub (vector : Option Nat) (first num : Int)
  | setAtIndex (vector : Nat) (index : Int) (x : K)
  | setFrom (vector value : Nat)
  | setFromVector (vector : Nat) (values : List K)
  | setZero (vector : Nat)
  | plusEqScaled (vector : Nat) (operands : List (K × Nat))

/-- The memory and all vectors. -/
structure World (K : Type) where
  heap : Heap K
  vectors : List Vec

/-- A call; names of vectors that do not exist are not C++. -/
def World.exec (w : World K) : Op K → Except Err (World K)
  | .new values => .ok ⟨w.heap ++ [values], w.vectors ++ [.basic w.heap.length]⟩
  | .sub none first num => do
    let v ← Vec.mkSub w.heap none first num
    return ⟨w.heap, w.vectors ++ [v]⟩
  | .sub (some k) first num =>
    match w.vectors[k]? with
    | none => .ok w
    | some u => do
      let v ← Vec.mkSub w.heap (some u) first num
      return ⟨w.heap, w.vectors ++ [v]⟩
  | .setAtIndex k index x =>
    match w.vectors[k]? with
    | none => .ok w
    | some v => do return ⟨← v.setAtIndex w.heap index x, w.vectors⟩
  | .setFrom k l =>
    match w.vectors[k]?, w.vectors[l]? with
    | some v, some u => do return ⟨← v.setFrom w.heap u, w.vectors⟩
    | _, _ => .ok w
  | .setFromVector k values =>
    match w.vectors[k]? with
    | none => .ok w
    | some v => do return ⟨← v.setFromVector w.heap values, w.vectors⟩
  | .setZero k =>
    match w.vectors[k]? with
    | none => .ok w
    | some v => do return ⟨← v.setZero w.heap, w.vectors⟩
  | .plusEqScaled k operands =>
    match w.vectors[k]? with
    | none => .ok w
    | some v =>
      let os := operands.filterMap fun o => (w.vectors[o.2]?).map fun u => (o.1, u)
      do return ⟨← v.plusEqScaled w.heap os, w.vectors⟩

/-- Calls one after the other; exceptions are caught, undefined behaviour and aborting end everything. -/
def World.run (w : World K) : List (Op K) → Except Err (World K)
  | [] => .ok w
  | op :: rest =>
    match w.exec op with
    | .ok w' => w'.run rest
    | .error .ub => .error .ub
    | .error .aborts => .error .aborts
    | .error _ => w.run rest
end

/-- The members of `ContinuousState`, src/maliput/drake/systems/framework/continuous_state.h:220-238: the four vectors. -/
structure CState where
  state : Vec
  q : Vec
  v : Vec
  z : Vec
deriving DecidableEq

/-- `ContinuousState`, the constructor with a vector, src/maliput/drake/systems/framework/continuous_state.cc:14-21. -/
def CState.ofVector (h : Heap K) (state : Vec) : Except Err CState := do
  let q ← Vec.mkSub h (some state) 0 0
  let v ← Vec.mkSub h (some state) 0 0
  let z ← Vec.mkSub h (some state) 0 (state.size h)
  return ⟨state, q, v, z⟩

/-- `ContinuousState`, the constructor with the sizes, src/maliput/drake/systems/framework/continuous_state.cc:23-39. -/
def CState.make (h : Heap K) (state : Vec) (numQ numV numZ : Int) : Except Err CState :=
  if state.size h ≠ numQ + numV + numZ then .error .outOfRange
  else if numV > numQ then .error .throws
  else do
    let q ← Vec.mkSub h (some state) 0 numQ
    let v ← Vec.mkSub h (some state) numQ numV
    let z ← Vec.mkSub h (some state) (numQ + numV) numZ
    return ⟨state, q, v, z⟩

/-- One loop of the check of the invariants, src/maliput/drake/systems/framework/continuous_state.cc:99-113: the addresses of the elements; they must be
among those of the state. -/
def demandElements (h : Heap K) (elements : List (Nat × Nat)) (part : Vec) : Except Err (List (Nat × Nat)) :=
  (List.range (part.size h).toNat).mapM fun (i : Nat) => do
    let p ← part.checked h i
    if p ∈ elements then .ok p else .error .aborts

/-- `DemandInvariants`, src/maliput/drake/systems/framework/continuous_state.cc:72-115. -/
def CState.demandInvariants (h : Heap K) (c : CState) : Except Err Unit := do
  let demand (b : Bool) : Except Err Unit := if b then .ok () else .error .aborts
  demand (c.q.size h ≥ 0)
  demand (c.v.size h ≥ 0)
  demand (c.z.size h ≥ 0)
  demand (c.v.size h ≤ c.q.size h)
  let total := c.q.size h + c.v.size h + c.z.size h
  demand (c.state.size h = total)
  let elements ← (List.range total.toNat).mapM fun (i : Nat) => c.state.checked h i
  demand (elements.eraseDups.length = total)
  let qs ← demandElements h elements c.q
  let vs ← demandElements h elements c.v
  let zs ← demandElements h elements c.z
  demand ((qs ++ vs ++ zs).eraseDups.length = total)

/-- `DoClone`, src/maliput/drake/systems/framework/continuous_state.cc:64-69, with `Clone`, basic_vector.h:103-107. -/
def CState.clone (h : Heap K) (c : CState) : Except Err (Heap K × CState) :=
  match c.state with
  | .sub .. => .error .aborts
  | .basic a => do
    let h' := h ++ [valuesAt h a]
    let r ← CState.make h' (.basic h.length) (c.q.size h) (c.v.size h) (c.z.size h)
    return (h', r)

/-- `SetFrom`, src/maliput/drake/systems/framework/continuous_state.h:165-172, of a state with the same kind of numbers. -/
def CState.setFrom (h : Heap K) (c other : CState) : Except Err (Heap K) := do
  throwUnless (decide (c.state.size h = other.state.size h))
  throwUnless (decide (c.q.size h = other.q.size h))
  throwUnless (decide (c.v.size h = other.v.size h))
  throwUnless (decide (c.z.size h = other.z.size h))
  c.state.setFromVector h (← other.state.copyToVector h)

end Maliput.StateVec
