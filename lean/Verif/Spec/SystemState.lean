import Verif.Model.SystemState

set_option autoImplicit false

/-!
What is expected of the states of systems: each one is a value of its own, which is changed only through itself.
-/
namespace Maliput.SysState.Spec
open Maliput StateVec TypeErasure

variable {K V : Type}

/-- A state as a value: positions, velocities and other continuous variables; the groups of discrete variables; abstract values. -/
structure Plain (K V : Type) where
  q : List K
  v : List K
  z : List K
  discrete : List (List K)
  abstract : List (Value V)
deriving DecidableEq

/-- The entries are replaced one after the other by those of the other list, until one does not fit. -/
def copied {α : Type} (fits : α → α → Bool) : List α → List α → List α × Option Err
  | x :: xs, y :: ys => if fits x y then (y :: (copied fits xs ys).1, (copied fits xs ys).2) else (x :: xs, some .throws)
  | xs, _ => (xs, none)

/-- Vectors fit if they have the same size, values if they have the same type. -/
def sameSize (x y : List K) : Bool := x.length == y.length
def sameType (x y : Value V) : Bool := x.type == y.type

/-- What `SetFrom` makes of a state and another one: the continuous variables are copied if all numbers of variables agree, then the
discrete ones, then the abstract values; what was copied before something that does not fit stays. -/
def Plain.setFrom (p o : Plain K V) : Plain K V × Option Err :=
  if p.q.length = o.q.length ∧ p.v.length = o.v.length ∧ p.z.length = o.z.length then
    if p.discrete.length = o.discrete.length then
      match copied sameSize p.discrete o.discrete with
      | (d, some e) => (⟨o.q, o.v, o.z, d, p.abstract⟩, some e)
      | (d, none) => (⟨o.q, o.v, o.z, d, (copied sameType p.abstract o.abstract).1⟩, (copied sameType p.abstract o.abstract).2)
    else (⟨o.q, o.v, o.z, p.discrete, p.abstract⟩, some .throws)
  else (p, some .throws)

/-- What an operation makes of all the states, and what it throws. -/
def meant (ps : List (Plain K V)) : Op K V → List (Plain K V) × Option Err
  | .clone i =>
    match ps[i]? with
    | some p => (ps ++ [p], none)
    | none => (ps, none)
  | .setFrom i j =>
    match ps[i]?, ps[j]? with
    | some p, some o => (ps.set i (p.setFrom o).1, (p.setFrom o).2)
    | _, _ => (ps, none)
  | .setContinuous i xs =>
    match ps[i]? with
    | some p =>
      if xs.length = p.q.length + p.v.length + p.z.length then
        (ps.set i { p with
          q := xs.take p.q.length
          v := (xs.drop p.q.length).take p.v.length
          z := xs.drop (p.q.length + p.v.length) }, none)
      else (ps, some .outOfRange)
    | none => (ps, none)
  | .setDiscrete i g xs =>
    match ps[i]? with
    | some p =>
      if 0 ≤ g ∧ g < p.discrete.length then
        if (p.discrete.getD g.toNat []).length = xs.length then
          (ps.set i { p with discrete := p.discrete.set g.toNat xs }, none)
        else (ps, some .outOfRange)
      else (ps, some .throws)
    | none => (ps, none)
  | .setAbstract i k t x =>
    match ps[i]? with
    | some p =>
      if p.abstract[k.toNat]?.map (·.type) = some t then
        (ps.set i { p with abstract := p.abstract.set k.toNat ⟨t, x⟩ }, none)
      else (ps, some .throws)
    | none => (ps, none)

/-- Several operations. -/
def meantRun (ps : List (Plain K V)) : List (Op K V) → List (Plain K V) × List (Option Err)
  | [] => (ps, [])
  | o :: os => ((meantRun (meant ps o).1 os).1, (meant ps o).2 :: (meantRun (meant ps o).1 os).2)

/-- The states exist; the numbers of abstract values agree, and they are used only with indices they have. -/
def Valid (ps : List (Plain K V)) : Op K V → Prop
  | .clone i => i < ps.length
  | .setFrom i j => ∃ p o, ps[i]? = some p ∧ ps[j]? = some o ∧ p.abstract.length = o.abstract.length
  | .setContinuous i _ => i < ps.length
  | .setDiscrete i _ _ => i < ps.length
  | .setAbstract i k _ _ => ∃ p, ps[i]? = some p ∧ 0 ≤ k ∧ k < p.abstract.length

/-- All operations are valid when they are done. -/
def AllValid (ps : List (Plain K V)) : List (Op K V) → Prop
  | [] => True
  | o :: os => Valid ps o ∧ AllValid (meant ps o).1 os

/-- Where the parts of a state are in the memory. -/
structure Layout where
  continuous : Nat
  nq : Nat
  nv : Nat
  nz : Nat
  discrete : List Nat
  abstract : List Nat

/-- The state with these parts. -/
def Layout.state (l : Layout) : State where
  continuous := ⟨.basic l.continuous, .sub (.basic l.continuous) 0 l.nq, .sub (.basic l.continuous) l.nq l.nv,
    .sub (.basic l.continuous) (l.nq + l.nv) l.nz⟩
  discrete := l.discrete
  abstract := l.abstract.map some

/-- The memory has this value there. -/
structure Holds (m : Mem K V) (l : Layout) (p : Plain K V) : Prop where
  continuous : m.vectors[l.continuous]? = some (p.q ++ p.v ++ p.z)
  nq : p.q.length = l.nq
  nv : p.v.length = l.nv
  nz : p.z.length = l.nz
  velocities : l.nv ≤ l.nq
  discrete : l.discrete.map (m.vectors[·]?) = p.discrete.map some
  abstract : l.abstract.map (m.values[·]?) = p.abstract.map some

/-- No vector and no value belongs to two states, or to one state twice. -/
def Apart (ls : List Layout) : Prop :=
  (ls.flatMap fun l => l.continuous :: l.discrete).Nodup ∧ (ls.flatMap (·.abstract)).Nodup

/-- The states in the memory are these values. -/
def Refines (w : World K V) (ps : List (Plain K V)) : Prop :=
  ∃ ls : List Layout, w.states = ls.map Layout.state ∧ Apart ls ∧ ls.length = ps.length ∧
    ∀ (i : Nat) (l : Layout) (p : Plain K V), ls[i]? = some l → ps[i]? = some p → Holds w.mem l p

/-- All types that occur are among these. -/
def TypesIn (S : CType → Prop) (ps : List (Plain K V)) : Prop := ∀ p ∈ ps, ∀ x ∈ p.abstract, S x.type
def Op.TypesIn (S : CType → Prop) : Op K V → Prop
  | .setAbstract _ _ t _ => S t
  | _ => True

end Maliput.SysState.Spec
