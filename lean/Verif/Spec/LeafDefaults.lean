import Verif.Model.LeafDefaults

set_option autoImplicit false

/-!
What is expected of the declarations of leaf systems and of their contexts: systems and contexts are values of their own; a context starts
with what was declared, and can be set back to it.
-/
namespace Maliput.LeafDefaults.Spec
open Maliput TypeErasure LeafDefaults

variable {K V : Type}

/-- The values of the state and the parameters: those a system declared, or those of a context. -/
structure Data (K V : Type) where
  continuous : List K
  discrete : List (List K)
  abstract : List (Value V)
  numeric : List (List K)
  parameters : List (Value V)
deriving DecidableEq

/-- Vectors and values of the program, systems and contexts.  The first `nq` of the continuous variables are positions, the next `nv`
are velocities, and `nz` are others. -/
inductive Plain (K V : Type)
  | vector (xs : List K)
  | value (v : Value V)
  | system (nq nv nz : Int) (declared : Data K V)
  | context (system nq nv nz : Nat) (values : Data K V)
deriving DecidableEq

/-- What `SetDefaultState` does: every variable gets the value that was declared for it.  It can only do so if nothing was declared
in between: otherwise the numbers of variables differ. -/
def Data.withState (armed : Bool) (x declared : Data K V) : Data K V × Option Err :=
  if x.continuous.length ≠ declared.continuous.length then (x, some (if armed then .aborts else .outOfRange))
  else if x.discrete.length ≠ declared.discrete.length then ({ x with continuous := declared.continuous }, some .aborts)
  else if armed ∧ x.abstract.length ≠ declared.abstract.length then
    ({ x with continuous := declared.continuous, discrete := declared.discrete }, some .aborts)
  else
    ({ x with
        continuous := declared.continuous
        discrete := declared.discrete
        abstract := declared.abstract.take x.abstract.length }, none)

/-- What `SetDefaultParameters` does: every parameter gets the value that was declared for it. -/
def Data.withParameters (x declared : Data K V) : Data K V :=
  { x with numeric := declared.numeric.take x.numeric.length, parameters := declared.parameters.take x.parameters.length }

/-- Both. -/
def Data.withDefaults (armed : Bool) (x declared : Data K V) : Data K V × Option Err :=
  match x.withState armed declared with
  | (x, none) => (x.withParameters declared, none)
  | (x, some e) => (x, some e)

/-- The result of writing. -/
def written (ps : List (Plain K V)) (i : Nat) (p : Plain K V) : Option Err → List (Plain K V) × Except Err Int
  | none => (ps.set i p, .ok 0)
  | some e => (ps.set i p, .error e)

/-- A declaration: what is declared afterwards, and the index. -/
def declared (ps : List (Plain K V)) (i : Nat) (p : Plain K V) (index : Int) : List (Plain K V) × Except Err Int :=
  (ps.set i p, .ok index)

/-- A new object. -/
def added (ps : List (Plain K V)) (p : Plain K V) : List (Plain K V) × Except Err Int := (ps ++ [p], .ok ps.length)

/-- A vector is replaced by another one with the same size. -/
def replacedVector (old new : List K) : List K × Option Err :=
  if new.length = old.length then (new, none) else (old, some .outOfRange)

/-- A value is replaced by another one with the same type. -/
def replacedValue (old : Value V) (t : CType) (x : V) : Value V × Option Err :=
  if t = old.type then (⟨t, x⟩, none) else (old, some .throws)

/-- A group is replaced. -/
def replacedGroup (groups : List (List K)) (g : Int) (xs : List K) : List (List K) × Option Err :=
  if 0 ≤ g then
    match groups[g.toNat]? with
    | some old => (groups.set g.toNat (replacedVector old xs).1, (replacedVector old xs).2)
    | none => (groups, some .throws)
  else (groups, some .throws)

/-- An abstract value is replaced. -/
def replacedAbstract (armed : Bool) (values : List (Value V)) (k : Int) (t : CType) (x : V) : List (Value V) × Option Err :=
  if 0 ≤ k then
    match values[k.toNat]? with
    | some old => (values.set k.toNat (replacedValue old t x).1, (replacedValue old t x).2)
    | none => (values, some (if armed then .aborts else .ub))
  else (values, some (if armed then .aborts else .ub))

/-- What an operation makes of everything, and its result. -/
def meant [Zero K] (armed : Bool) (ps : List (Plain K V)) : Op K V → List (Plain K V) × Except Err Int
  | .newVector xs => added ps (.vector xs)
  | .newValue v => added ps (.value v)
  | .newSystem => added ps (.system 0 0 0 ⟨[], [], [], [], []⟩)
  | .setVector i xs =>
    match ps[i]? with
    | some (.vector old) => written ps i (.vector (replacedVector old xs).1) (replacedVector old xs).2
    | _ => (ps, .ok 0)
  | .setValue i t x =>
    match ps[i]? with
    | some (.value old) => written ps i (.value (replacedValue old t x).1) (replacedValue old t x).2
    | _ => (ps, .ok 0)
  | .declareContinuous i j nq nv nz =>
    match ps[i]?, ps[j]? with
    | some (.system _ _ _ d), some (.vector xs) =>
      if (xs.length : Int) = nq + nv + nz then declared ps i (.system nq nv nz { d with continuous := xs }) 0 else (ps, .error .aborts)
    | _, _ => (ps, .ok 0)
  | .declareMisc i j =>
    match ps[i]?, ps[j]? with
    | some (.system _ _ _ d), some (.vector xs) => declared ps i (.system 0 0 xs.length { d with continuous := xs }) 0
    | _, _ => (ps, .ok 0)
  | .declareContinuousSizes i nq nv nz =>
    match ps[i]? with
    | some (.system _ _ _ d) =>
      if 0 ≤ nq + nv + nz then
        declared ps i (.system nq nv nz { d with continuous := List.replicate (nq + nv + nz).toNat 0 }) 0
      else (ps, .error (if armed then .aborts else .ub))
    | _ => (ps, .ok 0)
  | .declareDiscrete i j =>
    match ps[i]?, ps[j]? with
    | some (.system nq nv nz d), some (.vector xs) =>
      declared ps i (.system nq nv nz { d with discrete := d.discrete ++ [xs] }) d.discrete.length
    | _, _ => (ps, .ok 0)
  | .declareDiscreteSize i n =>
    match ps[i]? with
    | some (.system nq nv nz d) =>
      if 0 ≤ n then
        declared ps i (.system nq nv nz { d with discrete := d.discrete ++ [List.replicate n.toNat 0] }) d.discrete.length
      else (ps, .error .aborts)
    | _ => (ps, .ok 0)
  | .declareAbstract i j =>
    match ps[i]?, ps[j]? with
    | some (.system nq nv nz d), some (.value v) =>
      declared ps i (.system nq nv nz { d with abstract := d.abstract ++ [v] }) d.abstract.length
    | _, _ => (ps, .ok 0)
  | .declareNumeric i j =>
    match ps[i]?, ps[j]? with
    | some (.system nq nv nz d), some (.vector xs) =>
      declared ps i (.system nq nv nz { d with numeric := d.numeric ++ [xs] }) d.numeric.length
    | _, _ => (ps, .ok 0)
  | .declareParameter i j =>
    match ps[i]?, ps[j]? with
    | some (.system nq nv nz d), some (.value v) =>
      declared ps i (.system nq nv nz { d with parameters := d.parameters ++ [v] }) d.parameters.length
    | _, _ => (ps, .ok 0)
  | .allocate i => made ps i
  | .create i => made ps i
  | .setDefault i j =>
    match ps[i]?, ps[j]? with
    | some (.system _ _ _ d), some (.context s nq nv nz x) =>
      if s = i then written ps j (.context s nq nv nz (x.withDefaults armed d).1) (x.withDefaults armed d).2 else (ps, .error .throws)
    | _, _ => (ps, .ok 0)
  | .setDefaultState i j k =>
    match ps[i]?, ps[j]?, ps[k]? with
    | some (.system _ _ _ d), some (.context s _ _ _ _), some (.context s' nq nv nz x) =>
      if s = i ∧ s' = i then written ps k (.context s' nq nv nz (x.withState armed d).1) (x.withState armed d).2
      else (ps, .error .throws)
    | _, _, _ => (ps, .ok 0)
  | .setDefaultParameters i j k =>
    match ps[i]?, ps[j]?, ps[k]? with
    | some (.system _ _ _ d), some (.context s _ _ _ _), some (.context s' nq nv nz x) =>
      if s = i ∧ s' = i then written ps k (.context s' nq nv nz (x.withParameters d)) none else (ps, .error .throws)
    | _, _, _ => (ps, .ok 0)
  | .setContinuous i xs =>
    match ps[i]? with
    | some (.context s nq nv nz x) =>
      if xs.length = x.continuous.length then written ps i (.context s nq nv nz { x with continuous := xs }) none
      else (ps, .error (if armed then .aborts else .outOfRange))
    | _ => (ps, .ok 0)
  | .setDiscrete i g xs =>
    match ps[i]? with
    | some (.context s nq nv nz x) =>
      written ps i (.context s nq nv nz { x with discrete := (replacedGroup x.discrete g xs).1 }) (replacedGroup x.discrete g xs).2
    | _ => (ps, .ok 0)
  | .setAbstract i k t v =>
    match ps[i]? with
    | some (.context s nq nv nz x) =>
      written ps i (.context s nq nv nz { x with abstract := (replacedAbstract armed x.abstract k t v).1 })
        (replacedAbstract armed x.abstract k t v).2
    | _ => (ps, .ok 0)
  | .setNumeric i g xs =>
    match ps[i]? with
    | some (.context s nq nv nz x) =>
      written ps i (.context s nq nv nz { x with numeric := (replacedGroup x.numeric g xs).1 }) (replacedGroup x.numeric g xs).2
    | _ => (ps, .ok 0)
  | .setParameter i k t v =>
    match ps[i]? with
    | some (.context s nq nv nz x) =>
      written ps i (.context s nq nv nz { x with parameters := (replacedAbstract armed x.parameters k t v).1 })
        (replacedAbstract armed x.parameters k t v).2
    | _ => (ps, .ok 0)
where
  /-- A new context has the values that were declared, if the continuous variables can be divided as declared. -/
  made (ps : List (Plain K V)) (i : Nat) : List (Plain K V) × Except Err Int :=
    match ps[i]? with
    | some (.system nq nv nz d) =>
      if 0 ≤ nv ∧ nv ≤ nq ∧ 0 ≤ nz then added ps (.context i nq.toNat nv.toNat nz.toNat d) else (ps, .error .throws)
    | _ => (ps, .ok 0)

/-- Several operations; aborting and undefined behaviour end the program. -/
def meantRun [Zero K] (armed : Bool) (ps : List (Plain K V)) : List (Op K V) → List (Plain K V) × List (Except Err Int)
  | [] => (ps, [])
  | o :: os =>
    match (meant armed ps o).2 with
    | .error .aborts => ((meant armed ps o).1, [(meant armed ps o).2])
    | .error .ub => ((meant armed ps o).1, [(meant armed ps o).2])
    | r => ((meantRun armed (meant armed ps o).1 os).1, r :: (meantRun armed (meant armed ps o).1 os).2)

/-- The types of all values an operation mentions are among these. -/
def TypesIn (S : CType → Prop) : Op K V → Prop
  | .newValue v => S v.type
  | .setValue _ t _ => S t
  | .setAbstract _ _ t _ => S t
  | .setParameter _ _ t _ => S t
  | _ => True

/-- A context has the first ones of the variables and parameters that are declared now, with the same sizes and types: those that were
declared when it was made. -/
structure Fits (declared x : Data K V) : Prop where
  discrete : x.discrete.map List.length <+: declared.discrete.map List.length
  abstract : x.abstract.map (·.type) <+: declared.abstract.map (·.type)
  numeric : x.numeric.map List.length <+: declared.numeric.map List.length
  parameters : x.parameters.map (·.type) <+: declared.parameters.map (·.type)

/-! ### Where everything is -/

/-- Where the values are in the memory. -/
structure Layout where
  continuous : Nat
  discrete : List Nat
  abstract : List Nat
  numeric : List Nat
  parameters : List Nat

/-- The vectors and the abstract values. -/
def Layout.vectors (l : Layout) : List Nat := l.continuous :: (l.discrete ++ l.numeric)
def Layout.values (l : Layout) : List Nat := l.abstract ++ l.parameters

/-- The memory has these values there. -/
structure At (m : SysState.Mem K V) (l : Layout) (d : Data K V) : Prop where
  continuous : m.vectors[l.continuous]? = some d.continuous
  discrete : l.discrete.map (m.vectors[·]?) = d.discrete.map some
  abstract : l.abstract.map (m.values[·]?) = d.abstract.map some
  numeric : l.numeric.map (m.vectors[·]?) = d.numeric.map some
  parameters : l.parameters.map (m.values[·]?) = d.parameters.map some

/-- The object `i`, and nothing else, has these. `ov` and `ox` tell who has a vector and a value. -/
structure Owns (ov ox : Nat → Option Nat) (i : Nat) (l : Layout) : Prop where
  vectors : l.vectors.Nodup
  values : l.values.Nodup
  vectorsOf : ∀ a ∈ l.vectors, ov a = some i
  valuesOf : ∀ a ∈ l.values, ox a = some i

/-- The system and the context with these parts. -/
def Layout.system (l : Layout) (nq nv nz : Int) : System :=
  ⟨l.continuous, nq, nv, nz, l.discrete, l.abstract.map some, l.numeric.map some, l.parameters.map some⟩
def Layout.context (l : Layout) (s nq nv nz : Nat) : Context where
  system := s
  state := ⟨⟨.basic l.continuous, .sub (.basic l.continuous) 0 nq, .sub (.basic l.continuous) nq nv,
    .sub (.basic l.continuous) (nq + nv) nz⟩, l.discrete, l.abstract.map some⟩
  parameters := ⟨l.numeric, l.parameters.map some⟩

/-- The object `i` is this value. -/
def Is (m : SysState.Mem K V) (ov ox : Nat → Option Nat) (i : Nat) : Obj → Plain K V → Prop
  | .vector a, .vector xs => m.vectors[a]? = some xs ∧ ov a = some i
  | .value a, .value v => m.values[a]? = some v ∧ ox a = some i
  | .system s, .system nq nv nz d => ∃ l : Layout, s = l.system nq nv nz ∧ At m l d ∧ Owns ov ox i l
  | .context c, .context s nq nv nz d => ∃ l : Layout, c = l.context s nq nv nz ∧ At m l d ∧ Owns ov ox i l
  | _, _ => False

/-- All objects are these values. -/
structure Inv (w : World K V) (ps : List (Plain K V)) (ov ox : Nat → Option Nat) : Prop where
  vectors : ∀ a i, ov a = some i → a < w.mem.vectors.length
  values : ∀ a i, ox a = some i → a < w.mem.values.length
  length : w.objs.length = ps.length
  objs : ∀ (i : Nat) (o : Obj) (p : Plain K V), w.objs[i]? = some o → ps[i]? = some p → Is w.mem ov ox i o p

/-- All objects are these values, and nothing belongs to two of them. -/
def Refines (w : World K V) (ps : List (Plain K V)) : Prop := ∃ ov ox, Inv w ps ov ox

end Maliput.LeafDefaults.Spec
