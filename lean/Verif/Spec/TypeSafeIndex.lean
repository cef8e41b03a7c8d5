import Verif.Model.TypeSafeIndex

set_option autoImplicit false

/-!
What arithmetic on indices should give.
-/
namespace Maliput.TypeSafeIndex

open Maliput

/-- An operation that changes an index. -/
inductive Op
  | preInc | postInc | preDec | postDec
  | addInt (i : Int) | addIndex (o : Int) | subInt (i : Int) | subIndex (o : Int)

/-- Makes the operation. -/
def run (armed : Bool) (x : Int) : Op → Int × Except Err Int
  | .preInc => preInc armed x
  | .postInc => postInc armed x
  | .preDec => preDec armed x
  | .postDec => postDec armed x
  | .addInt i => addInt armed x i
  | .addIndex o => addIndex armed x o
  | .subInt i => subInt armed x i
  | .subIndex o => subIndex armed x o

/-- How much the operation should add. -/
def Op.delta : Op → Int
  | .preInc => 1
  | .postInc => 1
  | .preDec => -1
  | .postDec => -1
  | .addInt i => i
  | .addIndex o => o
  | .subInt i => -i
  | .subIndex o => -o

/-- What the operation should give: the index before it, or the index after it. -/
def Op.result (x : Int) : Op → Int
  | .postInc => x
  | .postDec => x
  | op => x + op.delta

/-- The numbers that an index may stand for. -/
def Valid (x : Int) : Prop := 0 ≤ x ∧ x < 2 ^ 31

/-- The numbers that an `int` may hold. -/
def IsInt (x : Int) : Prop := -2 ^ 31 ≤ x ∧ x < 2 ^ 31

/-- The operand is an `int`, other than the least one if it is subtracted. -/
def Op.WellTyped : Op → Prop
  | .addInt i => IsInt i
  | .addIndex o => IsInt o
  | .subInt i => IsInt i ∧ i ≠ -2 ^ 31
  | .subIndex o => IsInt o
  | _ => True

/-- The operand, if it is an index, is valid. -/
def Op.OperandValid : Op → Prop
  | .addIndex o => Valid o
  | .subIndex o => Valid o
  | _ => True

/-- The index after operations none of which fails. -/
def runAll (armed : Bool) (x : Int) : List Op → Except Err Int
  | [] => .ok x
  | op :: l =>
    match run armed x op with
    | (_, .error e) => .error e
    | (y, .ok _) => runAll armed y l

/-- What a comparison should give. -/
def Rel.Means : Rel → Int → Int → Prop
  | .eq, x, y => x = y
  | .ne, x, y => x ≠ y
  | .lt, x, y => x < y
  | .le, x, y => x ≤ y
  | .gt, x, y => y < x
  | .ge, x, y => y ≤ x

end Maliput.TypeSafeIndex
