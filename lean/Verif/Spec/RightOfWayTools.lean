import Verif.Model.RightOfWayTools
import Verif.Spec.RuleStateProvider

set_option autoImplicit false

/-! The states of the right of way rules, from the history of the calls alone. -/
namespace Maliput.RightOfWay.Spec

/-- The rule a call is about. -/
def _root_.Maliput.RightOfWay.Call.about : Call → String
  | .add id _ => id
  | .set id _ => id

/-- The state a call gives. -/
def _root_.Maliput.RightOfWay.Call.gives : Call → String
  | .add _ s => s
  | .set _ s => s

/-- Some call in the history added the rule. -/
def Added (before : List Call) (id : String) : Prop := ∃ s, Call.add id s ∈ before

/-- Whether a call is accepted, after the calls `before`: a rule can be added once, and set from then on. -/
def Accepted (before : List Call) : Call → Prop
  | .add id _ => ¬ Added before id
  | .set id _ => Added before id

/-- How a call is refused: `AddState` throws, `SetState` throws `out_of_range`. -/
def refusal : Call → Err
  | .add _ _ => .throws
  | .set _ _ => .outOfRange

/-- `c` is the latest accepted call about its rule. -/
def IsLatest (calls : List Call) (c : Call) : Prop :=
  ∃ pre post, calls = pre ++ c :: post ∧ Accepted pre c ∧
    ∀ pre' d post', post = pre' ++ d :: post' → d.about = c.about → ¬ Accepted (pre ++ c :: pre') d

end Maliput.RightOfWay.Spec
