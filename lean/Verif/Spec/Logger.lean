import Verif.Model.Logger

set_option autoImplicit false

/-!
# What a logger is to deliver

Each message at least as severe as the level set last goes to the sink set last, with the name of its severity in front.
-/
namespace Maliput.Logging.Spec

/-- The names of levels, from the least severe on; the position is how severe a message is. -/
def names : List String := ["trace", "debug", "info", "warn", "error", "critical", "off"]

/-- The level a call sets, by name, if it does. -/
def levelSet : Call → Option String
  | .setLevel level => if levelToString level ∈ names then some (levelToString level) else none
  | .setLogLevel name => if name ∈ names then some name else none
  | _ => none

/-- The sink a call sets, if it does. -/
def sinkSet : Call → Option Nat
  | .setSink sink => sink
  | _ => none

/-- The level in force after calls: the one set last, at first `info`. -/
def levelAfter (calls : List Call) : String := (calls.filterMap levelSet).getLast?.getD "info"

/-- The sink in force after calls: the one set last, at first the default sink. -/
def sinkAfter (calls : List Call) : Nat := (calls.filterMap sinkSet).getLast?.getD 0

/-- What is in front of a message, and the name of its severity. -/
def front : Severity → String × String
  | .trace => ("[TRACE] ", "trace")
  | .debug => ("[DEBUG] ", "debug")
  | .info => ("[INFO] ", "info")
  | .warn => ("[WARNING] ", "warn")
  | .error => ("[ERROR] ", "error")
  | .critical => ("[CRITICAL] ", "critical")

/-- What a call delivers after other calls. -/
def delivered (before : List Call) : Call → Option (Nat × String)
  | .message s args =>
    if names.idxOf (levelAfter before) ≤ names.idxOf (front s).2 then
      some (sinkAfter before, (front s).1 ++ String.join args ++ "\n")
    else none
  | _ => none

/-- All that calls deliver, in order. -/
def allDelivered (calls : List Call) : List (Nat × String) :=
  (List.range calls.length).filterMap fun i => calls[i]?.bind (delivered (calls.take i))

end Maliput.Logging.Spec
