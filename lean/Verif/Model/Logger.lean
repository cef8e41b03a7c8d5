import Verif.Model.Basic

set_option autoImplicit false

/-!
# The logger

`include/maliput/common/logger.h` and `src/maliput/common/logger.cc`.
-/
namespace Maliput.Logging

/-- `logger::level` (include/maliput/common/logger.h:78-87). -/
inductive Level
  | trace
  | debug
  | info
  | warn
  | error
  | critical
  | off
  | unchanged
deriving DecidableEq, Repr

/-- The value of an enumerator (include/maliput/common/logger.h:78-87). -/
def Level.value : Level → Nat
  | .trace => 0
  | .debug => 1
  | .info => 2
  | .warn => 3
  | .error => 4
  | .critical => 5
  | .off => 6
  | .unchanged => 7

/-- `kStringToLevel.at` (include/maliput/common/logger.h:90-94). -/
def stringToLevel (s : String) : Except Err Level :=
  match s with
  | "off" => .ok .off
  | "trace" => .ok .trace
  | "debug" => .ok .debug
  | "info" => .ok .info
  | "warn" => .ok .warn
  | "error" => .ok .error
  | "critical" => .ok .critical
  | "unchanged" => .ok .unchanged
  | _ => .error .outOfRange

/-- `kLevelToString.at` (include/maliput/common/logger.h:97-101). -/
def levelToString : Level → String
  | .off => "off"
  | .trace => "trace"
  | .debug => "debug"
  | .info => "info"
  | .warn => "warn"
  | .error => "error"
  | .critical => "critical"
  | .unchanged => "unchanged"

/-- `kLevelToMessage.at` (include/maliput/common/logger.h:104-107). -/
def levelToMessage : Level → Except Err String
  | .trace => .ok "[TRACE] "
  | .debug => .ok "[DEBUG] "
  | .info => .ok "[INFO] "
  | .warn => .ok "[WARNING] "
  | .error => .ok "[ERROR] "
  | .critical => .ok "[CRITICAL] "
  | .off => .error .outOfRange
  | .unchanged => .error .outOfRange

/-- A `Logger`, and what its sinks were given so far; sinks are numbered, the first is the one made by default
(include/maliput/common/logger.h:231-235). -/
structure Logger where
  level : Level
  sink : Nat
  given : List (Nat × String)

/-- A new `Logger` (include/maliput/common/logger.h:165, 232, 235). -/
def Logger.new : Logger := ⟨.info, 0, []⟩

/-- `Logger::set_level` (src/maliput/common/logger.cc:77-85). -/
def setLevel (l : Logger) (level : Level) : Logger × String :=
  if level = .unchanged then (l, levelToString l.level)
  else ({ l with level := level }, levelToString l.level)

/-- `Logger::set_sink`; a null pointer is no sink (src/maliput/common/logger.cc:87-90). -/
def setSink (l : Logger) (sink : Option Nat) : Except Err Logger :=
  match sink with
  | none => .error .throws
  | some s => .ok { l with sink := s }

/-- `set_log_level` (src/maliput/common/logger.cc:92-94). -/
def setLogLevel (l : Logger) (name : String) : Except Err (Logger × String) :=
  match stringToLevel name with
  | .error e => .error e
  | .ok level => .ok (setLevel l level)

/-- `Logger::format` (src/maliput/common/logger.cc:101-107). -/
def format (args : List String) : String := args.foldl (· ++ ·) ""

/-- `Logger::log`, for arguments which are already text (include/maliput/common/logger.h:257-267). -/
def log (l : Logger) (level : Level) (args : List String) : Except Err Logger :=
  if l.level.value ≤ level.value then
    match levelToMessage level with
    | .error e => .error e
    | .ok start => .ok { l with given := l.given ++ [(l.sink, start ++ format args ++ "\n")] }
  else .ok l

/-- The methods which log a message (include/maliput/common/logger.h:173-205). -/
inductive Severity
  | trace
  | debug
  | info
  | warn
  | error
  | critical
deriving DecidableEq, Repr

/-- The level each method logs with (include/maliput/common/logger.h:173-205). -/
def Severity.level : Severity → Level
  | .trace => .trace
  | .debug => .debug
  | .info => .info
  | .warn => .warn
  | .error => .error
  | .critical => .critical

/-- `trace`, `debug`, `info`, `warn`, `error` and `critical` (include/maliput/common/logger.h:171-205). -/
def message (l : Logger) (s : Severity) (args : List String) : Except Err Logger := log l s.level args

/-- A call of the logger (include/maliput/common/logger.h:171-205, 212, 222, 278). -/
inductive Call
  | message (s : Severity) (args : List String)
  | setLevel (level : Level)
  | setLogLevel (name : String)
  | setSink (sink : Option Nat)

/-- The logger after a call, also one which throws (src/maliput/common/logger.cc:77-94). -/
def after (l : Logger) : Call → Logger
  | .message s args => match message l s args with
    | .ok l' => l'
    | .error _ => l
  | .setLevel level => (setLevel l level).1
  | .setLogLevel name => match setLogLevel l name with
    | .ok r => r.1
    | .error _ => l
  | .setSink sink => match setSink l sink with
    | .ok l' => l'
    | .error _ => l

/-- The logger after calls (src/maliput/common/logger.cc:77-107). -/
def run (calls : List Call) : Logger := calls.foldl after .new

end Maliput.Logging
