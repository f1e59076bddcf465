import Verif.Message
/-!
# Model of the attributes of `MessageFlags` that can be assigned to
-/

namespace Snmp

/-- A statement that assigns to an attribute of a `MessageFlags` object; a flag is given as its truth value
(`bool(value)`) (snmp/message/v3.py:56-61,112-136). -/
inductive FlagsStmt
  | auth (value : Bool)
  | priv (value : Bool)
  | reportable (value : Bool)
  | level (value : SecurityLevel)
  deriving DecidableEq, Repr

/-- `flags.authFlag = value` (snmp/message/v3.py:116-123). -/
def MessageFlags.setAuth (f : MessageFlags) (value : Bool) : Res MessageFlags :=
  if value ≠ f.level.auth then (SecurityLevel.new value f.level.priv).map fun level => { f with level }
  else .ok f

/-- `flags.privFlag = value` (snmp/message/v3.py:129-136). -/
def MessageFlags.setPriv (f : MessageFlags) (value : Bool) : Res MessageFlags :=
  if value ≠ f.level.priv then (SecurityLevel.new f.level.auth value).map fun level => { f with level }
  else .ok f

/-- The effect of a statement (snmp/message/v3.py:56-61,112-136). -/
def MessageFlags.assign (f : MessageFlags) : FlagsStmt → Res MessageFlags
  | .auth value => f.setAuth value
  | .priv value => f.setPriv value
  | .reportable value => .ok { f with reportable := value }
  | .level value => .ok { f with level := value }

/-- The same in a program that catches the exception: a setter that raises has assigned nothing
(snmp/message/v3.py:116-136). -/
def MessageFlags.attempt (f : MessageFlags) (s : FlagsStmt) : MessageFlags :=
  match f.assign s with
  | .ok f' => f'
  | .error _ => f

/-- `MessageFlags(securityLevel, reportable)` (snmp/message/v3.py:56-61). -/
def MessageFlags.new (level : SecurityLevel) (reportable : Bool) : MessageFlags := ⟨level, reportable⟩

end Snmp
