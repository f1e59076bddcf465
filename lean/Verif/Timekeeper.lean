import Verif.Py
import Mathlib.Data.Rat.Floor
/-!
# Model of `snmp/security/usm/timekeeper.py`

Timestamps are exact rationals; the code uses floats, whose rounding is not modelled.
-/

namespace Snmp

/-- Python `int(x)` of a real number: truncation toward zero. CPython built-in, not in /repo; used
at snmp/security/usm/timekeeper.py:30-31. -/
def pyTrunc (x : ℚ) : Int := if 0 ≤ x then ⌊x⌋ else ⌈x⌉

/-- `MAX_ENGINE_BOOTS` (snmp/security/usm/timekeeper.py:6). -/
def maxEngineBoots : Int := 2 ^ 31 - 1

/-- `EngineTime` (snmp/security/usm/timekeeper.py:5-16). -/
structure EngineTime where
  authenticated : Bool
  boots : Int
  latestBootTime : ℚ
  deriving DecidableEq

namespace EngineTime

/-- The `snmpEngineBoots` setter; the getter returns the field (snmp/security/usm/timekeeper.py:18-24). -/
def setBoots (e : EngineTime) (boots : Int) : EngineTime := { e with boots := min boots maxEngineBoots }

/-- `setEngineTime` (snmp/security/usm/timekeeper.py:33-34). -/
def setEngineTime (e : EngineTime) (time : Int) (timestamp : ℚ) : EngineTime :=
  { e with latestBootTime := timestamp - time }

/-- `__init__` (snmp/security/usm/timekeeper.py:8-16). -/
def new (boots time : Int) (timestamp : ℚ) (authenticated : Bool) : EngineTime :=
  ((EngineTime.mk authenticated 0 0).setBoots boots).setEngineTime time timestamp

/-- `valid` (snmp/security/usm/timekeeper.py:26-28). -/
def valid (e : EngineTime) : Bool := e.boots < maxEngineBoots

/-- `snmpEngineTime` (snmp/security/usm/timekeeper.py:30-31). -/
def snmpEngineTime (e : EngineTime) (timestamp : ℚ) : Int := pyTrunc (timestamp - e.latestBootTime)

/-- `computeAge` (snmp/security/usm/timekeeper.py:36-37). -/
def computeAge (e : EngineTime) (time : Int) (timestamp : ℚ) : Int :=
  e.snmpEngineTime timestamp - time

/-- `hint` (snmp/security/usm/timekeeper.py:39-46). -/
def hint (e : EngineTime) (boots time : Int) (timestamp : ℚ) : EngineTime :=
  if !e.authenticated then (e.setBoots boots).setEngineTime time timestamp else e

/-- `update` (snmp/security/usm/timekeeper.py:48-63). -/
def update (e : EngineTime) (boots time : Int) (timestamp : ℚ) : EngineTime :=
  if e.authenticated then
    if boots = e.boots then
      if time > e.snmpEngineTime timestamp then e.setEngineTime time timestamp else e
    else if boots > e.boots then (e.setBoots boots).setEngineTime time timestamp
    else e
  else { (e.setBoots boots).setEngineTime time timestamp with authenticated := true }

end EngineTime

/-- `TimeKeeper` (snmp/security/usm/timekeeper.py:65-69): the table as the function of its lookups. -/
structure TimeKeeper where
  table : Bytes → Option EngineTime

namespace TimeKeeper

/-- `TIME_WINDOW_SIZE` (snmp/security/usm/timekeeper.py:66). -/
def timeWindowSize : Int := 150

/-- `__init__` (snmp/security/usm/timekeeper.py:68-69). -/
def new : TimeKeeper := ⟨fun _ => none⟩

/-- Storing an entry. (snmp/security/usm/timekeeper.py:71-84) -/
def set (k : TimeKeeper) (engineID : Bytes) (e : EngineTime) : TimeKeeper :=
  ⟨fun i => if i = engineID then some e else k.table i⟩

/-- `assertEntry`: the entry found or made (snmp/security/usm/timekeeper.py:71-84); the callers store
it, as the code's entry is the object in the table. -/
def assertEntry (k : TimeKeeper) (engineID : Bytes) (boots time : Int) (timestamp : ℚ)
    (authenticated : Bool) : EngineTime :=
  match k.table engineID with
  | some e => e
  | none => EngineTime.new boots time timestamp authenticated

/-- `getEngineTime` (snmp/security/usm/timekeeper.py:86-95). -/
def getEngineTime (k : TimeKeeper) (engineID : Bytes) (timestamp : ℚ) : Int × Int :=
  match k.table engineID with
  | none => (0, 0)
  | some e => (e.boots, e.snmpEngineTime timestamp)

/-- `hint` (snmp/security/usm/timekeeper.py:97-104). -/
def hint (k : TimeKeeper) (engineID : Bytes) (boots time : Int) (timestamp : ℚ) : TimeKeeper :=
  k.set engineID ((k.assertEntry engineID boots time timestamp false).hint boots time timestamp)

/-- `updateAndVerify` (snmp/security/usm/timekeeper.py:106-118). -/
def updateAndVerify (k : TimeKeeper) (engineID : Bytes) (boots time : Int) (timestamp : ℚ) :
    Bool × TimeKeeper :=
  let e := (k.assertEntry engineID boots time timestamp true).update boots time timestamp
  (boots = e.boots && decide (e.computeAge time timestamp ≤ timeWindowSize) && e.valid,
    k.set engineID e)

end TimeKeeper

end Snmp
