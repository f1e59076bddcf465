import Verif.Oid
import Verif.ManagerCommunity
import Verif.ManagerV3
/-!
# Model of the calls a user makes: `get`, `getNext`, `getBulk`, `set` of the three managers

The construction of the PDU from the arguments, the defaults of the optional arguments, and what follows: `sendRequest`,
then the handle or `wait`.

Simplifications: a value is an object of one of the primitive classes (`Value`); an item of `set` is a pair or a
`VarBind` (another number of items raises `TypeError`); unknown keyword arguments are not modelled. SNMPv1Manager has no
method `getBulk`; `ApiCall.Offered` says so.
-/

namespace Snmp

/-- An argument that names an object: `Union[str, OID]` (snmp/pdu.py:58-61). -/
inductive NameArg
  | text (t : Text)
  | oid (o : List Nat)

/-- `name if isinstance(name, OID) else OID.parse(name)` (snmp/pdu.py:62-63). -/
def NameArg.value : NameArg → Res (List Nat)
  | .oid o => .ok o
  | .text t => Oid.parse t

/-- `VarBind.__init__` (snmp/pdu.py:58-69). -/
def VarBind.new (name : NameArg) (value : Option Value) : Res VarBind :=
  name.value.bind fun name => .ok ⟨name, value.getD .null⟩

/-- An argument of `VarBindList`: `Union[str, OID, VarBind]` (snmp/pdu.py:103). -/
inductive VarArg
  | name (n : NameArg)
  | varbind (v : VarBind)

/-- `var if isinstance(var, VarBind) else VarBind(var)` (snmp/pdu.py:104-106). -/
def VarArg.value : VarArg → Res VarBind
  | .varbind v => .ok v
  | .name n => VarBind.new n none

/-- `tuple(f(x) for x in args)`: the first exception ends it. CPython built-in, not in /repo; used at
snmp/pdu.py:104-106 and snmp/manager/v1.py:219-220. -/
def mapArgs {α β : Type} (f : α → Res β) : List α → Res (List β)
  | [] => .ok []
  | x :: l => (f x).bind fun y => (mapArgs f l).bind fun ys => .ok (y :: ys)

/-- `VarBindList.__init__` (snmp/pdu.py:103-106). -/
def VarBindList.new (args : List VarArg) : Res (List VarBind) := mapArgs VarArg.value args

/-- An argument of `set`: a pair or a `VarBind` (snmp/manager/v1.py:209-217). -/
inductive SetArg
  | pair (name : NameArg) (value : Option Value)
  | varbind (v : VarBind)

/-- `VarBind(*varbind)` (snmp/manager/v1.py:219): iterating over a `VarBind` gives its name and its value
(snmp/pdu.py:71-73). -/
def SetArg.value : SetArg → Res VarBind
  | .pair name value => VarBind.new name value
  | .varbind v => VarBind.new (.oid v.name) (some v.value)

/-- A call of a manager (snmp/manager/v1.py:195-221; snmp/manager/v2c.py:195-235; snmp/manager/v3.py:680-720). -/
inductive ApiCall
  | get (oids : List VarArg)
  | getNext (oids : List VarArg)
  | getBulk (oids : List VarArg) (nonRepeaters maxRepetitions : Int)
  | set (varbinds : List SetArg)

/-- The PDU which the call constructs (snmp/manager/v1.py:199,206,219-220; snmp/manager/v2c.py:208-212;
snmp/manager/v3.py:684,693-697,705,718-719; snmp/pdu.py:176-190,280-294). -/
def ApiCall.pdu : ApiCall → Res Pdu
  | .get oids => (VarBindList.new oids).bind fun l => .ok { type := .getRequest, bindings := l }
  | .getNext oids => (VarBindList.new oids).bind fun l => .ok { type := .getNextRequest, bindings := l }
  | .getBulk oids n m =>
    (VarBindList.new oids).bind fun l => .ok { type := .getBulkRequest, first := n, second := m, bindings := l }
  | .set varbinds =>
    (mapArgs SetArg.value varbinds).bind fun vbs =>
    (VarBindList.new (vbs.map VarArg.varbind)).bind fun l => .ok { type := .setRequest, bindings := l }

/-- The manager has a method for the call: only `SNMPv1Manager` has no `getBulk`. (snmp/manager/v1.py:120-221) -/
def ApiCall.Offered (v : Version) : ApiCall → Prop
  | .getBulk _ _ _ => v ≠ .v1
  | _ => True

/-- What a call comes to: an exception; a handle (request `r`) is returned; or the thread is now inside `wait` of
request `r`. (snmp/manager/v1.py:190-193; snmp/manager/v3.py:670-673) -/
inductive Called
  | raised (e : PyErr)
  | handle (r : Nat)
  | waiting (r : Nat)
  deriving DecidableEq

/-! ## v1, v2c -/

/-- The attributes of a v1/v2c manager that are set once (snmp/manager/v1.py:122-132). -/
structure CommunityConf where
  defaultCommunity : Bytes
  autowait : Bool := true

/-- The keyword arguments (snmp/manager/v1.py:19-25,171-176). -/
structure CommunityArgs where
  community : Option Bytes := none
  wait : Option Bool := none
  timeout : ℚ := 10
  refreshPeriod : ℚ := 1

/-- `sendRequest(pdu, **kwargs)` of the v1/v2c manager `k` by thread `t` (snmp/manager/v1.py:171-193), for a new request
object `r`; clock readings, random numbers and the channel as in `CMgr.sendRequest`. -/
def CSys.sendRequest (v : Version) (conf : CommunityConf) (s : CSys) (k t r : Nat) (pdu : Pdu) (a : CommunityArgs)
    (t0 t1 : ℚ) (draws : Nat → Nat) (chan : Option PyErr) : Called × CSys :=
  let community := a.community.getD conf.defaultCommunity
  let wait := a.wait.getD conf.autowait
  let s' := s.step v (.send k r pdu community a.timeout a.refreshPeriod t0 t1 draws chan)
  match (s.mgr.sendRequest v k r pdu community a.timeout a.refreshPeriod t0 t1 draws chan).1 with
  | .error e => (.raised e, s')
  | .ok () => if wait then (.waiting r, s'.step v (.wait t r)) else (.handle r, s')

/-- `get`, `getNext`, `getBulk`, `set` of the v1/v2c manager `k` by thread `t` (snmp/manager/v1.py:195-221;
snmp/manager/v2c.py:195-235). -/
def CSys.call (v : Version) (conf : CommunityConf) (s : CSys) (k t r : Nat) (c : ApiCall) (a : CommunityArgs)
    (t0 t1 : ℚ) (draws : Nat → Nat) (chan : Option PyErr) : Called × CSys :=
  match c.pdu with
  | .error e => (.raised e, s)
  | .ok pdu => s.sendRequest v conf k t r pdu a t0 t1 draws chan

/-! ## v3 -/

/-- The attributes of a v3 manager that are set once (snmp/manager/v3.py:451-490). -/
structure V3Conf where
  defaultUser : Bytes
  defaultLevel : SecurityLevel
  autowait : Bool := true

/-- The keyword arguments (snmp/manager/v3.py:275-282,640-646). -/
structure V3Args where
  user : Option Bytes := none
  level : Option SecurityLevel := none
  wait : Option Bool := none
  timeout : ℚ := 10
  refreshPeriod : ℚ := 1

/-- `sendRequest(pdu, **kwargs)` of a v3 manager by thread `t` (snmp/manager/v3.py:640-673). -/
def VSys.sendRequest (cfg : VCfg) (conf : V3Conf) (s : VSys) (t : Nat) (pdu : Pdu) (a : V3Args) (t0 : ℚ) (r0 : Nat)
    (i : SendIn) : Called × VSys :=
  let level := a.level.getD conf.defaultLevel
  let user := a.user.getD conf.defaultUser
  let wait := a.wait.getD conf.autowait
  let s' := s.step cfg (.send pdu user level a.timeout a.refreshPeriod t0 r0 i)
  match (s.mgr.sendRequest cfg pdu user level a.timeout a.refreshPeriod t0 r0 i).1 with
  | .error e => (.raised e, s')
  | .ok () =>
    if wait then (.waiting s.mgr.nextReq, s'.step cfg (.wait t s.mgr.nextReq)) else (.handle s.mgr.nextReq, s')

/-- `get`, `getBulk`, `getNext`, `set` of a v3 manager by thread `t` (snmp/manager/v3.py:680-720). -/
def VSys.call (cfg : VCfg) (conf : V3Conf) (s : VSys) (t : Nat) (c : ApiCall) (a : V3Args) (t0 : ℚ) (r0 : Nat)
    (i : SendIn) : Called × VSys :=
  match c.pdu with
  | .error e => (.raised e, s)
  | .ok pdu => s.sendRequest cfg conf t pdu a t0 r0 i

end Snmp
