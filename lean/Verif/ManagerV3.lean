import Verif.Processor
import Verif.Heap
import Verif.Usm
/-!
# Model of `snmp/manager/v3.py`

First the methods as functions on what the threads share (`VMgr`), then one manager used by any number of
threads and the listening thread (`VSys`), beside any number of other managers of the same engine, whose effects on
the message processor and the security module are steps of their own (`Other`). `EngineV3.lean` puts several such
managers together. The manager's two locks are modelled: a block under `activeLock`
is one atomic step; `lock`, which `poke` and `onReport` hold across several such blocks, is the flag
`locked`, and what needs it waits while it is set. Clock readings, the random numbers of the generators
and the outcome of `channel.send` are inputs. Clock readings and time spans are rational numbers (Python:
floats, whose rounding is not modelled).

Simplifications: each assignment to an `engineID` property, each `Request.close`, each call of `sendPdu` and
each call of the security module is one step; a request keeps a private copy of its PDU; a request object is collected at any time (`collect`),
also while a thread waits on it, which gives more histories than the code has; `KeyboardInterrupt` does
not occur.

`cause`, `sent` and `fails` are not in the code: they record why a message was made, what was handed to
the channel, and which sends raised an exception. Nor is `held`, which records what others have registered.
-/

namespace Snmp

/-- How often and under which namespace an engine is registered: `count` and `namespace` of the entry in the
registry (snmp/security/usm/users.py:82-93). -/
def Usm.reg (u : Usm) (e : Bytes) : Option (Int × String) :=
  (u.users.engines.get e).map fun r => (r.count, r.namespace)

/-- Registering once more (snmp/security/usm/users.py:108-114, 160-172). -/
def Usm.bump (x : Option (Int × String)) (ns : String) : Option (Int × String) :=
  match x with
  | none => some (1, ns)
  | some (n, ns') => some (n + 1, ns')

/-- Releasing once (snmp/security/usm/users.py:116-121, 174-188). -/
def Usm.unbump (x : Option (Int × String)) : Option (Int × String) :=
  match x with
  | none => none
  | some (n, ns) => if n - 1 = 0 then none else some (n - 1, ns)

/-- What stays fixed: the back end and cryptography of the security module, the manager's `namespace`
(snmp/manager/v3.py:466), the processor's `msgMaxSize`, and which byte strings `bytes.decode()`
accepts. -/
structure VCfg where
  backend : Backend
  crypto : Crypto
  ns : String
  maxSize : Int
  utf8 : Bytes → Bool

/-! ## States -/

/-- The subclasses of `State` (snmp/manager/v3.py:82-204). -/
inductive MState
  | inactive | unsynchronized | waitForDiscovery | synchronizing | trustEveryResponse
  | requireAuthentication
  deriving DecidableEq, Repr

namespace MState

/-- `onInactive` (snmp/manager/v3.py:105-106, 122-123, 140-141, 157-158, 178-179, 194-195): the value
assigned to `manager.nextState`, if any. -/
def onInactive : MState → Option MState
  | .waitForDiscovery => some .inactive
  | .synchronizing => some .unsynchronized
  | _ => none

/-- `onRequest` (snmp/manager/v3.py:108-110, 125-127, 143-144, 160-161, 181-182, 197-198): the result and
the value assigned to `manager.nextState`, if any. -/
def onRequest (auth : Bool) : MState → Bool × Option MState
  | .inactive => (true, some .waitForDiscovery)
  | .unsynchronized => (true, some .synchronizing)
  | .waitForDiscovery => (false, none)
  | .synchronizing => (!auth, none)
  | .trustEveryResponse => (true, none)
  | .requireAuthentication => (true, none)

/-- `onReport` (snmp/manager/v3.py:112-114, 129-131, 146-148, 163-168, 184-185, 200-201); `mine` is
`manager.engineID`. -/
def onReport (mine : Option Bytes) (engineID : Bytes) : MState → Res (Bool × Option MState)
  | .inactive | .unsynchronized => .error .libraryBug
  | .waitForDiscovery => .ok (true, some .trustEveryResponse)
  | .synchronizing => if mine = some engineID then .ok (true, some .requireAuthentication) else .ok (false, none)
  | .trustEveryResponse => .ok (false, none)
  | .requireAuthentication => .ok (false, none)

/-- `onResponse` (snmp/manager/v3.py:116-118, 133-135, 150-152, 170-175, 187-191, 203-204). -/
def onResponse (mine : Option Bytes) (engineID : Bytes) (auth : Bool) : MState → Res (Bool × Option MState)
  | .inactive | .unsynchronized => .error .libraryBug
  | .waitForDiscovery => .error .discoveryError
  | .synchronizing =>
    if auth || mine = some engineID then .ok (true, some .requireAuthentication) else .ok (false, none)
  | .trustEveryResponse => .ok (true, if auth then some .requireAuthentication else none)
  | .requireAuthentication => .ok (auth, none)

end MState

/-! ## Reports -/

/-- The classes of `UnhandledReport` exceptions (snmp/manager/v3.py:34-77). -/
inductive ReportKind
  | unsupportedSecLevel | unknownUserName | wrongDigest | decryptionError | unrecognized
  deriving DecidableEq, Repr

/-- An `UnhandledReport` exception (snmp/manager/v3.py:34-77): its class, and the variable binding. -/
structure Report where
  kind : ReportKind
  binding : VarBind
  deriving DecidableEq, Repr

/-- `usmStats` (snmp/manager/v3.py:26). -/
def usmStats : List Nat := [1, 3, 6, 1, 6, 3, 15, 1, 1]
/-- snmp/manager/v3.py:27. -/
def usmStatsUnsupportedSecLevels : List Nat := usmStats ++ [1, 0]
/-- snmp/manager/v3.py:28. -/
def usmStatsNotInTimeWindows : List Nat := usmStats ++ [2, 0]
/-- snmp/manager/v3.py:29. -/
def usmStatsUnknownUserNames : List Nat := usmStats ++ [3, 0]
/-- snmp/manager/v3.py:30. -/
def usmStatsUnknownEngineIDs : List Nat := usmStats ++ [4, 0]
/-- snmp/manager/v3.py:31. -/
def usmStatsWrongDigests : List Nat := usmStats ++ [5, 0]
/-- snmp/manager/v3.py:32. -/
def usmStatsDecryptionErrors : List Nat := usmStats ++ [6, 0]

/-- The exception made from a report (snmp/manager/v3.py:219-225, 254-261 and the constructors 34-77, two
of which decode the user name). -/
def makeReport (utf8 : Bytes → Bool) (securityName : Bytes) (v : VarBind) : Res Report :=
  if v.name = usmStatsUnsupportedSecLevels then .ok ⟨.unsupportedSecLevel, v⟩
  else if v.name = usmStatsUnknownUserNames then
    if utf8 securityName then .ok ⟨.unknownUserName, v⟩ else .error .unicodeDecodeError
  else if v.name = usmStatsWrongDigests then
    if utf8 securityName then .ok ⟨.wrongDigest, v⟩ else .error .unicodeDecodeError
  else if v.name = usmStatsDecryptionErrors then .ok ⟨.decryptionError, v⟩
  else .ok ⟨.unrecognized, v⟩

/-! ## Requests and their messages -/

/-- Why a message is made (not in the code): by `sendRequest`, by `refresh`, by `poke`, by an
unknownEngineIDs or a notInTimeWindows report answering message `m`, or by the loop of
`onReport`. A label for the callers of snmp/manager/v3.py:407-410. -/
inductive Why
  | issue | timer | poke
  | unknownEngine (m : Nat)
  | notInTime (m : Nat)
  | flush
  deriving DecidableEq, Repr

/-- `RequestMessage` (snmp/manager/v3.py:219-236): number of its request; `messageID`, which is set
together with `callback`; number of its `SharedBool`. -/
structure VMsg where
  request : Nat
  messageID : Option Int
  shared : Nat
  cause : Why
  deriving DecidableEq, Repr

/-- `Request` (snmp/manager/v3.py:274-301). `shared` is the number of the `SharedBool` in `synchronized`;
`messages` are the numbers of the messages in the set. -/
structure VReq where
  pdu : Pdu
  userName : Bytes
  level : SecurityLevel
  engineID : Option Bytes
  shared : Nat
  messages : List Nat
  event : Bool
  exception : Option Report
  response : Option V3Incoming
  expiration : ℚ
  nextRefresh : ℚ
  period : ℚ

namespace VReq

/-- `Request.__init__` (snmp/manager/v3.py:275-301) at clock reading `now`; `shared` is the number of a new
`SharedBool`. -/
def new (pdu : Pdu) (userName : Bytes) (level : SecurityLevel) (timeout refreshPeriod now : ℚ)
    (shared : Nat) : VReq :=
  { pdu, userName, level, engineID := none, shared, messages := [], event := false, exception := none
    response := none, expiration := now + timeout, nextRefresh := now + timeout, period := refreshPeriod }

/-- The `nextRefresh` setter (snmp/manager/v3.py:331-333). -/
def setNextRefresh (q : VReq) (value : ℚ) : VReq := { q with nextRefresh := min q.expiration value }

/-- `processException` (snmp/manager/v3.py:350-356). -/
def processException (q : VReq) (exception : Report) (auth : Bool) : VReq :=
  if auth then
    if !q.event then { q with exception := some exception, event := true } else q
  else if q.exception.isNone then { q with exception := some exception } else q

/-- The end of `processResponse` (snmp/manager/v3.py:363-365). -/
def store (q : VReq) (response : V3Incoming) : VReq :=
  if !q.event then { q with response := some response, event := true } else q

end VReq

/-- Where a send raised an exception (not in the code). A label for the callers of
snmp/manager/v3.py:407-410. -/
inductive Fail
  | issue (r : Nat)
  | refresh (r : Nat)
  | poke (r : Nat)
  | report (r : Nat)
  | flush (r : Nat)
  deriving DecidableEq, Repr

/-- A datagram handed to the channel (not in the code). It records the calls at
snmp/manager/v3.py:367-386. -/
structure Sent where
  request : Nat
  message : Nat
  wire : Bytes
  deriving DecidableEq, Repr

/-- What the environment decides during one send: the clock reading of `Request.send`, the numbers drawn
for the message ID, the clock reading of the security module, the exception of `channel.send` if any, and
the random salts if the engine has to be registered. (snmp/manager/v3.py:367-386,407-410;
snmp/message/v3.py:500-513,593-636) -/
structure SendIn where
  now : ℚ
  draws : Nat → Nat
  stamp : ℚ
  chan : Option PyErr
  seed : Bytes → Nat

/-- What the threads share: `SNMPv3UsmManager` (snmp/manager/v3.py:449-490), its requests and their
messages, the processor's cache and the security module. `reqs`, `msgs` and `bools` hold every object ever
created, numbered in order of creation; a `SharedBool` (snmp/manager/v3.py:206-217) is an entry of `bools`.
`unsent` is the deque from left to right; `next` is `nextState`. -/
structure VMgr where
  reqs : Nat → Option VReq
  dead : Nat → Bool
  msgs : Nat → Option VMsg
  bools : Nat → Bool
  nextReq : Nat
  nextMsg : Nat
  nextBool : Nat
  active : List Ref
  unsent : List Ref
  state : MState
  next : Option MState
  engineID : Option Bytes
  gen : NumGen
  cache : Cache V3Entry
  usm : Usm
  locked : Bool
  sent : List Sent
  fails : List Fail

/-- An assignment to the property `engineID`, of a request or of a manager, from `old` to `new`
(snmp/manager/v3.py:310-321, 499-510, 577-587, snmp/security/usm/implementation.py:88-100): the security
module afterwards; on an exception the old engine ID stays. -/
def changeEngine (cfg : VCfg) (u : Usm) (old new : Option Bytes) (seed : Bytes → Nat) : Res Unit × Usm :=
  if new = old then (.ok (), u)
  else
    let registered : Res Unit × Usm := match new with
      | none => (.ok (), u)
      | some e =>
        match u.users.assign cfg.crypto e cfg.ns seed with
        | (.error err, users) => (.error err, { u with users })
        | (.ok false, users) => (.error .discoveryError, { u with users })
        | (.ok true, users) => (.ok (), { u with users })
    match registered with
    | (.error err, u) => (.error err, u)
    | (.ok (), u) =>
      match old with
      | none => (.ok (), u)
      | some e =>
        match u.users.release e cfg.ns with
        | (.error err, users) => (.error err, { u with users })
        | (.ok _, users) => (.ok (), { u with users })

namespace VMgr

/-- `SNMPv3UsmManager.__init__` (snmp/manager/v3.py:450-490) on a message processor with the cache `cache`, for
which `n` messages were made before; `r` seeds the generator of request IDs. -/
def create (cfg : VCfg) (u : Usm) (engineID : Option Bytes) (r : Nat) (cache : Cache V3Entry) (n : Nat)
    (seed : Bytes → Nat) : Res VMgr :=
  match changeEngine cfg u none engineID seed with
  | (.error e, _) => .error e
  | (.ok (), usm) =>
    .ok { reqs := fun _ => none, dead := fun _ => false, msgs := fun _ => none, bools := fun _ => false
          nextReq := 0, nextMsg := n, nextBool := 0, active := [], unsent := []
          state := if engineID.isNone then .inactive else .unsynchronized
          next := none, engineID, gen := NumGen.new 32 true r, cache, usm
          locked := false, sent := [], fails := [] }

/-- The requests that are alive, with the key `lambda r: r.nextRefresh` (snmp/manager/v3.py:658). -/
def env (s : VMgr) : Env := fun r => if s.dead r then none else (s.reqs r).map VReq.nextRefresh

/-- `reference()` (snmp/utils.py:42-48). -/
def deref (s : VMgr) (r : Nat) : Option VReq := if s.dead r then none else s.reqs r

/-- Assign the attributes of request `r`. (snmp/manager/v3.py:275-301) -/
def setReq (s : VMgr) (r : Nat) (q : VReq) : VMgr := { s with reqs := setAt s.reqs r (some q) }

/-- Record that a send raised (not in the code). It records exceptions raised at
snmp/manager/v3.py:407-410. -/
def fail (s : VMgr) (f : Fail) : VMgr := { s with fails := f :: s.fails }

/-- `updateState` (snmp/manager/v3.py:675-678). -/
def updateState (s : VMgr) : VMgr :=
  match s.next with
  | some st => { s with state := st, next := none }
  | none => s

/-- `self.manager.nextState = ...`, if a handler of the state did so. (snmp/manager/v3.py:82-204) -/
def propose (s : VMgr) (next : Option MState) : VMgr :=
  match next with
  | some st => { s with next := some st }
  | none => s

/-- `handle()` is `None` (snmp/message/v3.py:567): the message object is only kept by its request's set
`messages` (snmp/manager/v3.py:293, 384-385). -/
def gone (s : VMgr) (m : Nat) : Bool :=
  match s.msgs m with
  | none => true
  | some msg =>
    s.dead msg.request ||
    match s.reqs msg.request with
    | none => true
    | some q => !q.messages.contains m

/-- The end of `Request.reallySend` (snmp/manager/v3.py:384-386), `SNMPv3UsmManager.sendPdu` (622-638),
`Dispatcher.sendPdu` (snmp/dispatcher.py:71-87), the processor's `prepareOutgoingMessage` and the security
module's `prepareOutgoing`, for request `r` with attributes `q`. The processor and the security module are
assumed to be registered. -/
def transmit (cfg : VCfg) (s : VMgr) (r : Nat) (q : VReq) (pdu : Pdu) (engineID user : Bytes)
    (level : SecurityLevel) (cause : Why) (i : SendIn) : Res Unit × VMgr :=
  let m := s.nextMsg
  match prepareOutgoingV3 cfg.maxSize s.cache pdu m engineID user level .usm [] i.draws with
  | (msg, cache, registered) =>
    let s := { s with cache, nextMsg := m + 1, msgs := setAt s.msgs m (some ⟨r, registered, q.shared, cause⟩) }
    let s := s.setReq r { q with messages := m :: q.messages }
    match msg with
    | .error e => (.error e, s)
    | .ok msg =>
      match s.usm.prepareOutgoing cfg.backend cfg.crypto msg engineID user i.stamp with
      | (.error e, usm) => (.error e, { s with usm })
      | (.ok w, usm) =>
        match i.chan with
        | some e => (.error e, { s with usm })
        | none => (.ok (), { s with usm, sent := ⟨r, m, w⟩ :: s.sent })

/-- `Request.reallySend(engineID)` (snmp/manager/v3.py:368-386) for request `r`, whose attributes are `q`
after the assignment to `nextRefresh` that precedes it. -/
def reallySend (cfg : VCfg) (s : VMgr) (r : Nat) (q : VReq) (engineID : Option Bytes) (cause : Why)
    (i : SendIn) : Res Unit × VMgr :=
  let s := s.setReq r q
  match engineID with
  | none =>
    match q.engineID with
    | none => s.transmit cfg r q { type := .getRequest } [] [] noAuthNoPriv cause i
    | some e => s.transmit cfg r q q.pdu e q.userName q.level cause i
  | some e =>
    match changeEngine cfg s.usm q.engineID (some e) i.seed with
    | (.error err, usm) => (.error err, { s with usm })
    | (.ok (), usm) =>
      let q := { q with engineID := some e }
      let s := { s with usm }
      (s.setReq r q).transmit cfg r q q.pdu e q.userName q.level cause i

/-- `Request.send(engineID)` (snmp/manager/v3.py:407-410). -/
def send (cfg : VCfg) (s : VMgr) (r : Nat) (q : VReq) (engineID : Option Bytes) (cause : Why) (i : SendIn) :
    Res Unit × VMgr :=
  s.reallySend cfg r (q.setNextRefresh (i.now + q.period)) engineID cause i

/-- The attributes after the assignment to `nextRefresh` in `Request.refresh`
(snmp/manager/v3.py:399-401). -/
def resent (q : VReq) (now : ℚ) : VReq :=
  q.setNextRefresh (q.nextRefresh + (⌈-(q.nextRefresh - now) / q.period⌉ : Int) * q.period)

/-- `Request.refresh` (snmp/manager/v3.py:388-405) of request `r` with attributes `q`. -/
def refreshRequest (cfg : VCfg) (s : VMgr) (r : Nat) (q : VReq) (i : SendIn) : Res (Option ℚ) × VMgr :=
  if q.event then (.ok none, s)
  else
    let timeToNextRefresh := q.nextRefresh - i.now
    if timeToNextRefresh ≤ 0 then
      if q.expiration ≤ i.now then (.ok none, s)
      else if q.period = 0 then (.error .zeroDivisionError, s)
      else
        match s.reallySend cfg r (resent q i.now) none .timer i with
        | (.error e, s) => (.error e, s)
        | (.ok (), s) => (.ok (some 0), s)
    else (.ok (some timeToNextRefresh), s)

/-- How one turn of the loop in `SNMPv3UsmManager.refresh` ends. (snmp/manager/v3.py:549-575) -/
inductive Turn
  | again
  | finished (wait : ℚ)
  | empty

/-- The `with self.activeLock` block in `SNMPv3UsmManager.refresh` (snmp/manager/v3.py:552-570). -/
def refreshBody (cfg : VCfg) (s : VMgr) (i : SendIn) : Res Turn × VMgr :=
  match s.active with
  | [] => (.ok .empty, s)
  | reference :: _ =>
    match s.deref reference.id with
    | none => (.ok .again, { s with active := Heap.pop s.env s.active })
    | some q =>
      match s.refreshRequest cfg reference.id q i with
      | (.error e, s) => (.error e, s.fail (.refresh reference.id))
      | (.ok none, s) => (.ok .again, { s with active := Heap.pop s.env s.active })
      | (.ok (some wait), s) =>
        if 0 < wait then (.ok (.finished wait), s)
        else (.ok .again, { s with active := Heap.replace s.env s.active reference })

/-- `generateRequestID` (snmp/manager/v3.py:512-519); `r` seeds the new generator. -/
def generateRequestID (gen : NumGen) (r : Nat) : Int × NumGen :=
  let gen := gen.next
  if gen.previous = 0 then
    let gen := (NumGen.new 32 true r).next
    (gen.previous, gen)
  else (gen.previous, gen)

/-- `SNMPv3UsmManager.sendRequest` without the final `wait` (snmp/manager/v3.py:656-668); the new request
gets the number `nextReq`. `t0` is the clock reading of `Request.__init__`, `r0` seeds the generator. -/
def sendRequest (cfg : VCfg) (s : VMgr) (pdu : Pdu) (user : Bytes) (level : SecurityLevel)
    (timeout refreshPeriod t0 : ℚ) (r0 : Nat) (i : SendIn) : Res Unit × VMgr :=
  let r := s.nextReq
  let (requestID, gen) := generateRequestID s.gen r0
  let q := VReq.new { pdu with requestID } user level timeout refreshPeriod t0 s.nextBool
  let s := { s with gen, nextReq := r + 1, nextBool := s.nextBool + 1 }
  let s := s.setReq r q
  let reference : Ref := ⟨r, WeakKey.new q.nextRefresh⟩
  match s.state.onRequest level.auth with
  | (true, next) =>
    match (s.propose next).send cfg r q s.engineID .issue i with
    | (.error e, s) => (.error e, s.fail (.issue r))
    | (.ok (), s) => (.ok (), ({ s with active := Heap.push s.env s.active reference } : VMgr).updateState)
  | (false, next) =>
    (.ok (), { s.propose next with unsent := reference :: s.unsent })

/-- The loop in `Request.close` over the messages (snmp/manager/v3.py:336-337, 268-272). -/
def closeMessages (msgs : Nat → Option VMsg) : List Nat → Cache V3Entry → Cache V3Entry
  | [], c => c
  | m :: rest, c =>
    let c := match msgs m with
      | some ⟨_, some id, _, _⟩ => c.uncache id
      | _ => c
    closeMessages msgs rest c

/-- `Request.close` (snmp/manager/v3.py:335-339) of request `r` with attributes `q`. The callbacks of the
messages, which nothing can reach afterwards, are left in place. -/
def close (cfg : VCfg) (s : VMgr) (r : Nat) (q : VReq) : Res Unit × VMgr :=
  let s := { s with cache := closeMessages s.msgs q.messages s.cache }
  match changeEngine cfg s.usm q.engineID none (fun _ => 0) with
  | (.error e, usm) => (.error e, ({ s with usm } : VMgr).setReq r { q with messages := [] })
  | (.ok (), usm) => (.ok (), ({ s with usm } : VMgr).setReq r { q with messages := [], engineID := none })

/-- A request is collected: `Request.__del__` (snmp/manager/v3.py:303-304). -/
def collect (cfg : VCfg) (s : VMgr) (r : Nat) : VMgr :=
  match s.deref r with
  | none => s
  | some q =>
    let s := (s.close cfg r q).2
    { s with dead := setAt s.dead r true }

/-- The manager is collected: `__del__` (snmp/manager/v3.py:492-493). -/
def drop (cfg : VCfg) (s : VMgr) : VMgr :=
  match changeEngine cfg s.usm s.engineID none (fun _ => 0) with
  | (.error _, usm) => { s with usm }
  | (.ok (), usm) => { s with usm, engineID := none }

/-- `prepareDataElements` as called by `Dispatcher.hear` (snmp/dispatcher.py:47-61,
snmp/message/v3.py:537-591) for a datagram, with only this processor registered: the message object and
the message to push to it, if any. Exceptions are swallowed. -/
def hear (cfg : VCfg) (s : VMgr) (w : Bytes) (stamp : ℚ) : Option (Nat × V3Incoming) × VMgr :=
  match VersionOnly.decode (.bytes w) with
  | .error _ => (none, s)
  | .ok (version, _) =>
    if version ≠ .v3 then (none, s)
    else
      match V3Message.decode (.bytes w) with
      | .error _ => (none, s)
      | .ok msg =>
        match s.usm.processIncoming cfg.backend cfg.crypto msg stamp with
        | (.error _, usm) => (none, { s with usm })
        | (.ok msg, usm) =>
          match msg.scopedPDU, msg.securityEngineID, msg.securityName with
          | some p, some e, some n =>
            match v3Proto.prepareDataElements s.cache s.gone ⟨msg.header, p, e, n⟩ with
            | (.error _, _) => (none, { s with usm })
            | (.ok m, _) => (some (m, ⟨msg.header, p, e, n⟩), { s with usm })
          | _, _, _ => (none, { s with usm })

/-- `SNMPv3UsmManager.processResponse` (snmp/manager/v3.py:608-620). -/
def processResponse (cfg : VCfg) (s : VMgr) (x : V3Incoming) (seed : Bytes → Nat) : Res Unit × VMgr :=
  match s.state.onResponse s.engineID x.securityEngineID x.header.flags.level.auth with
  | .error e => (.error e, s)
  | .ok (accept, next) =>
    let s := s.propose next
    if accept then
      match changeEngine cfg s.usm s.engineID (some x.securityEngineID) seed with
      | (.error e, usm) => (.error e, { s with usm })
      | (.ok (), usm) => (.ok (), ({ s with usm, engineID := some x.securityEngineID } : VMgr).updateState)
    else (.ok (), s)

/-- The beginning of `SNMPv3UsmManager.onReport` (snmp/manager/v3.py:590-598) for request `r` with attributes
`q`: whether the loop over `unsent` follows. -/
def onReport (cfg : VCfg) (s : VMgr) (r : Nat) (q : VReq) (engineID : Bytes) (cause : Why) (i : SendIn) :
    Res Bool × VMgr :=
  match s.state.onReport s.engineID engineID with
  | .error e => (.error e, s)
  | .ok (sendAll, next) =>
    match (s.propose next).send cfg r q (some engineID) cause i with
    | (.error e, s) => (.error e, s.fail (.report r))
    | (.ok (), s) =>
      let s := { s with active := Heap.heapify s.env s.active }
      (.ok sendAll, if sendAll then s.updateState else s)

/-- One turn of that loop (snmp/manager/v3.py:599-606) for the rightmost reference, which was popped. -/
def flushOne (cfg : VCfg) (s : VMgr) (reference : Ref) (engineID : Bytes) (i : SendIn) : Res Unit × VMgr :=
  match s.deref reference.id with
  | none => (.ok (), s)
  | some q =>
    match s.send cfg reference.id q (some engineID) .flush i with
    | (.error e, s) => (.error e, s.fail (.flush reference.id))
    | (.ok (), s) => (.ok (), { s with active := Heap.push s.env s.active reference })

/-- The beginning of `poke` (snmp/manager/v3.py:525-531): the local `unsent` and the manager. -/
def pokeBegin (s : VMgr) : List Ref × VMgr :=
  let s := (s.propose s.state.onInactive).updateState
  (s.unsent, { s with unsent := [] })

/-- One turn of the loop in `poke` (snmp/manager/v3.py:534-545) for a popped reference: whether a request was
sent. -/
def pokeOne (cfg : VCfg) (s : VMgr) (reference : Ref) (i : SendIn) : Res Bool × VMgr :=
  match s.deref reference.id with
  | none => (.ok false, s)
  | some q =>
    match s.state.onRequest q.level.auth with
    | (true, next) =>
      match (s.propose next).send cfg reference.id q s.engineID .poke i with
      | (.error e, s) => (.error e, s.fail (.poke reference.id))
      | (.ok (), s) =>
        (.ok true, ({ s with active := Heap.push s.env s.active reference } : VMgr).updateState)
    | (false, next) => (.ok false, { s.propose next with unsent := reference :: s.unsent })

end VMgr

/-! ## Threads -/

/-- How `wait()` ends (snmp/manager/v3.py:429-444): by `return`, by one of its own `raise` statements, or by
an exception raised in what it calls. -/
inductive VOutcome
  | timeout
  | bindings (l : List VarBind)
  | errorResponse (status index : Int) (request : Pdu)
  | reported (e : Report)
  | raised (e : PyErr)
  deriving DecidableEq

/-- Where a thread is inside `Request.wait` of request `r` (snmp/manager/v3.py:412-446), in
`SNMPv3UsmManager.refresh` (549-575) and in `poke` (524-547). -/
inductive VPc
  /-- not inside `wait` -/
  | idle
  /-- at `while not self.expired` -/
  | test (r : Nat)
  /-- at `with self.activeLock` in `refresh` -/
  | body (r : Nat)
  /-- at the call of `poke` -/
  | poke (r : Nat)
  /-- in the loop of `poke`, holding `lock`; the local variables `unsent` and `active` -/
  | poking (r : Nat) (unsent : List Ref) (active : Bool)
  /-- in `self.event.wait(timeout)`, called at clock reading `since` -/
  | sleep (r : Nat) (timeout since : ℚ)
  /-- after the loop -/
  | finish (r : Nat)
  /-- at `if self.exception is not None` -/
  | failed (r : Nat)
  /-- `wait` has ended -/
  | done (r : Nat) (o : VOutcome)

/-- Where the listening thread is. (snmp/manager/v3.py:238-266,589-620; snmp/dispatcher.py:47-69) -/
inductive VListen
  | idle
  /-- at `handle.push(message)` (snmp/dispatcher.py:62) -/
  | push (m : Nat) (x : V3Incoming)
  /-- in the loop of `onReport`, holding `lock`; the report was a notInTimeWindows one if `sync` -/
  | flush (r : Nat) (engineID : Bytes) (sync : Bool)
  /-- at `self.synchronized.makeTrue()` (snmp/manager/v3.py:343) -/
  | sync (r : Nat)

/-- The manager, the threads inside `wait`, the listening thread, whether the manager was collected, and
which engines others than this manager and its requests have registered, how often and under which
namespace. (snmp/manager/v3.py:412-490; snmp/dispatcher.py:47-69) -/
structure VSys where
  mgr : VMgr
  threads : Nat → VPc
  listener : VListen
  dropped : Bool
  held : Bytes → Option (Int × String)

/-- What another manager of the same engine, or one of its requests, does to what all managers of the engine
share: the security module and the message processor. -/
inductive Other
  /-- it registers an engine (snmp/security/usm/implementation.py:88-94) -/
  | register (engineID : Bytes) (ns : String) (seed : Bytes → Nat)
  /-- it releases an engine it has registered (snmp/security/usm/implementation.py:96-100) -/
  | release (engineID : Bytes) (ns : String)
  /-- it sends a message (snmp/manager/v3.py:384-386, 622-638) -/
  | send (pdu : Pdu) (engineID user : Bytes) (level : SecurityLevel) (draws : Nat → Nat) (stamp : ℚ)
  /-- it closes one of its messages (snmp/manager/v3.py:268-272) -/
  | forget (id : Int)

/-- Atomic steps. (snmp/manager/v3.py:238-720; snmp/dispatcher.py:47-69) -/
inductive VEvent
  /-- some thread calls `sendRequest` -/
  | send (pdu : Pdu) (user : Bytes) (level : SecurityLevel) (timeout refreshPeriod t0 : ℚ) (r0 : Nat)
      (i : SendIn)
  /-- thread `t` calls `wait` on request `r` -/
  | wait (t r : Nat)
  /-- thread `t`, inside `wait`, does its next step at clock reading `i.now` -/
  | step (t : Nat) (i : SendIn)
  /-- the listening thread gets a datagram and finds out what to push -/
  | hear (w : Bytes) (stamp : ℚ)
  /-- the listening thread does its next step -/
  | listen (i : SendIn)
  /-- a request is collected -/
  | collect (r : Nat)
  /-- the manager is collected -/
  | drop
  /-- some thread calls `addUser` of the security module -/
  | addUser (a : UserArgs) (seed : Bytes → Nat)
  /-- another manager does something -/
  | other (o : Other)

namespace VSys

/-- The start: a manager was created; every other registration is somebody else's.
(snmp/manager/v3.py:450-490) -/
def init (m : VMgr) : VSys :=
  { mgr := m, threads := fun _ => .idle, listener := .idle, dropped := false
    held := fun e => if m.engineID = some e then Usm.unbump (m.usm.reg e) else m.usm.reg e }

/-- The thread `t` is now at `p`. (snmp/manager/v3.py:412-446) -/
def goto (s : VSys) (t : Nat) (p : VPc) : VSys := { s with threads := setAt s.threads t p }

/-- `finally: self.close()` and the end of `wait` (snmp/manager/v3.py:445-446): an exception in `close`
replaces the outcome. -/
def finish (cfg : VCfg) (s : VSys) (t r : Nat) (o : VOutcome) : VSys :=
  match s.mgr.reqs r with
  | none => s.goto t (.done r o)
  | some q =>
    match s.mgr.close cfg r q with
    | (.error e, mgr) => ({ s with mgr } : VSys).goto t (.done r (.raised e))
    | (.ok (), mgr) => ({ s with mgr } : VSys).goto t (.done r o)

/-- The next step of a thread inside `wait` (snmp/manager/v3.py:412-446, 549-575, 524-547). -/
def advance (cfg : VCfg) (s : VSys) (t : Nat) (i : SendIn) : VSys :=
  match s.threads t with
  | .idle | .done _ _ => s
  | .test r =>
    match s.mgr.reqs r with
    | none => s
    | some q => if q.expiration ≤ i.now then s.goto t (.finish r) else s.goto t (.body r)
  | .body r =>
    match s.mgr.refreshBody cfg i with
    | (.error e, mgr) => ({ s with mgr } : VSys).finish cfg t r (.raised e)
    | (.ok .again, mgr) => ({ s with mgr } : VSys).goto t (.body r)
    | (.ok (.finished wait), mgr) => ({ s with mgr } : VSys).goto t (.sleep r wait i.now)
    | (.ok .empty, mgr) => ({ s with mgr } : VSys).goto t (.poke r)
  | .poke r =>
    if s.mgr.locked then s
    else
      match s.mgr.pokeBegin with
      | (unsent, mgr) => ({ s with mgr := { mgr with locked := true } } : VSys).goto t (.poking r unsent false)
  | .poking r unsent active =>
    match unsent.getLast? with
    | none =>
      ({ s with mgr := { s.mgr with locked := false } } : VSys).goto t
        (if active then .body r else .sleep r 0 i.now)
    | some reference =>
      match s.mgr.pokeOne cfg reference i with
      | (.error e, mgr) => ({ s with mgr := { mgr with locked := false } } : VSys).finish cfg t r (.raised e)
      | (.ok sent, mgr) => ({ s with mgr } : VSys).goto t (.poking r unsent.dropLast (active || sent))
  | .sleep r timeout since =>
    match s.mgr.reqs r with
    | none => s
    | some q =>
      if q.event then s.goto t (.finish r)
      else if since + timeout ≤ i.now then s.goto t (.test r)
      else s
  | .finish r =>
    match s.mgr.reqs r with
    | none => s
    | some q =>
      match q.event, q.response with
      | true, some x =>
        let pdu := x.scopedPDU.pdu
        s.finish cfg t r
          (if pdu.first ≠ 0 then .errorResponse pdu.first pdu.second q.pdu else .bindings pdu.bindings)
      | _, _ => s.goto t (.failed r)
  | .failed r =>
    match s.mgr.reqs r with
    | none => s
    | some q =>
      match q.exception with
      | some e => s.finish cfg t r (.reported e)
      | none => s.finish cfg t r .timeout

/-- The end of `onReport` for the listening thread: `lock` was released.
(snmp/manager/v3.py:589-606) -/
def reported (s : VSys) (r : Nat) (sync : Bool) : VSys :=
  { s with mgr := { s.mgr with locked := false }, listener := if sync then .sync r else .idle }

/-- The call of `onReport` by the listening thread, which waits for `lock` (snmp/manager/v3.py:341-348,
589-598). -/
def report (cfg : VCfg) (s : VSys) (r : Nat) (q : VReq) (engineID : Bytes) (cause : Why) (sync : Bool)
    (i : SendIn) : VSys :=
  if s.mgr.locked then s
  else
    match s.mgr.onReport cfg r q engineID cause i with
    | (.error _, mgr) => { s with mgr, listener := .idle }
    | (.ok true, mgr) => { s with mgr := { mgr with locked := true }, listener := .flush r engineID sync }
    | (.ok false, mgr) => ({ s with mgr } : VSys).reported r sync

/-- `RequestMessage.push` (snmp/manager/v3.py:238-266) and what it calls, up to the loop in `onReport`. An
exception ends it, and is swallowed by the dispatcher (snmp/dispatcher.py:63-69). -/
def push (cfg : VCfg) (s : VSys) (m : Nat) (x : V3Incoming) (i : SendIn) : VSys :=
  let stop := { s with listener := .idle }
  match s.mgr.msgs m with
  | none => stop
  | some msg =>
    let pdu := x.scopedPDU.pdu
    if pdu.type.isInternal then
      match pdu.bindings with
      | [] => stop                                        -- IndexError
      | varbind :: _ =>
        if varbind.name = usmStatsUnknownEngineIDs then
          match s.mgr.deref msg.request with
          | none => stop                                  -- ReferenceError
          | some q =>
            if some x.securityEngineID = q.engineID then stop
            else s.report cfg msg.request q x.securityEngineID (.unknownEngine m) false i
        else if varbind.name = usmStatsNotInTimeWindows then
          if s.mgr.bools msg.shared then stop
          else
            match s.mgr.deref msg.request with
            | none => stop
            | some q => s.report cfg msg.request q x.securityEngineID (.notInTime m) true i
        else
          match makeReport cfg.utf8 x.securityName varbind, s.mgr.deref msg.request with
          | .ok e, some q =>
            let q := q.processException e x.header.flags.level.auth
            { s with mgr := s.mgr.setReq msg.request q, listener := .idle }
          | _, _ => stop
    else
      match s.mgr.deref msg.request with
      | none => stop
      | some q =>
        if s.mgr.locked then s
        else
          match s.mgr.processResponse cfg x i.seed with
          | (.error _, mgr) => { s with mgr, listener := .idle }
          | (.ok (), mgr) => { s with mgr := mgr.setReq msg.request (q.store x), listener := .idle }

/-- The next step of the listening thread. (snmp/manager/v3.py:238-266,341-365,589-620) -/
def listen (cfg : VCfg) (s : VSys) (i : SendIn) : VSys :=
  match s.listener with
  | .idle => s
  | .push m x => s.push cfg m x i
  | .flush r engineID sync =>
    match s.mgr.unsent.getLast? with
    | none => s.reported r sync
    | some reference =>
      match ({ s.mgr with unsent := s.mgr.unsent.dropLast } : VMgr).flushOne cfg reference engineID i with
      | (.error _, mgr) => { s with mgr := { mgr with locked := false }, listener := .idle }
      | (.ok (), mgr) => { s with mgr }
  | .sync r =>
    match s.mgr.reqs r with
    | none => { s with listener := .idle }
    | some q =>
      let mgr := { s.mgr with bools := setAt s.mgr.bools q.shared true, nextBool := s.mgr.nextBool + 1 }
      { s with mgr := mgr.setReq r { q with shared := s.mgr.nextBool }, listener := .idle }

/-- A step of another manager. It releases only what is registered by others, and forgets only messages that
are not messages of this manager. (snmp/manager/v3.py:268-272, 310-321, 384-386, 622-638;
snmp/message/v3.py:500-524, 593-636; snmp/security/usm/implementation.py:88-100) -/
def other (cfg : VCfg) (s : VSys) : Other → VSys
  | .register e ns seed =>
    match s.mgr.usm.users.assign cfg.crypto e ns seed with
    | (res, users) =>
      { s with mgr := { s.mgr with usm := { s.mgr.usm with users } }
               held := if res = .ok true then fun x => if x = e then Usm.bump (s.held e) ns else s.held x
                 else s.held }
  | .release e ns =>
    if (s.held e).map Prod.snd = some ns then
      { s with mgr := { s.mgr with usm := { s.mgr.usm with users := (s.mgr.usm.users.release e ns).2 } }
               held := fun x => if x = e then Usm.unbump (s.held e) else s.held x }
    else s
  | .send pdu engineID user level draws stamp =>
    match prepareOutgoingV3 cfg.maxSize s.mgr.cache pdu s.mgr.nextMsg engineID user level .usm [] draws with
    | (msg, cache, _) =>
      { s with mgr := { s.mgr with
          cache, nextMsg := s.mgr.nextMsg + 1
          usm := match msg with
            | .error _ => s.mgr.usm
            | .ok msg => (s.mgr.usm.prepareOutgoing cfg.backend cfg.crypto msg engineID user stamp).2 } }
  | .forget id =>
    if ((s.mgr.cache.outstanding id).bind fun e => s.mgr.msgs e.handle).isNone then
      { s with mgr := { s.mgr with cache := s.mgr.cache.uncache id } }
    else s

/-- One atomic step; a step that is not enabled changes nothing. (snmp/manager/v3.py:238-720) -/
def step (cfg : VCfg) (s : VSys) : VEvent → VSys
  | .send pdu user level timeout refreshPeriod t0 r0 i =>
    if s.mgr.locked || s.dropped then s
    else { s with mgr := (s.mgr.sendRequest cfg pdu user level timeout refreshPeriod t0 r0 i).2 }
  | .wait t r =>
    match s.threads t, s.mgr.deref r with
    | .idle, some _ => s.goto t (.test r)
    | .done _ _, some _ => s.goto t (.test r)
    | _, _ => s
  | .step t i => s.advance cfg t i
  | .hear w stamp =>
    match s.listener with
    | .idle =>
      let mgr := (s.mgr.hear cfg w stamp).2
      match (s.mgr.hear cfg w stamp).1 with
      | none => { s with mgr }
      | some (m, x) => { s with mgr, listener := .push m x }
    | _ => s
  | .listen i => s.listen cfg i
  | .collect r => { s with mgr := s.mgr.collect cfg r }
  | .drop =>
    if (List.range s.mgr.nextReq).all s.mgr.dead && !s.dropped then
      { s with mgr := s.mgr.drop cfg, dropped := true }
    else s
  | .addUser a seed =>
    { s with mgr := { s.mgr with usm := { s.mgr.usm with
        users := (s.mgr.usm.users.addUser cfg.crypto a seed).2 } } }
  | .other o => s.other cfg o

/-- A history of steps. Any interleaving of the steps of snmp/manager/v3.py:238-720. -/
def run (cfg : VCfg) (s : VSys) (h : List VEvent) : VSys := h.foldl (step cfg) s

end VSys

end Snmp
