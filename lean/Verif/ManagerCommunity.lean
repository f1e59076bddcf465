import Verif.Processor
import Verif.Heap
import Mathlib.Data.Rat.Floor
/-!
# Model of `snmp/manager/v1.py` and `snmp/manager/v2c.py`

The two files differ in names, type annotations and the protocol version, which is a parameter here.

First the methods as functions on the state shared by all threads (`CMgr`); then any number of managers
with one dispatcher and one message processor, used by any number of threads (`CSys`). A `with self.lock` block is one atomic step; between two blocks of one
thread any other thread may run. Clock readings, the random numbers of the ID generator and the outcome
of `channel.send` are inputs. Clock readings and time spans are rational numbers (Python: floats, whose
rounding is not modelled).

A manager is known by a number. Managers of one engine share the engine's dispatcher and with it the
message processor, its cache of outstanding requests and the listening thread (snmp/engine.py:82-118);
each has its own heap.

Simplifications: each manager is there from the start, with an empty heap; a request object is collected at any time (`collect`), also while a thread waits on it, which gives more histories
than the code has; `response` and `event` are set in one step by `push`.
-/

namespace Snmp

/-- `Request` (snmp/manager/v1.py:18-38 and snmp/manager/v2c.py:18-38). `callback` says whether `self.callback is not None`; its only
possible value is the processor's `uncache`. -/
structure CReq where
  manager : Nat
  pdu : Pdu
  community : Bytes
  callback : Bool
  event : Bool
  response : Option Message
  expiration : ℚ
  nextRefresh : ℚ
  period : ℚ

namespace CReq

/-- `Request.__init__` (snmp/manager/v1.py:19-38 and snmp/manager/v2c.py:19-38) at clock reading `now`. -/
def new (manager : Nat) (pdu : Pdu) (community : Bytes) (timeout refreshPeriod now : ℚ) : CReq :=
  { manager, pdu, community, callback := false, event := false, response := none
    expiration := now + timeout, nextRefresh := now + timeout, period := refreshPeriod }

/-- The `nextRefresh` setter (snmp/manager/v1.py:52-54 and snmp/manager/v2c.py:52-54). -/
def setNextRefresh (q : CReq) (value : ℚ) : CReq := { q with nextRefresh := min q.expiration value }

/-- `push` (snmp/manager/v1.py:70-72 and snmp/manager/v2c.py:70-72). -/
def push (q : CReq) (response : Message) : CReq := { q with response := some response, event := true }

end CReq

/-- What the managers, the dispatcher and the message processor share: every request ever created, which
of them were collected, each manager's heap (snmp/manager/v1.py:134-135 and snmp/manager/v2c.py:134-135), the processor's cache, and the
datagrams handed to the channel, newest first, each with its request. -/
structure CMgr where
  reqs : Nat → Option CReq
  dead : Nat → Bool
  heaps : Nat → List Ref
  cache : Cache CommunityEntry
  sent : List (Nat × Bytes)

namespace CMgr

/-- Managers with a new processor (snmp/manager/v1.py:122-135 and snmp/manager/v2c.py:122-135). -/
def new (r : Nat) : CMgr := ⟨fun _ => none, fun _ => false, fun _ => [], Cache.new 32 true r, []⟩

/-- The requests that are alive, with the key `lambda r: r.nextRefresh` (snmp/manager/v1.py:184 and snmp/manager/v2c.py:184). -/
def env (s : CMgr) : Env := fun r => if s.dead r then none else (s.reqs r).map CReq.nextRefresh

/-- `reference()` (snmp/utils.py:42-48). -/
def deref (s : CMgr) (r : Nat) : Option CReq := if s.dead r then none else s.reqs r

/-- `self.manager` of request `r` (snmp/manager/v1.py:27 and snmp/manager/v2c.py:27); 0 if there is no
such request. -/
def managerOf (s : CMgr) (r : Nat) : Nat := ((s.reqs r).map CReq.manager).getD 0

/-- Assign the attributes of request `r`. (snmp/manager/v1.py:19-38 and snmp/manager/v2c.py:19-38) -/
def setReq (s : CMgr) (r : Nat) (q : CReq) : CMgr := { s with reqs := setAt s.reqs r (some q) }

/-- `Request.reallySend`, `SNMPv1Manager.sendPdu` and `Dispatcher.sendPdu` (snmp/manager/v1.py:75-76, and snmp/manager/v2c.py:75-76,
158-169, snmp/dispatcher.py:71-87) for the request `r` with attributes `q`, which includes
`Request.addCallback` (snmp/manager/v1.py:61-68 and snmp/manager/v2c.py:61-68). The processor is assumed to be registered. `chan` is
the exception raised by `channel.send`, if any. -/
def reallySend (v : Version) (s : CMgr) (r : Nat) (q : CReq) (draws : Nat → Nat) (chan : Option PyErr) :
    Res Unit × CMgr :=
  match prepareOutgoingCommunity v s.cache q.pdu r q.community draws with
  | (msg, pdu, cache, registered) =>
    let s := { s with cache }
    match registered, q.callback with
    | some _, true => (.error .assertionError, s.setReq r { q with pdu })
    | _, _ =>
      let s := s.setReq r { q with pdu, callback := q.callback || registered.isSome }
      match msg, chan with
      | .error e, _ => (.error e, s)
      | .ok _, some e => (.error e, s)
      | .ok w, none => (.ok (), { s with sent := (r, w) :: s.sent })

/-- `Request.refresh` (snmp/manager/v1.py:78-95 and snmp/manager/v2c.py:78-95) of the request `r` with attributes `q`. -/
def refreshRequest (v : Version) (s : CMgr) (r : Nat) (q : CReq) (now : ℚ) (draws : Nat → Nat)
    (chan : Option PyErr) : Res (Option ℚ) × CMgr :=
  if q.event then (.ok none, s)
  else
    let timeToNextRefresh := q.nextRefresh - now
    if timeToNextRefresh ≤ 0 then
      if q.expiration ≤ now then (.ok none, s)
      else if q.period = 0 then (.error .zeroDivisionError, s)
      else
        let periodsElapsed : Int := ⌈-timeToNextRefresh / q.period⌉
        let q := q.setNextRefresh (q.nextRefresh + periodsElapsed * q.period)
        match s.reallySend v r q draws chan with
        | (.error e, s) => (.error e, s)
        | (.ok (), s) => (.ok (some 0), s)
    else (.ok (some timeToNextRefresh), s)

/-- How one turn of the loop in `SNMPv1Manager.refresh` ends. (snmp/manager/v1.py:137-156 and snmp/manager/v2c.py:137-156) -/
inductive Turn
  | again
  | finished (wait : ℚ)

/-- The `with self.lock` block in `SNMPv1Manager.refresh` (snmp/manager/v1.py:139-154 and snmp/manager/v2c.py:139-154) of
manager `k`. -/
def refreshBody (v : Version) (s : CMgr) (k : Nat) (now : ℚ) (draws : Nat → Nat) (chan : Option PyErr) :
    Res Turn × CMgr :=
  match s.heaps k with
  | [] => (.error .indexError, s)
  | reference :: _ =>
    match s.deref reference.id with
    | none => (.ok .again, { s with heaps := setAt s.heaps k (Heap.pop s.env (s.heaps k)) })
    | some q =>
      match s.refreshRequest v reference.id q now draws chan with
      | (.error e, s) => (.error e, s)
      | (.ok none, s) => (.ok .again, { s with heaps := setAt s.heaps k (Heap.pop s.env (s.heaps k)) })
      | (.ok (some wait), s) =>
        if 0 < wait then (.ok (.finished wait), s)
        else (.ok .again, { s with heaps := setAt s.heaps k (Heap.replace s.env (s.heaps k) reference) })

/-- `SNMPv1Manager.sendRequest` up to `request.send()` (snmp/manager/v1.py:183-188, and snmp/manager/v2c.py:183-188, 97-100) of
manager `k` for a new request `r`; `t0` and `t1` are the clock readings of `Request.__init__` and `Request.send`. -/
def sendRequest (v : Version) (s : CMgr) (k r : Nat) (pdu : Pdu) (community : Bytes)
    (timeout refreshPeriod t0 t1 : ℚ) (draws : Nat → Nat) (chan : Option PyErr) : Res Unit × CMgr :=
  let q := CReq.new k pdu community timeout refreshPeriod t0
  let s := s.setReq r q
  let s := { s with heaps := setAt s.heaps k (Heap.push s.env (s.heaps k) ⟨r, WeakKey.new q.nextRefresh⟩) }
  s.reallySend v r (q.setNextRefresh (t1 + q.period)) draws chan

/-- `Request.close` (snmp/manager/v1.py:56-59 and snmp/manager/v2c.py:56-59). -/
def close (s : CMgr) (r : Nat) (q : CReq) : Res Unit × CMgr :=
  if q.callback then
    (.ok (), ({ s with cache := s.cache.uncache q.pdu.requestID } : CMgr).setReq r { q with callback := false })
  else (.error .assertionError, s)

/-- A request is collected: `Request.__del__` (snmp/manager/v1.py:40-42 and snmp/manager/v2c.py:40-42). -/
def collect (s : CMgr) (r : Nat) : CMgr :=
  match s.deref r with
  | none => s
  | some q =>
    let s := if q.callback then (s.close r q).2 else s
    { s with dead := setAt s.dead r true }

/-- `prepareDataElements` as called by `Dispatcher.hear` (snmp/dispatcher.py:47-61, snmp/message/v1.py:77-99)
for a datagram, with only this processor registered: the handle and the message to push, if any. An
exception is swallowed. -/
def hear (v : Version) (s : CMgr) (w : Bytes) : Option (Nat × Message) × CMgr :=
  match VersionOnly.decode (.bytes w) with
  | .error _ => (none, s)
  | .ok (version, _) =>
    if version ≠ v then (none, s)
    else
      match Message.decode (if v = .v1 then v1Types else v2Types) (.bytes w) with
      | .error _ => (none, s)
      | .ok (m, _) =>
        match communityProto.prepareDataElements s.cache s.dead m with
        | (.error _, cache) => (none, { s with cache })
        | (.ok r, cache) => (some (r, m), { s with cache })

end CMgr

/-! ## Threads -/

/-- How `wait()` ends (snmp/manager/v1.py:111-118 and snmp/manager/v2c.py:111-118): by `return`, by one of its own `raise` statements, or
by an exception raised in what it calls. -/
inductive Outcome
  | timeout
  | bindings (l : List VarBind)
  | errorResponse (status index : Int) (request : Pdu)
  | raised (e : PyErr)
  deriving DecidableEq

/-- Where a thread is inside `Request.wait` of request `r` (snmp/manager/v1.py:102-118 and snmp/manager/v2c.py:102-118) and
`SNMPv1Manager.refresh` (137-156). -/
inductive Pc
  /-- not inside `wait` -/
  | idle
  /-- at `while not self.expired` -/
  | test (r : Nat)
  /-- at `while self.requests` -/
  | loop (r : Nat)
  /-- about to take the lock in the body of that loop -/
  | body (r : Nat)
  /-- in `self.event.wait(timeout)`, called at clock reading `since` -/
  | sleep (r : Nat) (timeout : Option ℚ) (since : ℚ)
  /-- `wait` has ended -/
  | done (r : Nat) (o : Outcome)
  deriving DecidableEq

/-- The managers, the threads inside `wait`, and the message the listening thread is about to push.
(snmp/manager/v1.py:102-156 and snmp/manager/v2c.py:102-156; snmp/dispatcher.py:47-69) -/
structure CSys where
  mgr : CMgr
  threads : Nat → Pc
  recv : Option (Nat × Message)

/-- Atomic steps. (snmp/manager/v1.py:40-72,102-156,171-193 and snmp/manager/v2c.py:40-72,102-156,171-193; snmp/dispatcher.py:47-69) -/
inductive CEvent
  /-- some thread calls `sendRequest` of manager `k`, which creates request `r` -/
  | send (k r : Nat) (pdu : Pdu) (community : Bytes) (timeout refreshPeriod t0 t1 : ℚ) (draws : Nat → Nat)
      (chan : Option PyErr)
  /-- thread `t` calls `wait` on request `r` -/
  | wait (t r : Nat)
  /-- thread `t`, inside `wait`, does its next step, reading the clock as `now` -/
  | step (t : Nat) (now : ℚ) (draws : Nat → Nat) (chan : Option PyErr)
  /-- the listening thread gets a datagram and finds out what to push -/
  | hear (w : Bytes)
  /-- the listening thread pushes the message -/
  | push
  /-- a request is collected -/
  | collect (r : Nat)

namespace CSys

/-- The start. (snmp/manager/v1.py:122-135 and snmp/manager/v2c.py:122-135) -/
def init (r : Nat) : CSys := ⟨.new r, fun _ => .idle, none⟩

/-- The end of `wait` (snmp/manager/v1.py:107-118 and snmp/manager/v2c.py:107-118): `pdu` is the local variable. -/
def finish (s : CSys) (t r : Nat) (q : CReq) (pdu : Option Pdu) : CSys :=
  match s.mgr.close r q with
  | (.error e, mgr) => { s with mgr, threads := setAt s.threads t (.done r (.raised e)) }
  | (.ok (), mgr) =>
    let o : Outcome := match pdu with
      | none => .timeout
      | some p => if p.first ≠ 0 then .errorResponse p.first p.second q.pdu else .bindings p.bindings
    { s with mgr, threads := setAt s.threads t (.done r o) }

/-- The next step of a thread (snmp/manager/v1.py:102-118, and snmp/manager/v2c.py:102-118, 137-156). -/
def advance (v : Version) (s : CSys) (t : Nat) (now : ℚ) (draws : Nat → Nat) (chan : Option PyErr) : CSys :=
  match s.threads t with
  | .idle | .done _ _ => s
  | .test r =>
    match s.mgr.reqs r with
    | none => s
    | some q =>
      if q.expiration ≤ now then s.finish t r q none
      else { s with threads := setAt s.threads t (.loop r) }
  | .loop r =>
    if s.mgr.heaps (s.mgr.managerOf r) = [] then { s with threads := setAt s.threads t (.sleep r none now) }
    else { s with threads := setAt s.threads t (.body r) }
  | .body r =>
    match s.mgr.refreshBody v (s.mgr.managerOf r) now draws chan with
    | (.error e, mgr) => { s with mgr, threads := setAt s.threads t (.done r (.raised e)) }
    | (.ok .again, mgr) => { s with mgr, threads := setAt s.threads t (.loop r) }
    | (.ok (.finished wait), mgr) => { s with mgr, threads := setAt s.threads t (.sleep r (some wait) now) }
  | .sleep r timeout since =>
    match s.mgr.reqs r with
    | none => s
    | some q =>
      if q.event then
        match q.response with
        | none => { s with threads := setAt s.threads t (.done r (.raised .assertionError)) }
        | some m => s.finish t r q (some m.pdu)
      else
        match timeout with
        | none => s
        | some d =>
          if since + d ≤ now then { s with threads := setAt s.threads t (.test r) } else s

/-- One atomic step; a step that is not enabled changes nothing. (snmp/manager/v1.py:40-193 and snmp/manager/v2c.py:40-193) -/
def step (v : Version) (s : CSys) : CEvent → CSys
  | .send k r pdu community timeout refreshPeriod t0 t1 draws chan =>
    if (s.mgr.reqs r).isSome then s
    else
      { s with mgr := (s.mgr.sendRequest v k r pdu community timeout refreshPeriod t0 t1 draws chan).2 }
  | .wait t r =>
    match s.threads t, s.mgr.deref r with
    | .idle, some _ => { s with threads := setAt s.threads t (.test r) }
    | .done _ _, some _ => { s with threads := setAt s.threads t (.test r) }
    | _, _ => s
  | .step t now draws chan => s.advance v t now draws chan
  | .hear w =>
    match s.recv with
    | some _ => s
    | none => { s with mgr := (s.mgr.hear v w).2, recv := (s.mgr.hear v w).1 }
  | .push =>
    match s.recv with
    | none => s
    | some (r, m) =>
      match s.mgr.reqs r with
      | none => { s with recv := none }
      | some q => { s with mgr := s.mgr.setReq r (q.push m), recv := none }
  | .collect r => { s with mgr := s.mgr.collect r }

/-- A history of steps. Any interleaving of the steps of snmp/manager/v1.py:40-193 and snmp/manager/v2c.py:40-193. -/
def run (v : Version) (s : CSys) (h : List CEvent) : CSys := h.foldl (step v) s

end CSys

end Snmp
