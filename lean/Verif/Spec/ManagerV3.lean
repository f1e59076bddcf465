import Verif.ManagerV3
import Verif.Props.Usm
/-! # Specification: what a step of a v3 manager does, seen from outside -/

namespace Snmp

/-- The step `e` taken in state `s` delivers the response `x` (not a report) to request `r`, and
`processResponse` of the manager does not raise. -/
def Spec.Delivers (cfg : VCfg) (s : VSys) (e : VEvent) (r : Nat) (x : V3Incoming) : Prop :=
  ∃ i m msg, e = .listen i ∧ s.listener = .push m x ∧ s.mgr.msgs m = some msg ∧ msg.request = r ∧
    (s.mgr.deref r).isSome ∧ x.scopedPDU.pdu.type.isInternal = false ∧ s.mgr.locked = false ∧
    (s.mgr.processResponse cfg x i.seed).1 = .ok ()

/-- A message received with authentication. -/
def Spec.WithAuth (x : V3Incoming) : Prop := x.header.flags.level.auth = true

/-- The object usmStatsNotInTimeWindows.0 (RFC 3414, section 5). -/
def Spec.notInTimeWindows : List Nat := [1, 3, 6, 1, 6, 3, 15, 1, 1, 2, 0]

/-- The object usmStatsUnknownEngineIDs.0 (RFC 3414, section 5). -/
def Spec.unknownEngineIDs : List Nat := [1, 3, 6, 1, 6, 3, 15, 1, 1, 4, 0]

/-- The step `e` taken in state `s` delivers to request `r` the report `x`, from which the exception `ex` is
made (that is, not an unknownEngineIDs or notInTimeWindows report). -/
def Spec.ReportsError (cfg : VCfg) (s : VSys) (e : VEvent) (r : Nat) (x : V3Incoming) (ex : Report) : Prop :=
  ∃ i m msg v rest, e = .listen i ∧ s.listener = .push m x ∧ s.mgr.msgs m = some msg ∧ msg.request = r ∧
    (s.mgr.deref r).isSome ∧ x.scopedPDU.pdu.type.isInternal = true ∧ x.scopedPDU.pdu.bindings = v :: rest ∧
    v.name ≠ Spec.unknownEngineIDs ∧ v.name ≠ Spec.notInTimeWindows ∧
    makeReport cfg.utf8 x.securityName v = .ok ex


/-! ## Histories of a manager `m0` -/

/-- The messages in the cache of a message processor are among the `n` made so far. -/
def Spec.Used (c : Cache V3Entry) (n : Nat) : Prop := ∀ id e, c.outstanding id = some e → e.handle < n

/-- `m0` is a new manager, on a security module that was used in any way before, and a message processor with which
any messages were sent before. -/
def Spec.Created (cfg : VCfg) (m0 : VMgr) : Prop :=
  cfg.crypto.Ok ∧ ∃ (h0 : List Spec.UsmOp) (engineID : Option Bytes) (g : Nat) (c0 : Cache V3Entry) (n0 : Nat) (seed : Bytes → Nat), Spec.Used c0 n0 ∧
    VMgr.create cfg (Usm.after cfg.backend cfg.crypto h0) engineID g c0 n0 seed = .ok m0

/-- In the history `h` the response `x` was delivered to request `r`. -/
def Spec.Delivered (cfg : VCfg) (m0 : VMgr) (h : List VEvent) (r : Nat) (x : V3Incoming) : Prop :=
  ∃ h1 e h2, h = h1 ++ e :: h2 ∧ Spec.Delivers cfg ((VSys.init m0).run cfg h1) e r x

/-- In the history `h` the report `x`, of which the exception `ex` is made, was delivered to request `r`. -/
def Spec.Reported (cfg : VCfg) (m0 : VMgr) (h : List VEvent) (r : Nat) (x : V3Incoming) (ex : Report) : Prop :=
  ∃ h1 e h2, h = h1 ++ e :: h2 ∧ Spec.ReportsError cfg ((VSys.init m0).run cfg h1) e r x ex

/-- In the history `h` thread `t`, in `wait` on request `r`, read the clock and found it at or past
`expiration`. -/
def Spec.Expired (cfg : VCfg) (m0 : VMgr) (h : List VEvent) (t r : Nat) (expiration : ℚ) : Prop :=
  ∃ h1 i h2, h = h1 ++ .step t i :: h2 ∧ ((VSys.init m0).run cfg h1).threads t = .test r ∧ expiration ≤ i.now

/-- The request with attributes `q` was issued in the history `h`. -/
def Spec.Issued (h : List VEvent) (q : VReq) : Prop :=
  ∃ pdu timeout t0 r0 i id, .send pdu q.userName q.level timeout q.period t0 r0 i ∈ h ∧
    q.pdu = { pdu with requestID := id } ∧ q.expiration = t0 + timeout

/-- What `wait()` makes of the response `x` to a request with PDU `pdu`. -/
def Spec.answer (x : V3Incoming) (pdu : Pdu) : VOutcome :=
  if x.scopedPDU.pdu.first ≠ 0 then .errorResponse x.scopedPDU.pdu.first x.scopedPDU.pdu.second pdu
  else .bindings x.scopedPDU.pdu.bindings

/-- Why a send from state `m` raised the exception `err`: the user registry refused the engine; or no message
ID was free; or the security module refused to protect the message; or the channel raised it. -/
inductive Spec.SendFailed (cfg : VCfg) (m : VMgr) (i : SendIn) (err : PyErr) : Prop
  | register (e : Bytes) (h : (m.usm.users.assign cfg.crypto e cfg.ns i.seed).1 = .error err)
  | refused (e : Bytes) (h : (m.usm.users.assign cfg.crypto e cfg.ns i.seed).1 = .ok false)
      (he : err = .discoveryError)
  | noID (h : err = .cacheError)
  | security (usm : Usm) (hu : usm = m.usm ∨ ∃ old e, changeEngine cfg m.usm old (some e) i.seed = (.ok (), usm))
      (pdu : Pdu) (handle : Nat) (engineID user : Bytes) (level : SecurityLevel) (msg : V3Message)
      (hm : (prepareOutgoingV3 cfg.maxSize m.cache pdu handle engineID user level .usm [] i.draws).1 = .ok msg)
      (h : (usm.prepareOutgoing cfg.backend cfg.crypto msg engineID user i.stamp).1 = .error err)
  | channel (h : i.chan = some err)

/-- What `wait()` of thread `t` on request `r`, whose attributes are `q`, may report after the history `h`;
`s` is the state before its last step, `s'` the one after it, `i` holds the inputs of that step. -/
def Spec.V3Faithful (cfg : VCfg) (m0 : VMgr) (h : List VEvent) (s s' : VSys) (i : SendIn) (t r : Nat) (q : VReq) :
    VOutcome → Prop
  | .bindings l => ∃ x, Spec.Delivered cfg m0 h r x ∧ x.scopedPDU.pdu.first = 0 ∧ l = x.scopedPDU.pdu.bindings
  | .errorResponse status index request => ∃ x, Spec.Delivered cfg m0 h r x ∧ x.scopedPDU.pdu.first ≠ 0 ∧
      status = x.scopedPDU.pdu.first ∧ index = x.scopedPDU.pdu.second ∧ request = q.pdu
  | .timeout => Spec.Expired cfg m0 h t r q.expiration
  | .reported ex => ∃ x, Spec.Reported cfg m0 h r x ex ∧ (Spec.WithAuth x ∨ Spec.Expired cfg m0 h t r q.expiration)
  | .raised err => ∃ r' q', s.mgr.deref r' = some q' ∧
      ((s'.mgr.fails = .refresh r' :: s.mgr.fails ∧
        (q'.event = false ∧ q'.nextRefresh ≤ i.now ∧ i.now < q'.expiration) ∧
        (Spec.SendFailed cfg s.mgr i err ∨ err = .zeroDivisionError ∧ q'.period = 0)) ∨
      (s'.mgr.fails = .poke r' :: s.mgr.fails ∧ Spec.SendFailed cfg s.mgr i err))

/-! ## Occasions for sending -/

/-- The next refresh time `next` of a request with refresh period `period` and expiration `expiration` that was due
at `due` and resent at `now`: on the grid of `due`, not in the past, less than one period ahead, capped by the
expiration. -/
def Spec.NextRefresh (due now period expiration next : ℚ) : Prop :=
  ∃ k : ℕ, next = min expiration (due + k * period) ∧ now ≤ due + k * period ∧ due + k * period < now + period

/-- The step `e` in state `s` resends request `r`, the first one scheduled, because it is due; `q` and `q'` are its attributes before and
after. -/
structure Spec.Refreshes (s : VSys) (e : VEvent) (r : Nat) (q q' : VReq) : Prop where
  waiting : ∃ t i r0, e = .step t i ∧ s.threads t = .body r0 ∧ q.nextRefresh ≤ i.now ∧ i.now < q.expiration ∧
    (0 < q.period → Spec.NextRefresh q.nextRefresh i.now q.period q.expiration q'.nextRefresh)
  first : ∃ x rest, s.mgr.active = x :: rest ∧ x.id = r
  before : s.mgr.reqs r = some q
  unanswered : q.event = false
  same : q'.expiration = q.expiration ∧ q'.period = q.period

/-- The other occasions on which the step `e` in state `s` sends request `r`, at clock reading `now`. -/
inductive Spec.Occasion (s : VSys) (r : Nat) (now : ℚ) : VEvent → Prop
  /-- it is issued -/
  | issue {pdu : Pdu} {user : Bytes} {level : SecurityLevel} {timeout period t0 : ℚ} {r0 : Nat} {i : SendIn}
      (hr : s.mgr.reqs r = none) (hn : i.now = now) : Occasion s r now (.send pdu user level timeout period t0 r0 i)
  /-- a thread in `poke` sends the queued requests, and this is the first of the rest -/
  | poke {t : Nat} {i : SendIn} (r0 : Nat) (l : List Ref) (x : Ref) (a : Bool)
      (ht : s.threads t = .poking r0 (l ++ [x]) a) (hr : x.id = r) (hn : i.now = now) : Occasion s r now (.step t i)
  /-- an unknownEngineIDs or notInTimeWindows report answers one of its messages -/
  | report {i : SendIn} (m : Nat) (x : V3Incoming) (msg : VMsg) (v : VarBind) (rest : List VarBind)
      (hl : s.listener = .push m x) (hm : s.mgr.msgs m = some msg) (hr : msg.request = r)
      (hi : x.scopedPDU.pdu.type.isInternal = true) (hv : x.scopedPDU.pdu.bindings = v :: rest)
      (hv' : v.name = Spec.unknownEngineIDs ∨ v.name = Spec.notInTimeWindows) (hn : i.now = now) :
      Occasion s r now (.listen i)
  /-- discovery is complete, the queued requests are sent, and this is the first of the rest -/
  | flush {i : SendIn} (r0 : Nat) (engineID : Bytes) (sync : Bool) (l : List Ref) (x : Ref)
      (hl : s.listener = .flush r0 engineID sync) (hu : s.mgr.unsent = l ++ [x]) (hr : x.id = r) (hn : i.now = now) :
      Occasion s r now (.listen i)

end Snmp
