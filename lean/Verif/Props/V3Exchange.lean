import Verif.Props.V3Serial
import Verif.Props.V3Sent
/-!
# C94: the first exchange of a v3 manager with an agent that answers succeeds
-/

namespace Snmp

variable {cfg : VCfg} {m0 : VMgr}

/-! ## Specification -/

/-- A report saying that the engine ID is not known. -/
def Spec.SaysUnknownEngine (x : V3Incoming) : Prop :=
  Spec.IsReport x ∧ ∃ v rest, x.scopedPDU.pdu.bindings = v :: rest ∧ v.name = Spec.unknownEngineIDs

/-- A report saying that the message is not within the time window. -/
def Spec.SaysNotInTime (x : V3Incoming) : Prop :=
  Spec.IsReport x ∧ ∃ v rest, x.scopedPDU.pdu.bindings = v :: rest ∧ v.name = Spec.notInTimeWindows

/-- Thread `t` calls `wait()` on request `r`, and goes to sleep. -/
def Spec.waits (t r : Nat) (a b : SendIn) : List VEvent := [.wait t r, .step t a, .step t b]

/-- The listening thread gets the datagram `w`, and has time to process it. -/
def Spec.gets (w : Bytes) (stamp : ℚ) (i1 i2 i3 : SendIn) : List VEvent :=
  [.hear w stamp, .listen i1, .listen i2, .listen i3]

/-- After the history `h`, any response to the datagram `d` that the security module accepts ends the `wait()` of thread `t` on
request `r`, whose PDU is `pdu`, with what the response says. -/
def Spec.Concludes (cfg : VCfg) (m0 : VMgr) (h : List VEvent) (t r : Nat) (pdu : Pdu) (d : Sent) : Prop :=
  ∀ w stamp x j a b, Spec.ReadAs cfg (VSys.after cfg m0 h).mgr.usm w stamp x → Spec.AnswerTo d.wire x →
    x.scopedPDU.pdu.type = .response →
    (VSys.after cfg m0 (h ++ [.hear w stamp, .listen j, .step t a, .step t b])).threads t = .done r (Spec.answer x pdu)

/-- After the history `h`, a report saying that datagram `d` of request `r` is not within the time window, from the engine `engineID` and
accepted by the security module, makes the manager send the request once more, unless sending raises an exception; and any accepted
response to this datagram ends the `wait()` of thread `t`. -/
def Spec.Synchronizes (cfg : VCfg) (m0 : VMgr) (h0 : List Spec.UsmOp) (h : List VEvent) (t r : Nat) (q : VReq) (engineID : Bytes)
    (d : Sent) : Prop :=
  ∀ w stamp x i1 i2 i3, Spec.ReadAs cfg (VSys.after cfg m0 h).mgr.usm w stamp x → Spec.AnswerTo d.wire x →
    Spec.SaysNotInTime x → x.securityEngineID = engineID →
    Spec.Possible (h ++ Spec.gets w stamp i1 i2 i3) →
    (VSys.after cfg m0 (h ++ Spec.gets w stamp i1 i2 i3)).mgr.fails = [] →
    ∃ d', (VSys.after cfg m0 (h ++ Spec.gets w stamp i1 i2 i3)).mgr.sent = d' :: (VSys.after cfg m0 h).mgr.sent ∧
      d'.request = r ∧ Spec.RequestDatagram cfg h0 (h ++ Spec.gets w stamp i1 i2 i3) q engineID d'.wire ∧
      Spec.Concludes cfg m0 (h ++ Spec.gets w stamp i1 i2 i3) t r q.pdu d'

namespace VSys

open Snmp.VMgr

/-- Nothing but request 0 was issued, which is unanswered and scheduled. -/
structure Solo (s : VSys) (t : Nat) (q : VReq) : Prop where
  req : s.mgr.reqs 0 = some q
  alive : s.mgr.dead 0 = false
  open_ : q.event = false
  next : s.mgr.next = none
  unsent : s.mgr.unsent = []
  active : ∃ k, s.mgr.active = [⟨0, k⟩]
  locked : s.mgr.locked = false
  dropped : s.dropped = false
  fails : s.mgr.fails = []

theorem push_nil (env : Env) (x : Ref) : Heap.push env [] x = [x] := by
  unfold Heap.push
  simp [Heap.siftdown]

theorem heapify_one (env : Env) (x : Ref) : Heap.heapify env [x] = [x] := by
  unfold Heap.heapify
  simp [Heap.heapifyLoop]

/-- The state of a manager that waits for what its first datagram brings. -/
def probing (engineID : Option Bytes) : MState := if engineID.isNone then .waitForDiscovery else .synchronizing

/-- A send that does not raise. -/
theorem sends_exact {s m' : VMgr} {r : Nat} {q : VReq} {engineID : Option Bytes} {cause : Why} {i : SendIn}
    (h : VMgr.Sends cfg s r q engineID cause i (.ok ()) m') :
    (∃ w, m'.sent = ⟨r, s.nextMsg, w⟩ :: s.sent) ∧
    m'.reqs r = some { q with engineID := engineID <|> q.engineID, messages := s.nextMsg :: q.messages } := by
  generalize hres : (Except.ok () : Res Unit) = res at h
  cases h
  case refused => cases hres
  case made q1 usm1 usm cache id sent he hb hu hp hd hs =>
    rcases hs with ⟨-, w, msg, rfl, -⟩ | ⟨⟨err, h, -⟩, -⟩
    · refine ⟨⟨w, rfl⟩, ?_⟩
      rcases he with ⟨rfl, rfl, -⟩ | ⟨e, rfl, -, rfl⟩
      · exact setAt_same _ _ _
      · exact setAt_same _ _ _
    · rw [h] at hres; cases hres

theorem solo_issue (hc : Spec.Created cfg m0) (pdu : Pdu) (user : Bytes) (level : SecurityLevel)
    (timeout period t0 : ℚ) (r0 : Nat) (i : SendIn) (t : Nat)
    (hf : (after cfg m0 [.send pdu user level timeout period t0 r0 i]).mgr.fails = []) :
    let s := after cfg m0 [.send pdu user level timeout period t0 r0 i];
    ∃ q d id, Solo s t q ∧ s.threads = (fun _ => .idle) ∧ s.listener = .idle ∧ s.mgr.sent = [d] ∧ d.request = 0 ∧
      q.pdu = { pdu with requestID := id } ∧ q.userName = user ∧ q.level = level ∧ q.engineID = m0.engineID ∧
      q.expiration = t0 + timeout ∧ q.nextRefresh = min (t0 + timeout) (i.now + period) ∧
      s.mgr.engineID = m0.engineID ∧ s.mgr.state = probing m0.engineID ∧
      s.mgr.bools = fun _ => false := by
  obtain ⟨-, h0, engineID, g, c0, n0, seed, hu0, hm⟩ := hc
  obtain ⟨usm, -, hm0⟩ := VMgr.create_ok hm
  have f1 : m0.nextReq = 0 ∧ m0.next = none ∧ m0.unsent = [] ∧ m0.active = [] ∧ m0.locked = false ∧ m0.fails = [] ∧
      m0.sent = [] ∧ m0.dead = (fun _ => false) ∧ m0.bools = fun _ => false := by
    rw [hm0]; exact ⟨rfl, rfl, rfl, rfl, rfl, rfl, rfl, rfl, rfl⟩
  obtain ⟨f1, f2, f3, f4, f5, f6, f7, f8, f9⟩ := f1
  have hst : m0.state.onRequest level.auth = (true, some (probing m0.engineID)) := by
    rw [hm0]
    unfold probing
    cases engineID <;> rfl
  clear hm hm0
  intro s
  have hmove := move_send cfg (init m0) pdu user level timeout period t0 r0 i f5 rfl
  have hse : s = { init m0 with mgr := ((init m0).mgr.sendRequest cfg pdu user level timeout period t0 r0 i).2 } := by
    have : ¬ ((init m0).mgr.locked || (init m0).dropped) = true := by
      show ¬ (m0.locked || false) = true
      simp [f5]
    exact if_neg this
  rw [← hse] at hmove
  change s.mgr.fails = [] at hf
  generalize s = s' at *
  clear hse
  generalize hev : VEvent.send pdu user level timeout period t0 r0 i = e at hmove
  cases hmove
  case queued h =>
    cases hev
    change m0.state.onRequest level.auth = _ at h
    rw [hst] at h; cases h
  case issueFailed => cases hev; cases hf
  case issued pdu' user' level' timeout' period' t0' r0' i' q hq hl hd next hs m' hm' =>
    cases hev
    change m0.state.onRequest level.auth = _ at hs
    rw [hst] at hs
    obtain rfl : some (probing m0.engineID) = next := by simpa using hs
    change VMgr.Sends cfg ((m0.issue q (VMgr.generateRequestID m0.gen r0).2).propose _) m0.nextReq _ m0.engineID .issue i _ _
      at hm'
    have hreq0 : (init m0).mgr.nextReq = 0 := f1
    rw [f1] at hm'
    have hq0 : q = VReq.new { pdu with requestID := (VMgr.generateRequestID m0.gen r0).1 } user level timeout
        period t0 m0.nextBool := hq
    simp only [hreq0]
    obtain ⟨⟨w, g1⟩, g2⟩ := sends_exact hm'
    have fr := hm'.frame
    have hq1 : q.engineID = none := by rw [hq0]; rfl
    have hp : ∀ n, (m0.issue q (VMgr.generateRequestID m0.gen r0).2).propose n =
      { m0.issue q (VMgr.generateRequestID m0.gen r0).2 with next := n <|> m0.next } := fun n => propose_eq _ n
    have e1 := fr.dead; have e2 := fr.bools; have e3 := fr.active; have e4 := fr.unsent
    have e6 := fr.next; have e7 := fr.engineID; have e8 := fr.locked; have e9 := fr.fails
    rw [hp] at g1 e1 e2 e3 e4 e6 e7 e8 e9
    rw [updateState_eq]
    refine ⟨_, ⟨0, m0.nextMsg, w⟩, (VMgr.generateRequestID m0.gen r0).1, ⟨g2, ?_, ?_, rfl, ?_, ?_, ?_, rfl, ?_⟩, rfl, rfl, ?_, rfl, ?_, ?_, ?_, ?_, ?_, ?_, ?_, ?_, ?_⟩
    · show m'.dead 0 = false
      rw [e1]; show m0.dead 0 = false; rw [f8]
    · show q.event = false
      rw [hq0]; rfl
    · exact e4.trans f3
    · show ∃ k, Heap.push m'.env m'.active _ = _
      rw [e3, show (m0.issue q (VMgr.generateRequestID m0.gen r0).2).active = [] from f4]
      exact ⟨_, push_nil _ _⟩
    · exact e8.trans f5
    · exact e9.trans f6
    · show m'.sent = [_]
      rw [g1, show (m0.issue q (VMgr.generateRequestID m0.gen r0).2).sent = [] from f7]
      rfl
    · show q.pdu = _
      rw [hq0]; rfl
    · show q.userName = _
      rw [hq0]; rfl
    · show q.level = _
      rw [hq0]; rfl
    · show (m0.engineID <|> q.engineID) = _
      rw [hq1]; cases m0.engineID <;> rfl
    · show q.expiration = _
      rw [hq0]; rfl
    · show min q.expiration (i.now + q.period) = _
      rw [hq0]; rfl
    · exact e7
    · show m'.next.getD _ = _
      rw [e6]; rfl
    · exact e2.trans f9
  all_goals cases hev

theorem goto_goto (s : VSys) (t : Nat) (p p' : VPc) : (s.goto t p).goto t p' = s.goto t p' := by
  unfold goto
  simp only
  congr 1
  funext t'
  unfold setAt
  split <;> rfl

theorem solo_sleep {s : VSys} {t : Nat} {q : VReq} (hs : Solo s t q) (hi : s.threads t = .idle) (a b : SendIn)
    (ha : a.now < q.expiration) (hb : b.now < q.nextRefresh) :
    s.step cfg (.wait t 0) = s.goto t (.test 0) ∧
    (s.goto t (.test 0)).step cfg (.step t a) = s.goto t (.body 0) ∧
    (s.goto t (.body 0)).step cfg (.step t b) = s.goto t (.sleep 0 (q.nextRefresh - b.now) b.now) := by
  have hd : s.mgr.deref 0 = some q := by unfold VMgr.deref; rw [hs.alive, hs.req]; rfl
  refine ⟨?_, ?_, ?_⟩
  · unfold VSys.step
    simp only [hi, hd]
  · unfold VSys.step VSys.advance
    simp only [show (s.goto t (.test 0)).threads t = .test 0 from setAt_same _ _ _,
      show (s.goto t (.test 0)).mgr.reqs 0 = some q from hs.req]
    rw [if_neg (not_le.2 ha), goto_goto]
  · obtain ⟨k, hk⟩ := hs.active
    have hbody : s.mgr.refreshBody cfg b = (.ok (.finished (q.nextRefresh - b.now)), s.mgr) := by
      unfold VMgr.refreshBody
      simp only [hk, hd]
      unfold VMgr.refreshRequest
      simp only [hs.open_, Bool.false_eq_true, if_false]
      rw [if_neg (by linarith)]
      simp only
      rw [if_pos (by linarith)]
    unfold VSys.step VSys.advance
    simp only [show (s.goto t (.body 0)).threads t = .body 0 from setAt_same _ _ _]
    rw [show (s.goto t (.body 0)).mgr = s.mgr from rfl, hbody]
    simp only
    exact goto_goto s t (.body 0) _

theorem hear_change (s : VSys) (w : Bytes) (stamp : ℚ) : ∃ usm l, s.step cfg (.hear w stamp) =
    { s with mgr := { s.mgr with usm }, listener := l } := by
  rcases step_move cfg s (.hear w stamp) with hm | hm
  · rw [hm]; exact ⟨s.mgr.usm, s.listener, rfl⟩
  · generalize s.step cfg (.hear w stamp) = s' at *
    cases hm
    · exact ⟨_, s.listener, rfl⟩
    · exact ⟨_, _, rfl⟩

theorem solo_hear {s : VSys} {t : Nat} {q : VReq} (hs : Solo s t q) (w : Bytes) (stamp : ℚ) :
    Solo (s.step cfg (.hear w stamp)) t q := by
  obtain ⟨usm, l, h⟩ := hear_change (cfg := cfg) s w stamp
  rw [h]
  exact ⟨hs.req, hs.alive, hs.open_, hs.next, hs.unsent, hs.active, hs.locked, hs.dropped, hs.fails⟩

theorem listen_threads (s : VSys) (i : SendIn) : (s.step cfg (.listen i)).threads = s.threads := by
  rcases step_move cfg s (.listen i) with hm | hm
  · rw [hm]
  · generalize s.step cfg (.listen i) = s' at *
    cases hm <;> rfl

theorem listen_idle {s : VSys} (h : s.listener = .idle) (i : SendIn) : s.step cfg (.listen i) = s := by
  unfold VSys.step VSys.listen
  simp only [h]

/-- A report that makes the manager send the request again. -/
theorem solo_report {s : VSys} {t : Nat} {q : VReq} (hs : Solo s t q) (m : Nat) (x : V3Incoming) (cause : Why) (sync : Bool)
    (hr : Reports s m x 0 q cause sync) (all : Bool) (next : Option MState)
    (hst : s.mgr.state.onReport s.mgr.engineID x.securityEngineID = .ok (all, next)) (hn : all = false → next = none)
    (i1 i2 i3 : SendIn) (hf : (s.step cfg (.listen i1)).mgr.fails = []) :
    let s1 := s.step cfg (.listen i1);
    let s2 := s1.step cfg (.listen i2);
    let s3 := s2.step cfg (.listen i3);
    ∃ q' d, Solo s3 t q' ∧ s3.listener = .idle ∧ s1.mgr.sent = d :: s.mgr.sent ∧ s2.mgr.sent = s1.mgr.sent ∧
      s3.mgr.sent = s1.mgr.sent ∧ d.request = 0 ∧ q'.pdu = q.pdu ∧ q'.userName = q.userName ∧ q'.level = q.level ∧
      q'.engineID = some x.securityEngineID ∧ q'.expiration = q.expiration ∧
      (∃ q1, s1.mgr.reqs 0 = some q1 ∧ q1.engineID = some x.securityEngineID ∧ q1.pdu = q.pdu ∧
        q1.userName = q.userName ∧ q1.level = q.level) ∧
      s3.mgr.engineID = s.mgr.engineID ∧ s3.mgr.state = next.getD s.mgr.state ∧
      (sync = false → s3.mgr.bools = s.mgr.bools) := by
  have hstep : s.step cfg (.listen i1) = s.report cfg 0 q x.securityEngineID cause sync i1 := by
    unfold VSys.step VSys.listen
    cases hr with
    | unknownEngine msg v rest hl hm hr hq hi hv hn he =>
      simp only [hl]
      unfold VSys.push
      simp only [hm, hi, if_true, hv, hn, hr, hq]
      rw [if_neg he]
    | notInTime msg v rest hl hm hr hq hi hv hn hb =>
      simp only [hl]
      unfold VSys.push
      simp only [hm, hi, if_true, hv, hn, hr, hq, hb]
      rw [if_neg (by decide)]
      simp
  obtain ⟨res, m', hsend, hS⟩ := send_cases cfg (s.mgr.propose next) 0 q (some x.securityEngineID) cause i1
  obtain ⟨k, hk⟩ := hs.active
  unfold VSys.report at hstep
  rw [if_neg (by simp [hs.locked])] at hstep
  unfold VMgr.onReport at hstep
  simp only [hst, hsend] at hstep
  cases res with
  | error err =>
    simp only at hstep
    rw [hstep] at hf
    simp [VMgr.fail] at hf
  | ok u =>
    cases u
    obtain ⟨⟨w, g1⟩, g2⟩ := sends_exact hS
    have fr := hS.frame
    have e0 := fr.state
    have e1 := fr.dead; have e2 := fr.bools; have e3 := fr.active; have e4 := fr.unsent
    have e6 := fr.next; have e7 := fr.engineID; have e8 := fr.locked; have e9 := fr.fails
    rw [propose_eq] at g1 e0 e1 e2 e3 e4 e6 e7 e8 e9
    simp only [hs.next, hk] at g1 e0 e1 e2 e3 e4 e6 e7 e8 e9
    simp only [e3, heapify_one, updateState_eq] at hstep
    clear hst hsend hS fr hf
    intro s1 s2 s3
    have h1 : s1 = s.step cfg (.listen i1) := rfl
    have h2 : s2 = s1.step cfg (.listen i2) := rfl
    have h3 : s3 = s2.step cfg (.listen i3) := rfl
    clear_value s1 s2 s3
    rw [hstep] at h1
    clear hstep
    set q1 : VReq := { q.setNextRefresh (i1.now + q.period) with engineID := some x.securityEngineID, messages := (s.mgr.propose next).nextMsg :: (q.setNextRefresh (i1.now + q.period)).messages } with hq1
    replace g2 : m'.reqs 0 = some q1 := g2
    have hq1e : q1.event = false := hs.open_
    have hq1f : q1.engineID = some x.securityEngineID ∧ q1.pdu = q.pdu ∧ q1.userName = q.userName ∧
        q1.level = q.level ∧ q1.expiration = q.expiration := ⟨rfl, rfl, rfl, rfl, rfl⟩
    clear_value q1
    obtain ⟨p1, p2, p3, p4, p5⟩ := hq1f
    have gone : ∀ s : VSys, s.listener = .sync 0 → s.mgr.reqs 0 = some q1 → ∀ i, s.step cfg (.listen i) =
        { s with mgr := { s.mgr with
                   bools := setAt s.mgr.bools q1.shared true, nextBool := s.mgr.nextBool + 1
                   reqs := setAt s.mgr.reqs 0 (some { q1 with shared := s.mgr.nextBool }) }, listener := .idle } := by
      intro s hl hr i
      unfold VSys.step VSys.listen
      simp only [hl, hr]
      rfl
    have done : ∀ s : VSys, s.listener = .flush 0 x.securityEngineID sync → s.mgr.unsent = [] → ∀ i,
        s.step cfg (.listen i) = s.reported 0 sync := by
      intro s hl hr i
      unfold VSys.step VSys.listen
      simp only [hl, hr, List.getLast?_nil]
    cases all with
    | true =>
      simp only [if_true] at h1
      have k2 := done s1 (by rw [h1]) (by rw [h1]; exact e4.trans hs.unsent) i2
      rw [← h2] at k2
      unfold VSys.reported at k2
      rw [h1] at k2
      simp only at k2
      cases sync with
      | false =>
        have k3 := listen_idle (cfg := cfg) (s := s2) (by rw [k2]; rfl) i3
        rw [← h3] at k3
        rw [k3, k2, h1]
        refine ⟨q1, _, ⟨g2, ?_, hq1e, rfl, e4.trans hs.unsent, ⟨k, rfl⟩, rfl, hs.dropped, e9.trans hs.fails⟩, rfl, g1, rfl,
          rfl, rfl, p2, p3, p4, p1, p5, ⟨q1, g2, p1, p2, p3, p4⟩, e7, ?_, fun _ => e2⟩
        · rw [e1]; exact hs.alive
        · rw [e6, e0]; cases next <;> rfl
      | true =>
        have k3 := gone s2 (by rw [k2]; rfl) (by rw [k2]; exact g2) i3
        rw [← h3] at k3
        rw [k3, k2, h1]
        refine ⟨{ q1 with shared := m'.nextBool }, _, ⟨setAt_same m'.reqs 0 (some { q1 with shared := m'.nextBool }), ?_, hq1e, rfl, e4.trans hs.unsent, ⟨k, rfl⟩, rfl, hs.dropped, e9.trans hs.fails⟩, rfl,
          g1, rfl, rfl, rfl, p2, p3, p4, p1, p5, ⟨q1, g2, p1, p2, p3, p4⟩, e7, ?_, nofun⟩
        · rw [e1]; exact hs.alive
        · rw [e6, e0]; cases next <;> rfl
    | false =>
      obtain rfl := hn rfl
      simp only [Bool.false_eq_true, if_false] at h1
      unfold VSys.reported at h1
      simp only at h1
      cases sync with
      | false =>
        have k2 := listen_idle (cfg := cfg) (s := s1) (by rw [h1]; rfl) i2
        rw [← h2] at k2
        have k3 := listen_idle (cfg := cfg) (s := s2) (by rw [k2, h1]; rfl) i3
        rw [← h3] at k3
        rw [k3, k2, h1]
        refine ⟨q1, _, ⟨g2, ?_, hq1e, e6, e4.trans hs.unsent, ⟨k, rfl⟩, rfl, hs.dropped, e9.trans hs.fails⟩, rfl, g1, rfl,
          rfl, rfl, p2, p3, p4, p1, p5, ⟨q1, g2, p1, p2, p3, p4⟩, e7, ?_, fun _ => e2⟩
        · rw [e1]; exact hs.alive
        · rw [e0]; rfl
      | true =>
        have k2 := gone s1 (by rw [h1]; rfl) (by rw [h1]; exact g2) i2
        rw [← h2] at k2
        have k3 := listen_idle (cfg := cfg) (s := s2) (by rw [k2]) i3
        rw [← h3] at k3
        rw [k3, k2, h1]
        refine ⟨{ q1 with shared := m'.nextBool }, _, ⟨setAt_same m'.reqs 0 (some { q1 with shared := m'.nextBool }), ?_, hq1e, e6, e4.trans hs.unsent, ⟨k, rfl⟩, rfl, hs.dropped, e9.trans hs.fails⟩, rfl,
          g1, rfl, rfl, rfl, p2, p3, p4, p1, p5, ⟨q1, g2, p1, p2, p3, p4⟩, e7, ?_, nofun⟩
        · rw [e1]; exact hs.alive
        · rw [e0]; rfl

theorem still_nil (h : List VEvent) (r : Nat) : Spec.StillWaited cfg m0 h [] r := by
  intro a e b hab
  cases a <;> cases hab

theorem still_cons {h : List VEvent} {e : VEvent} {l : List VEvent} {r : Nat}
    (h1 : ¬ Spec.Ends (after cfg m0 h) (after cfg m0 (h ++ [e])) e r) (h2 : Spec.StillWaited cfg m0 (h ++ [e]) l r) :
    Spec.StillWaited cfg m0 h (e :: l) r := by
  intro a e' b hab
  cases a with
  | nil =>
    simp only [List.nil_append, List.cons.injEq] at hab
    obtain ⟨rfl, -⟩ := hab
    simpa using h1
  | cons x a =>
    simp only [List.cons_append, List.cons.injEq] at hab
    obtain ⟨rfl, hab⟩ := hab
    have := h2 a e' b hab
    simpa using this

theorem still_listen {h l : List VEvent} {i : SendIn} {r : Nat} (h2 : Spec.StillWaited cfg m0 (h ++ [.listen i]) l r) :
    Spec.StillWaited cfg m0 h (.listen i :: l) r := by
  refine still_cons ?_ h2
  rintro (h | ⟨t, o, k1, k2⟩)
  · cases h
  · rw [after_snoc, listen_threads] at k1
    exact k2 k1

/-- The events of a single call of `wait()` and of the listening thread. -/
def Tame (t : Nat) (e : VEvent) : Prop :=
  (∃ r, e = .wait t r) ∨ (∃ i, e = .step t i) ∨ (∃ w stamp, e = .hear w stamp) ∨ ∃ i, e = .listen i

theorem tame_idle (hc : Spec.Created cfg m0) (h : List VEvent) (t t' : Nat) (ht : t' ≠ t) (e : VEvent) (he : Tame t e) :
    (after cfg m0 (h ++ [e])).threads t' = (after cfg m0 h).threads t' := by
  rcases step_goes hc h e t' with h1 | ⟨r, rfl, -⟩ | ⟨i, f, rfl, -⟩
  · exact h1
  · rcases he with ⟨r, h⟩ | ⟨i, h⟩ | ⟨w, stamp, h⟩ | ⟨i, h⟩ <;> cases h; exact absurd rfl ht
  · rcases he with ⟨r, h⟩ | ⟨i, h⟩ | ⟨w, stamp, h⟩ | ⟨i, h⟩ <;> cases h; exact absurd rfl ht

theorem tame_others (hc : Spec.Created cfg m0) (e0 : VEvent) (he0 : ∀ t i, e0 ≠ .step t i) (hw : ∀ t r, e0 ≠ .wait t r) (t : Nat)
    (l : List VEvent) (hl : ∀ e ∈ l, Tame t e) (t' : Nat) (ht : t' ≠ t) : (after cfg m0 (e0 :: l)).threads t' = .idle := by
  induction l using List.reverseRecOn with
  | nil =>
    rcases step_goes hc [] e0 t' with h1 | ⟨r, rfl, -⟩ | ⟨i, f, rfl, -⟩
    · exact h1
    · exact absurd rfl (hw _ _)
    · exact absurd rfl (he0 _ _)
  | append_singleton l e ih =>
    have := tame_idle hc (e0 :: l) t t' ht e (hl e (by simp))
    rw [← List.cons_append, this]
    exact ih (fun e he => hl e (by simp [he]))

theorem tame_serial (hc : Spec.Created cfg m0) (e0 : VEvent) (he0 : ∀ t i, e0 ≠ .step t i) (hw : ∀ t r, e0 ≠ .wait t r) (t : Nat)
    (l : List VEvent) (hl : ∀ e ∈ l, Tame t e) : Spec.Serial cfg m0 (e0 :: l) := by
  intro a e b hab t' hb
  cases a with
  | nil => exact absurd rfl hb.1
  | cons x a =>
    simp only [List.cons_append, List.cons.injEq] at hab
    obtain ⟨rfl, rfl⟩ := hab
    have htt : t' = t := by
      by_contra hne
      rw [tame_others hc _ he0 hw t a (fun e he => hl e (by simp [he])) t' hne] at hb
      exact hb.1 rfl
    have he := hl e (by simp)
    refine ⟨?_, ?_⟩
    · rintro _ _ _ _ _ _ _ _ rfl
      rcases he with ⟨r, h⟩ | ⟨i, h⟩ | ⟨w, stamp, h⟩ | ⟨i, h⟩ <;> cases h
    · rintro t'' i rfl
      rcases he with ⟨r, h⟩ | ⟨i, h⟩ | ⟨w, stamp, h⟩ | ⟨i, h⟩ <;> cases h
      exact htt.symm

/-- Request 0 was sent to the engine `E`, as datagram `d`, and thread `t` sleeps in `wait()` on it. -/
structure Poised (cfg : VCfg) (m0 : VMgr) (h0 : List Spec.UsmOp) (H : List VEvent) (t : Nat) (q : VReq) (d : Sent) (E : Bytes) :
    Prop where
  shape : ∃ e0 l, H = e0 :: l ∧ (∀ t i, e0 ≠ .step t i) ∧ (∀ t r, e0 ≠ .wait t r) ∧ ∀ e ∈ l, Tame t e
  early : ∀ t i, VEvent.step t i ∈ H → i.now < q.expiration
  possible : Spec.Possible H
  solo : Solo (after cfg m0 H) t q
  engine : q.engineID = some E
  datagram : Spec.RequestDatagram cfg h0 H q E d.wire
  request : d.request = 0
  split : ∃ h1 e h2, H = h1 ++ [e] ++ h2 ∧ (after cfg m0 (h1 ++ [e])).mgr.sent = d :: (after cfg m0 h1).mgr.sent ∧
    Spec.StillWaited cfg m0 (h1 ++ [e]) h2 0
  idle : (after cfg m0 H).listener = .idle
  asleep : ∃ timeout since, (after cfg m0 H).threads t = .sleep 0 timeout since
  known : m0.engineID ≠ none ∨ Spec.Discovered cfg m0 H

theorem possible_left {a b : List VEvent} (h : Spec.Possible (a ++ b)) : Spec.Possible a :=
  ⟨fun e' he' => h.1 e' (by simp [he']), fun pdu user level timeout period t0 r0 i hi =>
    h.2 pdu user level timeout period t0 r0 i (by simp [hi])⟩

theorem discovered_append {a : List VEvent} (b : List VEvent) (h : Spec.Discovered cfg m0 a) :
    Spec.Discovered cfg m0 (a ++ b) := by
  obtain ⟨h1, e, h2, rfl, h3⟩ := h
  exact ⟨h1, e, h2 ++ b, by simp, h3⟩

theorem overdue_of {H : List VEvent} {x : ℚ} (h : ∀ t i, VEvent.step t i ∈ H → i.now < x) : ¬ Spec.Overdue H x := by
  rintro ⟨t, i, h1, h2⟩
  exact absurd (h t i h1) (not_lt.2 h2)

theorem Poised.concludes {h0 : List Spec.UsmOp} (hc : Spec.CreatedOn cfg h0 m0) (hs : Spec.Seeded m0) (hmax : 484 ≤ cfg.maxSize)
    {H : List VEvent} {t : Nat} {q : VReq} {d : Sent} {E : Bytes} (hp : Poised cfg m0 h0 H t q d E) :
    Spec.Concludes cfg m0 H t 0 q.pdu d := by
  intro w stamp x j a b hw ha hx
  obtain ⟨e0, l, hH, s1, s2, s3⟩ := hp.shape
  obtain ⟨h1, e, h2, hsp, hd, hst⟩ := hp.split
  obtain ⟨timeout, since, hsl⟩ := hp.asleep
  have hsolo := solo_hear (cfg := cfg) hp.solo w stamp
  rw [← after_snoc] at hsolo
  have hE : x.securityEngineID = E := by
    obtain ⟨⟨x1, p1, a1, a2, -, a3, -⟩, -⟩ := hp.datagram
    obtain ⟨x0, p0, b1, b2, -, -, -, -, b3⟩ := ha
    rw [a1] at b1; cases b1
    rw [a2] at b2; cases b2
    rcases b3 with b3 | ⟨-, b3, -⟩
    · rw [hx] at b3; cases b3
    · rw [b3, a3]
  have hserial : Spec.Serial cfg m0 (H ++ [.hear w stamp]) := by
    rw [hH, List.cons_append]
    refine tame_serial hc.created e0 s1 s2 t _ (fun e he => ?_)
    rcases List.mem_append.1 he with he | he
    · exact s3 e he
    · rw [List.mem_singleton] at he; exact .inr (.inr (.inl ⟨w, stamp, he⟩))
  have hfail : (after cfg m0 (H ++ [.hear w stamp])).mgr.fails = [] := hsolo.fails
  have hint : Spec.OfInterest cfg m0 (H ++ [.hear w stamp]) 0 q := by
    refine ⟨?_, hsolo.open_, ?_, ?_, fun r' h => absurd h (Nat.not_lt_zero _)⟩
    · unfold VMgr.deref; rw [hsolo.alive, hsolo.req]; rfl
    · refine overdue_of (fun t i hi => ?_)
      rcases List.mem_append.1 hi with hi | hi
      · exact hp.early t i hi
      · simp at hi
    · rintro (h | h | h) <;> rw [hfail] at h <;> cases h
  have hdisc : m0.engineID ≠ none ∨ Spec.Discovered cfg m0 (H ++ [.hear w stamp]) :=
    hp.known.imp id (discovered_append _)
  have hposs := hp.possible
  have hlock := hp.solo.locked
  have hidle := hp.idle
  have hreq := hp.request
  have heng := hp.engine
  clear hp hH
  subst hsp
  have := C88_wait hc hs hmax h1 e h2 (possible_left hposs) d hd (by rw [hreq]; exact hst) w stamp x hidle hw ha hx hlock
    (.inl hserial) hdisc q (by rw [hreq]; exact hint) (.inr (by rw [heng, hE])) t timeout since (by rw [hreq]; exact hsl) j a b
  rw [hreq] at this
  exact this

theorem sent_engine {h0 : List Spec.UsmOp} (hc : Spec.CreatedOn cfg h0 m0) (hs : Spec.Seeded m0) (hmax : 484 ≤ cfg.maxSize)
    (h : List VEvent) (e : VEvent) (hh : Spec.Possible (h ++ [e])) (d : Sent)
    (hd : (after cfg m0 (h ++ [e])).mgr.sent = d :: (after cfg m0 h).mgr.sent) {q : VReq}
    (hq : (after cfg m0 (h ++ [e])).mgr.reqs d.request = some q) {E : Bytes} (he : q.engineID = some E) :
    Spec.RequestDatagram cfg h0 (h ++ [e]) q E d.wire := by
  obtain ⟨q', h1, -, h2⟩ := C79_step hc hs hmax h e hh d hd
  rw [hq] at h1; cases h1
  exact h2 E he

/-- What the listening thread does with a report that makes the manager send the request again. -/
theorem Solo.gets {h0 : List Spec.UsmOp} (hc : Spec.CreatedOn cfg h0 m0) (hs : Spec.Seeded m0) (hmax : 484 ≤ cfg.maxSize)
    {H : List VEvent} {t : Nat} {q : VReq} {d : Sent}
    (shape : ∃ e0 l, H = e0 :: l ∧ (∀ t i, e0 ≠ .step t i) ∧ (∀ t r, e0 ≠ .wait t r) ∧ ∀ e ∈ l, Tame t e)
    (early : ∀ t i, VEvent.step t i ∈ H → i.now < q.expiration)
    (solo : Solo (after cfg m0 H) t q) (request : d.request = 0)
    (split : ∃ h1 e h2, H = h1 ++ [e] ++ h2 ∧ (after cfg m0 (h1 ++ [e])).mgr.sent = d :: (after cfg m0 h1).mgr.sent ∧
      Spec.StillWaited cfg m0 (h1 ++ [e]) h2 0)
    (idle : (after cfg m0 H).listener = .idle)
    (asleep : ∃ timeout since, (after cfg m0 H).threads t = .sleep 0 timeout since)
    (bools : (after cfg m0 H).mgr.bools = fun _ => false)
    (w : Bytes) (stamp : ℚ) (x : V3Incoming) (i1 i2 i3 : SendIn)
    (hw : Spec.ReadAs cfg (after cfg m0 H).mgr.usm w stamp x) (ha : Spec.AnswerTo d.wire x)
    (hx : Spec.SaysNotInTime x ∨ Spec.SaysUnknownEngine x ∧ q.engineID ≠ some x.securityEngineID)
    (known : m0.engineID ≠ none ∨ Spec.Discovered cfg m0 H ∨ m0.engineID = none)
    (all : Bool) (next : Option MState)
    (hst : (after cfg m0 H).mgr.state.onReport (after cfg m0 H).mgr.engineID x.securityEngineID = .ok (all, next))
    (hn : all = false → next = none)
    (hh : Spec.Possible (H ++ Spec.gets w stamp i1 i2 i3))
    (hf : (after cfg m0 (H ++ Spec.gets w stamp i1 i2 i3)).mgr.fails = []) :
    ∃ d' q', (after cfg m0 (H ++ Spec.gets w stamp i1 i2 i3)).mgr.sent = d' :: (after cfg m0 H).mgr.sent ∧
      q'.pdu = q.pdu ∧ q'.userName = q.userName ∧ q'.level = q.level ∧
      Poised cfg m0 h0 (H ++ Spec.gets w stamp i1 i2 i3) t q' d' x.securityEngineID ∧
      (after cfg m0 (H ++ Spec.gets w stamp i1 i2 i3)).mgr.engineID = (after cfg m0 H).mgr.engineID ∧
      (after cfg m0 (H ++ Spec.gets w stamp i1 i2 i3)).mgr.state = next.getD (after cfg m0 H).mgr.state ∧
      ((¬ Spec.SaysNotInTime x) → (after cfg m0 (H ++ Spec.gets w stamp i1 i2 i3)).mgr.bools = fun _ => false) := by
  obtain ⟨h1, e, h2, hsp, hd, hst'⟩ := split
  obtain ⟨timeout, since, hsl⟩ := asleep
  have hgot := C87_heard hc hs hmax h1 e h2 (by rw [hsp] at hh; exact possible_left (possible_left hh)) d hd
    (by rw [request]; exact hst') w stamp x (by rw [← hsp]; exact idle) (by rw [← hsp]; exact hw) ha
  rw [← hsp] at hgot
  obtain ⟨g1, msg, g2, g3⟩ := hgot
  rw [request] at g3
  have hsolo := solo_hear (cfg := cfg) solo w stamp
  rw [← after_snoc] at hsolo
  have hint : ∀ {x : V3Incoming}, Spec.IsReport x → x.scopedPDU.pdu.type.isInternal = true := by
    intro x h; rw [show x.scopedPDU.pdu.type = .report from h]; rfl
  have hderef : (after cfg m0 (H ++ [.hear w stamp])).mgr.deref 0 = some q := by
    unfold VMgr.deref; rw [hsolo.alive, hsolo.req]; rfl
  have hchg : (after cfg m0 (H ++ [.hear w stamp])).mgr.bools = (fun _ => false) ∧
      (after cfg m0 (H ++ [.hear w stamp])).mgr.state = (after cfg m0 H).mgr.state ∧
      (after cfg m0 (H ++ [.hear w stamp])).mgr.engineID = (after cfg m0 H).mgr.engineID ∧
      (after cfg m0 (H ++ [.hear w stamp])).mgr.sent = (after cfg m0 H).mgr.sent ∧
      (after cfg m0 (H ++ [.hear w stamp])).threads = (after cfg m0 H).threads := by
    rw [after_snoc]
    obtain ⟨usm, l, h⟩ := hear_change (cfg := cfg) (after cfg m0 H) w stamp
    rw [h]
    exact ⟨bools, rfl, rfl, rfl, rfl⟩
  obtain ⟨c1, c2, c3, c4, c5⟩ := hchg
  have hrep : ∃ cause sync, Reports (after cfg m0 (H ++ [.hear w stamp])) d.message x 0 q cause sync ∧
      (¬ Spec.SaysNotInTime x → sync = false) := by
    rcases hx with hx | ⟨hx, hne⟩
    · have hx' := hx
      obtain ⟨k1, v, rest, k2, k3⟩ := hx
      exact ⟨_, _, .notInTime msg v rest g1 g2 g3 hderef (hint k1) k2 k3 (by rw [c1]), fun h => absurd hx' h⟩
    · obtain ⟨k1, v, rest, k2, k3⟩ := hx
      exact ⟨_, _, .unknownEngine msg v rest g1 g2 g3 hderef (hint k1) k2 k3 (fun h => hne h.symm), fun _ => rfl⟩
  obtain ⟨cause, sync, hrep, hsync⟩ := hrep
  have eqs : H ++ Spec.gets w stamp i1 i2 i3 = H ++ [.hear w stamp] ++ [.listen i1] ++ [.listen i2] ++ [.listen i3] := by
    simp [Spec.gets]
  have hf1 : ((after cfg m0 (H ++ [.hear w stamp])).step cfg (.listen i1)).mgr.fails = [] := by
    rw [← after_snoc]
    have back : ∀ (h : List VEvent) (e : VEvent), (after cfg m0 (h ++ [e])).mgr.fails = [] → (after cfg m0 h).mgr.fails = [] := by
      intro h e he
      rw [after_snoc] at he
      rcases step_move cfg (after cfg m0 h) e with hm | hm
      · rw [hm] at he; exact he
      · exact fails_mono hm he
    rw [eqs] at hf
    exact back _ _ (back _ _ hf)
  have := solo_report (cfg := cfg) hsolo d.message x cause sync hrep all next (by rw [c2, c3]; exact hst) hn i1 i2 i3 hf1
  simp only at this
  rw [← after_snoc, ← after_snoc, ← after_snoc, ← eqs] at this
  obtain ⟨q', d', r1, r2, r3, r4, r5, r6, r7, r8, r9, r10, r11, ⟨q1, r12, r13, r14, r15, r16⟩, r17, r18, r19⟩ := this
  have hpos1 : Spec.Possible (H ++ [.hear w stamp] ++ [.listen i1]) := by
    rw [eqs] at hh; exact possible_left (possible_left hh)
  have hdg := sent_engine hc hs hmax (H ++ [.hear w stamp]) (.listen i1) hpos1 d' r3 (q := q1) (by rw [r6]; exact r12) r13
  have hthr : (after cfg m0 (H ++ Spec.gets w stamp i1 i2 i3)).threads = (after cfg m0 H).threads := by
    rw [eqs, after_snoc, listen_threads, after_snoc, listen_threads, after_snoc, listen_threads, c5]
  refine ⟨d', q', by rw [r5, r3, c4], r7, r8, r9, ⟨?_, ?_, hh, r1, r10, ?_, r6, ?_, r2, ⟨timeout, since, by rw [hthr]; exact hsl⟩, ?_⟩,
    by rw [r17, c3], by rw [r18, c2], fun h => by rw [r19 (hsync h), c1]⟩
  · obtain ⟨e0, l, k1, k2, k3, k4⟩ := shape
    refine ⟨e0, l ++ Spec.gets w stamp i1 i2 i3, by rw [k1]; rfl, k2, k3, fun e he => ?_⟩
    rcases List.mem_append.1 he with he | he
    · exact k4 e he
    · simp only [Spec.gets, List.mem_cons, List.not_mem_nil, or_false] at he
      rcases he with rfl | rfl | rfl | rfl
      · exact .inr (.inr (.inl ⟨_, _, rfl⟩))
      all_goals exact .inr (.inr (.inr ⟨_, rfl⟩))
  · intro t i hi
    rw [r11]
    rcases List.mem_append.1 hi with hi | hi
    · exact early t i hi
    · simp [Spec.gets] at hi
  · have := hdg.later (q' := q') ([.listen i2] ++ [.listen i3]) (by rw [r8, r15]) (by rw [r9, r16]) (by rw [r7, r14])
    rw [eqs]
    simpa using this
  · refine ⟨H ++ [.hear w stamp], .listen i1, [.listen i2, .listen i3], by rw [eqs]; simp, r3, ?_⟩
    exact still_listen (still_listen (still_nil _ _))
  · rcases known with h | h | h
    · exact .inl h
    · exact .inr (discovered_append _ h)
    · refine .inr ⟨H ++ [.hear w stamp], .listen i1, [.listen i2, .listen i3], by rw [eqs]; simp, .inl ⟨x, ⟨i1, d.message, rfl, g1⟩, ?_, .inl h⟩⟩
      rw [r3]
      exact fun h => by have := congrArg List.length h; simp at this

theorem Poised.synchronizes {h0 : List Spec.UsmOp} (hc : Spec.CreatedOn cfg h0 m0) (hs : Spec.Seeded m0) (hmax : 484 ≤ cfg.maxSize)
    {H : List VEvent} {t : Nat} {q : VReq} {d : Sent} {E : Bytes} (hp : Poised cfg m0 h0 H t q d E)
    (bools : (after cfg m0 H).mgr.bools = fun _ => false) {all : Bool} {next : Option MState}
    (hst : (after cfg m0 H).mgr.state.onReport (after cfg m0 H).mgr.engineID E = .ok (all, next))
    (hn : all = false → next = none) {q0 : VReq} (e1 : q0.pdu = q.pdu) (e2 : q0.userName = q.userName) (e3 : q0.level = q.level) :
    Spec.Synchronizes cfg m0 h0 H t 0 q0 E d := by
  intro w stamp x i1 i2 i3 hw ha hx hE hh hf
  subst hE
  obtain ⟨d', q', k1, k2, k3, k4, k5, -⟩ := Solo.gets hc hs hmax hp.shape hp.early hp.solo hp.request hp.split hp.idle hp.asleep bools w
    stamp x i1 i2 i3 hw ha (.inl hx) (hp.known.imp id .inl) all next hst hn hh hf
  refine ⟨d', k1, k5.request, ?_, ?_⟩
  · have := k5.datagram.later (q' := q0) [] (by rw [e2, k3]) (by rw [e3, k4]) (by rw [e1, k2])
    simpa using this
  · rw [e1, ← k2]
    exact k5.concludes hc hs hmax

/-- After `send` and going to sleep in `wait()`. -/
theorem issue_sleeps {h0 : List Spec.UsmOp} (hc : Spec.CreatedOn cfg h0 m0) (pdu : Pdu) (user : Bytes)
    (level : SecurityLevel) (timeout period t0 : ℚ) (r0 : Nat) (i : SendIn) (t : Nat) (a b : SendIn)
    (ha : a.now < t0 + timeout) (hb : b.now < min (t0 + timeout) (i.now + period))
    (hf : (after cfg m0 (.send pdu user level timeout period t0 r0 i :: Spec.waits t 0 a b)).mgr.fails = []) :
    let h := VEvent.send pdu user level timeout period t0 r0 i :: Spec.waits t 0 a b;
    ∃ q d id, Solo (after cfg m0 h) t q ∧ (∃ timeout since, (after cfg m0 h).threads t = .sleep 0 timeout since) ∧
      (after cfg m0 h).listener = .idle ∧ (after cfg m0 h).mgr.sent = [d] ∧ d.request = 0 ∧
      q.pdu = { pdu with requestID := id } ∧ q.userName = user ∧ q.level = level ∧ q.engineID = m0.engineID ∧
      (after cfg m0 [.send pdu user level timeout period t0 r0 i]).mgr.reqs 0 = some q ∧
      (after cfg m0 [.send pdu user level timeout period t0 r0 i]).mgr.sent = [d] ∧
      m0.sent = [] ∧
      (after cfg m0 h).mgr.engineID = m0.engineID ∧ (after cfg m0 h).mgr.state = probing m0.engineID ∧
      (after cfg m0 h).mgr.bools = (fun _ => false) ∧
      (∃ e0 l, h = e0 :: l ∧ (∀ t i, e0 ≠ .step t i) ∧ (∀ t r, e0 ≠ .wait t r) ∧ ∀ e ∈ l, Tame t e) ∧
      (∀ t i, VEvent.step t i ∈ h → i.now < q.expiration) ∧
      ∃ h1 e h2, h = h1 ++ [e] ++ h2 ∧ (after cfg m0 (h1 ++ [e])).mgr.sent = d :: (after cfg m0 h1).mgr.sent ∧
        Spec.StillWaited cfg m0 (h1 ++ [e]) h2 0 := by
  intro h
  have hsent0 : m0.sent = [] := by
    obtain ⟨-, h0', engineID, g, c0, n0, seed, hu0, hm⟩ := hc.created
    obtain ⟨usm, -, hm0⟩ := VMgr.create_ok hm
    rw [hm0]
  have hf1 : (after cfg m0 [.send pdu user level timeout period t0 r0 i]).mgr.fails = [] := by
    have back : ∀ (h : List VEvent) (e : VEvent), (after cfg m0 (h ++ [e])).mgr.fails = [] → (after cfg m0 h).mgr.fails = [] := by
      intro h e he
      rw [after_snoc] at he
      rcases step_move cfg (after cfg m0 h) e with hm | hm
      · rw [hm] at he; exact he
      · exact fails_mono hm he
    exact back [_] _ (back [_, _] _ (back [_, _, _] _ hf))
  obtain ⟨q, d, id, hsolo, hthr, hlis, hsent, hreq, hpdu, huser, hlev, heng, hexp, hnr, hme, hmst, hbo⟩ :=
    solo_issue hc.created pdu user level timeout period t0 r0 i t hf1
  obtain ⟨w1, w2, w3⟩ := solo_sleep (cfg := cfg) hsolo (by rw [hthr]) a b (by rw [hexp]; exact ha) (by rw [hnr]; exact hb)
  have e1 : after cfg m0 [.send pdu user level timeout period t0 r0 i, .wait t 0] =
      (after cfg m0 [.send pdu user level timeout period t0 r0 i]).goto t (.test 0) := by
    rw [← w1]; exact after_snoc cfg m0 [_] _
  have e2 : after cfg m0 [.send pdu user level timeout period t0 r0 i, .wait t 0, .step t a] =
      (after cfg m0 [.send pdu user level timeout period t0 r0 i]).goto t (.body 0) := by
    rw [← w2, ← e1]; exact after_snoc cfg m0 [_, _] _
  have e3 : after cfg m0 h = (after cfg m0 [.send pdu user level timeout period t0 r0 i]).goto t
      (.sleep 0 (q.nextRefresh - b.now) b.now) := by
    rw [← w3, ← e2]; exact after_snoc cfg m0 [_, _, _] _
  have g1 : (after cfg m0 h).mgr = (after cfg m0 [.send pdu user level timeout period t0 r0 i]).mgr := by rw [e3]; rfl
  have g2 : (after cfg m0 h).listener = .idle := by rw [e3]; exact hlis
  have g3 : (after cfg m0 h).dropped = (after cfg m0 [.send pdu user level timeout period t0 r0 i]).dropped := by rw [e3]; rfl
  have g4 : (after cfg m0 h).threads t = .sleep 0 (q.nextRefresh - b.now) b.now := by rw [e3]; exact setAt_same _ _ _
  refine ⟨q, d, id, ?_, ⟨_, _, g4⟩, g2, by rw [g1]; exact hsent, hreq, hpdu, huser, hlev, heng, hsolo.req, hsent, hsent0,
    by rw [g1]; exact hme, by rw [g1]; exact hmst, by rw [g1]; exact hbo, ?_, ?_, ?_⟩
  · refine ⟨?_, ?_, hsolo.open_, ?_, ?_, ?_, ?_, ?_, ?_⟩
    · rw [g1]; exact hsolo.req
    · rw [g1]; exact hsolo.alive
    · rw [g1]; exact hsolo.next
    · rw [g1]; exact hsolo.unsent
    · rw [g1]; exact hsolo.active
    · rw [g1]; exact hsolo.locked
    · rw [g3]; exact hsolo.dropped
    · rw [g1]; exact hsolo.fails
  · refine ⟨_, _, rfl, nofun, nofun, fun e he => ?_⟩
    simp only [Spec.waits, List.mem_cons, List.not_mem_nil, or_false] at he
    rcases he with rfl | rfl | rfl
    · exact .inl ⟨_, rfl⟩
    · exact .inr (.inl ⟨_, rfl⟩)
    · exact .inr (.inl ⟨_, rfl⟩)
  · intro t' j hj
    rw [hexp]
    simp only [h, Spec.waits, List.mem_cons, reduceCtorEq, VEvent.step.injEq, List.not_mem_nil, or_false, false_or] at hj
    rcases hj with ⟨-, rfl⟩ | ⟨-, rfl⟩
    · exact ha
    · exact lt_of_lt_of_le hb (min_le_left _ _)
  · refine ⟨[], .send pdu user level timeout period t0 r0 i, Spec.waits t 0 a b, rfl, ?_, ?_⟩
    · show _ = d :: m0.sent
      rw [hsent0]; exact hsent
    · have other : ∀ (s : VSys) (t' : Nat) (p : VPc) (o : VOutcome), s.threads = (fun _ => .idle) → p ≠ .done 0 o →
          (s.goto t p).threads t' ≠ .done 0 o := by
        intro s t' p o hs hp
        show setAt s.threads t p t' ≠ _
        by_cases htt : t' = t
        · subst htt; rw [setAt_same]; exact hp
        · rw [setAt_other _ _ htt, hs]; nofun
      refine still_cons ?_ (still_cons ?_ (still_cons ?_ (still_nil _ _)))
      · rintro (h | ⟨t', o, k1, -⟩)
        · cases h
        · exact other _ t' (.test 0) o hthr nofun ((congrArg (fun s => s.threads t') e1).symm.trans k1)
      · rintro (h | ⟨t', o, k1, -⟩)
        · cases h
        · exact other _ t' (.body 0) o hthr nofun ((congrArg (fun s => s.threads t') e2).symm.trans k1)
      · rintro (h | ⟨t', o, k1, -⟩)
        · cases h
        · exact other _ t' (.sleep 0 (q.nextRefresh - b.now) b.now) o hthr nofun ((congrArg (fun s => s.threads t') e3).symm.trans k1)

end VSys

open VSys

/-- **C94**, a manager created without an engine ID. The first request is issued, and a thread goes to sleep in `wait()` on it before
its expiration and before the refresh period is over. If nothing raised an exception, exactly one datagram was sent, and it is a
discovery message. If the agent answers it with a report saying that the engine ID is not known, which the security module accepts, and again
nothing raises an exception, then the request is sent to the engine named in the report: its PDU, in the name of the user, at
the level asked for. From there on, any accepted response to this datagram ends the `wait()` with what it says; and so does any accepted
response to the datagram that a report saying that the message is not within the time window makes the manager send. -/
theorem C94_unknown {h0 : List Spec.UsmOp} (hc : Spec.CreatedOn cfg h0 m0) (hs : Spec.Seeded m0) (hmax : 484 ≤ cfg.maxSize)
    (hm : m0.engineID = none) (pdu : Pdu) (user : Bytes) (level : SecurityLevel) (timeout period t0 : ℚ) (r0 : Nat) (i : SendIn)
    (t : Nat) (a b : SendIn) (ha : a.now < t0 + timeout) (hb : b.now < min (t0 + timeout) (i.now + period))
    (h : List VEvent) (hh : h = .send pdu user level timeout period t0 r0 i :: Spec.waits t 0 a b) (hp : Spec.Possible h)
    (hf : (after cfg m0 h).mgr.fails = []) :
    ∃ d0, (after cfg m0 h).mgr.sent = [d0] ∧ Spec.DiscoveryDatagram d0.wire ∧
      ∀ w stamp x i1 i2 i3, Spec.ReadAs cfg (after cfg m0 h).mgr.usm w stamp x → Spec.AnswerTo d0.wire x →
        Spec.SaysUnknownEngine x → Spec.Possible (h ++ Spec.gets w stamp i1 i2 i3) →
        (after cfg m0 (h ++ Spec.gets w stamp i1 i2 i3)).mgr.fails = [] →
        ∃ d1 q id, (after cfg m0 (h ++ Spec.gets w stamp i1 i2 i3)).mgr.sent = [d1, d0] ∧
          q.pdu = { pdu with requestID := id } ∧ q.userName = user ∧ q.level = level ∧
          Spec.RequestDatagram cfg h0 (h ++ Spec.gets w stamp i1 i2 i3) q x.securityEngineID d1.wire ∧
          Spec.Concludes cfg m0 (h ++ Spec.gets w stamp i1 i2 i3) t 0 q.pdu d1 ∧
          Spec.Synchronizes cfg m0 h0 (h ++ Spec.gets w stamp i1 i2 i3) t 0 q x.securityEngineID d1 := by
  subst hh
  obtain ⟨q, d, id, hsolo, hsl, hlis, hsent, hreq, hpdu, huser, hlev, heng, hr0, hs0, hm0s, hme, hmst, hbo, shape, early, split⟩ :=
    issue_sleeps hc pdu user level timeout period t0 r0 i t a b ha hb hf
  rw [hm] at heng
  refine ⟨d, hsent, ?_, ?_⟩
  · obtain ⟨q', k1, k2, -⟩ := C79_step hc hs hmax [] (.send pdu user level timeout period t0 r0 i)
      (possible_left (b := Spec.waits t 0 a b) hp) d (by show _ = d :: m0.sent; rw [hm0s]; exact hs0)
    rw [hreq] at k1
    rw [show (after cfg m0 ([] ++ [VEvent.send pdu user level timeout period t0 r0 i])).mgr.reqs 0 = some q from hr0] at k1
    cases k1
    exact k2 heng
  · intro w stamp x i1 i2 i3 hw hax hx hp' hf'
    obtain ⟨d1, q1, k1, k2, k3, k4, k5, k6, k7, k8⟩ := Solo.gets hc hs hmax shape early hsolo hreq split hlis hsl hbo w stamp x i1
      i2 i3 hw hax (.inr ⟨hx, by rw [heng]; nofun⟩) (.inr (.inr hm)) true (some .trustEveryResponse)
      (by rw [hmst, hm]; rfl) nofun hp' hf'
    have hno : ¬ Spec.SaysNotInTime x := by
      rintro ⟨-, v, rest, n1, n2⟩
      obtain ⟨-, v', rest', n3, n4⟩ := hx
      rw [n1] at n3; cases n3
      rw [n2] at n4
      exact absurd n4 (by decide)
    refine ⟨d1, q1, id, by rw [k1, hsent], k2.trans hpdu, k3.trans huser, k4.trans hlev, k5.datagram,
      k5.concludes hc hs hmax, ?_⟩
    exact k5.synchronizes hc hs hmax (k8 hno) (all := false) (next := none) (by rw [k7]; rfl) (fun _ => rfl) rfl rfl rfl

/-- **C94**, a manager created with an engine ID: likewise, but the first datagram already is the request, addressed to this engine. -/
theorem C94_known {h0 : List Spec.UsmOp} (hc : Spec.CreatedOn cfg h0 m0) (hs : Spec.Seeded m0) (hmax : 484 ≤ cfg.maxSize)
    (engineID : Bytes) (hm : m0.engineID = some engineID) (pdu : Pdu) (user : Bytes) (level : SecurityLevel) (timeout period t0 : ℚ)
    (r0 : Nat) (i : SendIn) (t : Nat) (a b : SendIn) (ha : a.now < t0 + timeout) (hb : b.now < min (t0 + timeout) (i.now + period))
    (h : List VEvent) (hh : h = .send pdu user level timeout period t0 r0 i :: Spec.waits t 0 a b) (hp : Spec.Possible h)
    (hf : (after cfg m0 h).mgr.fails = []) :
    ∃ d0 q id, (after cfg m0 h).mgr.sent = [d0] ∧ q.pdu = { pdu with requestID := id } ∧ q.userName = user ∧ q.level = level ∧
      Spec.RequestDatagram cfg h0 h q engineID d0.wire ∧ Spec.Concludes cfg m0 h t 0 q.pdu d0 ∧
      Spec.Synchronizes cfg m0 h0 h t 0 q engineID d0 := by
  subst hh
  obtain ⟨q, d, id, hsolo, hsl, hlis, hsent, hreq, hpdu, huser, hlev, heng, hr0, hs0, hm0s, hme, hmst, hbo, shape, early, split⟩ :=
    issue_sleeps hc pdu user level timeout period t0 r0 i t a b ha hb hf
  rw [hm] at heng
  have hdg := sent_engine hc hs hmax [] (.send pdu user level timeout period t0 r0 i)
      (possible_left (b := Spec.waits t 0 a b) hp) d (by show _ = d :: m0.sent; rw [hm0s]; exact hs0) (q := q)
      (by rw [hreq]; exact hr0) heng
  have hdg' := hdg.later (q' := q) (Spec.waits t 0 a b) rfl rfl rfl
  have hpo : Poised cfg m0 h0 (.send pdu user level timeout period t0 r0 i :: Spec.waits t 0 a b) t q d engineID :=
    ⟨shape, early, hp, hsolo, heng, hdg', hreq, split, hlis, hsl, .inl (by rw [hm]; nofun)⟩
  refine ⟨d, q, id, hsent, hpdu, huser, hlev, hdg', hpo.concludes hc hs hmax, ?_⟩
  exact hpo.synchronizes hc hs hmax hbo (all := true) (next := some .requireAuthentication)
    (by rw [hmst, hme, hm]; simp [probing, MState.onReport]) nofun rfl rfl rfl

end Snmp
