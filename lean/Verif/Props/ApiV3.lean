import Verif.Props.Api
import Verif.Props.V3Sent
import Verif.Props.V3Witness3
/-!
# C86: what a call of `get`, `getNext`, `getBulk` or `set` asks the agent (v3)
-/

namespace Snmp

open VSys VMgr

variable {cfg : VCfg} {m0 : VMgr}

theorem Spec.RequestDatagram.congr {h0 : List Spec.UsmOp} {h h' : List VEvent} {q : VReq} {engineID w : Bytes}
    (hk : Spec.RequestDatagram cfg h0 h q engineID w)
    (hu : ∀ a seed, VEvent.addUser a seed ∈ h → VEvent.addUser a seed ∈ h') :
    Spec.RequestDatagram cfg h0 h' q engineID w := by
  refine ⟨hk.1, fun ha => ?_⟩
  obtain ⟨user, ⟨a, h1, h2⟩, h3⟩ := hk.2 ha
  exact ⟨user, ⟨a, h1.imp id fun ⟨seed, h⟩ => ⟨seed, hu a seed h⟩, h2⟩, h3⟩

theorem Spec.RequestDatagram.earlier {h0 : List Spec.UsmOp} {h : List VEvent} {q q' : VReq} {engineID w : Bytes}
    (hk : Spec.RequestDatagram cfg h0 h q' engineID w) (hu : q'.userName = q.userName)
    (hl : q'.level = q.level) (hp : q'.pdu = q.pdu) : Spec.RequestDatagram cfg h0 h q engineID w := by
  unfold Spec.RequestDatagram at *
  rw [hu, hl, hp] at hk
  exact hk

/-- An exception of `sendRequest` means that nothing was sent. -/
theorem VMgr.sendRequest_error (cfg : VCfg) (s : VMgr) (pdu : Pdu) (user : Bytes) (level : SecurityLevel)
    (timeout period t0 : ℚ) (r0 : Nat) (i : SendIn) (e : PyErr)
    (h : (s.sendRequest cfg pdu user level timeout period t0 r0 i).1 = .error e) :
    (s.sendRequest cfg pdu user level timeout period t0 r0 i).2.sent = s.sent := by
  unfold VMgr.sendRequest at h ⊢
  simp only at h ⊢
  cases hs' : s.state.onRequest level.auth with
  | mk b next =>
    cases b with
    | false =>
      unfold VMgr.setReq at h
      simp only [hs'] at h
      cases h
    | true =>
      unfold VMgr.setReq at h ⊢
      simp only [hs'] at h ⊢
      obtain ⟨res, m', hm, hsd⟩ := send_cases cfg (VMgr.propose ({ s with gen := (generateRequestID s.gen r0).2
                                                                          nextReq := s.nextReq + 1
                                                                          nextBool := s.nextBool + 1
                                                                          reqs := setAt s.reqs s.nextReq (some (VReq.new { pdu with requestID := (generateRequestID s.gen r0).1 } user level timeout
      period t0 s.nextBool)) } : VMgr) next) s.nextReq (VReq.new { pdu with requestID := (generateRequestID s.gen r0).1 } user level timeout
      period t0 s.nextBool) s.engineID .issue i
      rw [hm] at h ⊢
      cases res with
      | ok u => cases h
      | error e' =>
        have := sends_error hsd
        rw [propose_eq] at this
        exact this

/-- **C86** for v3, the part that holds: for names and values that survive encoding (see C14), a call of `get`,
`getNext`, `getBulk` or `set` makes a new request, with the given or the default user and security level, which times
out as the call says and whose PDU asks exactly what the call says. It raises, having sent nothing; or it returns the
handle or waits, as asked. Every datagram that ever leaves for this request is a discovery message or carries exactly
this PDU, in the name of this user, at this level. Missing from the full statement: names that do not survive
encoding, see `C86_false`; and that a datagram with the PDU does leave, see C80 and C81. -/
theorem C86_v3_partial {h0 : List Spec.UsmOp} (hc : Spec.CreatedOn cfg h0 m0) (hs : Spec.Seeded m0)
    (hmax : 484 ≤ cfg.maxSize) (h : List VEvent) (hh : Spec.Possible h) (conf : V3Conf) (t : Nat) (c : ApiCall)
    (a : V3Args) (t0 : ℚ) (r0 : Nat) (i : SendIn) (hi : ∀ k, Spec.Draw 31 (i.draws k)) (p : Pdu)
    (hl : (after cfg m0 h).mgr.locked = false) (hd : (after cfg m0 h).dropped = false)
    (ha : Spec.AsksFor c p) (hp : Spec.PduSendable p)
    (hlev : (a.level.getD conf.defaultLevel).priv = true → (a.level.getD conf.defaultLevel).auth = true) :
    let s := after cfg m0 h;
    let n := s.mgr.nextReq;
    let x := s.call cfg conf t c a t0 r0 i;
    s.mgr.reqs n = none ∧ ∃ q, x.2.mgr.reqs n = some q ∧
      q.userName = a.user.getD conf.defaultUser ∧ q.level = a.level.getD conf.defaultLevel ∧
      q.pdu = { p with requestID := q.pdu.requestID } ∧
      q.expiration = t0 + a.timeout ∧ q.period = a.refreshPeriod ∧
      ((∃ e, x.1 = .raised e ∧ x.2.mgr.sent = s.mgr.sent ∧ x.2.threads = s.threads) ∨
       (a.wait.getD conf.autowait = false ∧ x.1 = .handle n ∧ x.2.threads = s.threads) ∨
       (a.wait.getD conf.autowait = true ∧ x.1 = .waiting n ∧ (s.threads t = .idle → x.2.threads t = .test n))) ∧
      ∀ h', Spec.Possible h' → ∀ d ∈ (x.2.run cfg h').mgr.sent, d.request = n →
        Spec.DiscoveryDatagram d.wire ∨ ∃ engineID, Spec.RequestDatagram cfg h0 (h ++ h') q engineID d.wire := by
  intro s n x
  have hpdu := C86_pdu c p ha fun v hv => (hp.2 v hv).nameOk
  obtain ⟨base, hpos, hsound⟩ := hc.created.sound h
  have hnone : s.mgr.reqs n = none := hsound.accounts.later _ (Nat.le_refl _)
  refine ⟨hnone, ?_⟩
  have hx : x = s.sendRequest cfg conf t { p with requestID := 0 } a t0 r0 i := by
    simp only [x, VSys.call, hpdu]
  generalize hu : a.user.getD conf.defaultUser = user at *
  generalize hv : a.level.getD conf.defaultLevel = level at *
  let e1 : VEvent := .send { p with requestID := 0 } user level a.timeout a.refreshPeriod t0 r0 i
  have hstep : s.step cfg e1 = { s with mgr := (s.mgr.sendRequest cfg { p with requestID := 0 } user level a.timeout
      a.refreshPeriod t0 r0 i).2 } := by
    show (if s.mgr.locked || s.dropped then s else _) = _
    have h1 : s.mgr.locked = false := hl
    have h2 : s.dropped = false := hd
    rw [h1, h2]; rfl
  have hmove : Move cfg s e1 (s.step cfg e1) := by
    rw [hstep]; exact move_send cfg s _ _ _ _ _ _ _ _ hl hd
  -- the new request
  have hold : s.mgr.dead n = false := hsound.old _ (Nat.le_refl _)
  obtain ⟨q, hq, hdead⟩ : ∃ q, (s.step cfg e1).mgr.reqs n = some q ∧ (s.step cfg e1).mgr.dead n = false := by
    obtain ⟨e2, he2⟩ : ∃ e, e = e1 := ⟨_, rfl⟩
    rw [← he2] at hmove ⊢
    generalize s.step cfg e2 = s' at hmove ⊢
    have key : ∀ (m m' : VMgr) (q : VReq) eid cause i res, m.dead = s.mgr.dead →
        VMgr.Sends cfg m n q eid cause i res m' → ∃ q, m'.reqs n = some q ∧ m'.dead n = false := by
      intro m m' q eid cause i res h1 h2
      obtain ⟨q', h3, -⟩ := h2.reqs
      exact ⟨q', by rw [h3]; exact setAt_same _ _ _, by rw [h2.frame.dead, h1]; exact hold⟩
    simp only [he2, e1] at hmove
    cases hmove with
    | queued q hq hl hd hs => exact ⟨q, setAt_same _ _ _, hold⟩
    | issued q hq hl hd next hs m' hm =>
      rw [updateState_eq]
      exact (fun hk => key _ _ _ _ _ _ _ hk hm) (by rw [propose_eq]; rfl)
    | issueFailed q hq hl hd next hs m' err hm =>
      exact (fun hk => key _ _ _ _ _ _ _ hk hm) (by rw [propose_eq]; rfl)
  obtain ⟨pdu', timeout, t0', r0', i', he, b1, b2, -⟩ : Born e1 s.mgr.gen q := by
    rcases move_born hmove n q hq with ⟨q0, h0⟩ | ⟨-, h0⟩
    · rw [hnone] at h0; cases h0
    · exact h0
  simp only [e1, VEvent.send.injEq] at he
  obtain ⟨rfl, hqu, hql, rfl, hqp, rfl, rfl, rfl⟩ := he
  -- where the history goes on
  have hwhere : ∃ evs : List VEvent, x.2 = after cfg m0 (h ++ evs) ∧ Spec.Possible evs ∧
      (∀ a seed, VEvent.addUser a seed ∉ evs) ∧ x.2.mgr.reqs n = some q ∧
      ((∃ e, x.1 = .raised e ∧ x.2.mgr.sent = s.mgr.sent ∧ x.2.threads = s.threads) ∨
       (a.wait.getD conf.autowait = false ∧ x.1 = .handle n ∧ x.2.threads = s.threads) ∨
       (a.wait.getD conf.autowait = true ∧ x.1 = .waiting n ∧ (s.threads t = .idle → x.2.threads t = .test n))) := by
    have hpos1 : ∀ evs : List VEvent, (evs = [e1] ∨ evs = [e1, .wait t n]) → Spec.Possible evs ∧
        (∀ a seed, VEvent.addUser a seed ∉ evs) := by
      intro evs hevs
      refine ⟨⟨?_, ?_⟩, ?_⟩
      · intro e he i1 hi1 k
        rcases hevs with rfl | rfl
        · simp only [List.mem_singleton] at he; subst he; cases hi1; exact hi k
        · simp only [List.mem_cons, List.not_mem_nil, or_false] at he
          rcases he with rfl | rfl
          · cases hi1; exact hi k
          · cases hi1
      · intro pdu u l tm pe tt rr ii he
        have : VEvent.send pdu u l tm pe tt rr ii = e1 := by
          rcases hevs with rfl | rfl
          · simpa using he
          · simpa using he
        simp only [e1, VEvent.send.injEq] at this
        obtain ⟨rfl, rfl, rfl, -⟩ := this
        exact ⟨fields_id hp, hlev⟩
      · intro a seed he
        rcases hevs with rfl | rfl <;> simp [e1] at he
    have hone : s.step cfg e1 = after cfg m0 (h ++ [e1]) := by rw [after_snoc]
    rw [hx]
    unfold VSys.sendRequest
    simp only [hu, hv]
    rw [show s.step cfg (.send { p with requestID := 0 } user level a.timeout a.refreshPeriod t0 r0 i) = s.step cfg e1
      from rfl]
    cases hr : (s.mgr.sendRequest cfg { p with requestID := 0 } user level a.timeout a.refreshPeriod t0 r0 i).1 with
    | error e =>
      simp only
      refine ⟨[e1], hone, (hpos1 _ (.inl rfl)).1, (hpos1 _ (.inl rfl)).2, hq, .inl ⟨e, rfl, ?_, ?_⟩⟩
      · rw [hstep]
        exact VMgr.sendRequest_error cfg s.mgr _ _ _ _ _ _ _ _ e hr
      · rw [hstep]
    | ok u =>
      cases hw : a.wait.getD conf.autowait with
      | false =>
        simp only
        exact ⟨[e1], hone, (hpos1 _ (.inl rfl)).1, (hpos1 _ (.inl rfl)).2, hq, .inr (.inl ⟨trivial, rfl, by rw [hstep]; rfl⟩)⟩
      | true =>
        have h2 : (s.step cfg e1).step cfg (.wait t n) = after cfg m0 (h ++ [e1, .wait t n]) := by
          rw [hone, ← after_snoc, List.append_assoc]; rfl
        have hmgr : ((s.step cfg e1).step cfg (.wait t n)).mgr = (s.step cfg e1).mgr := by
          show VSys.mgr (match (s.step cfg e1).threads t, (s.step cfg e1).mgr.deref n with
            | .idle, some _ => (s.step cfg e1).goto t (.test n)
            | .done _ _, some _ => (s.step cfg e1).goto t (.test n)
            | _, _ => (s.step cfg e1)) = _
          split <;> rfl
        simp only [if_true]
        refine ⟨[e1, .wait t n], h2, (hpos1 _ (.inr rfl)).1, (hpos1 _ (.inr rfl)).2, by rw [hmgr]; exact hq,
          .inr (.inr ⟨trivial, rfl, fun hid => ?_⟩)⟩
        show (match (s.step cfg e1).threads t, (s.step cfg e1).mgr.deref n with
            | .idle, some _ => (s.step cfg e1).goto t (.test n)
            | .done _ _, some _ => (s.step cfg e1).goto t (.test n)
            | _, _ => (s.step cfg e1)).threads t = _
        have ht : (s.step cfg e1).threads t = .idle := by rw [hstep]; exact hid
        have hder : (s.step cfg e1).mgr.deref n = some q := by
          unfold VMgr.deref; rw [hdead, hq]; rfl
        rw [ht, hder]
        exact setAt_same _ _ _
  obtain ⟨evs, hw1, hw2, hw3, hw4, hw5⟩ := hwhere
  refine ⟨q, hw4, hqu.symm, hql.symm, ?_, b2, hqp.symm, hw5, ?_⟩
  · rw [b1]
  · intro h' hh' d hd' hdn
    have hrun : x.2.run cfg h' = after cfg m0 (h ++ evs ++ h') := by rw [hw1, ← after_append]
    rw [hrun] at hd'
    have hposs : Spec.Possible (h ++ evs ++ h') := by
      refine ⟨fun e he => ?_, fun pdu u l tm pe tt rr ii he => ?_⟩
      · rcases List.mem_append.1 he with he | he
        · rcases List.mem_append.1 he with he | he
          · exact hh.1 e he
          · exact hw2.1 e he
        · exact hh'.1 e he
      · rcases List.mem_append.1 he with he | he
        · rcases List.mem_append.1 he with he | he
          · exact hh.2 _ _ _ _ _ _ _ _ he
          · exact hw2.2 _ _ _ _ _ _ _ _ he
        · exact hh'.2 _ _ _ _ _ _ _ _ he
    obtain ⟨q', g1, g2⟩ := C79_wire hc hs hmax _ hposs d hd'
    rw [hdn] at g1
    obtain ⟨q2, g3, g4⟩ := run_later hc.created (h ++ evs) h' n q (by rw [← hw1]; exact hw4)
    rw [g1] at g3; cases g3
    refine g2.imp id fun ⟨eid, k⟩ => ⟨eid, ?_⟩
    refine (k.earlier g4.userName g4.level g4.pdu).congr fun a seed hm => ?_
    rcases List.mem_append.1 hm with hm | hm
    · rcases List.mem_append.1 hm with hm | hm
      · exact List.mem_append.2 (.inl hm)
      · exact absurd hm (hw3 a seed)
    · exact List.mem_append.2 (.inr hm)

/-- **C86** for v3: a name that is no text of an object identifier makes the call raise `ValueError`; nothing else
happens. -/
theorem C86_v3_refused (conf : V3Conf) (s : VSys) (t : Nat) (c : ApiCall) (a : V3Args) (t0 : ℚ) (r0 : Nat) (i : SendIn)
    (hb : Spec.BadName c) : s.call cfg conf t c a t0 r0 i = (.raised .valueError, s) := by
  have := (C86_errors c).2 hb
  unfold VSys.call
  rw [this]

/-- Non-vacuity of `C86_v3_partial`: `m.getBulk("1.3.6", maxRepetitions=5, securityLevel=noAuthNoPriv)` by a thread of a manager that knows the
engine, has an unanswered request, and whose defaults are user "a" and authNoPriv: the datagram leaves at once and the
thread waits. -/
theorem C86_v3_example :
    let c : ApiCall := .getBulk [.name (.text "1.3.6".toList)] 0 5;
    let p : Pdu := { type := .getBulkRequest, second := 5, bindings := [⟨[1, 3, 6], .null⟩] };
    let h := [Demo.issue 0 10 1 noAuthNoPriv];
    let s := after Spec.demoCfg (Spec.demo (some [1])) h;
    let x := s.call Spec.demoCfg ⟨[97], authNoPriv, true⟩ 0 c { level := some noAuthNoPriv } 2 1 (Demo.input 2);
    Spec.CreatedOn Spec.demoCfg Spec.demoUsers (Spec.demo (some [1])) ∧ Spec.Seeded (Spec.demo (some [1])) ∧
      484 ≤ Spec.demoCfg.maxSize ∧ Spec.Possible h ∧ s.mgr.locked = false ∧ s.dropped = false ∧ Spec.AsksFor c p ∧
      Spec.PduSendable p ∧ x.1 = .waiting 1 ∧ x.2.mgr.sent.map Sent.request = [1, 0] ∧
      (x.2.mgr.reqs 1).map (fun q => (q.userName, q.level, q.expiration)) = some ([97], noAuthNoPriv, 12) := by
  intro c p h s x
  have t1 : "1.3.6".toList = Oid.str [1, 3, 6] := by decide +kernel
  refine ⟨Spec.demo_createdOn _ (.inr rfl), Spec.demo_seeded _ (.inr rfl), by decide, ⟨?_, ?_⟩, by decide +kernel,
    by decide +kernel, ⟨rfl, rfl, rfl, .cons ?_ .nil⟩, ⟨by simp [p, Spec.FieldsOk], ?_⟩, by decide +kernel,
    by decide +kernel, by decide +kernel⟩
  · intro e he i hi k
    simp only [h, List.mem_singleton] at he
    subst he
    cases hi
    show Spec.Draw 31 1
    unfold Spec.Draw; decide
  · intro pdu user level timeout period t0 r0 i he
    simp only [h, List.mem_singleton, Demo.issue, VEvent.send.injEq] at he
    obtain ⟨rfl, -, rfl, -⟩ := he
    exact ⟨⟨by simp [Spec.FieldsOk], by simp⟩, by decide⟩
  · simp only [t1]; exact .name (.text _)
  · intro v hv
    simp only [p, List.mem_singleton] at hv
    subst hv
    refine ⟨(oidOk_ofNat _).2 ((Oid.new_ofNat_iff _ _).1
      (show Oid.new ([1, 3, 6].map Int.ofNat) = .ok [1, 3, 6] by decide +kernel)).1,
      ⟨1, 3, [6], rfl, by unfold Spec.firstPairOk; omega⟩, trivial, ?_, ?_⟩ <;> (intro n h; cases h)

end Snmp
