import Verif.Props.Api
import Verif.Props.CommunityEnd
import Verif.Props.Rfc
import Verif.Props.Received
/-!
# C100: a complete exchange with an agent that follows the standards (v1, v2c)
-/

namespace Snmp

/-! ## Specification -/

/-- What an agent answers: an error status, an error index, and bindings. -/
structure Spec.Answer where
  status : Int
  index : Int
  bindings : List VarBind

/-- The response message with this answer to the request message `m` (RFC 1157 section 4.1, RFC 3416 section 4.2): the
version, community and request ID are those of the request. -/
def Spec.Answer.to (a : Spec.Answer) (m : Message) : Message where
  version := m.version
  community := m.community
  pdu := { type := .response, requestID := m.pdu.requestID, first := a.status, second := a.index, bindings := a.bindings }

/-- The answer is one the library can read (see C99). -/
def Spec.Answer.Readable (a : Spec.Answer) : Prop :=
  0 ≤ a.status ∧ a.status ≤ 18 ∧ 0 ≤ a.index ∧ a.index ≤ a.bindings.length ∧ a.bindings.length ≤ 2147483647 ∧
    ∀ v ∈ a.bindings, Spec.BindingReadable v

/-- The events of a call that asks what `p` asks: `sendRequest`, and `wait` if that is to be done. -/
def Spec.callEvents (conf : CommunityConf) (k t r : Nat) (p : Pdu) (a : CommunityArgs) (t0 t1 : ℚ) (draws : Nat → Nat)
    (chan : Option PyErr) : List CEvent :=
  .send k r { p with requestID := 0 } (a.community.getD conf.defaultCommunity) a.timeout a.refreshPeriod t0 t1 draws chan
    :: if a.wait.getD conf.autowait then [.wait t r] else []

/-! ## Proofs -/

theorem Spec.PduSendable.faithful {p : Pdu} (h : Spec.PduSendable p) : ∀ v ∈ p.bindings, Spec.BindingFaithful v := by
  have key : ∀ o : List Nat, OidLimits o → Spec.Survives o → Spec.OidFaithful o := by
    rintro o hl ⟨a, b, rest, rfl, hp⟩
    exact ⟨a, b, rest, rfl, hl.first a rfl, hl.second b rfl, hp⟩
  intro v hv
  obtain ⟨h1, h2, h3, h4, h5⟩ := h.2 v hv
  refine ⟨key _ ((oidOk_ofNat _).1 h1) h2, fun o ho => key o ?_ (h5 o ho)⟩
  rw [ho] at h3
  exact ((Oid.new_ofNat_iff _ _).1 h3).1

/-- A call that does not raise is its events. -/
theorem CSys.call_events (v : Version) (g : Nat) (h : List CEvent) (conf : CommunityConf) (k t r : Nat) (c : ApiCall)
    (a : CommunityArgs) (t0 t1 : ℚ) (draws : Nat → Nat) (chan : Option PyErr) (p : Pdu)
    (hpdu : c.pdu = .ok { p with requestID := 0 })
    (hok : ∀ e, ((CSys.after v g h).call v conf k t r c a t0 t1 draws chan).1 ≠ .raised e) :
    ((CSys.after v g h).call v conf k t r c a t0 t1 draws chan).2 =
        CSys.after v g (h ++ Spec.callEvents conf k t r p a t0 t1 draws chan) ∧
      ((CSys.after v g h).mgr.sendRequest v k r { p with requestID := 0 } (a.community.getD conf.defaultCommunity)
        a.timeout a.refreshPeriod t0 t1 draws chan).1 = .ok () := by
  have happ : h ++ Spec.callEvents conf k t r p a t0 t1 draws chan =
      (h ++ [.send k r { p with requestID := 0 } (a.community.getD conf.defaultCommunity) a.timeout a.refreshPeriod t0 t1
        draws chan]) ++ if a.wait.getD conf.autowait then [.wait t r] else [] := by
    unfold Spec.callEvents; simp
  rw [happ]
  unfold CSys.call at hok ⊢
  rw [hpdu] at hok ⊢
  simp only at hok ⊢
  unfold CSys.sendRequest at hok ⊢
  simp only at hok ⊢
  cases hs : ((CSys.after v g h).mgr.sendRequest v k r { p with requestID := 0 } (a.community.getD conf.defaultCommunity)
        a.timeout a.refreshPeriod t0 t1 draws chan).1 with
  | error e => rw [hs] at hok; exact absurd rfl (hok e)
  | ok u =>
    refine ⟨?_, rfl⟩
    cases hw : a.wait.getD conf.autowait with
    | false => simp only [Bool.false_eq_true, if_false, List.append_nil]; rw [CSys.after_snoc]
    | true => simp only [if_true]; rw [CSys.after_snoc, CSys.after_snoc]

/-- A request is known from its creation on, and unknown requests have no outcome. -/
theorem CSys.no_outcome (v : Version) (g : Nat) (h1 h2 : List CEvent) (t r : Nat) (o : Outcome)
    (hn : (CSys.after v g (h1 ++ h2)).mgr.reqs r = none) (ho : (CSys.after v g h1).threads t = .done r o) :
    ¬ o.IsResult := by
  intro hr
  obtain ⟨q, hq, -⟩ := CSys.ended v g h1 t r o ho hr
  suffices hs : ∃ q, (CSys.after v g (h1 ++ h2)).mgr.reqs r = some q by
    obtain ⟨q, hq⟩ := hs; rw [hn] at hq; cases hq
  clear hn
  induction h2 using List.reverseRecOn with
  | nil => exact ⟨q, by rw [List.append_nil]; exact hq⟩
  | append_singleton h2 e ih =>
    obtain ⟨q1, hq1⟩ := ih
    rw [← List.append_assoc, CSys.after_snoc]
    obtain ⟨q2, hq2, -⟩ := CSys.step_keep v _ e r q1 hq1
    exact ⟨q2, hq2⟩

/-- The PDU of a request is the one it was created with, but for the ID. -/
theorem CSys.asked (v : Version) (g : Nat) (h h' : List CEvent) (k r : Nat) (p : Pdu) (community : Bytes)
    (timeout period t0 t1 : ℚ) (draws : Nat → Nat) (chan : Option PyErr) (hn : (CSys.after v g h).mgr.reqs r = none)
    (hok : ((CSys.after v g h).mgr.sendRequest v k r { p with requestID := 0 } community timeout period t0 t1 draws
      chan).1 = .ok ()) (hgen : GenOk communityProto (CSys.after v g h).mgr.cache.gen) (hd : ∀ k, Spec.Draw 32 (draws k)) :
    ∃ q id, (CSys.after v g (h ++ .send k r { p with requestID := 0 } community timeout period t0 t1 draws chan ::
      h')).mgr.reqs r = some q ∧ q.community = community ∧ q.pdu = { p with requestID := id } ∧ id ≠ 0 ∧ Spec.Int32 id ∧
      ∃ w, (r, w) ∈ (CSys.after v g (h ++ .send k r { p with requestID := 0 } community timeout period t0 t1 draws chan ::
      h')).mgr.sent := by
  induction h' using List.reverseRecOn with
  | nil =>
    rw [CSys.after_snoc]
    obtain ⟨heaps, he⟩ := CMgr.sendRequest_eq v (CSys.after v g h).mgr k r { p with requestID := 0 } community timeout
      period t0 t1 draws chan
    have hstep : ((CSys.after v g h).step v (.send k r { p with requestID := 0 } community timeout period t0 t1 draws
        chan)).mgr = ((CSys.after v g h).mgr.sendRequest v k r { p with requestID := 0 } community timeout period t0 t1
        draws chan).2 := by
      unfold CSys.step; simp only; rw [hn]; rfl
    have hrid := CMgr.reallySend_id v ({ (CSys.after v g h).mgr.setReq r (CReq.new k { p with requestID := 0 } community
      timeout period t0) with heaps } : CMgr) r ((CReq.new k { p with requestID := 0 } community timeout period
      t0).setNextRefresh (t1 + period)) draws chan rfl hgen hd
    rw [hstep]
    rw [he] at hok ⊢
    rcases CMgr.reallySend_full v
      ({ (CSys.after v g h).mgr.setReq r (CReq.new k { p with requestID := 0 } community timeout period t0) with
        heaps } : CMgr) r
      ((CReq.new k { p with requestID := 0 } community timeout period t0).setNextRefresh (t1 + period)) draws chan
        (fun h => by cases h) with
      ⟨-, c, -, hs⟩ | ⟨id, cb, c, hkk, ⟨e, -, hs⟩ | ⟨w, -, -, hs⟩⟩
    · rw [hs] at hok; cases hok
    · rw [hs] at hok; cases hok
    · rw [hs]
      rcases hkk with ⟨-, hid, -⟩ | ⟨kk, -⟩
      · have hnb : NBit 32 true id := by
          rw [hs] at hrid
          exact hrid _ (by simp only [CMgr.setReq, setAt_same]; rfl)
        refine ⟨_, id, setAt_same _ _ _, rfl, rfl, hid, ?_, w, List.mem_cons_self ..⟩
        simp only [NBit, if_true] at hnb
        unfold Spec.Int32
        norm_num at hnb ⊢
        omega
      · exact absurd rfl kk
  | append_singleton h' e ih =>
    obtain ⟨q, id, hq, hc, hp, hid, hir, w, hw⟩ := ih
    have happ : h ++ .send k r { p with requestID := 0 } community timeout period t0 t1 draws chan :: (h' ++ [e]) =
      (h ++ .send k r { p with requestID := 0 } community timeout period t0 t1 draws chan :: h') ++ [e] := by simp
    rw [happ, CSys.after_snoc]
    have hev := CSys.step_evolves v (CSys.after v g (h ++ .send k r { p with requestID := 0 } community timeout period
      t0 t1 draws chan :: h')) e
    obtain ⟨q', hq', -, h2, -, -, h3, -⟩ := hev.keep r q hq
    refine ⟨q', id, hq', h2.trans hc, ?_, hid, hir, w, hev.sent _ hw⟩
    rw [h3 (by rw [hp]; exact hid)]; exact hp

/-- **C100**. A call of `get`, `getNext`, `getBulk` or `set` that does not raise sends a datagram. All datagrams ever
sent for it are the octets that the standards prescribe for one message `m`: of the manager's version, with the
community, asking what the call says. When octets which the standards allow for a response to `m` arrive while a thread
sleeps in `wait` on the request, whatever happened in between, `wait` returns exactly the bindings of the
answer; or it raises `ErrorResponse` with its status and index and the request's PDU. Missing from the full
statement: names that the library does not encode faithfully (C98), and object identifiers 2.40 and above in the answer
(C99). -/
theorem C100_partial (v : Version) (hv : v = .v1 ∨ v = .v2c) (g : Nat) (hg : Spec.Draw 32 g) (h : List CEvent)
    (hh : Spec.CDraws h) (conf : CommunityConf) (k t r : Nat) (c : ApiCall) (a : CommunityArgs) (t0 t1 : ℚ)
    (draws : Nat → Nat) (hd : ∀ k, Spec.Draw 32 (draws k)) (chan : Option PyErr) (p : Pdu)
    (hn : (CSys.after v g h).mgr.reqs r = none) (ha : Spec.AsksFor c p) (hp : Spec.PduSendable p)
    (hc : (a.community.getD conf.defaultCommunity).length ≤ 65535)
    (hok : ∀ e, ((CSys.after v g h).call v conf k t r c a t0 t1 draws chan).1 ≠ .raised e) (hkept : .collect r ∉ h) :
    let H := h ++ Spec.callEvents conf k t r p a t0 t1 draws chan;
    ((CSys.after v g h).call v conf k t r c a t0 t1 draws chan).2 = CSys.after v g H ∧
    (∃ w, (r, w) ∈ (CSys.after v g H).mgr.sent) ∧
    ∃ m : Message, m.version = v ∧ m.community = a.community.getD conf.defaultCommunity ∧ m.pdu.requestID ≠ 0 ∧
      m.pdu = { p with requestID := m.pdu.requestID } ∧
      ∀ h', (∀ w, (r, w) ∈ (CSys.after v g (H ++ h')).mgr.sent → w = Spec.messageOctets m) ∧
        (.collect r ∉ h' →
        (∀ h1 h2 u o, h' = h1 ++ h2 → (CSys.after v g (H ++ h1)).threads u = .done r o → ¬ o.IsResult) →
        (CSys.after v g (H ++ h')).recv = none →
        ∀ answer : Spec.Answer, answer.Readable → ∀ e, Spec.IsMessage (answer.to m) e →
        ∀ u timeout since, (CSys.after v g (H ++ h')).threads u = .sleep r timeout since →
        ∀ now draws' chan',
          (CSys.after v g (H ++ h' ++ [.hear e, .push, .step u now draws' chan'])).threads u = .done r
            (if answer.status = 0 then .bindings answer.bindings
            else .errorResponse answer.status answer.index m.pdu)) := by
  intro H
  have hpdu := C86_pdu c p ha fun v hv => (hp.2 v hv).nameOk
  obtain ⟨hcall, hsend⟩ := CSys.call_events v g h conf k t r c a t0 t1 draws chan p hpdu hok
  have hgen := CSys.gen_ok v g hg h hh
  refine ⟨hcall, ?_, ?_⟩
  · obtain ⟨q, id, -, -, -, -, -, hw⟩ := CSys.asked v g h (if a.wait.getD conf.autowait then [.wait t r] else []) k r p _ _ _
      t0 t1 draws chan hn hsend hgen hd
    exact hw
  obtain ⟨q0, id, hq0, hqc0, hqp0, hid, hir, -⟩ := CSys.asked v g h (if a.wait.getD conf.autowait then [.wait t r] else [])
    k r p _ _ _ t0 t1 draws chan hn hsend hgen hd
  have hH0 : H = h ++ .send k r { p with requestID := 0 } (a.community.getD conf.defaultCommunity) a.timeout
      a.refreshPeriod t0 t1 draws chan :: (if a.wait.getD conf.autowait then [.wait t r] else []) := by
    simp [H, Spec.callEvents]
  rw [← hH0] at hq0
  refine ⟨Message.mk v (a.community.getD conf.defaultCommunity) { p with requestID := id }, rfl, rfl, hid, rfl, ?_⟩
  intro h'
  have hH : H ++ h' = h ++ .send k r { p with requestID := 0 } (a.community.getD conf.defaultCommunity) a.timeout
      a.refreshPeriod t0 t1 draws chan :: ((if a.wait.getD conf.autowait then [.wait t r] else []) ++ h') := by
    simp [H, Spec.callEvents]
  obtain ⟨q, hq, hqc, hqp⟩ : ∃ q, (CSys.after v g (H ++ h')).mgr.reqs r = some q ∧
      q.community = a.community.getD conf.defaultCommunity ∧ q.pdu = { p with requestID := id } := by
    clear hH
    induction h' using List.reverseRecOn with
    | nil => rw [List.append_nil]; exact ⟨q0, hq0, hqc0, hqp0⟩
    | append_singleton h' e ih =>
      obtain ⟨q, hq, hc, hp⟩ := ih
      rw [← List.append_assoc, CSys.after_snoc]
      obtain ⟨q', hq', -, h2, -, -, h3, -⟩ := (CSys.step_evolves v (CSys.after v g (H ++ h')) e).keep r q hq
      refine ⟨q', hq', h2.trans hc, ?_⟩
      rw [h3 (by rw [hp]; exact hid)]; exact hp
  refine ⟨?_, ?_⟩
  · intro w hw
    obtain ⟨⟨q', hq', -, henc⟩, -⟩ := C63_identical v g (H ++ h') r w hw
    rw [hq] at hq'; injection hq' with hq'; subst hq'
    rw [hqc, hqp] at henc
    exact C98_message_partial _ (show ∀ b ∈ (Message.mk v (a.community.getD conf.defaultCommunity)
      { p with requestID := id }).pdu.bindings, Spec.BindingFaithful b from hp.faithful) w henc
  intro hkept' hun hrecv answer hread e his u timeout since hsleep now draws' chan'
  have hpend : Spec.Pending v g (H ++ h') r := by
    refine ⟨⟨k, h, _, _, _, _, _, t0, t1, draws, chan, hH, rfl, hn, hsend⟩, ?_, ?_⟩
    · rw [hH]
      intro hm
      simp only [List.mem_append, List.mem_cons, reduceCtorEq, false_or] at hm
      rcases hm with hm | hm | hm
      · exact hkept hm
      · split at hm <;> simp at hm
      · exact hkept' hm
    · intro h1 h2 u o he ho
      have before : ∀ h0, h0 = h ∨ h0 = h ++ [.send k r { p with requestID := 0 }
          (a.community.getD conf.defaultCommunity) a.timeout a.refreshPeriod t0 t1 draws chan] →
          (CSys.after v g h0).threads u = .done r o → ¬ o.IsResult := by
        rintro h0 (rfl | rfl) h0o
        · exact CSys.no_outcome v g h0 [] u r o (by rw [List.append_nil]; exact hn) h0o
        · refine CSys.no_outcome v g h [] u r o (by rw [List.append_nil]; exact hn) ?_
          rw [CSys.after_snoc] at h0o
          rcases CSys.step_threads v (CSys.after v g h) (.send k r { p with requestID := 0 }
            (a.community.getD conf.defaultCommunity) a.timeout a.refreshPeriod t0 t1 draws chan) u with hs | ⟨_, he, -⟩ |
            ⟨_, _, _, he, -⟩
          · rw [hs] at h0o; exact h0o
          · cases he
          · cases he
      rcases List.append_eq_append_iff.1 he with ⟨x, rfl, hx⟩ | ⟨x, hx, -⟩
      · exact hun x h2 u o hx ho
      have hx' : (h ++ [.send k r { p with requestID := 0 } (a.community.getD conf.defaultCommunity) a.timeout
          a.refreshPeriod t0 t1 draws chan]) ++ (if a.wait.getD conf.autowait then [.wait t r] else []) = h1 ++ x := by
        rw [← hx]; simp [H, Spec.callEvents]
      rcases List.append_eq_append_iff.1 hx' with ⟨y, hy, hyx⟩ | ⟨y, hy, -⟩
      · cases y with
        | nil => rw [List.append_nil] at hy; exact before h1 (.inr hy) ho
        | cons y0 y =>
          have hxn : x = [] := by
            cases x with
            | nil => rfl
            | cons x0 x =>
              have := congrArg List.length hyx
              split at this <;> simp at this
          subst hxn
          rw [List.append_nil] at hx
          rw [← hx] at ho
          exact hun [] h' u o rfl (by rw [List.append_nil]; exact ho)
      · rcases List.eq_nil_or_concat y with rfl | ⟨y, z, rfl⟩
        · rw [List.append_nil] at hy; exact before h1 (.inr hy.symm) ho
        · have hpre : h = h1 ++ y := by
            rw [List.concat_eq_append, ← List.append_assoc] at hy
            exact (List.append_inj' hy rfl).1
          exact CSys.no_outcome v g h1 y u r o (by rw [← hpre]; exact hn) ho
  obtain ⟨tail, hdec⟩ := C99_message_partial (if v = .v1 then v1Types else v2Types) _ (by
      rcases hv with rfl | rfl <;> simp [Spec.Answer.to]) (by
      show PduType.response ∈ _
      rcases hv with rfl | rfl <;> decide) hc (by
      obtain ⟨r1, r2, r3, r4, r5, r6⟩ := hread
      have i1 : Spec.Int32 answer.status := ⟨by omega, by omega⟩
      have i2 : Spec.Int32 answer.index := ⟨by omega, by omega⟩
      exact ⟨hir, i1, i2, r1, r3, fun _ => ⟨r2, r4⟩, r6⟩)
    e his (.bytes e) (Asn1Data.valid_bytes _) rfl
  have hfin := C84_wait v g (H ++ h') r q e _ tail hpend hq hrecv hdec rfl rfl (by rw [hqp]; rfl)
    (by rw [hqc]; rfl) u timeout since now draws' chan' hsleep
  rw [hfin, hqp]
  rfl

/-! ## Non-vacuity, and where it fails -/

/-- What the example asks: the successor of 1.3. -/
def Spec.nextOf13 : Pdu := { type := .getNextRequest, bindings := [⟨[1, 3], .null⟩] }

/-- The answer of the example: 1.8.1 is 7. -/
def Spec.seven : Spec.Answer := ⟨0, 0, [⟨[1, 8, 1], .int .counter32 7⟩]⟩

/-- Non-vacuity of C100: `getNext("1.3")` is sent, the thread that called sleeps, and an answer in an unusual but
standard encoding arrives. -/
theorem C100_example :
    let conf : CommunityConf := ⟨[0x70], true⟩;
    let c : ApiCall := .getNext [.name (.text "1.3".toList)];
    let H := Spec.callEvents conf 0 0 0 Spec.nextOf13 {} 0 0 (fun _ => 1) none;
    let h' := [Spec.tick 0 0, Spec.tick 0 0, Spec.tick 0 0];
    Spec.AsksFor c Spec.nextOf13 ∧ Spec.PduSendable Spec.nextOf13 ∧ Spec.Draw 32 1 ∧
      ((CSys.after .v1 1 []).call .v1 conf 0 0 0 c {} 0 0 (fun _ => 1) none).1 = .waiting 0 ∧
      (∀ h1 h2 u o, h' = h1 ++ h2 → (CSys.after .v1 1 (H ++ h1)).threads u = .done 0 o → ¬ o.IsResult) ∧
      (CSys.after .v1 1 (H ++ h')).recv = none ∧
      (CSys.after .v1 1 (H ++ h')).threads 0 = .sleep 0 (some 1) 0 ∧
      Spec.seven.Readable ∧
      Spec.IsMessage (Spec.seven.to ⟨.v1, [0x70], { Spec.nextOf13 with requestID := 1 }⟩) Spec.receivedOctets ∧
      (CSys.after .v1 1 (H ++ h' ++ [.hear Spec.receivedOctets, .push, Spec.tick 0 1])).threads 0 =
        .done 0 (.bindings [⟨[1, 8, 1], .int .counter32 7⟩]) := by
  have t1 : "1.3".toList = Oid.str [1, 3] := by decide +kernel
  refine ⟨⟨rfl, rfl, rfl, .cons ?_ .nil⟩, ⟨by simp [Spec.FieldsOk, Spec.nextOf13], ?_⟩, by unfold Spec.Draw; omega,
    by decide +kernel, ?_, by decide +kernel, by decide +kernel, ?_, Spec.receivedSample_is, by decide +kernel⟩
  · rw [t1]; exact .name (.text _)
  · intro v hv
    simp only [Spec.nextOf13, List.mem_singleton] at hv
    subst hv
    refine ⟨(oidOk_ofNat _).2 ((Oid.new_ofNat_iff _ _).1 (show Oid.new ([1, 3].map Int.ofNat) = .ok [1, 3] by
      decide +kernel)).1, ⟨1, 3, [], rfl, by unfold Spec.firstPairOk; omega⟩, trivial, ?_, ?_⟩
    · intro n h; cases h
    · intro n h; cases h
  · intro h1 h2 u o he ho
    refine Spec.unfinished_of .v1 1 (Spec.callEvents ⟨[0x70], true⟩ 0 0 0 Spec.nextOf13 {} 0 0 (fun _ => 1) none ++
      [Spec.tick 0 0, Spec.tick 0 0, Spec.tick 0 0]) 0 ?_ ?_
      (Spec.callEvents ⟨[0x70], true⟩ 0 0 0 Spec.nextOf13 {} 0 0 (fun _ => 1) none ++ h1) h2 u o (by rw [he]; simp) ho
    · intro t r hm
      simp [Spec.callEvents, Spec.tick] at hm
      exact hm.1
    · have key : ∀ n, n < (Spec.callEvents ⟨[0x70], true⟩ 0 0 0 Spec.nextOf13 {} 0 0 (fun _ => 1) none ++
          [Spec.tick 0 0, Spec.tick 0 0, Spec.tick 0 0]).length + 1 → ((CSys.after .v1 1
          ((Spec.callEvents ⟨[0x70], true⟩ 0 0 0 Spec.nextOf13 {} 0 0 (fun _ => 1) none ++
          [Spec.tick 0 0, Spec.tick 0 0, Spec.tick 0 0]).take n)).threads 0).isDone = false := by decide +kernel
      intro n hn o ho
      have := key n hn
      rw [ho] at this; cases this
  · refine ⟨by decide, by decide, by decide, by decide, by decide, ?_⟩
    intro v hv
    simp only [Spec.seven, List.mem_singleton] at hv
    subst hv
    exact ⟨⟨⟨by decide, by decide, 1, 8, [1], rfl, by decide, by decide⟩, by simp⟩, by decide, by decide⟩

/-- **C100** is false of the code without the restriction on the answer: the same call, answered with 2.100.3 (a
legal object identifier), goes on sleeping. -/
theorem C100_false : ∃ (answer : Spec.Answer) (e : Bytes),
    (∀ b ∈ answer.bindings, Spec.OidStandard b.name ∧ Spec.ValueReadable b.value) ∧ answer.status = 0 ∧
    Spec.IsMessage (answer.to ⟨.v1, [0x70], { Spec.nextOf13 with requestID := 1 }⟩) e ∧
    let H := Spec.callEvents ⟨[0x70], true⟩ 0 0 0 Spec.nextOf13 {} 0 0 (fun _ => 1) none ++
      [Spec.tick 0 0, Spec.tick 0 0, Spec.tick 0 0];
    (CSys.after .v1 1 H).threads 0 = .sleep 0 (some 1) 0 ∧
    (CSys.after .v1 1 (H ++ [.hear e, .push, Spec.tick 0 (1/2)])).threads 0 = .sleep 0 (some 1) 0 := by
  refine ⟨⟨0, 0, [⟨[2, 100, 3], .null⟩]⟩,
    [0x30, 0x1c, 2, 1, 0, 4, 1, 0x70, 0xa2, 0x14, 2, 1, 1, 2, 1, 0, 2, 1, 0, 0x30, 9,
      0x30, 7, 6, 3, 0x81, 0x34, 3, 5, 0], ?_, rfl, ?_, by decide +kernel, by decide +kernel⟩
  · intro v hv
    simp only [List.mem_singleton] at hv
    subst hv
    exact ⟨⟨by decide, by decide, 2, 100, [3], rfl, by decide, by decide⟩, trivial⟩
  · refine ⟨[2, 1, 0], [4, 1, 0x70], [0xa2, 0x14, 2, 1, 1, 2, 1, 0, 2, 1, 0, 0x30, 9,
      0x30, 7, 6, 3, 0x81, 0x34, 3, 5, 0], ⟨[0], by simp, rfl, [1], .inl ⟨by decide, rfl⟩, rfl⟩,
      ⟨[1], .inl ⟨by decide, rfl⟩, rfl⟩, ?_, [0x1c], .inl ⟨by decide, rfl⟩, rfl⟩
    refine ⟨[2, 1, 1], [2, 1, 0], [2, 1, 0], [0x30, 7, 6, 3, 0x81, 0x34, 3, 5, 0], _,
      ⟨[1], by simp, rfl, [1], .inl ⟨by decide, rfl⟩, rfl⟩,
      ⟨[0], by simp, rfl, [1], .inl ⟨by decide, rfl⟩, rfl⟩,
      ⟨[0], by simp, rfl, [1], .inl ⟨by decide, rfl⟩, rfl⟩, ?_,
      ⟨[9], .inl ⟨by decide, rfl⟩, rfl⟩, ⟨[0x14], .inl ⟨by decide, rfl⟩, rfl⟩⟩
    refine ⟨_, [], ⟨[6, 3, 0x81, 0x34, 3], [5, 0], ⟨by decide, [3], .inl ⟨?_, ?_⟩, ?_⟩,
      ⟨[0], .inl ⟨by decide, rfl⟩, rfl⟩, [7], .inl ⟨by decide, rfl⟩, rfl⟩, rfl, rfl⟩
    all_goals simp [Spec.oidContents, Spec.subidentifier, Spec.continuation]

end Snmp
