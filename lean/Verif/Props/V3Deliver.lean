import Verif.Props.V3Chain
import Verif.Props.V3Secure
import Verif.Props.V3Demo
/-!
# C87: an answer to a message that a v3 manager sent reaches the request, as long as nothing ended it
-/

namespace Snmp

variable {cfg : VCfg} {m0 : VMgr}

/-! ## Specification -/

/-- After `h`, nothing in the events `h2` that follow ends a `wait()` on request `r` or drops its handle. -/
def Spec.StillWaited (cfg : VCfg) (m0 : VMgr) (h h2 : List VEvent) (r : Nat) : Prop :=
  ∀ a e b, h2 = a ++ e :: b →
    ¬ Spec.Ends (VSys.after cfg m0 (h ++ a)) (VSys.after cfg m0 (h ++ a ++ [e])) e r

/-- The datagram `w`, arriving at clock reading `stamp`, decodes, and the security module `u` accepts it as `x`. -/
def Spec.ReadAs (cfg : VCfg) (u : Usm) (w : Bytes) (stamp : ℚ) (x : V3Incoming) : Prop :=
  ∃ y y', V3Message.decode (.bytes w) = .ok y ∧ (u.processIncoming cfg.backend cfg.crypto y stamp).1 = .ok y' ∧
    y'.header = x.header ∧ y'.scopedPDU = some x.scopedPDU ∧ y'.securityEngineID = some x.securityEngineID ∧
    y'.securityName = some x.securityName

/-- The message `x` answers the datagram `w0`: it has the same message ID and names the same user; and, if it is not a
report, it names the same engine, also as its context, and has at least the same protection. -/
def Spec.AnswerTo (w0 : Bytes) (x : V3Incoming) : Prop :=
  ∃ x0 p0, V3Message.decode (.bytes w0) = .ok x0 ∧ UsmParams.decode x0.securityParameters = .ok p0 ∧
    x0.header.flags.reportable = true ∧ x.header.id = x0.header.id ∧ x.securityName = p0.userName ∧
    x.scopedPDU.contextName = [] ∧
    (x.scopedPDU.pdu.type = .report ∨ x.scopedPDU.pdu.type = .response ∧ x.securityEngineID = p0.engineID ∧
      x.scopedPDU.contextEngineID = p0.engineID ∧ Spec.AtLeast x.header.flags.level x0.header.flags.level)

/-! ## The version probe -/

theorem decodeVersion_congr {d d' : Asn1Data} (hv : d.Valid) (hv' : d'.Valid) (h : d'.copy = d.copy) {v : Version}
    {p : Subbytes} (hd : decodeVersion d = .ok (v, p)) : ∃ p', decodeVersion d' = .ok (v, p') := by
  unfold decodeVersion at *
  obtain ⟨⟨n, p1⟩, h1, h2⟩ := bind_ok hd
  obtain ⟨v', h3, h4⟩ := bind_ok h2
  cases h4
  unfold decodeInteger asn1Decode at *
  obtain ⟨⟨t, enc, tl⟩, h5, h6⟩ := bind_ok h1
  obtain ⟨n', h7, h8⟩ := bind_ok h6
  cases h8
  have hc : d'.toSub.contents = d.toSub.contents := by rw [← Asn1Data.copy_eq, ← Asn1Data.copy_eq, h]
  rw [Ber.decode_refines hv] at h5
  rw [Ber.decode_refines hv', hc]
  cases hr : readTLV d.toSub.contents with
  | none => rw [hr] at h5; cases h5
  | some y =>
    obtain ⟨tag, body, tail⟩ := y
    rw [hr] at h5
    simp only at h5 ⊢
    split at h5
    · cases h5
    · rename_i hn
      rw [if_neg hn]
      split at h5
      · cases h5
      · rename_i hn'
        rw [if_neg hn']
        simp only [if_true] at h5 ⊢
        cases h5
        refine ⟨d'.toSub.last tail.length, ?_⟩
        simp only [Except.bind, h7]
        rw [h3]

/-- If the decoder accepts a message then the version probe finds version 3. -/
theorem version_probe_v3 {w : Bytes} {y : V3Message} (h : V3Message.decode (.bytes w) = .ok y) :
    ∃ tail, VersionOnly.decode (.bytes w) = .ok (.v3, tail) := by
  unfold V3Message.decode at h
  obtain ⟨⟨y1, t1⟩, h1, -⟩ := bind_ok h
  unfold asn1Decode at h1
  obtain ⟨⟨t, enc, tl⟩, h5, h6⟩ := bind_ok h1
  obtain ⟨y2, h7, -⟩ := bind_ok h6
  unfold V3Message.deserialize at h7
  obtain ⟨⟨ver, p⟩, h8, h9⟩ := bind_ok h7
  have hver : ver = .v3 := by
    by_contra hv
    simp only [ne_eq, hv, not_false_eq_true, if_true] at h9
    cases h9
  subst hver
  have hval := Asn1Data.valid_bytes w
  obtain ⟨k1, -, -, k2, -, -⟩ := Ber.decode_ok hval h5
  unfold VersionOnly.decode asn1Decode
  have h5' := h5
  rw [Ber.decode_refines hval] at h5' ⊢
  cases hr : readTLV (Asn1Data.bytes w).toSub.contents with
  | none => rw [hr] at h5'; cases h5'
  | some z =>
    obtain ⟨tag, body, tail⟩ := z
    rw [hr] at h5'
    simp only at h5' ⊢
    split at h5'
    · cases h5'
    · rename_i hn
      rw [if_neg hn]
      split at h5'
      · cases h5'
      · rename_i hn'
        rw [if_neg hn']
        simp only [if_true, Except.bind]
        have hb : body = enc.copy := by
          rw [Asn1Data.copy_eq, hr] at k2
          simp only [Option.some.injEq, Prod.mk.injEq] at k2
          exact k2.2.1
        obtain ⟨p', hp'⟩ := decodeVersion_congr k1 (Asn1Data.valid_bytes body) (by rw [hb]; rfl) h8
        unfold VersionOnly.deserialize
        rw [hp']
        exact ⟨_, rfl⟩

namespace VSys

open VMgr

/-! ## Messages of a request are outstanding -/

/-- Every message of a request was made, is its own, and is outstanding under its ID. -/
def Live (m : VMgr) : Prop :=
  ∀ r q k, m.reqs r = some q → k ∈ q.messages →
    (m.dead r = false ∧ k < m.nextMsg) ∧ ∃ msg, m.msgs k = some msg ∧ msg.request = r ∧
    ∀ id, msg.messageID = some id → ∃ e, m.cache.outstanding id = some e ∧ e.handle = k

theorem entry_handle (q : VReq) (k : Nat) : (q.entry k).handle = k := by unfold VReq.entry; split <;> rfl

theorem Live.closed {m : VMgr} (h : Live m) (r : Nat) (q : VReq) (hq : m.reqs r = some q) (r1 : Nat) (hr : r1 ≠ r)
    (q1 : VReq) (hq1 : m.reqs r1 = some q1) (k : Nat) (hk : k ∈ q1.messages) (msg : VMsg) (hm : m.msgs k = some msg)
    (id : Int) (hid : msg.messageID = some id) : (m.closed cfg r q).cache.outstanding id = m.cache.outstanding id := by
  unfold VMgr.closed
  simp only
  rw [closeMessages_spec, if_neg]
  rintro ⟨k', hk', msg', hm', hid'⟩
  obtain ⟨-, g1, g2, g3, g4⟩ := h r q k' hq hk'
  rw [hm'] at g2; cases g2
  obtain ⟨e, he, he'⟩ := g4 id hid'
  obtain ⟨-, f1, f2, f3, f4⟩ := h r1 q1 k hq1 hk
  rw [hm] at f2; cases f2
  obtain ⟨e2, he2, he2'⟩ := f4 id hid
  rw [he] at he2; cases he2
  rw [he'] at he2'; subst he2'
  rw [hm'] at hm; cases hm
  exact hr (f3.symm.trans g3)

theorem Live.prim {e : VEvent} {ends : Nat → Prop} {m m' : VMgr} (h : Live m) (hp : Prim cfg e ends m m') : Live m' := by
  cases hp with
  | calm h1 h2 h3 h4 h5 h6 h7 =>
    intro r q' k hq hk
    have hdead : m.dead r = false → m'.dead r = false := fun hd => by
      cases hx : m'.dead r with
      | false => rfl
      | true =>
        rcases h7 r hx with h | h
        · rw [hd] at h; cases h
        · rw [h q' hq] at hk; cases hk
    rcases h5 r q' hq with ⟨q, hq', hm⟩ | ⟨-, hm⟩
    · rw [hm] at hk
      rw [h1]
      obtain ⟨⟨g0, g1⟩, msg, g2, g3, g4⟩ := h r q k hq' hk
      refine ⟨⟨hdead g0, Nat.lt_of_lt_of_le g1 h2⟩, msg, g2, g3, fun id hid => ?_⟩
      obtain ⟨e1, g5, g6⟩ := g4 id hid
      exact ⟨e1, h4 id e1 g5 (by rw [g6, g2]; rfl), g6⟩
    · rw [hm] at hk; cases hk
  | send r q0 q h0 hdr hq engineID cause i res hs =>
    cases hs with
    | refused e1 err usm he hc =>
      intro r1 q1 k hq1 hk
      simp only at hq1 ⊢
      by_cases hr : r1 = r
      · subst hr
        rw [setAt_same] at hq1; cases hq1
        rw [hq] at hk
        exact h r1 q0 k h0 hk
      · rw [setAt_other _ _ hr] at hq1
        exact h r1 q1 k hq1 hk
    | made q1 usm1 usm cache id sent res he hb hu hs hpo hdo =>
      have hmsgs : q1.messages = q0.messages := by
        rcases he with ⟨-, rfl, -⟩ | ⟨_, -, -, rfl⟩ <;> exact hq
      have old : ∀ r2 q2 k, m.reqs r2 = some q2 → k ∈ q2.messages → (m.dead r2 = false ∧ k < m.nextMsg + 1) ∧ ∃ msg,
          setAt m.msgs m.nextMsg (some ⟨r, id, q1.shared, cause⟩) k = some msg ∧ msg.request = r2 ∧
          ∀ id, msg.messageID = some id → ∃ e, cache.outstanding id = some e ∧ e.handle = k := by
        intro r2 q2 k h2 hk
        obtain ⟨⟨g0, g1⟩, msg, g2, g3, g4⟩ := h r2 q2 k h2 hk
        refine ⟨⟨g0, by omega⟩, msg, by rw [setAt_other _ _ (by omega)]; exact g2, g3, fun id' hid' => ?_⟩
        obtain ⟨e', g5, g6⟩ := g4 id' hid'
        refine ⟨e', ?_, g6⟩
        cases hb with
        | unbooked hb => rw [hb]; exact g5
        | booked id h0' h1' hb =>
          rw [hb]
          by_cases hi : id' = id
          · subst hi; rw [h1'] at g5; cases g5
          · simp only [hi, if_false]; exact g5
      intro r2 q2 k h2 hk
      simp only at h2 ⊢
      by_cases hr : r2 = r
      · subst hr
        rw [setAt_same] at h2; cases h2
        rcases List.mem_cons.1 hk with hk | hk
        · subst hk
          refine ⟨⟨hdr, by omega⟩, _, setAt_same _ _ _, rfl, fun id' hid' => ?_⟩
          simp only at hid'
          subst hid'
          cases hb with
          | booked _ h0' h1' hb => exact ⟨_, by rw [hb]; simp only [if_true]; rfl, entry_handle _ _⟩
        · exact old r2 q0 k h0 (by rw [← hmsgs]; exact hk)
      · rw [setAt_other _ _ hr] at h2
        exact old r2 q2 k h2 hk
  | close r q hq he =>
    intro r1 q1 k h1 hk
    by_cases hr : r1 = r
    · subst hr
      have : (m.closed cfg r1 q).reqs r1 = some _ := setAt_same _ _ _
      rw [this] at h1; cases h1
      cases hk
    · have e1 : (m.closed cfg r q).reqs r1 = m.reqs r1 := setAt_other _ _ hr
      rw [e1] at h1
      obtain ⟨g1, msg, g2, g3, g4⟩ := h r1 q1 k h1 hk
      refine ⟨g1, msg, g2, g3, fun id hid => ?_⟩
      rw [h.closed r q hq r1 hr q1 h1 k hk msg g2 id hid]
      exact g4 id hid

theorem Live.chain {e : VEvent} {ends : Nat → Prop} {m m' : VMgr} (h : Live m) (hp : Chain cfg e ends m m') : Live m' := by
  induction hp with
  | nil => exact h
  | cons p _ ih => exact ih (h.prim p)

/-- The message `k` of request `r` is outstanding under `id`, with entry `x`. -/
def Tracked (m : VMgr) (r k : Nat) (id : Int) (x : V3Entry) : Prop :=
  ∃ q msg, m.reqs r = some q ∧ k ∈ q.messages ∧ m.msgs k = some msg ∧ msg.request = r ∧ msg.messageID = some id ∧
    m.cache.outstanding id = some x

theorem Tracked.prim {e : VEvent} {ends : Nat → Prop} {m m' : VMgr} {r k : Nat} {id : Int} {x : V3Entry} (hl : Live m)
    (h : Tracked m r k id x) (hp : Prim cfg e ends m m') (hn : ¬ ends r) : Tracked m' r k id x := by
  obtain ⟨q, msg, k1, k2, k3, k4, k5, k6⟩ := h
  cases hp with
  | calm h1 h2 h3 h4 h5 h6 h7 =>
    obtain ⟨q', hq'⟩ := h6 r q k1
    rcases h5 r q' hq' with ⟨q2, hq2, hm⟩ | ⟨hno, -⟩
    · rw [k1] at hq2; cases hq2
      obtain ⟨-, msg', g1, -, g2⟩ := hl r q k k1 k2
      rw [k3] at g1; cases g1
      obtain ⟨e1, g3, g4⟩ := g2 id k5
      rw [k6] at g3; cases g3
      exact ⟨q', msg, hq', by rw [hm]; exact k2, by rw [h1]; exact k3, k4, k5, h4 id x k6 (by rw [g4, k3]; rfl)⟩
    · rw [k1] at hno; cases hno
  | send r1 q0 q1 h0 hdr hq engineID cause i res hs =>
    cases hs with
    | refused e1 err usm he hc =>
      by_cases hr : r = r1
      · subst hr
        rw [k1] at h0; cases h0
        exact ⟨q1, msg, setAt_same _ _ _, by rw [hq]; exact k2, k3, k4, k5, k6⟩
      · exact ⟨q, msg, by simp only; rw [setAt_other _ _ hr]; exact k1, k2, k3, k4, k5, k6⟩
    | made q2 usm1 usm cache id' sent res he hb hu hs hpo hdo =>
      have hmsgs : q2.messages = q0.messages := by
        rcases he with ⟨-, rfl, -⟩ | ⟨_, -, -, rfl⟩ <;> exact hq
      have hlt := (hl r q k k1 k2).1.2
      have g3 : setAt m.msgs m.nextMsg (some ⟨r1, id', q2.shared, cause⟩) k = some msg := by
        rw [setAt_other _ _ (by omega)]; exact k3
      have g6 : cache.outstanding id = some x := by
        cases hb with
        | unbooked hb => rw [hb]; exact k6
        | booked id' h0' h1' hb =>
          rw [hb]
          by_cases hi : id = id'
          · subst hi; rw [h1'] at k6; cases k6
          · simp only [hi, if_false]; exact k6
      by_cases hr : r = r1
      · subst hr
        rw [k1] at h0; cases h0
        exact ⟨_, msg, setAt_same _ _ _, List.mem_cons_of_mem _ (by rw [hmsgs]; exact k2), g3, k4, k5, g6⟩
      · exact ⟨q, msg, by simp only; rw [setAt_other _ _ hr]; exact k1, k2, g3, k4, k5, g6⟩
  | close r1 q1 hq he =>
    have hr : r ≠ r1 := by rintro rfl; exact hn he
    refine ⟨q, msg, ?_, k2, k3, k4, k5, ?_⟩
    · have e1 : (m.closed cfg r1 q1).reqs r = m.reqs r := setAt_other _ _ hr
      rw [e1]; exact k1
    · rw [hl.closed r1 q1 hq r hr q k1 k k2 msg k3 id k5]; exact k6

theorem Tracked.chain {e : VEvent} {ends : Nat → Prop} {m m' : VMgr} {r k : Nat} {id : Int} {x : V3Entry} (hl : Live m)
    (h : Tracked m r k id x) (hp : Chain cfg e ends m m') (hn : ¬ ends r) : Tracked m' r k id x := by
  induction hp with
  | nil => exact h
  | cons p _ ih => exact ih (hl.prim p) (h.prim hl p hn)

theorem live (hc : Spec.Created cfg m0) (h : List VEvent) : Live (after cfg m0 h).mgr := by
  induction h using List.reverseRecOn with
  | nil =>
    obtain ⟨-, h0, engineID, g, c0, n0, seed, hu0, hm⟩ := hc
    intro r q k hq hk
    have : m0.reqs r = none := by
      unfold VMgr.create at hm
      split at hm
      · cases hm
      · cases hm; rfl
    rw [show (after cfg m0 []).mgr.reqs r = m0.reqs r from rfl, this] at hq
    cases hq
  | append_singleton h e ih =>
    rw [after_snoc]
    rcases step_move cfg (after cfg m0 h) e with hm | hm
    · rw [hm]; exact ih
    · obtain ⟨base, hp, hsound⟩ := hc.sound h
      exact ih.chain (move_chain hsound.accounts.later hsound.old hm)

theorem Tracked.later (hc : Spec.Created cfg m0) (h h2 : List VEvent) {r k : Nat} {id : Int} {x : V3Entry}
    (hk : Tracked (after cfg m0 h).mgr r k id x) (hs : Spec.StillWaited cfg m0 h h2 r) :
    Tracked (after cfg m0 (h ++ h2)).mgr r k id x := by
  induction h2 using List.reverseRecOn with
  | nil => rw [List.append_nil]; exact hk
  | append_singleton h2 e ih =>
    have ih := ih fun a e' b hab => hs a e' (b ++ [e]) (by rw [hab]; simp)
    have hn := hs h2 e [] rfl
    rw [← List.append_assoc]
    rw [after_snoc] at hn ⊢
    rcases step_move cfg (after cfg m0 (h ++ h2)) e with hm | hm
    · rw [hm]; exact ih
    · obtain ⟨base, hp, hsound⟩ := hc.sound (h ++ h2)
      exact ih.chain (live hc _) (move_chain hsound.accounts.later hsound.old hm) hn

/-- A datagram that has just been sent, and asks for an answer, is tracked. -/
theorem sent_tracked {h0 : List Spec.UsmOp} (hc : Spec.CreatedOn cfg h0 m0) (hs : Spec.Seeded m0) (hmax : 484 ≤ cfg.maxSize)
    (h : List VEvent) (e : VEvent) (hh : Spec.Possible (h ++ [e])) (d : Sent)
    (hd : (after cfg m0 (h ++ [e])).mgr.sent = d :: (after cfg m0 h).mgr.sent) (x0 : V3Message) (p0 : UsmParams)
    (hx0 : V3Message.decode (.bytes d.wire) = .ok x0) (hp0 : UsmParams.decode x0.securityParameters = .ok p0)
    (hrep : x0.header.flags.reportable = true) :
    Tracked (after cfg m0 (h ++ [e])).mgr d.request d.message x0.header.id
      ⟨p0.engineID, [], d.message, p0.userName, .usm, x0.header.flags.level⟩ ∧
    (x0.header.flags.level.priv = true → x0.header.flags.level.auth = true) := by
  have hh' : Spec.Possible h := ⟨fun e' he' => hh.1 e' (by simp [he']), fun pdu user level timeout period t0 r0 i hi =>
    hh.2 pdu user level timeout period t0 r0 i (by simp [hi])⟩
  obtain ⟨base, hp, hsound⟩ := hc.created.sound (h ++ [e])
  have hg := gen_ok (cfg := cfg) hs h hh'
  rw [after_snoc] at hd hsound ⊢
  have nocons : ∀ (l : List Sent), l ≠ d :: l := fun l hl => by
    have := congrArg List.length hl
    simp at this
  rcases step_move cfg (after cfg m0 h) e with hm | hm
  · rw [hm] at hd; exact absurd hd (nocons _)
  · rcases move_sends hm with h1 | ⟨r, i, hi, ⟨q1, c, u1, n, res, c', id, cause, h1, h2, hdo, h3, h4⟩⟩
    · rw [h1] at hd; exact absurd hd (nocons _)
    · rcases h4 with h4 | ⟨w, msg, h4, rfl, hw, ⟨q', h5, h6, h7, h8, h9, h10⟩, h11, h12, h13⟩
      · rw [h4] at hd; exact absurd hd (nocons _)
      · rw [h4] at hd
        injection hd with hd
        subst hd
        obtain ⟨pdu, timeout, t0, r0, i0, id0, k1, k2, -⟩ := (hsound.reqs _ _ h5).issued
        obtain ⟨k3, k4⟩ := hh.2 _ _ _ _ _ _ _ _ k1
        have hpdu : Spec.PduSendable q1.pdu := by rw [← h6, k2]; exact fields_id k3
        have hlev : q1.level.priv = true → q1.level.auth = true := by rw [← h8]; exact k4
        obtain ⟨r1, k, g1, g2, g3⟩ := hg
        have hw' : (u1.prepareOutgoing cfg.backend cfg.crypto msg (q1.entry n).engineID (q1.entry n).securityName
          i.stamp).1 = .ok w := by rw [hw]
        have main : ∀ (pdu : Pdu) (eid name : Bytes) (level : SecurityLevel), q1.entry n = ⟨eid, [], n, name, .usm, level⟩ →
            q1.content = pdu → Spec.PduSendable pdu → (level.priv = true → level.auth = true) →
            Tracked (step cfg (after cfg m0 h) e).mgr r n x0.header.id
              ⟨p0.engineID, [], n, p0.userName, .usm, x0.header.flags.level⟩ ∧
            (x0.header.flags.level.priv = true → x0.header.flags.level.auth = true) := by
          intro pdu eid name level e1 e2 hpdu hlev
          rw [e1] at h3 hw' hw
          rw [e2] at h3
          obtain ⟨x, p, c1, c2, c3, c4, c5, c6, c7, c8, c9, -⟩ := C78 u1 cfg.backend cfg.crypto hc.1 cfg.maxSize hmax c
            c' r1 k ⟨g1, g2⟩ (h1.trans g3) i.draws (hh.1 e (by simp) _ (Spec.drawn_of hi)) _ hpdu n eid name level
            hlev [] msg id h3 i.stamp w hw'
          simp only at hx0
          rw [c1] at hx0; cases hx0
          rw [c2] at hp0; cases hp0
          have hid := c7 (c6.1 hrep)
          refine ⟨⟨q', _, h5, h10, h11, rfl, hid, ?_⟩, by rw [c3]; exact hlev⟩
          rw [h13 _ hid, e1, c3, c8, c9]
        cases he : q1.engineID with
        | none =>
          exact main { type := .getRequest } [] [] noAuthNoPriv (by unfold VReq.entry; rw [he])
            (by unfold VReq.content; rw [he]) empty_sendable (by decide)
        | some eid =>
          exact main q1.pdu eid q1.userName q1.level (by unfold VReq.entry; rw [he])
            (by unfold VReq.content; rw [he]) hpdu hlev

theorem lt_of_atLeast {a b : SecurityLevel} (h : Spec.AtLeast a b) (hb : b.priv = true → b.auth = true) :
    a.lt b = false := by
  obtain ⟨h1, h2⟩ := h
  obtain ⟨aa, ap⟩ := a
  obtain ⟨ba, bp⟩ := b
  cases aa <;> cases ap <;> cases ba <;> cases bp <;> simp_all [SecurityLevel.lt]

theorem check_of_answer {w0 : Bytes} {x : V3Incoming} {x0 : V3Message} {p0 : UsmParams} {k : Nat}
    (hx0 : V3Message.decode (.bytes w0) = .ok x0) (hp0 : UsmParams.decode x0.securityParameters = .ok p0)
    (ha : Spec.AnswerTo w0 x) (hl : x0.header.flags.level.priv = true → x0.header.flags.level.auth = true) :
    v3Check ⟨p0.engineID, [], k, p0.userName, .usm, x0.header.flags.level⟩ x = .ok () := by
  obtain ⟨x0', p0', a1, a2, -, -, a3, a4, a5⟩ := ha
  rw [hx0] at a1; cases a1
  rw [hp0] at a2; cases a2
  unfold v3Check
  rcases a5 with a5 | ⟨a5, a6, a7, a8⟩
  · simp [a5, PduType.isInternal, a3, a4]
  · simp [a5, PduType.isInternal, a3, a4, a6, a7, lt_of_atLeast a8 hl]

end VSys

open VSys VMgr

/-- **C87**, delivery: a datagram that the security module accepts and that answers the datagram `d`, sent earlier
for a request on which nothing has ended a `wait()` since, is handed to that request, whatever else happened. -/
theorem C87_heard {h0 : List Spec.UsmOp} (hc : Spec.CreatedOn cfg h0 m0) (hs : Spec.Seeded m0) (hmax : 484 ≤ cfg.maxSize)
    (h1 : List VEvent) (e : VEvent) (h2 : List VEvent) (hh : Spec.Possible (h1 ++ [e])) (d : Sent)
    (hd : (after cfg m0 (h1 ++ [e])).mgr.sent = d :: (after cfg m0 h1).mgr.sent)
    (hn : Spec.StillWaited cfg m0 (h1 ++ [e]) h2 d.request) (w : Bytes) (stamp : ℚ) (x : V3Incoming)
    (hidle : (after cfg m0 (h1 ++ [e] ++ h2)).listener = .idle)
    (hw : Spec.ReadAs cfg (after cfg m0 (h1 ++ [e] ++ h2)).mgr.usm w stamp x) (ha : Spec.AnswerTo d.wire x) :
    (after cfg m0 (h1 ++ [e] ++ h2 ++ [.hear w stamp])).listener = .push d.message x ∧
    ∃ msg, (after cfg m0 (h1 ++ [e] ++ h2 ++ [.hear w stamp])).mgr.msgs d.message = some msg ∧
      msg.request = d.request := by
  obtain ⟨x0, p0, a1, a2, a3, a4, -, -, a5⟩ := id ha
  obtain ⟨htr, hlev⟩ := sent_tracked hc hs hmax h1 e hh d hd x0 p0 a1 a2 a3
  have htr := htr.later hc.created (h1 ++ [e]) h2 hn
  have hlive := live hc.created (h1 ++ [e] ++ h2)
  have hcheck := check_of_answer (k := d.message) a1 a2 ha hlev
  rw [after_snoc]
  generalize after cfg m0 (h1 ++ [e] ++ h2) = s at *
  obtain ⟨q, msg, t1, t2, t3, t4, t5, t6⟩ := htr
  have hdead : s.mgr.dead d.request = false := (hlive _ _ _ t1 t2).1.1
  obtain ⟨y, y', w1, w2, w3, w4, w5, w6⟩ := hw
  obtain ⟨tl, hver⟩ := version_probe_v3 w1
  have hgone : s.mgr.gone d.message = false := by
    unfold VMgr.gone
    rw [t3]
    simp only [t4, hdead, t1, Bool.false_or]
    simp [t2]
  have htype : x.scopedPDU.pdu.type.isResponse = true := by
    rcases a5 with h | ⟨h, -⟩ <;> rw [h] <;> rfl
  obtain ⟨usm, hus⟩ : ∃ usm, s.mgr.usm.processIncoming cfg.backend cfg.crypto y stamp = (.ok y', usm) :=
    ⟨_, Prod.ext w2 rfl⟩
  have hhear : s.mgr.hear cfg w stamp = (some (d.message, x), { s.mgr with usm }) := by
    unfold VMgr.hear
    rw [hver]
    simp only [ne_eq, not_true_eq_false, if_false]
    rw [w1]
    simp only
    rw [hus]
    simp only
    rw [w4, w5, w6]
    simp only
    have hx : (⟨y'.header, x.scopedPDU, x.securityEngineID, x.securityName⟩ : V3Incoming) = x := by
      rw [w3]
    rw [hx]
    have hpde : (v3Proto.prepareDataElements s.mgr.cache s.mgr.gone x).1 = .ok d.message := by
      unfold Proto.prepareDataElements
      simp only [v3Proto, htype, ↓reduceIte, Cache.retrieve, a4]
      rw [t6]
      simp [Proto.resolve, hgone, hcheck, Except.bind]
    generalize v3Proto.prepareDataElements s.mgr.cache s.mgr.gone x = z at *
    obtain ⟨res, c⟩ := z
    simp only at hpde
    subst hpde
    rfl
  unfold VSys.step
  simp only [hidle, hhear]
  exact ⟨trivial, msg, t3, t4⟩

/-- **C87**, completion: if moreover the datagram is a response, no other thread holds the manager's lock, and the
manager does not refuse the response with an exception, the response is delivered to the request. -/
theorem C87_delivered {h0 : List Spec.UsmOp} (hc : Spec.CreatedOn cfg h0 m0) (hs : Spec.Seeded m0) (hmax : 484 ≤ cfg.maxSize)
    (h1 : List VEvent) (e : VEvent) (h2 : List VEvent) (hh : Spec.Possible (h1 ++ [e])) (d : Sent)
    (hd : (after cfg m0 (h1 ++ [e])).mgr.sent = d :: (after cfg m0 h1).mgr.sent)
    (hn : Spec.StillWaited cfg m0 (h1 ++ [e]) h2 d.request) (w : Bytes) (stamp : ℚ) (x : V3Incoming)
    (hidle : (after cfg m0 (h1 ++ [e] ++ h2)).listener = .idle)
    (hw : Spec.ReadAs cfg (after cfg m0 (h1 ++ [e] ++ h2)).mgr.usm w stamp x) (ha : Spec.AnswerTo d.wire x)
    (hx : x.scopedPDU.pdu.type = .response) (hlock : (after cfg m0 (h1 ++ [e] ++ h2)).mgr.locked = false) (i : SendIn)
    (hok : ((after cfg m0 (h1 ++ [e] ++ h2 ++ [.hear w stamp])).mgr.processResponse cfg x i.seed).1 = .ok ()) :
    Spec.Delivers cfg (after cfg m0 (h1 ++ [e] ++ h2 ++ [.hear w stamp])) (.listen i) d.request x := by
  obtain ⟨k1, msg, k2, k3⟩ := C87_heard hc hs hmax h1 e h2 hh d hd hn w stamp x hidle hw ha
  obtain ⟨x0, p0, a1, a2, a3, -⟩ := id ha
  obtain ⟨htr, -⟩ := sent_tracked hc hs hmax h1 e hh d hd x0 p0 a1 a2 a3
  obtain ⟨q, msg', t1, t2, -⟩ := htr.later hc.created (h1 ++ [e]) h2 hn
  have hdead := (live hc.created (h1 ++ [e] ++ h2) _ _ _ t1 t2).1.1
  have hsame : (after cfg m0 (h1 ++ [e] ++ h2 ++ [.hear w stamp])).mgr.locked =
      (after cfg m0 (h1 ++ [e] ++ h2)).mgr.locked ∧
      (after cfg m0 (h1 ++ [e] ++ h2 ++ [.hear w stamp])).mgr.deref d.request =
        (after cfg m0 (h1 ++ [e] ++ h2)).mgr.deref d.request := by
    rw [after_snoc]
    rcases step_move cfg (after cfg m0 (h1 ++ [e] ++ h2)) (.hear w stamp) with hm | hm
    · rw [hm]; exact ⟨rfl, rfl⟩
    · generalize VSys.step cfg (after cfg m0 (h1 ++ [e] ++ h2)) (.hear w stamp) = s' at *
      cases hm <;> exact ⟨rfl, rfl⟩
  refine ⟨i, d.message, msg, rfl, k1, k2, k3, ?_, by rw [hx]; rfl, hsame.1.trans hlock, hok⟩
  rw [hsame.2]
  unfold VMgr.deref
  rw [hdead, t1]
  rfl

/-- **C87**, end to end: a thread sleeping in `wait()` on the request, not complete before, then ends with that
response in its next two steps. -/
theorem C87_wait {h0 : List Spec.UsmOp} (hc : Spec.CreatedOn cfg h0 m0) (hs : Spec.Seeded m0) (hmax : 484 ≤ cfg.maxSize)
    (h1 : List VEvent) (e : VEvent) (h2 : List VEvent) (hh : Spec.Possible (h1 ++ [e])) (d : Sent)
    (hd : (after cfg m0 (h1 ++ [e])).mgr.sent = d :: (after cfg m0 h1).mgr.sent)
    (hn : Spec.StillWaited cfg m0 (h1 ++ [e]) h2 d.request) (w : Bytes) (stamp : ℚ) (x : V3Incoming)
    (hidle : (after cfg m0 (h1 ++ [e] ++ h2)).listener = .idle)
    (hw : Spec.ReadAs cfg (after cfg m0 (h1 ++ [e] ++ h2)).mgr.usm w stamp x) (ha : Spec.AnswerTo d.wire x)
    (hx : x.scopedPDU.pdu.type = .response) (hlock : (after cfg m0 (h1 ++ [e] ++ h2)).mgr.locked = false) (i : SendIn)
    (hok : ((after cfg m0 (h1 ++ [e] ++ h2 ++ [.hear w stamp])).mgr.processResponse cfg x i.seed).1 = .ok ())
    (q : VReq) (hq : (after cfg m0 (h1 ++ [e] ++ h2)).mgr.reqs d.request = some q) (hev : q.event = false)
    (t : Nat) (timeout since : ℚ) (ht : (after cfg m0 (h1 ++ [e] ++ h2)).threads t = .sleep d.request timeout since)
    (i1 i2 : SendIn) :
    (after cfg m0 (h1 ++ [e] ++ h2 ++ [.hear w stamp, .listen i, .step t i1, .step t i2])).threads t =
      .done d.request (Spec.answer x q.pdu) := by
  have hdel := C87_delivered hc hs hmax h1 e h2 hh d hd hn w stamp x hidle hw ha hx hlock i hok
  generalize hH : h1 ++ [e] ++ h2 = H at *
  obtain ⟨q1, q2, g1, g2, g3, g4, -⟩ := C68_delivered (H ++ [.hear w stamp]) (.listen i) d.request x hdel
  have hq1 : q1 = q := by
    rw [after_snoc] at g1
    rcases step_move cfg (after cfg m0 H) (.hear w stamp) with hm | hm
    · rw [hm, hq] at g1; cases g1; rfl
    · generalize VSys.step cfg (after cfg m0 H) (.hear w stamp) = s' at *
      cases hm <;> (simp only at g1; rw [hq] at g1; cases g1; rfl)
  subst hq1
  have g4 := g4 hev
  have hlater := run_later hc.created (H ++ [.hear w stamp]) [.listen i] d.request q1 g1
  have still : ∀ (h : List VEvent) (e : VEvent), (∀ t' i', e ≠ .step t' i') → (∀ t' r', e ≠ .wait t' r') →
      (after cfg m0 h).threads t = .sleep d.request timeout since →
      (after cfg m0 (h ++ [e])).threads t = .sleep d.request timeout since := by
    intro h e hne hne' hsl
    rcases step_goes hc.created h e t with hg | ⟨r', he, hg⟩ | ⟨i', f, he, -, -⟩
    · rw [hg]; exact hsl
    · exact absurd he (hne' _ _)
    · exact absurd he (hne _ _)
  have s2 := still (H ++ [.hear w stamp]) (.listen i) (by simp) (by simp) (still H (.hear w stamp) (by simp) (by simp) ht)
  have happ : H ++ [.hear w stamp, .listen i, .step t i1, .step t i2] =
      H ++ [.hear w stamp] ++ [.listen i] ++ [.step t i1] ++ [.step t i2] := by simp
  rw [happ]
  generalize H ++ [VEvent.hear w stamp] ++ [.listen i] = H2 at *
  obtain ⟨q3, hq3, hl3⟩ := hlater
  rw [g2] at hq3; cases hq3
  have s3 : (after cfg m0 (H2 ++ [.step t i1])) = (after cfg m0 H2).goto t (.finish d.request) := by
    rw [after_snoc]
    show (after cfg m0 H2).advance cfg t i1 = _
    unfold VSys.advance
    rw [s2]
    simp only [g2, g3, if_true]
  have hresp : ∃ y, q2.response = some y ∧ Spec.answer y q2.pdu = Spec.answer x q1.pdu := by
    unfold Spec.verdict at g4
    cases hr : q2.response with
    | some y => rw [hr] at g4; simp only [Option.some.injEq] at g4; exact ⟨y, rfl, g4⟩
    | none =>
      rw [hr] at g4
      cases he : q2.exception with
      | none => rw [he] at g4; cases g4
      | some ex =>
        rw [he] at g4
        simp only [Option.some.injEq] at g4
        unfold Spec.answer at g4
        split at g4 <;> cases g4
  obtain ⟨y, hy1, hy2⟩ := hresp
  obtain ⟨base, hp, hsound⟩ := hc.created.sound H2
  have hclose := (hsound.accounts.close_ok hp g2).1
  rw [after_snoc, s3]
  show (VSys.advance cfg ((after cfg m0 H2).goto t (.finish d.request)) t i2).threads t = _
  unfold VSys.advance
  have e1 : ((after cfg m0 H2).goto t (.finish d.request)).threads t = .finish d.request := setAt_same _ _ _
  have e2 : ((after cfg m0 H2).goto t (.finish d.request)).mgr = (after cfg m0 H2).mgr := rfl
  rw [e1]
  simp only [e2, g2, g3, hy1]
  rw [finish_eq]
  simp only [setAt_same, e2, g2]
  rw [close_eq, hclose]
  simp only
  rw [← hy2]
  rfl

end Snmp
