import Verif.Props.V3Module
import Verif.Props.Sent
/-!
# C79: what a v3 manager puts on the wire
-/

namespace Snmp

variable {cfg : VCfg} {m0 : VMgr}

/-! ## Specification -/

/-- What the environment decided in a step, if it was asked. -/
def Spec.inputs : VEvent → Option SendIn
  | .send _ _ _ _ _ _ _ i => some i
  | .step _ i => some i
  | .listen i => some i
  | _ => none

/-- What `randint` returned in a step, if it was asked: to this manager's requests, or to another manager's. -/
def Spec.drawn : VEvent → Option (Nat → Nat)
  | .other (.send _ _ _ _ draws _) => some draws
  | e => (Spec.inputs e).map SendIn.draws

/-- The history is one that can occur: `randint` returned numbers in its range, and the user asked for PDUs with fields
in range and sendable bindings, and not for privacy without authentication. -/
def Spec.Possible (h : List VEvent) : Prop :=
  (∀ e ∈ h, ∀ d, Spec.drawn e = some d → ∀ k, Spec.Draw 31 (d k)) ∧
  ∀ pdu user level timeout period t0 r0 i, VEvent.send pdu user level timeout period t0 r0 i ∈ h →
    Spec.PduSendable pdu ∧ (level.priv = true → level.auth = true)

/-- The message processor of `m0` was seeded by `randint`. -/
def Spec.Seeded (m0 : VMgr) : Prop := 
  ∃ r k, Spec.Draw 31 r ∧ m0.cache.gen = (NumGen.new 31 false r).after k

/-- The datagram `w` is an SNMPv3 message naming no engine and no user, without security, with an empty get request:
a discovery message. It tells nothing of the request. -/
def Spec.DiscoveryDatagram (w : Bytes) : Prop :=
  ∃ x p s, V3Message.decode (.bytes w) = .ok x ∧ UsmParams.decode x.securityParameters = .ok p ∧
    x.header.flags.level = noAuthNoPriv ∧ p.engineID = [] ∧ p.userName = [] ∧ p.signature = [] ∧ p.salt = [] ∧
    x.scopedPDU = some s ∧ s.contextEngineID = [] ∧ s.contextName = [] ∧
    Spec.SamePdu { type := .getRequest } s.pdu

/-- The datagram `w` is an SNMPv3 message naming the engine `engineID` and the user of the request `q`, at exactly the
security level of the request. If this has no privacy the PDU in it is that of the request; if it has, no PDU can be
read in it. With authentication it carries a valid signature under the keys that were configured for this user in the
manager's namespace, localised to the engine; with privacy what is in it is the request's PDU encrypted under these
keys. -/
def Spec.RequestDatagram (cfg : VCfg) (h0 : List Spec.UsmOp) (h : List VEvent) (q : VReq) (engineID w : Bytes) : Prop :=
  (∃ x p, V3Message.decode (.bytes w) = .ok x ∧ UsmParams.decode x.securityParameters = .ok p ∧
    x.header.flags.level = q.level ∧ p.engineID = engineID ∧ p.userName = q.userName ∧
    (q.level.priv = false → ∃ s, x.scopedPDU = some s ∧ s.contextEngineID = engineID ∧ s.contextName = [] ∧
      Spec.SamePdu q.pdu s.pdu) ∧
    (q.level.priv = true → x.scopedPDU = none ∧ x.encryptedPDU.isSome = true)) ∧
  (q.level.auth = true → ∃ user, Spec.KeysOf cfg h0 h cfg.ns q.userName engineID user ∧
    Spec.Authentic cfg.crypto user w q.level.priv ∧
    (q.level.priv = true → Spec.Hides cfg.backend cfg.crypto user ⟨q.pdu, engineID, []⟩ w))

theorem Spec.drawn_of {e : VEvent} {i : SendIn} (h : Spec.inputs e = some i) : Spec.drawn e = some i.draws := by
  cases e <;> cases h <;> rfl

namespace VSys

open VMgr

/-- No datagram leaves, and the generator of message IDs is not used. -/
structure Mute (m m' : VMgr) : Prop where
  sent : m'.sent = m.sent
  gen : m'.cache.gen = m.cache.gen

theorem Mute.refl (m : VMgr) : Mute m m := ⟨rfl, rfl⟩
theorem Mute.trans {a b c : VMgr} (h : Mute a b) (h' : Mute b c) : Mute a c :=
  ⟨h'.sent.trans h.sent, h'.gen.trans h.gen⟩
theorem Mute.after {a b c : VMgr} (h' : Mute b c) (h : Mute a b) : Mute a c := h.trans h'

/-- A message is prepared for request `r`, whose attributes are then `q1`, while the security module is in state `usm1`;
it may have left. -/
structure Emits (cfg : VCfg) (m m' : VMgr) (r : Nat) (i : SendIn) : Prop where
  emits : ∃ (q1 : VReq) (c : Cache V3Entry) (usm1 : Usm) (n : Nat) (res : Res V3Message) (c' : Cache V3Entry)
      (id : Option Int) (cause : Why),
    c.gen = m.cache.gen ∧ c'.gen = m'.cache.gen ∧ m.usm.Does cfg.backend cfg.crypto usm1 ∧
    prepareOutgoingV3 cfg.maxSize c q1.content n (q1.entry n).engineID (q1.entry n).securityName
      (q1.entry n).securityLevel .usm [] i.draws = (res, c', id) ∧
    (m'.sent = m.sent ∨ ∃ w msg, m'.sent = ⟨r, n, w⟩ :: m.sent ∧ res = .ok msg ∧
      usm1.prepareOutgoing cfg.backend cfg.crypto msg (q1.entry n).engineID (q1.entry n).securityName i.stamp =
        (.ok w, m'.usm) ∧
      (∃ q', m'.reqs r = some q' ∧ q'.pdu = q1.pdu ∧ q'.userName = q1.userName ∧ q'.level = q1.level ∧
        q'.engineID = q1.engineID ∧ n ∈ q'.messages) ∧
      m'.msgs n = some ⟨r, id, q1.shared, cause⟩ ∧ n = m.nextMsg ∧
      ∀ k, id = some k → m'.cache.outstanding k = some (q1.entry n))

theorem Emits.left {a b c : VMgr} {r : Nat} {i : SendIn} (h : Mute a b) (hu : b.usm = a.usm)
    (hn : b.nextMsg = a.nextMsg) (h' : Emits cfg b c r i) : Emits cfg a c r i := by
  obtain ⟨q1, c0, u1, n, res, c', id, cause, h1, h2, h3, h4, h5⟩ := h'
  refine ⟨q1, c0, u1, n, res, c', id, cause, h1.trans h.gen, h2, by rw [← hu]; exact h3, h4, ?_⟩
  rw [← h.sent, ← hn]; exact h5

theorem Emits.right {a b c : VMgr} {r : Nat} {i : SendIn} (h : Emits cfg a b r i) (h' : Mute b c)
    (hk : b.sent = a.sent ∨ c.usm = b.usm ∧ c.reqs = b.reqs ∧ c.msgs = b.msgs ∧ c.cache = b.cache) :
    Emits cfg a c r i := by
  obtain ⟨q1, c0, u1, n, res, c', id, cause, h1, h2, h3, h4, h5⟩ := h
  refine ⟨q1, c0, u1, n, res, c', id, cause, h1, h2.trans h'.gen.symm, h3, h4, ?_⟩
  rw [h'.sent]
  rcases hk with hk | ⟨hk, hk', hk2, hk3⟩
  · exact .inl hk
  · rw [hk, hk', hk2, hk3]; exact h5

theorem sends_emits {m m' : VMgr} {r : Nat} {q : VReq} {engineID : Option Bytes} {cause : Why} {i : SendIn}
    {res : Res Unit} (h : VMgr.Sends cfg m r q engineID cause i res m') : Mute m m' ∨ Emits cfg m m' r i := by
  cases h with
  | refused e err usm he hc => exact .inl ⟨rfl, rfl⟩
  | made q1 usm1 usm cache id sent res he hb hu hs hpo hdo =>
    refine .inr ⟨⟨q1, m.cache, usm1, m.nextMsg, _, cache, id, cause, rfl, rfl, ?_, Prod.ext rfl hpo, ?_⟩⟩
    · rcases he with ⟨-, -, rfl⟩ | ⟨e, -, hc, -⟩
      · exact .refl _
      · have := changeEngine_does cfg m.usm q.engineID (some e) i.seed
        rw [hc] at this
        exact this
    · rcases hs with ⟨-, w, msg, h1, h2, h3⟩ | ⟨-, h1⟩
      · refine .inr ⟨w, msg, h1, h2, h3, ⟨_, setAt_same _ _ _, rfl, rfl, rfl, rfl, List.mem_cons_self ..⟩,
          setAt_same _ _ _, rfl, fun k hk => ?_⟩
        subst hk
        cases hb with
        | booked id h0 h1 h => show cache.outstanding k = _; rw [h]; simp
      · exact .inl h1

theorem sends_error {m m' : VMgr} {r : Nat} {q : VReq} {engineID : Option Bytes} {cause : Why} {i : SendIn}
    {err : PyErr} (h : VMgr.Sends cfg m r q engineID cause i (.error err) m') : m'.sent = m.sent := by
  cases h with
  | refused e err usm he hc => rfl
  | made q1 usm1 usm cache id sent res he hb hu hs hpo hdo =>
    rcases hs with ⟨h1, -⟩ | ⟨-, h1⟩
    · cases h1
    · exact h1

theorem mute_propose (m : VMgr) (n : Option MState) : Mute m (m.propose n) := by rw [propose_eq]; exact ⟨rfl, rfl⟩
theorem mute_updateState (m : VMgr) : Mute m m.updateState := by rw [updateState_eq]; exact ⟨rfl, rfl⟩

theorem closeMessages_gen (msgs : Nat → Option VMsg) (l : List Nat) (c : Cache V3Entry) :
    (closeMessages msgs l c).gen = c.gen := by
  induction l generalizing c with
  | nil => rfl
  | cons m l ih =>
    unfold closeMessages
    simp only
    rw [ih]
    split <;> rfl

theorem mute_closed (m : VMgr) (r : Nat) (q : VReq) : Mute m (m.closed cfg r q) :=
  ⟨rfl, closeMessages_gen _ _ _⟩

theorem mute_closing (m : VMgr) (r : Nat) : Mute m (m.closing cfg r) := by
  unfold closing
  cases hq : m.reqs r with
  | none => exact .refl _
  | some q => exact mute_closed m r q

theorem mute_finish (s : VSys) (t r : Nat) (o : VOutcome) : Mute s.mgr (s.finish cfg t r o).mgr := by
  rw [finish_eq]; exact mute_closing s.mgr r

/-- Every step prepares no message, or one, with the inputs of the step. -/
theorem move_emits {s s' : VSys} {e : VEvent} (hno : ∀ o, e ≠ .other o) (hm : Move cfg s e s') :
    Mute s.mgr s'.mgr ∨ ∃ r i, Spec.inputs e = some i ∧ Emits cfg s.mgr s'.mgr r i := by
  have good : ∀ {a b : VMgr} {r : Nat} {q : VReq} {engineID : Option Bytes} {cause : Why} {i : SendIn}
      {res : Res Unit}, Mute s.mgr a → a.usm = s.mgr.usm → a.nextMsg = s.mgr.nextMsg → VMgr.Sends cfg a r q engineID cause i res b →
      Mute b s'.mgr → s'.mgr.usm = b.usm → s'.mgr.reqs = b.reqs ∧ s'.mgr.msgs = b.msgs ∧ s'.mgr.cache = b.cache →
      Spec.inputs e = some i → Mute s.mgr s'.mgr ∨ ∃ r i, Spec.inputs e = some i ∧ Emits cfg s.mgr s'.mgr r i := by
    intro a b r q engineID cause i res h1 hu hn h2 h3 h4 h5 h6
    rcases sends_emits h2 with h | h
    · exact .inl ((h1.trans h).trans h3)
    · exact .inr ⟨r, i, h6, (h.left h1 hu hn).right h3 (.inr ⟨h4, h5⟩)⟩
  have bad : ∀ {a b : VMgr} {r : Nat} {q : VReq} {engineID : Option Bytes} {cause : Why} {i : SendIn}
      {err : PyErr}, Mute s.mgr a → a.usm = s.mgr.usm → a.nextMsg = s.mgr.nextMsg → VMgr.Sends cfg a r q engineID cause i (.error err) b →
      Mute b s'.mgr →
      Spec.inputs e = some i → Mute s.mgr s'.mgr ∨ ∃ r i, Spec.inputs e = some i ∧ Emits cfg s.mgr s'.mgr r i := by
    intro a b r q engineID cause i res h1 hu hn h2 h3 h6
    rcases sends_emits h2 with h | h
    · exact .inl ((h1.trans h).trans h3)
    · exact .inr ⟨r, i, h6, (h.left h1 hu hn).right h3 (.inl ((sends_error h2).trans h1.sent))⟩
  have ku : ∀ m : VMgr, m.updateState.reqs = m.reqs ∧ m.updateState.msgs = m.msgs ∧ m.updateState.cache = m.cache :=
    fun m => by rw [updateState_eq]; exact ⟨rfl, rfl, rfl⟩
  have kp : ∀ (m : VMgr) n, (m.propose n).nextMsg = m.nextMsg := fun m n => by rw [propose_eq]
  cases hm
  case issued pdu user level timeout period t0 r0 i q hq hl hd next hs m' hm' =>
    exact good (Mute.after (mute_propose (s.mgr.issue q (VMgr.generateRequestID s.mgr.gen r0).2) next) ⟨rfl, rfl⟩)
      (propose_usm _ _) (kp _ _) hm' (Mute.after (mute_updateState _) ⟨rfl, rfl⟩) (updateState_usm _) (ku _) rfl
  case issueFailed pdu user level timeout period t0 r0 i q hq hl hd next hs m' err hm' =>
    exact bad (Mute.after (mute_propose (s.mgr.issue q (VMgr.generateRequestID s.mgr.gen r0).2) next) ⟨rfl, rfl⟩)
      (propose_usm _ _) (kp _ _) hm' ⟨rfl, rfl⟩ rfl
  case bodyZero t i r x rest q ht ha hx he hn hx' hz =>
    exact .inl (Mute.after (mute_finish _ t r _) ⟨rfl, rfl⟩)
  case bodySent t i r x rest q ht ha hx he hn hx' hz m' hm' =>
    exact good (.refl _) rfl rfl hm' ⟨rfl, rfl⟩ rfl ⟨rfl, rfl, rfl⟩ rfl
  case bodyFailed t i r x rest q ht ha hx he hn hx' hz m' err hm' =>
    exact bad (.refl _) rfl rfl hm' (Mute.after (mute_finish _ t r _) ⟨rfl, rfl⟩) rfl
  case pokeBegin t i r ht hl =>
    exact .inl (Mute.after (b := (s.mgr.propose s.mgr.state.onInactive).updateState) ⟨rfl, rfl⟩
      ((mute_propose s.mgr _).trans (mute_updateState _)))
  case pokeSent t i r l x a q ht hx next hs m' hm' =>
    exact good (mute_propose _ next) (propose_usm _ _) (kp _ _) hm' (Mute.after (mute_updateState _) ⟨rfl, rfl⟩)
      (updateState_usm _) (ku _) rfl
  case pokeFailed t i r l x a q ht hx next hs m' err hm' =>
    exact bad (mute_propose _ next) (propose_usm _ _) (kp _ _) hm' (Mute.after (mute_finish _ t r _) ⟨rfl, rfl⟩) rfl
  case answered t i r q x ht hq he hx => exact .inl (mute_finish _ t r _)
  case reported t i r q ex ht hq he => exact .inl (mute_finish _ t r _)
  case timedOut t i r q ht hq he => exact .inl (mute_finish _ t r _)
  case reportFailed i m x r q cause sync hr hl all next hs m' err hm' =>
    exact bad (mute_propose _ next) (propose_usm _ _) (kp _ _) hm' ⟨rfl, rfl⟩ rfl
  case reportOne i m x r q cause sync hr hl next hs m' hm' =>
    exact good (mute_propose _ next) (propose_usm _ _) (kp _ _) hm' ⟨rfl, rfl⟩ rfl ⟨rfl, rfl, rfl⟩ rfl
  case reportAll i m x r q cause sync hr hl next hs m' hm' =>
    refine good (mute_propose _ next) (propose_usm _ _) (kp _ _) hm' ?_ ?_ ?_ rfl
    · exact Mute.after (b := ({ m' with active := Heap.heapify m'.env m'.active } : VMgr).updateState)
        ⟨rfl, rfl⟩ (Mute.after (mute_updateState _) ⟨rfl, rfl⟩)
    · exact updateState_usm _
    · exact ku _
  case responseBad i m x msg q hl hmm hq hi hlk err m' hp =>
    rcases processResponse_cases cfg s.mgr x i.seed with ⟨_, -, h'⟩ | ⟨_, _, _, -, -, h'⟩ | ⟨_, _, -, -, h'⟩ | ⟨-, h'⟩ <;>
      rw [hp] at h' <;> cases h' <;> exact .inl ⟨rfl, rfl⟩
  case responded i m x msg q hl hmm hq hi hlk m' hp =>
    rcases processResponse_cases cfg s.mgr x i.seed with ⟨_, -, h'⟩ | ⟨_, _, _, -, -, h'⟩ | ⟨_, _, -, -, h'⟩ | ⟨-, h'⟩ <;>
      rw [hp] at h' <;> cases h' <;> exact .inl ⟨rfl, rfl⟩
  case flushSent i r eid sync l x q hl hu hx m' hm' =>
    exact good (a := { s.mgr with unsent := l }) ⟨rfl, rfl⟩ rfl rfl hm' ⟨rfl, rfl⟩ rfl ⟨rfl, rfl, rfl⟩ rfl
  case flushFailed i r eid sync l x q hl hu hx m' err hm' =>
    exact bad (a := { s.mgr with unsent := l }) ⟨rfl, rfl⟩ rfl rfl hm' ⟨rfl, rfl⟩ rfl
  case collected r q hq => exact .inl ((mute_closed (cfg := cfg) s.mgr r q).trans ⟨rfl, rfl⟩)
  case other o usm cache n held ho => exact absurd rfl (hno o)
  all_goals exact .inl ⟨rfl, rfl⟩

/-- Every step sends nothing for a request of this manager, or prepares a message for one. -/
theorem move_sends {s s' : VSys} {e : VEvent} (hm : Move cfg s e s') :
    s'.mgr.sent = s.mgr.sent ∨ ∃ r i, Spec.inputs e = some i ∧ Emits cfg s.mgr s'.mgr r i := by
  by_cases hno : ∀ o, e ≠ .other o
  · rcases move_emits hno hm with h | h
    · exact .inl h.sent
    · exact .inr h
  · simp only [not_forall, not_not] at hno
    obtain ⟨o, rfl⟩ := hno
    cases hm with
    | other usm cache n held ho => exact .inl rfl

/-! ## Histories -/

theorem prepareOutgoingV3_gen (maxSize : Int) (c : Cache V3Entry) (pdu : Pdu) (handle : Nat) (engineID name : Bytes)
    (level : SecurityLevel) (draws : Nat → Nat) (hg : GenOk v3Proto c.gen) (hd : ∀ k, Spec.Draw 31 (draws k)) :
    GenOk v3Proto (prepareOutgoingV3 maxSize c pdu handle engineID name level .usm [] draws).2.1.gen := by
  unfold prepareOutgoingV3
  split
  · have hw := cacheLoop_width v3Proto (by decide) 10 c ⟨engineID, [], handle, name, .usm, level⟩ draws hg hd
    simp only [v3Proto] at hw
    unfold Cache.cache
    generalize Cache.cacheLoop 31 false 10 c ⟨engineID, [], handle, name, .usm, level⟩ draws = y at *
    obtain ⟨res, c1⟩ := y
    cases res <;> exact hw.1
  · exact hg.next

theorem gen_ok (hs : Spec.Seeded m0) (h : List VEvent) (hh : Spec.Possible h) :
    GenOk v3Proto (after cfg m0 h).mgr.cache.gen := by
  induction h using List.reverseRecOn with
  | nil =>
    obtain ⟨r, k, hr, hg⟩ := hs
    exact ⟨r, k, hr.1, hr.2, hg⟩
  | append_singleton h e ih =>
    have ih := ih ⟨fun e' he' => hh.1 e' (by simp [he']), fun pdu user level timeout period t0 r0 i hi =>
      hh.2 pdu user level timeout period t0 r0 i (by simp [hi])⟩
    rw [after_snoc]
    rcases step_move cfg (after cfg m0 h) e with hm | hm
    · rw [hm]; exact ih
    · by_cases hno : ∀ o, e ≠ .other o
      case neg =>
        simp only [not_forall, not_not] at hno
        obtain ⟨o, rfl⟩ := hno
        generalize (after cfg m0 h).step cfg (.other o) = s' at *
        cases hm with
        | other usm cache n held ho =>
          cases ho with
          | sent pdu engineID user level draws stamp usm hu =>
            exact prepareOutgoingV3_gen cfg.maxSize _ pdu _ engineID user level draws ih
              (hh.1 (.other (.send pdu engineID user level draws stamp)) (by simp) draws rfl)
          | _ => exact ih
      rcases move_emits hno hm with h1 | ⟨r, i, hi, ⟨q1, c, u1, n, res, c', id, cause, h1, h2, -, h3, -⟩⟩
      · rw [h1.gen]; exact ih
      · rw [← h2]
        have := prepareOutgoingV3_gen cfg.maxSize c q1.content n (q1.entry n).engineID (q1.entry n).securityName
          (q1.entry n).securityLevel i.draws (by rw [h1]; exact ih) (hh.1 e (by simp) _ (Spec.drawn_of hi))
        rw [h3] at this
        exact this

theorem fields_id {p : Pdu} {id : Int} (h : Spec.PduSendable p) : Spec.PduSendable { p with requestID := id } := h

theorem empty_sendable : Spec.PduSendable { type := .getRequest } := by
  refine ⟨?_, by simp⟩
  unfold Spec.FieldsOk
  simp

end VSys

open VSys

theorem Spec.RequestDatagram.later {h0 : List Spec.UsmOp} {h : List VEvent} {q q' : VReq} {engineID w : Bytes}
    (hk : Spec.RequestDatagram cfg h0 h q engineID w) (h' : List VEvent) (hu : q'.userName = q.userName)
    (hl : q'.level = q.level) (hp : q'.pdu = q.pdu) : Spec.RequestDatagram cfg h0 (h ++ h') q' engineID w := by
  unfold Spec.RequestDatagram at *
  rw [hu, hl, hp]
  exact ⟨hk.1, fun ha => by obtain ⟨user, k1, k2⟩ := hk.2 ha; exact ⟨user, k1.later h', k2⟩⟩

/-- **C79**, one step: what a step hands to the channel for a request is a discovery message, which tells nothing of
the request, if the request then has no engine; else a message to this engine, in the name of the request's
user, at exactly the request's security level, with the request's PDU, signed and encrypted (if so asked) with the
user's keys. -/
theorem C79_step {h0 : List Spec.UsmOp} (hc : Spec.CreatedOn cfg h0 m0) (hs : Spec.Seeded m0) (hmax : 484 ≤ cfg.maxSize)
    (h : List VEvent) (e : VEvent) (hh : Spec.Possible (h ++ [e])) (d : Sent)
    (hd : (after cfg m0 (h ++ [e])).mgr.sent = d :: (after cfg m0 h).mgr.sent) :
    ∃ q, (after cfg m0 (h ++ [e])).mgr.reqs d.request = some q ∧
      (q.engineID = none → Spec.DiscoveryDatagram d.wire) ∧
      ∀ engineID, q.engineID = some engineID → Spec.RequestDatagram cfg h0 (h ++ [e]) q engineID d.wire := by
  have hh' : Spec.Possible h := ⟨fun e' he' => hh.1 e' (by simp [he']), fun pdu user level timeout period t0 r0 i hi =>
    hh.2 pdu user level timeout period t0 r0 i (by simp [hi])⟩
  have nocons : ∀ (l : List Sent), l ≠ d :: l := fun l hl => by
    have := congrArg List.length hl
    simp at this
  obtain ⟨base, hp, hsound⟩ := hc.created.sound (h ++ [e])
  have hg := gen_ok (cfg := cfg) hs h hh'
  have hkeys := keys_of hc h
  rw [after_snoc] at hd hsound ⊢
  rcases step_move cfg (after cfg m0 h) e with hm | hm
  · rw [hm] at hd; exact absurd hd (nocons _)
  rcases move_sends hm with h1 | ⟨r, i, hi, ⟨q1, c, u1, n, res, c', id, cause, h1, h2, hdo, h3, h4⟩⟩
  · rw [h1] at hd; exact absurd hd (nocons _)
  rcases h4 with h4 | ⟨w, msg, h4, rfl, hw, ⟨q', h5, h6, h7, h8, h9, -⟩, -, -, -⟩
  · rw [h4] at hd; exact absurd hd (nocons _)
  rw [h4] at hd
  obtain ⟨rfl, -⟩ := List.cons.inj hd
  refine ⟨q', h5, ?_⟩
  obtain ⟨pdu, timeout, t0, r0, i0, id0, k1, k2, -⟩ := (hsound.reqs _ _ h5).issued
  obtain ⟨k3, k4⟩ := hh.2 _ _ _ _ _ _ _ _ k1
  have hpdu : Spec.PduSendable q1.pdu := by rw [← h6, k2]; exact fields_id k3
  have hlev : q1.level.priv = true → q1.level.auth = true := by rw [← h8]; exact k4
  obtain ⟨r1, k, g1, g2, g3⟩ := hg
  have hw' : (u1.prepareOutgoing cfg.backend cfg.crypto msg (q1.entry n).engineID (q1.entry n).securityName
    i.stamp).1 = .ok w := by rw [hw]
  constructor
  · intro he
    rw [h9] at he
    have e1 : q1.entry n = ⟨[], [], n, [], .usm, noAuthNoPriv⟩ := by unfold VReq.entry; rw [he]
    have e2 : q1.content = { type := .getRequest } := by unfold VReq.content; rw [he]
    rw [e1] at h3 hw'
    rw [e2] at h3
    obtain ⟨x, p, c1, c2, c3, c4, c5, c6, c7, c8, c9, c10, c11, c12, c13⟩ := C78 u1 cfg.backend cfg.crypto hc.1 cfg.maxSize hmax c
      c' r1 k ⟨g1, g2⟩ (h1.trans g3) i.draws (hh.1 e (by simp) _ (Spec.drawn_of hi)) _ empty_sendable n [] [] noAuthNoPriv
      (by decide) [] msg id h3 i.stamp w hw'
    obtain ⟨s, d1, d2, d3, d4⟩ := c10 rfl
    obtain ⟨-, -, f1, f2⟩ := c12 rfl
    exact ⟨x, p, s, c1, c2, c3, c8, c9, f1, f2, d1, d2, d3, d4⟩
  · intro eid he
    rw [h9] at he
    have e1 : q1.entry n = ⟨eid, [], n, q1.userName, .usm, q1.level⟩ := by unfold VReq.entry; rw [he]
    have e2 : q1.content = q1.pdu := by unfold VReq.content; rw [he]
    rw [e1] at h3 hw' hw
    rw [e2] at h3
    obtain ⟨x, p, c1, c2, c3, c4, c5, c6, c7, c8, c9, c10, c11, c12, c13⟩ := C78 u1 cfg.backend cfg.crypto hc.1 cfg.maxSize hmax c
      c' r1 k ⟨g1, g2⟩ (h1.trans g3) i.draws (hh.1 e (by simp) _ (Spec.drawn_of hi)) _ hpdu n eid q1.userName q1.level
      hlev [] msg id h3 i.stamp w hw'
    refine ⟨⟨x, p, c1, c2, ?_⟩, ?_⟩
    · rw [h8, h7, h6]
      exact ⟨c3, c8, c9, c10, c11⟩
    · rw [h8, h7, h6]
      intro ha
      obtain ⟨user, a1, a2, a3⟩ := C78_protected u1 cfg.backend cfg.crypto hc.1 cfg.maxSize hmax c
        c' r1 k ⟨g1, g2⟩ (h1.trans g3) i.draws (hh.1 e (by simp) _ (Spec.drawn_of hi)) _ hpdu n eid q1.userName q1.level
        hlev [] msg id h3 i.stamp w ha hw'
      obtain ⟨ns, kk, b1, b2⟩ := hkeys u1 hdo eid q1.userName user a1
      have hreg := u1.prepareOutgoing_reg cfg.backend cfg.crypto msg eid q1.userName i.stamp
      rw [hw] at hreg
      have hpos : 0 < Spec.holders ((after cfg m0 h).step cfg e).mgr eid := by
        have hlt := hsound.accounts.lt h5
        obtain ⟨rest, hrest⟩ := naming_split ((after cfg m0 h).step cfg e).mgr.engineID
          ((after cfg m0 h).step cfg e).mgr.reqs hlt
        have := hrest q' eid
        rw [setAt_self _ _ _ h5] at this
        unfold Spec.holders
        rw [this, h9, he]
        simp [one]
      obtain ⟨kk', -, hheld⟩ := hsound.accounts.ledger.held hp hpos
      rw [hreg eid, b1] at hheld
      have : ns = cfg.ns := by
        simp only [Option.some.injEq, Prod.mk.injEq] at hheld
        exact hheld.2
      subst this
      exact ⟨user, b2.later [e], a2, a3⟩

/-- What a step adds to the datagrams handed to the channel: nothing, or one. -/
theorem VSys.step_sent (h : List VEvent) (e : VEvent) :
    (after cfg m0 (h ++ [e])).mgr.sent = (after cfg m0 h).mgr.sent ∨
      ∃ d, (after cfg m0 (h ++ [e])).mgr.sent = d :: (after cfg m0 h).mgr.sent := by
  rw [after_snoc]
  rcases step_move cfg (after cfg m0 h) e with hm | hm
  · rw [hm]; exact .inl rfl
  rcases move_sends hm with h1 | ⟨r, i, hi, ⟨q1, c, u1, n, res, c', id, cause, -, -, -, -, h4⟩⟩
  · exact .inl h1
  · rcases h4 with h4 | ⟨w, msg, h4, -⟩
    · exact .inl h4
    · exact .inr ⟨_, h4⟩

/-- **C79**: every datagram that a v3 manager handed to the channel for a request is a discovery message, which tells
nothing of the request; or a message to an engine, in the name of the request's user, at exactly the request's
security level, with the request's PDU, signed and encrypted (if so asked) with the user's keys. -/
theorem C79_wire {h0 : List Spec.UsmOp} (hc : Spec.CreatedOn cfg h0 m0) (hs : Spec.Seeded m0) (hmax : 484 ≤ cfg.maxSize)
    (h : List VEvent) (hh : Spec.Possible h) (d : Sent) (hd : d ∈ (after cfg m0 h).mgr.sent) :
    ∃ q, (after cfg m0 h).mgr.reqs d.request = some q ∧
      (Spec.DiscoveryDatagram d.wire ∨ ∃ engineID, Spec.RequestDatagram cfg h0 h q engineID d.wire) := by
  induction h using List.reverseRecOn with
  | nil =>
    obtain ⟨-, engineID, g, c0, n0, seed, hu0, hm⟩ := hc
    have : m0.sent = [] := by
      unfold VMgr.create at hm
      split at hm
      · cases hm
      · cases hm; rfl
    rw [show (after cfg m0 []).mgr.sent = m0.sent from rfl, this] at hd
    cases hd
  | append_singleton h e ih =>
    have hh' : Spec.Possible h := ⟨fun e' he' => hh.1 e' (by simp [he']), fun pdu user level timeout period t0 r0 i hi =>
      hh.2 pdu user level timeout period t0 r0 i (by simp [hi])⟩
    have old : d ∈ (after cfg m0 h).mgr.sent → ∃ q, (after cfg m0 (h ++ [e])).mgr.reqs d.request = some q ∧
        (Spec.DiscoveryDatagram d.wire ∨ ∃ engineID, Spec.RequestDatagram cfg h0 (h ++ [e]) q engineID d.wire) := by
      intro hd
      obtain ⟨q, h1, h2⟩ := ih hh' hd
      obtain ⟨q', h3, h4⟩ := run_later hc.created h [e] d.request q h1
      exact ⟨q', h3, h2.imp id fun ⟨engineID, k⟩ => ⟨engineID, k.later [e] h4.userName h4.level h4.pdu⟩⟩
    rcases step_sent (cfg := cfg) (m0 := m0) h e with h1 | ⟨d', h1⟩
    · rw [h1] at hd; exact old hd
    · rw [h1] at hd
      rcases List.mem_cons.1 hd with rfl | hd
      · obtain ⟨q, h2, h3, h4⟩ := C79_step hc hs hmax h e hh d h1
        refine ⟨q, h2, ?_⟩
        cases he : q.engineID with
        | none => exact .inl (h3 he)
        | some eid => exact .inr ⟨eid, h4 eid he⟩
      · exact old hd

end Snmp
