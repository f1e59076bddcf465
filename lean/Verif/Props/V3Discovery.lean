import Verif.Props.V3Sent
import Verif.Props.V3Kept
/-!
# C80: which requests a v3 manager holds back during discovery
-/

namespace Snmp

variable {cfg : VCfg} {m0 : VMgr}

/-! ## Specification -/

/-- In the step `e` an attempt is made to transmit a request for the first time: in `sendRequest`, or while a thread
goes through the requests held back. -/
def Spec.Attempts (s : VSys) (e : VEvent) : Prop :=
  (∃ pdu user level timeout period t0 r0 i, e = .send pdu user level timeout period t0 r0 i) ∨
  ∃ t i r l a, e = .step t i ∧ s.threads t = .poking r l a

/-- In the step `e` a thread in `wait()`, having found that no request is scheduled for retransmission, turns to the
requests held back. -/
def Spec.Reviews (s : VSys) (e : VEvent) : Prop :=
  ∃ t i r, e = .step t i ∧ s.threads t = .poke r ∧ s.mgr.locked = false

/-- In the step `e` the listening thread hands the message `x` over. -/
def Spec.Hands (s : VSys) (e : VEvent) (x : V3Incoming) : Prop := ∃ i m, e = .listen i ∧ s.listener = .push m x

/-- In the history `h` the listening thread handed the message `x`, accepted by the security module, to a request. -/
def Spec.HandedOver (cfg : VCfg) (m0 : VMgr) (h : List VEvent) (x : V3Incoming) : Prop :=
  ∃ h1 e h2, h = h1 ++ e :: h2 ∧ Spec.Hands (VSys.after cfg m0 h1) e x

/-- A report. -/
def Spec.IsReport (x : V3Incoming) : Prop := x.scopedPDU.pdu.type = .report

/-- What tells a manager of the engine `e0` something: a message from that engine, or an authenticated response. -/
def Spec.Informs (e0 : Bytes) (x : V3Incoming) : Prop :=
  x.securityEngineID = e0 ∨ ¬ Spec.IsReport x ∧ Spec.WithAuth x

/-- The manager `m0` was told nothing of its engine in the history `h`: no report at all was handed over if it was
created without an engine ID; neither a message from its engine nor an authenticated response otherwise. -/
def Spec.Uninformed (cfg : VCfg) (m0 : VMgr) (h : List VEvent) : Prop :=
  ∀ x, Spec.HandedOver cfg m0 h x → (m0.engineID = none → ¬ Spec.IsReport x) ∧
    ∀ e0, m0.engineID = some e0 → ¬ Spec.Informs e0 x

/-- A request was transmitted, and since then no thread turned to the requests held back: the manager waits for what
comes back. -/
def Spec.Probing (cfg : VCfg) (m0 : VMgr) (h : List VEvent) : Prop :=
  ∃ h1 e h2, h = h1 ++ e :: h2 ∧ Spec.Attempts (VSys.after cfg m0 h1) e ∧
    (VSys.after cfg m0 (h1 ++ [e])).mgr.sent ≠ (VSys.after cfg m0 h1).mgr.sent ∧
    ∀ h3 e' h4, h2 = h3 ++ e' :: h4 → ¬ Spec.Reviews (VSys.after cfg m0 (h1 ++ e :: h3)) e'

/-- `sendRequest` in state `s`, leading to `s'`, held the request back: it was put in the queue, nothing was transmitted,
and no exception was raised. -/
def Spec.Holds (s s' : VSys) : Prop :=
  s'.mgr.sent = s.mgr.sent ∧ s'.mgr.fails = s.mgr.fails ∧ Spec.Queued s' s.mgr.nextReq

/-- `sendRequest` in state `s`, leading to `s'`, transmitted the request, or raised an exception; it did not hold the
request back. -/
def Spec.Transmits (s s' : VSys) : Prop :=
  (∃ d, s'.mgr.sent = d :: s.mgr.sent ∧ d.request = s.mgr.nextReq ∧ s'.mgr.fails = s.mgr.fails) ∨
  s'.mgr.fails = .issue s.mgr.nextReq :: s.mgr.fails

/-! ## What a step does to the state of discovery -/

namespace VSys

open VMgr

/-- The effect of a step on the state, the pending state and the engine ID of a manager. -/
inductive Turn (cfg : VCfg) (s : VSys) (e : VEvent) (s' : VSys) : Prop
  | same (h1 : s'.mgr.state = s.mgr.state) (h2 : s'.mgr.next = s.mgr.next) (h3 : s'.mgr.engineID = s.mgr.engineID)
      (h4 : (Spec.Attempts s e ∨ ∃ x, Spec.Hands s e x) → s'.mgr.sent = s.mgr.sent) (h5 : ¬ Spec.Reviews s e)
  | asked (auth : Bool) (next : Option MState) (h : s.mgr.state.onRequest auth = (true, next))
      (h1 : s'.mgr.state = (next <|> s.mgr.next).getD s.mgr.state) (h2 : s'.mgr.next = none)
      (h3 : s'.mgr.engineID = s.mgr.engineID) (h4 : Spec.Attempts s e) (h5 : ¬ Spec.Reviews s e)
      (h6 : s'.mgr.sent ≠ s.mgr.sent)
  | askedFail (auth : Bool) (next : Option MState) (h : s.mgr.state.onRequest auth = (true, next))
      (h1 : s'.mgr.state = s.mgr.state) (h2 : s'.mgr.next = (next <|> s.mgr.next))
      (h3 : s'.mgr.engineID = s.mgr.engineID) (h4 : s'.mgr.sent = s.mgr.sent) (h5 : ¬ Spec.Reviews s e)
      (h6 : s'.mgr.fails ≠ [])
  | review (h : Spec.Reviews s e) (h1 : s'.mgr.state = (s.mgr.state.onInactive <|> s.mgr.next).getD s.mgr.state)
      (h2 : s'.mgr.next = none) (h3 : s'.mgr.engineID = s.mgr.engineID)
      (h4 : s'.mgr.sent = s.mgr.sent)
  | reported (i : SendIn) (m : Nat) (x : V3Incoming) (he : e = .listen i) (hl : s.listener = .push m x)
      (hi : x.scopedPDU.pdu.type.isInternal = true) (all : Bool) (next : Option MState)
      (h : s.mgr.state.onReport s.mgr.engineID x.securityEngineID = .ok (all, next)) (h3 : s'.mgr.engineID = s.mgr.engineID)
      (hs : (s'.mgr.state = s.mgr.state ∧ s'.mgr.next = (next <|> s.mgr.next) ∧
          (all = false ∨ s'.mgr.sent = s.mgr.sent ∧ s'.mgr.fails ≠ [])) ∨
        all = true ∧ s'.mgr.state = (next <|> s.mgr.next).getD s.mgr.state ∧ s'.mgr.next = none)
  | responded (i : SendIn) (m : Nat) (x : V3Incoming) (he : e = .listen i) (hl : s.listener = .push m x)
      (hi : x.scopedPDU.pdu.type.isInternal = false) (next : Option MState)
      (h : s.mgr.state.onResponse s.mgr.engineID x.securityEngineID x.header.flags.level.auth = .ok (true, next))
      (hs : (s'.mgr.state = s.mgr.state ∧ s'.mgr.next = (next <|> s.mgr.next) ∧ s'.mgr.engineID = s.mgr.engineID) ∨
        s'.mgr.state = (next <|> s.mgr.next).getD s.mgr.state ∧ s'.mgr.next = none ∧
        s'.mgr.engineID = some x.securityEngineID)
      (h4 : s'.mgr.sent = s.mgr.sent)
  | dropped (h1 : s'.mgr.state = s.mgr.state) (h2 : s'.mgr.next = s.mgr.next)
      (h3 : s'.mgr.engineID = s.mgr.engineID ∨ s'.mgr.engineID = none) (h : e = .drop) (hd : s'.dropped = true)

theorem attempts_listen {s : VSys} {i : SendIn} : ¬ Spec.Attempts s (.listen i) := by
  rintro (⟨_, _, _, _, _, _, _, _, h⟩ | ⟨_, _, _, _, _, h, -⟩) <;> cases h

theorem reviews_listen {s : VSys} {i : SendIn} : ¬ Spec.Reviews s (.listen i) := by
  rintro ⟨_, _, _, h, -⟩; cases h

theorem attempts_step {s : VSys} {t : Nat} {i : SendIn} {p : VPc} (hp : s.threads t = p) (hn : ∀ r l a, p ≠ .poking r l a) :
    ¬ Spec.Attempts s (.step t i) := by
  rintro (⟨_, _, _, _, _, _, _, _, h⟩ | ⟨t', i', r, l, a, h, h'⟩)
  · cases h
  · cases h; exact hn r l a (hp.symm.trans h')

theorem reviews_step {s : VSys} {t : Nat} {i : SendIn} {p : VPc} (hp : s.threads t = p) (hn : ∀ r, p ≠ .poke r) :
    ¬ Spec.Reviews s (.step t i) := by
  rintro ⟨t', i', r, h, h', -⟩
  cases h; exact hn r (hp.symm.trans h')

theorem hands_step {s : VSys} {t : Nat} {i : SendIn} {x : V3Incoming} : ¬ Spec.Hands s (.step t i) x := by
  rintro ⟨_, _, h, -⟩; cases h

theorem sends_ok {m m' : VMgr} {r : Nat} {q : VReq} {engineID : Option Bytes} {cause : Why} {i : SendIn}
    (h : VMgr.Sends cfg m r q engineID cause i (.ok ()) m') : ∃ w, m'.sent = ⟨r, m.nextMsg, w⟩ :: m.sent := by
  generalize hr : (Except.ok () : Res Unit) = res at h
  cases h with
  | refused e err usm he hc => cases hr
  | made q1 usm1 usm cache id sent res he hb hu hs hpo hdo =>
    rcases hs with ⟨-, w, msg, h1, -⟩ | ⟨⟨_, h1, -⟩, -⟩
    · exact ⟨w, h1⟩
    · rw [h1] at hr; cases hr

theorem move_turn {s s' : VSys} {e : VEvent} (hm : Move cfg s e s') : Turn cfg s e s' := by
  have quiet : ∀ {t i p}, s.threads t = p → (∀ r l a, p ≠ .poking r l a) → (∀ r, p ≠ .poke r) → e = .step t i →
      s'.mgr.state = s.mgr.state → s'.mgr.next = s.mgr.next → s'.mgr.engineID = s.mgr.engineID → Turn cfg s e s' := by
    intro t i p hp h1 h2 he h3 h4 h5
    subst he
    exact .same h3 h4 h5 (fun h => h.elim (fun h => absurd h (attempts_step hp h1)) (fun ⟨_, h⟩ => absurd h hands_step))
      (reviews_step hp h2)
  have other : (∀ t i, e ≠ .step t i) → (¬ Spec.Attempts s e ∧ (∀ x, ¬ Spec.Hands s e x) ∨ s'.mgr.sent = s.mgr.sent) →
      s'.mgr.state = s.mgr.state → s'.mgr.next = s.mgr.next → s'.mgr.engineID = s.mgr.engineID → Turn cfg s e s' := by
    intro h1 h2 h3 h4 h5
    refine .same h3 h4 h5 (fun h => h2.elim (fun h' => h.elim (fun h => absurd h h'.1) (fun ⟨x, h⟩ => absurd h (h'.2 x))) id) ?_
    rintro ⟨t, i, r, he, -⟩
    exact h1 t i he
  cases hm
  case queued => exact other (fun _ _ h => by cases h) (.inr rfl) rfl rfl rfl
  case issued pdu user level timeout period t0 r0 i q hq hl hd next hs m' hm' =>
    have hf := hm'.frame
    obtain ⟨w, hw⟩ := sends_ok hm'
    refine .asked level.auth next hs ?_ ?_ ?_ (.inl ⟨_, _, _, _, _, _, _, _, rfl⟩) ?_ ?_
    · simp only [updateState_eq, hf.state, hf.next, propose_eq]; rfl
    · simp only [updateState_eq]
    · simp only [updateState_eq, hf.engineID, propose_eq]; rfl
    · rintro ⟨t, i, r, he, -⟩; cases he
    · simp [updateState_eq, hw, propose_eq, VMgr.issue]
  case issueFailed pdu user level timeout period t0 r0 i q hq hl hd next hs m' err hm' =>
    have hf := hm'.frame
    refine .askedFail level.auth next hs ?_ ?_ ?_ ?_ ?_ ?_
    · simp only [VMgr.fail, hf.state, propose_eq]; rfl
    · simp only [VMgr.fail, hf.next, propose_eq]; rfl
    · simp only [VMgr.fail, hf.engineID, propose_eq]; rfl
    · simp only [VMgr.fail, sends_error hm', propose_eq]; rfl
    · rintro ⟨t, i, r, he, -⟩; cases he
    · simp [VMgr.fail]
  case wait => exact other (fun _ _ h => by cases h) (.inr rfl) rfl rfl rfl
  case expired t i r q ht hq he => exact quiet ht (by simp) (by simp) rfl rfl rfl rfl
  case unexpired t i r q ht hq he => exact quiet ht (by simp) (by simp) rfl rfl rfl rfl
  case bodyEmpty t i r ht ha => exact quiet ht (by simp) (by simp) rfl rfl rfl rfl
  case bodyDead t i r x rest ht ha hx => exact quiet ht (by simp) (by simp) rfl rfl rfl rfl
  case bodyOver t i r x rest q ht ha hx ho => exact quiet ht (by simp) (by simp) rfl rfl rfl rfl
  case bodyWait t i r x rest q ht ha hx he hn => exact quiet ht (by simp) (by simp) rfl rfl rfl rfl
  case bodyZero t i r x rest q ht ha hx he hn hx' hz =>
    have hf := finish_frame cfg { s with mgr := s.mgr.fail (.refresh x.id) } t r (.raised .zeroDivisionError)
    exact quiet ht (by simp) (by simp) rfl hf.state hf.next hf.engineID
  case bodySent t i r x rest q ht ha hx he hn hx' hz m' hm' =>
    have hf := hm'.frame
    exact quiet ht (by simp) (by simp) rfl hf.state hf.next hf.engineID
  case bodyFailed t i r x rest q ht ha hx he hn hx' hz m' err hm' =>
    have hf := hm'.frame
    have hf' := finish_frame cfg { s with mgr := m'.fail (.refresh x.id) } t r (.raised err)
    exact quiet ht (by simp) (by simp) rfl (hf'.state.trans hf.state) (hf'.next.trans hf.next)
      (hf'.engineID.trans hf.engineID)
  case pokeBegin t i r ht hl =>
    refine .review ⟨t, i, r, rfl, ht, hl⟩ ?_ ?_ ?_ ?_ <;> simp only [updateState_eq, propose_eq]
  case pokeEnd t i r a ht =>
    exact .same rfl rfl rfl (fun _ => rfl) (reviews_step ht (by simp))
  case pokeDead t i r l x a ht hx =>
    exact .same rfl rfl rfl (fun _ => rfl) (reviews_step ht (by simp))
  case pokeQueued t i r l x a q ht hx hs =>
    exact .same rfl rfl rfl (fun _ => rfl) (reviews_step ht (by simp))
  case pokeSent t i r l x a q ht hx next hs m' hm' =>
    have hf := hm'.frame
    obtain ⟨w, hw⟩ := sends_ok hm'
    refine .asked q.level.auth next hs ?_ ?_ ?_ (.inr ⟨_, _, _, _, _, rfl, ht⟩) (reviews_step ht (by simp)) ?_
    · simp only [updateState_eq, hf.state, hf.next, propose_eq]
    · simp only [updateState_eq]
    · simp only [updateState_eq, hf.engineID, propose_eq]
    · simp [updateState_eq, hw, propose_eq]
  case pokeFailed t i r l x a q ht hx next hs m' err hm' =>
    have hf := hm'.frame
    have hf' := finish_frame cfg { s with mgr := { m'.fail (.poke x.id) with locked := false } } t r (.raised err)
    refine .askedFail q.level.auth next hs ?_ ?_ ?_ ?_ (reviews_step ht (by simp)) ?_
    · rw [hf'.state]; simp only [VMgr.fail, hf.state, propose_eq]
    · rw [hf'.next]; simp only [VMgr.fail, hf.next, propose_eq]
    · rw [hf'.engineID]; simp only [VMgr.fail, hf.engineID, propose_eq]
    · have := mute_finish (cfg := cfg) { s with mgr := { m'.fail (.poke x.id) with locked := false } } t r (.raised err)
      rw [this.sent]
      simp only [VMgr.fail, sends_error hm', propose_eq]
    · rw [hf'.fails]; simp [VMgr.fail]
  case woken t i r timeout since q ht hq he => exact quiet ht (by simp) (by simp) rfl rfl rfl rfl
  case slept t i r timeout since q ht hq he hn => exact quiet ht (by simp) (by simp) rfl rfl rfl rfl
  case answered t i r q x ht hq he hx =>
    have hf := finish_frame cfg s t r
      (if x.scopedPDU.pdu.first ≠ 0 then .errorResponse x.scopedPDU.pdu.first x.scopedPDU.pdu.second q.pdu
          else .bindings x.scopedPDU.pdu.bindings)
    exact quiet ht (by simp) (by simp) rfl hf.state hf.next hf.engineID
  case unanswered t i r q ht hq he => exact quiet ht (by simp) (by simp) rfl rfl rfl rfl
  case reported t i r q ex ht hq he =>
    have hf := finish_frame cfg s t r (.reported ex)
    exact quiet ht (by simp) (by simp) rfl hf.state hf.next hf.engineID
  case timedOut t i r q ht hq he =>
    have hf := finish_frame cfg s t r .timeout
    exact quiet ht (by simp) (by simp) rfl hf.state hf.next hf.engineID
  case reportFailed i m x r q cause sync hr hl all next hs m' err hm' =>
    have hf := hm'.frame
    have hpi : s.listener = .push m x ∧ x.scopedPDU.pdu.type.isInternal = true := by cases hr <;> exact ⟨‹_›, ‹_›⟩
    refine .reported i m x rfl hpi.1 hpi.2 all next hs ?_ (.inl ⟨?_, ?_, .inr ⟨?_, ?_⟩⟩)
    · simp only [VMgr.fail, hf.engineID, propose_eq]
    · simp only [VMgr.fail, hf.state, propose_eq]
    · simp only [VMgr.fail, hf.next, propose_eq]
    · simp only [VMgr.fail, sends_error hm', propose_eq]
    · simp [VMgr.fail]
  case reportOne i m x r q cause sync hr hl next hs m' hm' =>
    have hf := hm'.frame
    have hpi : s.listener = .push m x ∧ x.scopedPDU.pdu.type.isInternal = true := by cases hr <;> exact ⟨‹_›, ‹_›⟩
    refine .reported i m x rfl hpi.1 hpi.2 false next hs ?_ (.inl ⟨?_, ?_, .inl rfl⟩)
    · simp only [hf.engineID, propose_eq]
    · simp only [hf.state, propose_eq]
    · simp only [hf.next, propose_eq]
  case reportAll i m x r q cause sync hr hl next hs m' hm' =>
    have hf := hm'.frame
    have hpi : s.listener = .push m x ∧ x.scopedPDU.pdu.type.isInternal = true := by cases hr <;> exact ⟨‹_›, ‹_›⟩
    refine .reported i m x rfl hpi.1 hpi.2 true next hs ?_ (.inr ⟨rfl, ?_, ?_⟩)
    · simp only [updateState_eq, hf.engineID, propose_eq]
    · simp only [updateState_eq, hf.state, hf.next, propose_eq]
    · simp only [updateState_eq]
  case responseBad i m x msg q hl hmm hq hi hlk err m' hp =>
    rcases processResponse_cases cfg s.mgr x i.seed with ⟨_, -, h⟩ | ⟨next, _, usm, h', -, h⟩ | ⟨_, _, -, -, h⟩ |
      ⟨-, h⟩ <;> rw [h] at hp <;> cases hp
    · exact .same rfl rfl rfl (fun _ => rfl) reviews_listen
    · exact .responded i m x rfl hl hi next h' (.inl ⟨rfl, rfl, rfl⟩) rfl
  case responded i m x msg q hl hmm hq hi hlk m' hp =>
    rcases processResponse_cases cfg s.mgr x i.seed with ⟨_, -, h⟩ | ⟨next, _, usm, h', -, h⟩ | ⟨next, _, h', -, h⟩ |
      ⟨-, h⟩ <;> rw [h] at hp <;> cases hp
    · exact .responded i m x rfl hl hi next h' (.inr ⟨rfl, rfl, rfl⟩) rfl
    · exact .same rfl rfl rfl (fun _ => rfl) reviews_listen
  case flushSent i r eid sync l x q hl hu hx m' hm' =>
    have hf := hm'.frame
    exact other (fun _ _ h => by cases h) (.inl ⟨attempts_listen, fun y ⟨_, _, _, h⟩ => by rw [hl] at h; cases h⟩) hf.state hf.next hf.engineID
  case flushFailed i r eid sync l x q hl hu hx m' err hm' =>
    have hf := hm'.frame
    exact other (fun _ _ h => by cases h) (.inl ⟨attempts_listen, fun y ⟨_, _, _, h⟩ => by rw [hl] at h; cases h⟩) hf.state hf.next hf.engineID
  case dropped hd ha =>
    refine .dropped rfl rfl ?_ rfl rfl
    simp only
    split
    · exact .inr rfl
    · exact .inl rfl
  all_goals exact other (fun _ _ h => by cases h) (.inr rfl) rfl rfl rfl


/-! ## Histories -/

theorem snoc_cut {α : Type _} {h h1 h2 : List α} {e e1 : α} :
    h ++ [e] = h1 ++ e1 :: h2 ↔ (h2 = [] ∧ h1 = h ∧ e1 = e) ∨ ∃ h3, h2 = h3 ++ [e] ∧ h = h1 ++ e1 :: h3 := by
  rcases List.eq_nil_or_concat h2 with rfl | ⟨h3, x, rfl⟩
  · rw [List.append_singleton_inj]
    constructor
    · rintro ⟨rfl, rfl⟩; exact .inl ⟨rfl, rfl, rfl⟩
    · rintro (⟨-, rfl, rfl⟩ | ⟨h3, h, -⟩)
      · exact ⟨rfl, rfl⟩
      · simp at h
  · rw [List.concat_eq_append, ← List.cons_append, ← List.append_assoc, List.append_singleton_inj]
    constructor
    · rintro ⟨h, rfl⟩; exact .inr ⟨h3, rfl, h⟩
    · rintro (⟨h, -⟩ | ⟨h4, h, h'⟩)
      · simp at h
      · rw [List.append_singleton_inj] at h
        exact ⟨by rw [h', h.1], h.2.symm⟩

theorem probing_nil : ¬ Spec.Probing cfg m0 [] := by
  rintro ⟨h1, e, h2, h, -⟩; simp at h

theorem probing_snoc (h : List VEvent) (e : VEvent) :
    Spec.Probing cfg m0 (h ++ [e]) ↔
      (Spec.Attempts (after cfg m0 h) e ∧ (after cfg m0 (h ++ [e])).mgr.sent ≠ (after cfg m0 h).mgr.sent) ∨
      (Spec.Probing cfg m0 h ∧ ¬ Spec.Reviews (after cfg m0 h) e) := by
  constructor
  · rintro ⟨h1, e1, h2, he, ha, hs, hr⟩
    rcases snoc_cut.1 he with ⟨rfl, rfl, rfl⟩ | ⟨h3, rfl, rfl⟩
    · exact .inl ⟨ha, hs⟩
    · refine .inr ⟨⟨h1, e1, h3, rfl, ha, hs, ?_⟩, hr h3 e [] rfl⟩
      intro h4 e' h5 he'
      exact hr h4 e' (h5 ++ [e]) (by rw [he']; simp)
  · rintro (⟨ha, hs⟩ | ⟨⟨h1, e1, h3, rfl, ha, hs, hr⟩, hr'⟩)
    · refine ⟨h, e, [], rfl, ha, hs, ?_⟩
      intro h3 e' h4 he; simp at he
    · refine ⟨h1, e1, h3 ++ [e], by simp, ha, hs, ?_⟩
      intro h4 e' h5 he
      rcases snoc_cut.1 he with ⟨rfl, rfl, rfl⟩ | ⟨h6, rfl, rfl⟩
      · exact hr'
      · exact hr h4 e' h6 rfl

theorem handed_snoc {h : List VEvent} {e : VEvent} {x : V3Incoming} (hx : Spec.HandedOver cfg m0 h x) :
    Spec.HandedOver cfg m0 (h ++ [e]) x := by
  obtain ⟨h1, e1, h2, rfl, hx⟩ := hx
  exact ⟨h1, e1, h2 ++ [e], by simp, hx⟩

theorem handed_last {h : List VEvent} {e : VEvent} {x : V3Incoming} (hx : Spec.Hands (after cfg m0 h) e x) :
    Spec.HandedOver cfg m0 (h ++ [e]) x := ⟨h, e, [], rfl, hx⟩

theorem isInternal_report {t : PduType} (h : t.isInternal = true) : t = .report := by
  cases t <;> first | rfl | cases h

/-- In a review the step does something. -/
theorem stay_reviews {s : VSys} {e : VEvent} (hst : s.step cfg e = s) : ¬ Spec.Reviews s e := by
  rintro ⟨t, i, r, rfl, ht, hl⟩
  have h2 : (s.step cfg (.step t i)).threads t = .poke r := by rw [hst]; exact ht
  simp only [step, advance, ht, hl, Bool.false_eq_true, if_false, goto] at h2
  simp [setAt] at h2

/-- Failures are never forgotten. -/
theorem fails_mono {s s' : VSys} {e : VEvent} (h : Move cfg s e s') (hf : s'.mgr.fails = []) : s.mgr.fails = [] := by
  cases h
  case issued next hst m' hm => simpa [updateState_eq, hm.frame.fails, propose_eq, VMgr.issue] using hf
  case issueFailed next hst m' err hm => simp [VMgr.fail] at hf
  case bodyZero t i r x rest q ht ha hx he hn hx' hz =>
    rw [(finish_frame cfg { s with mgr := s.mgr.fail (.refresh x.id) } t r (.raised .zeroDivisionError)).fails] at hf
    simp [VMgr.fail] at hf
  case bodySent m' hm => exact hm.frame.fails ▸ hf
  case bodyFailed t i r x rest q ht ha hx he hn hx' hz m' err hm =>
    rw [(finish_frame cfg { s with mgr := m'.fail (.refresh x.id) } t r (.raised err)).fails] at hf
    simp [VMgr.fail] at hf
  case pokeBegin => simpa [updateState_eq, propose_eq] using hf
  case pokeSent next hst m' hm => simpa [updateState_eq, hm.frame.fails, propose_eq] using hf
  case pokeFailed t i r l x a q ht hx next hst m' err hm =>
    rw [(finish_frame cfg { s with mgr := { m'.fail (.poke x.id) with locked := false } } t r
      (.raised err)).fails] at hf
    simp [VMgr.fail] at hf
  case answered t i r q x ht hq he hx => exact (finish_frame cfg s t r _).fails ▸ hf
  case reported t i r q ex ht hq he => exact (finish_frame cfg s t r _).fails ▸ hf
  case timedOut t i r q ht hq he => exact (finish_frame cfg s t r _).fails ▸ hf
  case reportFailed hr hl all next hst m' err hm => simp [VMgr.fail] at hf
  case reportOne hr hl next hst m' hm => simpa [hm.frame.fails, propose_eq] using hf
  case reportAll hr hl next hst m' hm => simpa [updateState_eq, hm.frame.fails, propose_eq] using hf
  case responseBad i m x msg q hl hm hq hi hlk err m' hp =>
    rcases VMgr.processResponse_cases cfg s.mgr x i.seed with ⟨_, -, h⟩ | ⟨next, _, usm, h', -, h⟩ | ⟨_, _, -, -, h⟩ |
      ⟨-, h⟩ <;> rw [h] at hp <;> cases hp <;> exact hf
  case responded i m x msg q hl hm hq hi hlk m' hp =>
    rcases VMgr.processResponse_cases cfg s.mgr x i.seed with ⟨_, -, h⟩ | ⟨next, _, usm, h', -, h⟩ | ⟨next, _, h', -, h⟩ |
      ⟨-, h⟩ <;> rw [h] at hp <;> cases hp <;> exact hf
  case flushSent m' hm => exact hm.frame.fails ▸ hf
  case flushFailed m' err hm => simp [VMgr.fail] at hf
  all_goals exact hf

/-- What `sendRequest` does with a request. -/
theorem send_outcome (cfg : VCfg) (s : VSys) (pdu : Pdu) (user : Bytes) (level : SecurityLevel) (timeout period t0 : ℚ)
    (r0 : Nat) (i : SendIn) {held : List Ref} (ho : Owner s held) (hl : s.mgr.locked = false) (hd : s.dropped = false) :
    ((s.mgr.state.onRequest level.auth).1 = false → Spec.Holds s (s.step cfg (.send pdu user level timeout period t0 r0 i))) ∧
    ((s.mgr.state.onRequest level.auth).1 = true →
      Spec.Transmits s (s.step cfg (.send pdu user level timeout period t0 r0 i))) := by
  have hm := move_send cfg s pdu user level timeout period t0 r0 i hl hd
  have hst : s.step cfg (.send pdu user level timeout period t0 r0 i) =
      { s with mgr := (s.mgr.sendRequest cfg pdu user level timeout period t0 r0 i).2 } := by
    simp [step, hl, hd]
  rw [hst]
  generalize hs' : ({ s with mgr := (s.mgr.sendRequest cfg pdu user level timeout period t0 r0 i).2 } : VSys) = s' at hm
  clear hs' hst
  cases hm
  case queued q hl hd hs hq =>
    rw [hs]
    refine ⟨fun _ => ⟨rfl, rfl, ?_⟩, fun h => by cases h⟩
    obtain ⟨hh, hf, -⟩ := ho.unlocked hl
    exact ⟨_, ⟨s.mgr.nextReq, WeakKey.new q.nextRefresh⟩, .inr ⟨hf, rfl⟩, by simp, rfl⟩
  case issued q hl hd next m' hs hq hm' =>
    rw [hs]
    refine ⟨(fun h => by cases h), fun _ => .inl ?_⟩
    obtain ⟨w, hw⟩ := sends_ok hm'
    refine ⟨⟨s.mgr.nextReq, s.mgr.nextMsg, w⟩, ?_, rfl, ?_⟩
    · simp only [updateState_eq, hw, propose_eq]; rfl
    · simp only [updateState_eq, hm'.frame.fails, propose_eq]; rfl
  case issueFailed q hl hd next m' err hs hq hm' =>
    rw [hs]
    refine ⟨(fun h => by cases h), fun _ => .inr ?_⟩
    simp only [VMgr.fail, hm'.frame.fails, propose_eq]; rfl

theorem handedOver_cases {h : List VEvent} {e : VEvent} {P : V3Incoming → Prop}
    (hu : ∀ x, Spec.HandedOver cfg m0 (h ++ [e]) x → P x) :
    (∀ x, Spec.HandedOver cfg m0 h x → P x) ∧ ∀ x, Spec.Hands (after cfg m0 h) e x → P x :=
  ⟨fun x hx => hu x (handed_snoc hx), fun x hx => hu x (handed_last hx)⟩

/-! ### Before anything is known of the engine -/

/-- The manager knows no engine ID, and has not been told one. -/
structure Blind (s : VSys) : Prop where
  engineID : s.mgr.engineID = none
  state : s.mgr.state = .inactive ∨ s.mgr.state = .waitForDiscovery
  next : s.mgr.next = none ∨ s.mgr.next = some .waitForDiscovery

theorem Blind.turn {s s' : VSys} {e : VEvent} (hb : Blind s) (ht : Turn cfg s e s')
    (hu : ∀ x, Spec.Hands s e x → ¬ Spec.IsReport x) :
    Blind s' ∧ (Spec.Attempts s e → s'.mgr.sent ≠ s.mgr.sent → s'.mgr.state = .waitForDiscovery) ∧
    (s.mgr.state = .waitForDiscovery → ¬ Spec.Reviews s e → s'.mgr.state = .waitForDiscovery) ∧
    (s'.mgr.fails = [] → s.mgr.next = none → s'.mgr.next = none ∧
      (¬ (Spec.Attempts s e ∧ s'.mgr.sent ≠ s.mgr.sent) → s.mgr.state = .inactive ∨ Spec.Reviews s e →
        s'.mgr.state = .inactive)) := by
  obtain ⟨h1, h2, h3⟩ := hb
  cases ht with
  | same k1 k2 k3 k4 k5 =>
    refine ⟨⟨k3 ▸ h1, k1 ▸ h2, k2 ▸ h3⟩, fun ha hs => absurd (k4 (.inl ha)) hs, fun h _ => k1 ▸ h, fun _ hn =>
      ⟨k2 ▸ hn, fun _ h => ?_⟩⟩
    rcases h with h | h
    · exact k1 ▸ h
    · exact absurd h k5
  | asked auth next h k1 k2 k3 k4 k5 k6 =>
    rcases h2 with hs | hs <;> rw [hs] at h <;> simp [MState.onRequest] at h
    subst h
    have : s'.mgr.state = .waitForDiscovery := by rw [k1]; rfl
    exact ⟨⟨k3 ▸ h1, .inr this, .inl k2⟩, fun _ _ => this, fun _ _ => this, fun _ _ =>
      ⟨k2, fun ha => absurd ⟨k4, k6⟩ ha⟩⟩
  | askedFail auth next h k1 k2 k3 k4 k5 k6 =>
    rcases h2 with hs | hs <;> rw [hs] at h <;> simp [MState.onRequest] at h
    subst h
    refine ⟨⟨k3 ▸ h1, k1 ▸ .inl hs, .inr (by rw [k2]; rfl)⟩, fun _ h => absurd k4 h, ?_, fun h => absurd h k6⟩
    intro h; rw [hs] at h; cases h
  | review h k1 k2 k3 k4 =>
    have hs' : s'.mgr.state = .inactive ∨ s'.mgr.state = .waitForDiscovery := by
      rw [k1]
      rcases h2 with hs | hs <;> rw [hs] <;> rcases h3 with hn | hn <;> rw [hn] <;> simp [MState.onInactive]
    refine ⟨⟨k3 ▸ h1, hs', .inl k2⟩, fun _ h => absurd k4 h, fun _ h' => absurd h h', fun _ hn => ⟨k2, fun _ _ => ?_⟩⟩
    rw [k1, hn]
    rcases h2 with hs | hs <;> rw [hs] <;> simp [MState.onInactive]
  | reported i m x he hl hi all next h k3 hs =>
    exact absurd (isInternal_report hi) (hu x ⟨i, m, he, hl⟩)
  | responded i m x he hl hi next h hs h4 =>
    rcases h2 with hs | hs <;> rw [hs] at h <;> simp [MState.onResponse] at h
  | dropped k1 k2 k3 k4 k5 =>
    subst k4
    have na : ¬ Spec.Attempts s .drop := by rintro (⟨_, _, _, _, _, _, _, _, h⟩ | ⟨_, _, _, _, _, h, -⟩) <;> cases h
    have nr : ¬ Spec.Reviews s .drop := by rintro ⟨_, _, _, h, -⟩; cases h
    refine ⟨⟨?_, k1 ▸ h2, k2 ▸ h3⟩, fun h => absurd h na, fun h _ => k1 ▸ h, fun _ hn => ⟨k2 ▸ hn, fun _ h => ?_⟩⟩
    · rcases k3 with k3 | k3
      · rw [k3, h1]
      · exact k3
    · rcases h with h | h
      · exact k1 ▸ h
      · exact absurd h nr

/-- A manager of an unknown engine, which was not told of one. -/
theorem blind (h0 : Blind (init m0)) (hi : m0.state = .inactive) (hn : m0.next = none) (h : List VEvent)
    (hu : ∀ x, Spec.HandedOver cfg m0 h x → ¬ Spec.IsReport x) :
    Blind (after cfg m0 h) ∧ (Spec.Probing cfg m0 h → (after cfg m0 h).mgr.state = .waitForDiscovery) ∧
    ((after cfg m0 h).mgr.fails = [] → (after cfg m0 h).mgr.next = none ∧
      (¬ Spec.Probing cfg m0 h → (after cfg m0 h).mgr.state = .inactive)) := by
  induction h using List.reverseRecOn with
  | nil => exact ⟨h0, fun h => absurd h probing_nil, fun _ => ⟨hn, fun _ => hi⟩⟩
  | append_singleton h e ih =>
    obtain ⟨hu1, hu2⟩ := handedOver_cases hu
    obtain ⟨i1, i2, i3⟩ := ih hu1
    rw [probing_snoc, after_snoc]
    rcases step_move cfg (after cfg m0 h) e with hst | hmv
    · rw [hst]
      have nr := stay_reviews hst
      refine ⟨i1, ?_, fun hf => ⟨(i3 hf).1, fun hp => (i3 hf).2 fun hp' => hp (.inr ⟨hp', nr⟩)⟩⟩
      rintro (⟨-, h⟩ | ⟨hp, -⟩)
      · exact absurd rfl h
      · exact i2 hp
    · obtain ⟨k1, k2, k3, k4⟩ := i1.turn (move_turn hmv) hu2
      refine ⟨k1, ?_, fun hf => ?_⟩
      · rintro (⟨ha, hs⟩ | ⟨hp, hr⟩)
        · exact k2 ha hs
        · exact k3 (i2 hp) hr
      · obtain ⟨j1, j2⟩ := i3 (fails_mono hmv hf)
        obtain ⟨l1, l2⟩ := k4 hf j1
        refine ⟨l1, fun hp => l2 (fun ha => hp (.inl ha)) ?_⟩
        by_cases hr : Spec.Reviews (after cfg m0 h) e
        · exact .inr hr
        · exact .inl (j2 fun hp' => hp (.inr ⟨hp', hr⟩))

/-! ### Before anything was heard of the engine -/

/-- The manager knows the engine ID `e0`, and has not heard of that engine. -/
structure Deaf (e0 : Bytes) (s : VSys) : Prop where
  engineID : s.mgr.engineID = some e0
  state : s.mgr.state = .unsynchronized ∨ s.mgr.state = .synchronizing
  next : s.mgr.next = none ∨ s.mgr.next = some .synchronizing

theorem Deaf.turn {e0 : Bytes} {s s' : VSys} {e : VEvent} (hb : Deaf e0 s) (ht : Turn cfg s e s')
    (hu : ∀ x, Spec.Hands s e x → ¬ Spec.Informs e0 x) (hd : s'.dropped = false) :
    Deaf e0 s' ∧ (Spec.Attempts s e → s'.mgr.sent ≠ s.mgr.sent → s'.mgr.state = .synchronizing) ∧
    (s.mgr.state = .synchronizing → ¬ Spec.Reviews s e → s'.mgr.state = .synchronizing) ∧
    (s'.mgr.fails = [] → s.mgr.next = none → s'.mgr.next = none ∧
      (¬ (Spec.Attempts s e ∧ s'.mgr.sent ≠ s.mgr.sent) → s.mgr.state = .unsynchronized ∨ Spec.Reviews s e →
        s'.mgr.state = .unsynchronized)) := by
  obtain ⟨h1, h2, h3⟩ := hb
  cases ht with
  | same k1 k2 k3 k4 k5 =>
    refine ⟨⟨k3 ▸ h1, k1 ▸ h2, k2 ▸ h3⟩, fun ha hs => absurd (k4 (.inl ha)) hs, fun h _ => k1 ▸ h, fun _ hn =>
      ⟨k2 ▸ hn, fun _ h => ?_⟩⟩
    rcases h with h | h
    · exact k1 ▸ h
    · exact absurd h k5
  | asked auth next h k1 k2 k3 k4 k5 k6 =>
    have : s'.mgr.state = .synchronizing := by
      rw [k1]
      rcases h2 with hs | hs <;> rw [hs] at h ⊢ <;> simp [MState.onRequest] at h
      · rw [← h]; rfl
      · rw [← h.2]; rcases h3 with hn | hn <;> rw [hn] <;> rfl
    exact ⟨⟨k3 ▸ h1, .inr this, .inl k2⟩, fun _ _ => this, fun _ _ => this, fun _ _ =>
      ⟨k2, fun ha => absurd ⟨k4, k6⟩ ha⟩⟩
  | askedFail auth next h k1 k2 k3 k4 k5 k6 =>
    refine ⟨⟨k3 ▸ h1, k1 ▸ h2, ?_⟩, fun _ h => absurd k4 h, fun hs _ => k1 ▸ hs, fun h => absurd h k6⟩
    rw [k2]
    rcases h2 with hs | hs <;> rw [hs] at h <;> simp [MState.onRequest] at h
    · rw [← h]; exact .inr rfl
    · rw [← h.2]; rcases h3 with hn | hn <;> rw [hn] <;> simp
  | review h k1 k2 k3 k4 =>
    have hs' : s'.mgr.state = .unsynchronized ∨ s'.mgr.state = .synchronizing := by
      rw [k1]
      rcases h2 with hs | hs <;> rw [hs] <;> rcases h3 with hn | hn <;> rw [hn] <;> simp [MState.onInactive]
    refine ⟨⟨k3 ▸ h1, hs', .inl k2⟩, fun _ h => absurd k4 h, fun _ h' => absurd h h', fun _ hn => ⟨k2, fun _ _ => ?_⟩⟩
    rw [k1, hn]
    rcases h2 with hs | hs <;> rw [hs] <;> simp [MState.onInactive]
  | reported i m x he hl hi all next h k3 hs =>
    have hx := hu x ⟨i, m, he, hl⟩
    have na : ¬ Spec.Attempts s e := by rw [he]; exact attempts_listen
    have nr : ¬ Spec.Reviews s e := by rw [he]; exact reviews_listen
    have hne : e0 ≠ x.securityEngineID := fun h => hx (.inl h.symm)
    rcases h2 with hst | hst <;> rw [hst] at h <;> simp [MState.onReport, h1, hne] at h
    obtain ⟨rfl, rfl⟩ := h
    rcases hs with ⟨j1, j2, -⟩ | ⟨j1, -⟩
    · have j2' : s'.mgr.next = s.mgr.next := by rw [j2]; rfl
      refine ⟨⟨k3 ▸ h1, j1 ▸ .inr hst, j2' ▸ h3⟩, fun h => absurd h na, fun hs' _ => j1 ▸ hs', fun _ hn =>
        ⟨j2' ▸ hn, fun _ h => ?_⟩⟩
      rcases h with h | h
      · exact j1 ▸ h
      · exact absurd h nr
    · cases j1
  | responded i m x he hl hi next h hs h4 =>
    have hx := hu x ⟨i, m, he, hl⟩
    have hne : e0 ≠ x.securityEngineID := fun h => hx (.inl h.symm)
    have ha : x.header.flags.level.auth = false := by
      cases ha : x.header.flags.level.auth with
      | false => rfl
      | true => exact absurd (.inr ⟨(fun h => by rw [h] at hi; cases hi), ha⟩) hx
    rcases h2 with hs | hs <;> rw [hs] at h <;> simp [MState.onResponse, h1, hne, ha] at h
  | dropped k1 k2 k3 k4 k5 => rw [hd] at k5; cases k5

/-- A manager of a known engine, which has not heard of it. -/
theorem deaf {e0 : Bytes} (h0 : Deaf e0 (init m0)) (hi : m0.state = .unsynchronized) (hn : m0.next = none)
    (h : List VEvent) (hu : ∀ x, Spec.HandedOver cfg m0 h x → ¬ Spec.Informs e0 x)
    (hd : (after cfg m0 h).dropped = false) :
    Deaf e0 (after cfg m0 h) ∧ (Spec.Probing cfg m0 h → (after cfg m0 h).mgr.state = .synchronizing) ∧
    ((after cfg m0 h).mgr.fails = [] → (after cfg m0 h).mgr.next = none ∧
      (¬ Spec.Probing cfg m0 h → (after cfg m0 h).mgr.state = .unsynchronized)) := by
  induction h using List.reverseRecOn with
  | nil => exact ⟨h0, fun h => absurd h probing_nil, fun _ => ⟨hn, fun _ => hi⟩⟩
  | append_singleton h e ih =>
    obtain ⟨hu1, hu2⟩ := handedOver_cases hu
    rw [after_snoc] at hd
    rw [probing_snoc, after_snoc]
    rcases step_move cfg (after cfg m0 h) e with hst | hmv
    · rw [hst] at hd ⊢
      obtain ⟨i1, i2, i3⟩ := ih hu1 hd
      have nr := stay_reviews hst
      refine ⟨i1, ?_, fun hf => ⟨(i3 hf).1, fun hp => (i3 hf).2 fun hp' => hp (.inr ⟨hp', nr⟩)⟩⟩
      rintro (⟨-, h⟩ | ⟨hp, -⟩)
      · exact absurd rfl h
      · exact i2 hp
    · have hd' : (after cfg m0 h).dropped = false := by
        cases hds : (after cfg m0 h).dropped with
        | false => rfl
        | true => rw [dropped_mono hmv hds] at hd; cases hd
      obtain ⟨i1, i2, i3⟩ := ih hu1 hd'
      obtain ⟨k1, k2, k3, k4⟩ := i1.turn (move_turn hmv) hu2 hd
      refine ⟨k1, ?_, fun hf => ?_⟩
      · rintro (⟨ha, hs⟩ | ⟨hp, hr⟩)
        · exact k2 ha hs
        · exact k3 (i2 hp) hr
      · obtain ⟨j1, j2⟩ := i3 (fails_mono hmv hf)
        obtain ⟨l1, l2⟩ := k4 hf j1
        refine ⟨l1, fun hp => l2 (fun ha => hp (.inl ha)) ?_⟩
        by_cases hr : Spec.Reviews (after cfg m0 h) e
        · exact .inr hr
        · exact .inl (j2 fun hp' => hp (.inr ⟨hp', hr⟩))

/-! ### Which states a manager can be in -/

/-- A set of states that no handler leaves. -/
structure Closed (P : MState → Prop) : Prop where
  onInactive : ∀ st n, P st → st.onInactive = some n → P n
  onRequest : ∀ st auth b n, P st → st.onRequest auth = (b, some n) → P n
  onReport : ∀ st mine e b n, P st → st.onReport mine e = .ok (b, some n) → P n
  onResponse : ∀ st mine e auth b n, P st → st.onResponse mine e auth = .ok (b, some n) → P n

theorem Closed.turn {P : MState → Prop} (hP : Closed P) {s s' : VSys} {e : VEvent} (ht : Turn cfg s e s')
    (h : P s.mgr.state ∧ ∀ n, s.mgr.next = some n → P n) : P s'.mgr.state ∧ ∀ n, s'.mgr.next = some n → P n := by
  obtain ⟨h1, h2⟩ := h
  have pick : ∀ next : Option MState, (∀ n, next = some n → P n) →
      P ((next <|> s.mgr.next).getD s.mgr.state) ∧ ∀ n, (next <|> s.mgr.next) = some n → P n := by
    intro next hn
    cases next with
    | some n => exact ⟨hn n rfl, fun n' h' => by cases h'; exact hn n rfl⟩
    | none =>
      cases hs : s.mgr.next with
      | none => exact ⟨h1, fun n h => by cases h⟩
      | some n => exact ⟨h2 n hs, fun n' h' => by cases h'; exact h2 n hs⟩
  cases ht with
  | same k1 k2 k3 k4 k5 => exact ⟨k1 ▸ h1, k2 ▸ h2⟩
  | asked auth next h k1 k2 k3 k4 k5 k6 =>
    obtain ⟨p1, -⟩ := pick next (by rintro n rfl; exact hP.onRequest _ _ _ _ h1 h)
    exact ⟨k1 ▸ p1, by rw [k2]; intro n h; cases h⟩
  | askedFail auth next h k1 k2 k3 k4 k5 k6 =>
    obtain ⟨-, p1⟩ := pick next (by rintro n rfl; exact hP.onRequest _ _ _ _ h1 h)
    exact ⟨k1 ▸ h1, k2 ▸ p1⟩
  | review h k1 k2 k3 k4 =>
    obtain ⟨p1, -⟩ := pick s.mgr.state.onInactive (fun n hn => hP.onInactive _ _ h1 hn)
    exact ⟨k1 ▸ p1, by rw [k2]; intro n h; cases h⟩
  | reported i m x he hl hi all next h k3 hs =>
    obtain ⟨p1, p2⟩ := pick next (by rintro n rfl; exact hP.onReport _ _ _ _ _ h1 h)
    rcases hs with ⟨j1, j2, -⟩ | ⟨-, j1, j2⟩
    · exact ⟨j1 ▸ h1, j2 ▸ p2⟩
    · exact ⟨j1 ▸ p1, by rw [j2]; intro n h; cases h⟩
  | responded i m x he hl hi next h hs h4 =>
    obtain ⟨p1, p2⟩ := pick next (by rintro n rfl; exact hP.onResponse _ _ _ _ _ _ h1 h)
    rcases hs with ⟨j1, j2, -⟩ | ⟨j1, j2, -⟩
    · exact ⟨j1 ▸ h1, j2 ▸ p2⟩
    · exact ⟨j1 ▸ p1, by rw [j2]; intro n h; cases h⟩
  | dropped k1 k2 k3 k4 k5 => exact ⟨k1 ▸ h1, k2 ▸ h2⟩

theorem Closed.after {P : MState → Prop} (hP : Closed P) (h0 : P m0.state) (hn : m0.next = none) (h : List VEvent) :
    P (after cfg m0 h).mgr.state := by
  refine (after_induct (cfg := cfg) (m0 := m0) (fun _ s => P s.mgr.state ∧ ∀ n, s.mgr.next = some n → P n) ⟨h0, ?_⟩
    (fun _ _ _ h => h) (fun _ _ _ _ h hm => hP.turn (move_turn hm) h) h).1
  intro n hn'
  rw [show (init m0).mgr.next = none from hn] at hn'
  cases hn'

/-- The states of a manager created with an engine ID. -/
theorem closed_given :
    Closed fun st => st = .unsynchronized ∨ st = .synchronizing ∨ st = .requireAuthentication := by
  constructor
  · rintro st n (rfl | rfl | rfl) h <;> simp [MState.onInactive] at h; simp [← h]
  · rintro st auth b n (rfl | rfl | rfl) h <;> simp [MState.onRequest] at h; simp [← h]
  · rintro st mine e b n (rfl | rfl | rfl) h <;> simp only [MState.onReport] at h
    · cases h
    · split at h <;> cases h; simp
    · cases h
  · rintro st mine e auth b n (rfl | rfl | rfl) h <;> simp only [MState.onResponse] at h
    · cases h
    · split at h <;> cases h; simp
    · cases h

/-- The states of a manager created without an engine ID. -/
theorem closed_discover :
    Closed fun st => st ≠ .unsynchronized ∧ st ≠ .synchronizing := by
  constructor
  · rintro st n hs h
    (cases st <;> simp [MState.onInactive] at h hs); simp [← h]
  · rintro st auth b n hs h
    (cases st <;> simp [MState.onRequest] at h hs); simp [← h]
  · rintro st mine e b n hs h
    (cases st <;> simp [MState.onReport] at h hs); simp [← h]
  · rintro st mine e auth b n hs h
    cases st <;> simp [MState.onResponse] at h hs
    · simp [← h.2.2]

/-! ### After discovery -/

/-- Discovery is complete. -/
structure Ready (s : VSys) : Prop where
  state : s.mgr.state = .trustEveryResponse ∨ s.mgr.state = .requireAuthentication
  next : s.mgr.next = none ∨ s.mgr.next = some .requireAuthentication

theorem Ready.turn {s s' : VSys} {e : VEvent} (hb : Ready s) (ht : Turn cfg s e s') : Ready s' := by
  obtain ⟨h1, h2⟩ := hb
  have pick : ∀ next : Option MState, (next = none ∨ next = some .requireAuthentication) →
      ((next <|> s.mgr.next).getD s.mgr.state = .trustEveryResponse ∨
        (next <|> s.mgr.next).getD s.mgr.state = .requireAuthentication) ∧
      ((next <|> s.mgr.next) = none ∨ (next <|> s.mgr.next) = some .requireAuthentication) := by
    rintro next (rfl | rfl)
    · rcases h2 with h2 | h2 <;> rw [h2]
      · exact ⟨h1, .inl rfl⟩
      · exact ⟨.inr rfl, .inr rfl⟩
    · exact ⟨.inr rfl, .inr rfl⟩
  cases ht with
  | same k1 k2 k3 k4 k5 => exact ⟨k1 ▸ h1, k2 ▸ h2⟩
  | asked auth next h k1 k2 k3 k4 k5 k6 =>
    have := pick next (by rcases h1 with hs | hs <;> rw [hs] at h <;> simp [MState.onRequest] at h <;> simp [← h])
    exact ⟨k1 ▸ this.1, .inl k2⟩
  | askedFail auth next h k1 k2 k3 k4 k5 k6 =>
    have := pick next (by rcases h1 with hs | hs <;> rw [hs] at h <;> simp [MState.onRequest] at h <;> simp [← h])
    exact ⟨k1 ▸ h1, k2 ▸ this.2⟩
  | review h k1 k2 k3 k4 =>
    have := pick s.mgr.state.onInactive (by rcases h1 with hs | hs <;> rw [hs] <;> simp [MState.onInactive])
    exact ⟨k1 ▸ this.1, .inl k2⟩
  | reported i m x he hl hi all next h k3 hs =>
    have := pick next (by rcases h1 with hs | hs <;> rw [hs] at h <;> simp [MState.onReport] at h <;> simp [← h])
    rcases hs with ⟨j1, j2, -⟩ | ⟨-, j1, j2⟩
    · exact ⟨j1 ▸ h1, j2 ▸ this.2⟩
    · exact ⟨j1 ▸ this.1, .inl j2⟩
  | responded i m x he hl hi next h hs h4 =>
    have := pick next (by
      rcases h1 with hs | hs <;> rw [hs] at h <;> simp [MState.onResponse] at h
      · rw [← h]; split <;> simp
      · rw [← h.2]; simp)
    rcases hs with ⟨j1, j2, -⟩ | ⟨j1, j2, -⟩
    · exact ⟨j1 ▸ h1, j2 ▸ this.2⟩
    · exact ⟨j1 ▸ this.1, .inl j2⟩
  | dropped k1 k2 k3 k4 k5 => exact ⟨k1 ▸ h1, k2 ▸ h2⟩

theorem ready_of_state (hn : m0.state ≠ .trustEveryResponse ∧ m0.state ≠ .requireAuthentication) (h : List VEvent) :
    (after cfg m0 h).mgr.state = .trustEveryResponse ∨ (after cfg m0 h).mgr.state = .requireAuthentication →
    Ready (after cfg m0 h) := by
  refine after_induct (cfg := cfg) (m0 := m0) (fun _ s => s.mgr.state = .trustEveryResponse ∨
    s.mgr.state = .requireAuthentication → Ready s) ?_ (fun _ _ _ h => h) ?_ h
  · rintro (h | h)
    · exact absurd h hn.1
    · exact absurd h hn.2
  · intro h s e s' ih hm hs
    rcases state_change hm with h1 | h1
    · exact (ih (h1 ▸ hs)).turn (move_turn hm)
    · exact ⟨hs, .inl h1⟩

theorem Ready.run {s : VSys} (hr : Ready s) (h : List VEvent) : Ready (s.run cfg h) :=
  run_induct Ready hr (fun _ _ _ h hm => h.turn (move_turn hm)) h

theorem Ready.onRequest {s : VSys} (hr : Ready s) (auth : Bool) : (s.mgr.state.onRequest auth).1 = true := by
  rcases hr.state with h | h <;> rw [h] <;> rfl

/-- A report that makes the manager transmit completes discovery. -/
theorem report_ready {s s' : VSys} {e : VEvent} {x : V3Incoming} (hx : Spec.Hands s e x) (ht : Turn cfg s e s')
    (hs : s'.mgr.sent ≠ s.mgr.sent)
    (hr : s.mgr.state = .trustEveryResponse ∨ s.mgr.state = .requireAuthentication → Ready s)
    (hd : s.mgr.state = .synchronizing → s.mgr.engineID = some x.securityEngineID) : Ready s' := by
  cases hst : s.mgr.state with
  | trustEveryResponse => exact (hr (.inl hst)).turn ht
  | requireAuthentication => exact (hr (.inr hst)).turn ht
  | inactive => ?_
  | unsynchronized => ?_
  | waitForDiscovery => ?_
  | synchronizing => ?_
  all_goals
    obtain ⟨i0, m0, he0, hl0⟩ := hx
    cases ht with
    | same k1 k2 k3 k4 k5 => exact absurd (k4 (.inr ⟨x, i0, m0, he0, hl0⟩)) hs
    | asked auth next h k1 k2 k3 k4 k5 k6 => rw [he0] at k4; exact absurd k4 attempts_listen
    | askedFail auth next h k1 k2 k3 k4 k5 k6 => exact absurd k4 hs
    | review h k1 k2 k3 k4 => exact absurd k4 hs
    | reported i m y he hl hi all next h k3 hs' =>
      rw [hl0] at hl
      injection hl with _ hxy
      subst hxy
      rw [hst] at h
      simp [MState.onReport, hd, hst] at h
      try
        obtain ⟨rfl, rfl⟩ := h
        rcases hs' with ⟨-, -, h' | ⟨h', -⟩⟩ | ⟨-, j1, j2⟩
        · cases h'
        · exact absurd h' hs
        · exact ⟨by rw [j1]; simp, .inl j2⟩
    | responded i m x he hl hi next h hs' h4 => exact absurd h4 hs
    | dropped k1 k2 k3 k4 k5 => rw [k4] at he0; cases he0

/-- A delivered response completes discovery, if it is authenticated or comes from the manager's engine. -/
theorem deliver_ready {s : VSys} {e : VEvent} {r : Nat} {x : V3Incoming} (h : Spec.Delivers cfg s e r x)
    (ha : Spec.WithAuth x ∨ s.mgr.engineID = some x.securityEngineID)
    (hr : s.mgr.state = .trustEveryResponse ∨ s.mgr.state = .requireAuthentication → Ready s) :
    Ready (s.step cfg e) := by
  by_cases hready : s.mgr.state = .trustEveryResponse ∨ s.mgr.state = .requireAuthentication
  · rcases step_move cfg s e with hst | hmv
    · rw [hst]; exact hr hready
    · exact (hr hready).turn (move_turn hmv)
  obtain ⟨i, m, msg, rfl, hl, hm, rfl, hq, hi, hlk, hp⟩ := h
  obtain ⟨q, hq⟩ := Option.isSome_iff_exists.1 hq
  have hstep : s.step cfg (.listen i) =
      { s with mgr := (s.mgr.processResponse cfg x i.seed).2.setReq msg.request (q.store x), listener := .idle } := by
    unfold step
    simp only
    unfold listen
    rw [hl]
    simp only
    unfold push
    simp only [hm]
    rw [if_neg (by rw [hi]; simp)]
    simp only [hq, hlk]
    generalize s.mgr.processResponse cfg x i.seed = y at hp
    obtain ⟨res, m'⟩ := y
    simp only at hp
    subst hp
    rfl
  rw [hstep]
  unfold Spec.WithAuth at ha
  rcases VMgr.processResponse_cases cfg s.mgr x i.seed with ⟨_, -, h⟩ | ⟨next, _, usm, h', -, h⟩ | ⟨next, _, h', -, h⟩ |
      ⟨h', h⟩
  · rw [h] at hp; cases hp
  · rw [h] at hp; cases hp
  · rw [h]
    refine ⟨?_, .inl rfl⟩
    simp only [VMgr.setReq]
    cases hst : s.mgr.state <;> rw [hst] at h' <;> simp [MState.onResponse, hst] at h' hready
    · rw [if_pos ha] at h'
      cases h'
      simp
  · cases hst : s.mgr.state <;> rw [hst] at h' <;> simp [MState.onResponse, hst] at h' hready
    · rcases ha with ha | ha
      · rw [ha] at h'; cases h'.1
      · exact absurd ha h'.2

end VSys

open VSys

theorem Spec.Created.start (hc : Spec.Created cfg m0) : m0.next = none ∧
    (m0.engineID = none → m0.state = .inactive) ∧ (m0.engineID ≠ none → m0.state = .unsynchronized) := by
  obtain ⟨-, h0, engineID, g, c0, n0, seed, hu0, hm⟩ := hc
  obtain ⟨usm, -, rfl⟩ := VMgr.create_ok hm
  refine ⟨rfl, fun h => ?_, fun h => ?_⟩
  · simp only at h; simp [h]
  · simp only at h
    cases engineID with
    | none => exact absurd rfl h
    | some e => rfl

theorem Spec.Created.owner (hc : Spec.Created cfg m0) (h : List VEvent) : ∃ held, Owner (after cfg m0 h) held := by
  obtain ⟨held, hp, -⟩ := hc.kept h
  exact ⟨held, hp.owner⟩

/-- **C80, unknown engine.** A manager created without an engine ID and told nothing since, while
waiting for what comes back, holds back every request. -/
theorem C80_hold_unknown (hc : Spec.Created cfg m0) (hn : m0.engineID = none) (h : List VEvent)
    (hu : Spec.Uninformed cfg m0 h) (hp : Spec.Probing cfg m0 h)
    (hl : (after cfg m0 h).mgr.locked = false) (hd : (after cfg m0 h).dropped = false) (pdu : Pdu) (user : Bytes)
    (level : SecurityLevel) (timeout period t0 : ℚ) (r0 : Nat) (i : SendIn) :
    Spec.Holds (after cfg m0 h) ((after cfg m0 h).step cfg (.send pdu user level timeout period t0 r0 i)) := by
  obtain ⟨h1, h2, -⟩ := hc.start
  obtain ⟨held, ho⟩ := hc.owner h
  obtain ⟨-, k, -⟩ := blind ⟨hn, .inl (h2 hn), .inl h1⟩ (h2 hn) h1 h (fun x hx => (hu x hx).1 hn)
  refine (send_outcome cfg _ pdu user level timeout period t0 r0 i ho hl hd).1 ?_
  rw [k hp]; rfl

/-- **C80, known engine.** A manager created with an engine ID, and told nothing since, while waiting for what comes back, holds back every authenticated
request. -/
theorem C80_hold_known (hc : Spec.Created cfg m0) (e0 : Bytes) (he : m0.engineID = some e0) (h : List VEvent)
    (hu : Spec.Uninformed cfg m0 h) (hp : Spec.Probing cfg m0 h)
    (hl : (after cfg m0 h).mgr.locked = false) (hd : (after cfg m0 h).dropped = false) (pdu : Pdu) (user : Bytes)
    (level : SecurityLevel) (ha : level.auth = true) (timeout period t0 : ℚ) (r0 : Nat) (i : SendIn) :
    Spec.Holds (after cfg m0 h) ((after cfg m0 h).step cfg (.send pdu user level timeout period t0 r0 i)) := by
  obtain ⟨h1, -, h2⟩ := hc.start
  have h2 := h2 (by rw [he]; simp)
  obtain ⟨held, ho⟩ := hc.owner h
  obtain ⟨-, k, -⟩ := deaf (e0 := e0) ⟨he, .inl h2, .inl h1⟩ h2 h1 h (fun x hx => (hu x hx).2 e0 he) hd
  refine (send_outcome cfg _ pdu user level timeout period t0 r0 i ho hl hd).1 ?_
  rw [k hp, ha]; rfl

/-- **C80, unauthenticated requests.** A manager created with an engine ID never holds back a request without
authentication. -/
theorem C80_unauthenticated (hc : Spec.Created cfg m0) (hn : m0.engineID ≠ none) (h : List VEvent)
    (hl : (after cfg m0 h).mgr.locked = false) (hd : (after cfg m0 h).dropped = false) (pdu : Pdu) (user : Bytes)
    (level : SecurityLevel) (ha : level.auth = false) (timeout period t0 : ℚ) (r0 : Nat) (i : SendIn) :
    Spec.Transmits (after cfg m0 h) ((after cfg m0 h).step cfg (.send pdu user level timeout period t0 r0 i)) := by
  obtain ⟨h1, -, h2⟩ := hc.start
  obtain ⟨held, ho⟩ := hc.owner h
  refine (send_outcome cfg _ pdu user level timeout period t0 r0 i ho hl hd).2 ?_
  rcases closed_given.after (cfg := cfg) (.inl (h2 hn)) h1 h with k | k | k <;> rw [k, ha] <;> rfl

/-- **C80, the probe.** As long as no send raised an exception, a manager that has not been told anything of its engine
and is not waiting for what comes back holds back no request. -/
theorem C80_probe (hc : Spec.Created cfg m0) (h : List VEvent)
    (hu : Spec.Uninformed cfg m0 h) (hp : ¬ Spec.Probing cfg m0 h) (hf : (after cfg m0 h).mgr.fails = [])
    (hl : (after cfg m0 h).mgr.locked = false) (hd : (after cfg m0 h).dropped = false) (pdu : Pdu) (user : Bytes)
    (level : SecurityLevel) (timeout period t0 : ℚ) (r0 : Nat) (i : SendIn) :
    Spec.Transmits (after cfg m0 h) ((after cfg m0 h).step cfg (.send pdu user level timeout period t0 r0 i)) := by
  obtain ⟨h1, h2, h2'⟩ := hc.start
  obtain ⟨held, ho⟩ := hc.owner h
  refine (send_outcome cfg _ pdu user level timeout period t0 r0 i ho hl hd).2 ?_
  cases hn : m0.engineID with
  | none =>
    obtain ⟨-, -, k⟩ := blind ⟨hn, .inl (h2 hn), .inl h1⟩ (h2 hn) h1 h (fun x hx => (hu x hx).1 hn)
    rw [(k hf).2 hp]; rfl
  | some e0 =>
    have h2' := h2' (by rw [hn]; simp)
    obtain ⟨-, -, k⟩ := deaf (e0 := e0) ⟨hn, .inl h2', .inl h1⟩ h2' h1 h (fun x hx => (hu x hx).2 e0 hn) hd
    rw [(k hf).2 hp]; rfl

/-- In the history `h` discovery was completed: a report was answered by a transmission, and the manager was created
without an engine ID or the report came from the engine it has; or a response was delivered, and it was authenticated
or came from the engine the manager has. -/
def Spec.Discovered (cfg : VCfg) (m0 : VMgr) (h : List VEvent) : Prop :=
  ∃ h1 e h2, h = h1 ++ e :: h2 ∧
    ((∃ x, Spec.Hands (after cfg m0 h1) e x ∧
        (after cfg m0 (h1 ++ [e])).mgr.sent ≠ (after cfg m0 h1).mgr.sent ∧
        (m0.engineID = none ∨ (after cfg m0 h1).mgr.engineID = some x.securityEngineID)) ∨
      ∃ r x, Spec.Delivers cfg (after cfg m0 h1) e r x ∧
        (Spec.WithAuth x ∨ (after cfg m0 h1).mgr.engineID = some x.securityEngineID))

theorem VSys.discovered_ready (hc : Spec.Created cfg m0) (h : List VEvent) (hx : Spec.Discovered cfg m0 h) :
    Ready (after cfg m0 h) := by
  obtain ⟨k1, k2, k2'⟩ := hc.start
  have hst : m0.state ≠ .trustEveryResponse ∧ m0.state ≠ .requireAuthentication := by
    by_cases hn : m0.engineID = none
    · rw [k2 hn]; simp
    · rw [k2' hn]; simp
  obtain ⟨h1, e, h2, rfl, hx⟩ := hx
  have hrun : after cfg m0 (h1 ++ e :: h2) = ((after cfg m0 h1).step cfg e).run cfg h2 := by
    show after cfg m0 (h1 ++ ([e] ++ h2)) = _
    rw [← List.append_assoc, after_append, after_snoc]
  rw [hrun]
  refine Ready.run ?_ h2
  have hr := ready_of_state (cfg := cfg) hst h1
  rcases hx with ⟨x, hx, hs, hk⟩ | ⟨r, x, hx, hk⟩
  · rw [after_snoc] at hs
    rcases step_move cfg (after cfg m0 h1) e with hstay | hmv
    · rw [hstay] at hs; exact absurd rfl hs
    · refine report_ready hx (move_turn hmv) hs hr ?_
      intro hsy
      rcases hk with hk | hk
      · exact absurd hsy (closed_discover.after (cfg := cfg) (by rw [k2 hk]; simp) k1 h1).2
      · exact hk
  · exact deliver_ready hx hk hr

/-- **C80, afterwards.** Once discovery was completed, no request is held back. -/
theorem C80_discovered (hc : Spec.Created cfg m0) (h : List VEvent) (hx : Spec.Discovered cfg m0 h)
    (hl : (after cfg m0 h).mgr.locked = false) (hd : (after cfg m0 h).dropped = false) (pdu : Pdu) (user : Bytes)
    (level : SecurityLevel) (timeout period t0 : ℚ) (r0 : Nat) (i : SendIn) :
    Spec.Transmits (after cfg m0 h) ((after cfg m0 h).step cfg (.send pdu user level timeout period t0 r0 i)) := by
  obtain ⟨held, ho⟩ := hc.owner h
  exact (send_outcome cfg _ pdu user level timeout period t0 r0 i ho hl hd).2 ((discovered_ready hc h hx).onRequest _)

end Snmp
