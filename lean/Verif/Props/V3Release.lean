import Verif.Props.V3Discovery
/-!
# C81: when discovery is complete, the requests held back are transmitted
-/

namespace Snmp

variable {cfg : VCfg} {m0 : VMgr}

/-- Request `r` was transmitted at least once. -/
def Spec.Transmitted (s : VSys) (r : Nat) : Prop := ∃ d ∈ s.mgr.sent, d.request = r

namespace VSys

open VMgr

/-! ## Scheduled requests were transmitted -/

theorem move_sent {s s' : VSys} {e : VEvent} (hm : Move cfg s e s') {d : Sent} (hd : d ∈ s.mgr.sent) : d ∈ s'.mgr.sent := by
  rcases move_sends hm with h | ⟨r, i, -, ⟨q1, c, usm1, n, res, c', id, _, -, -, -, -, h⟩⟩
  · rw [h]; exact hd
  · rcases h with h | ⟨w, msg, h, -⟩
    · rw [h]; exact hd
    · rw [h]; exact List.mem_cons_of_mem _ hd

theorem move_scheduled {s s' : VSys} {e : VEvent} (hm : Move cfg s e s') (hi : ∀ r ∈ ids s.mgr.active, Spec.Transmitted s r) :
    ∀ r ∈ ids s'.mgr.active, Spec.Transmitted s' r := by
  have mono : ∀ r, Spec.Transmitted s r → Spec.Transmitted s' r := fun r ⟨d, h1, h2⟩ => ⟨d, move_sent hm h1, h2⟩
  have sub : (∀ r ∈ ids s'.mgr.active, r ∈ ids s.mgr.active) → ∀ r ∈ ids s'.mgr.active, Spec.Transmitted s' r :=
    fun h r hr => mono r (hi r (h r hr))
  have grow : ∀ x : Nat, (∀ r ∈ ids s'.mgr.active, r = x ∨ r ∈ ids s.mgr.active) → Spec.Transmitted s' x →
      ∀ r ∈ ids s'.mgr.active, Spec.Transmitted s' r := by
    intro x h hx r hr
    rcases h r hr with rfl | h
    · exact hx
    · exact mono r (hi r h)
  clear hi mono
  cases hm
  case issued pdu user level timeout period t0 r0 i q hq hl hd next hs m' hm' =>
    obtain ⟨w, hw⟩ := sends_ok hm'
    refine grow s.mgr.nextReq ?_ ⟨⟨s.mgr.nextReq, s.mgr.nextMsg, w⟩, ?_, rfl⟩
    · intro r hr
      simp only [updateState_eq] at hr
      have := (push_ids _ _ _).mem_iff.1 hr
      simpa [hm'.frame.active, propose_eq, VMgr.issue] using this
    · simp [updateState_eq, hw, propose_eq, VMgr.issue]
  case issueFailed hm' => exact sub fun r hr => by simpa [VMgr.fail, hm'.frame.active, propose_eq, VMgr.issue] using hr
  case bodyDead t i r x rest ht ha hx =>
    refine sub fun r hr => ?_
    simp only [ha] at hr ⊢
    exact List.mem_cons_of_mem _ ((pop_ids _ _ _).mem_iff.1 hr)
  case bodyOver t i r x rest q ht ha hx ho =>
    refine sub fun r hr => ?_
    simp only [ha] at hr ⊢
    exact List.mem_cons_of_mem _ ((pop_ids _ _ _).mem_iff.1 hr)
  case bodyZero t i r x rest q ht ha hx he hn hx' hz =>
    refine sub fun r' hr => ?_
    rw [(finish_frame cfg { s with mgr := s.mgr.fail (.refresh x.id) } t r (.raised .zeroDivisionError)).active] at hr
    exact hr
  case bodySent t i r x rest q ht ha hx he hn hx' hz m' hm' =>
    refine sub fun r hr => ?_
    simp only [hm'.frame.active, ha] at hr ⊢
    exact (replace_ids _ _ _).mem_iff.1 hr
  case bodyFailed t i r x rest q ht ha hx he hn hx' hz m' err hm' =>
    refine sub fun r' hr => ?_
    rw [(finish_frame cfg { s with mgr := m'.fail (.refresh x.id) } t r (.raised err)).active] at hr
    simpa [VMgr.fail, hm'.frame.active] using hr
  case pokeBegin => exact sub fun r hr => by simpa [updateState_eq, propose_eq] using hr
  case pokeSent t i r l x a q ht hx next hs m' hm' =>
    obtain ⟨w, hw⟩ := sends_ok hm'
    refine grow x.id ?_ ⟨⟨x.id, s.mgr.nextMsg, w⟩, ?_, rfl⟩
    · intro r hr
      simp only [updateState_eq] at hr
      have := (push_ids _ _ _).mem_iff.1 hr
      simpa [hm'.frame.active, propose_eq] using this
    · simp [updateState_eq, hw, propose_eq]
  case pokeFailed t i r l x a q ht hx next hst m' err hm' =>
    refine sub fun r' hr => ?_
    rw [(finish_frame cfg { s with mgr := { m'.fail (.poke x.id) with locked := false } } t r (.raised err)).active] at hr
    simpa [VMgr.fail, hm'.frame.active, propose_eq] using hr
  case answered t i r q x ht hq he hx => exact sub fun r' hr => (finish_frame cfg s t r _).active ▸ hr
  case reported t i r q ex ht hq he => exact sub fun r' hr => (finish_frame cfg s t r _).active ▸ hr
  case timedOut t i r q ht hq he => exact sub fun r' hr => (finish_frame cfg s t r _).active ▸ hr
  case reportFailed hm' => exact sub fun r hr => by simpa [VMgr.fail, hm'.frame.active, propose_eq] using hr
  case reportOne hm' =>
    refine sub fun r hr => ?_
    have := (heapify_ids _ _).mem_iff.1 hr
    simpa [hm'.frame.active, propose_eq] using this
  case reportAll hm' =>
    refine sub fun r hr => ?_
    simp only [updateState_eq] at hr
    have := (heapify_ids _ _).mem_iff.1 hr
    simpa [hm'.frame.active, propose_eq] using this
  case responseBad i m x msg q hl hm hq hi hlk err m' hp =>
    rcases processResponse_cases cfg s.mgr x i.seed with ⟨_, -, h⟩ | ⟨next, _, usm, h', -, h⟩ | ⟨_, _, -, -, h⟩ |
      ⟨-, h⟩ <;> rw [h] at hp <;> cases hp <;> exact sub fun r hr => hr
  case responded i m x msg q hl hm hq hi hlk m' hp =>
    rcases processResponse_cases cfg s.mgr x i.seed with ⟨_, -, h⟩ | ⟨next, _, usm, h', -, h⟩ | ⟨next, _, h', -, h⟩ |
      ⟨-, h⟩ <;> rw [h] at hp <;> cases hp <;> exact sub fun r hr => hr
  case flushSent i r eid sync l x q hl hu hx m' hm' =>
    obtain ⟨w, hw⟩ := sends_ok hm'
    refine grow x.id ?_ ⟨⟨x.id, s.mgr.nextMsg, w⟩, ?_, rfl⟩
    · intro r hr
      have := (push_ids _ _ _).mem_iff.1 hr
      simpa [hm'.frame.active] using this
    · simp [hw]
  case flushFailed hm' => exact sub fun r hr => by simpa [VMgr.fail, hm'.frame.active] using hr
  all_goals exact sub fun r hr => hr

theorem scheduled_transmitted (ha : m0.active = []) (h : List VEvent) (r : Nat)
    (hr : Spec.Scheduled (after cfg m0 h) r) : Spec.Transmitted (after cfg m0 h) r := by
  have := after_induct (cfg := cfg) (m0 := m0) (fun _ s => ∀ r ∈ ids s.mgr.active, Spec.Transmitted s r)
    (by intro r hr; simp [init, ha] at hr) (fun _ _ _ h => h) (fun _ _ _ _ h hm => move_scheduled hm h) h
  obtain ⟨x, h1, h2⟩ := hr
  exact this r (List.mem_map.2 ⟨x, h1, h2⟩)

/-! ## The queue after discovery -/

/-- Once discovery is complete nothing is added to the queue. -/
theorem Ready.unsent {s s' : VSys} {e : VEvent} (hr : Ready s) (hm : Move cfg s e s') (hu : s.mgr.unsent = []) :
    s'.mgr.unsent = [] := by
  cases hm
  case queued hs => rw [Prod.ext_iff] at hs; rw [hr.onRequest] at hs; cases hs.1
  case pokeQueued hs => rw [Prod.ext_iff] at hs; rw [hr.onRequest] at hs; cases hs.1
  case issued next hst m' hm => simpa [updateState_eq, hm.frame.unsent, propose_eq, VMgr.issue] using hu
  case issueFailed next hst m' err hm => simpa [VMgr.fail, hm.frame.unsent, propose_eq, VMgr.issue] using hu
  case bodyZero t i r x rest q ht ha hx he hn hx' hz =>
    rw [(finish_frame cfg { s with mgr := s.mgr.fail (.refresh x.id) } t r (.raised .zeroDivisionError)).unsent]
    exact hu
  case bodySent m' hm => simpa [hm.frame.unsent] using hu
  case bodyFailed t i r x rest q ht ha hx he hn hx' hz m' err hm =>
    rw [(finish_frame cfg { s with mgr := m'.fail (.refresh x.id) } t r (.raised err)).unsent]
    simpa [VMgr.fail, hm.frame.unsent] using hu
  case pokeBegin => rfl
  case pokeSent next hst m' hm => simpa [updateState_eq, hm.frame.unsent, propose_eq] using hu
  case pokeFailed t i r l x a q ht hx next hst m' err hm =>
    rw [(finish_frame cfg { s with mgr := { m'.fail (.poke x.id) with locked := false } } t r (.raised err)).unsent]
    simpa [VMgr.fail, hm.frame.unsent, propose_eq] using hu
  case answered t i r q x ht hq he hx => exact (finish_frame cfg s t r _).unsent.trans hu
  case reported t i r q ex ht hq he => exact (finish_frame cfg s t r _).unsent.trans hu
  case timedOut t i r q ht hq he => exact (finish_frame cfg s t r _).unsent.trans hu
  case reportFailed hr hl all next hst m' err hm => simpa [VMgr.fail, hm.frame.unsent, propose_eq] using hu
  case reportOne hr hl next hst m' hm => simpa [hm.frame.unsent, propose_eq] using hu
  case reportAll hr hl next hst m' hm => simpa [updateState_eq, hm.frame.unsent, propose_eq] using hu
  case responseBad i m x msg q hl hm hq hi hlk err m' hp =>
    rcases processResponse_cases cfg s.mgr x i.seed with ⟨_, -, h⟩ | ⟨next, _, usm, h', -, h⟩ | ⟨_, _, -, -, h⟩ |
      ⟨-, h⟩ <;> rw [h] at hp <;> cases hp <;> exact hu
  case responded i m x msg q hl hm hq hi hlk m' hp =>
    rcases processResponse_cases cfg s.mgr x i.seed with ⟨_, -, h⟩ | ⟨next, _, usm, h', -, h⟩ | ⟨next, _, h', -, h⟩ |
      ⟨-, h⟩ <;> rw [h] at hp <;> cases hp <;> exact hu
  case flushDead i r eid sync l x hl hu' hx => rw [hu'] at hu; simp at hu
  case flushSent i r eid sync l x q hl hu' hx m' hm' => rw [hu'] at hu; simp at hu
  case flushFailed i r eid sync l x q hl hu' hx m' err hm' => rw [hu'] at hu; simp at hu
  all_goals exact hu

theorem ready_empty {s s' : VSys} {e : VEvent} (hr : Ready s) (hm : Move cfg s e s') (ho : Owner s [])
    (hu : s.mgr.unsent = []) : Owner s' [] ∧ s'.mgr.unsent = [] := by
  have hu' := hr.unsent hm hu
  refine ⟨?_, hu'⟩
  obtain ⟨-, held', ho', hf⟩ := move_flow ho hm
  generalize hh : ([] : List Ref) = held at hf ho
  cases hf <;> try exact hh ▸ ho'
  all_goals first
    | exact ho'
    | (rw [hu] at ho'; exact ho')
    | (exact absurd hh (by simp))

/-- A step while the listening thread sends the queued requests. -/
theorem move_flushing {s s' : VSys} {e : VEvent} {r0 : Nat} {engineID : Bytes} {sync : Bool} (ho : Owner s [])
    (hl : s.listener = .flush r0 engineID sync) (hm : Move cfg s e s') :
    s'.listener = .flush r0 engineID sync ∨ s'.mgr.fails ≠ s.mgr.fails ∨ Owner s' [] ∧ s'.mgr.unsent = [] := by
  obtain ⟨-, hlk, hfree⟩ := ho.flushing hl
  by_cases he : ∃ i, e = .listen i
  · obtain ⟨i, rfl⟩ := he
    cases hm
    case pushStop m x hl' => rw [hl] at hl'; cases hl'
    case reportBad m x r q cause sync hr _ _ _ => have hl' := hr.listener; rw [hl] at hl'; cases hl'
    case reportFailed m x r q cause sync hr _ _ _ _ _ _ _ => have hl' := hr.listener; rw [hl] at hl'; cases hl'
    case reportOne m x r q cause sync hr _ _ _ _ _ => have hl' := hr.listener; rw [hl] at hl'; cases hl'
    case reportAll m x r q cause sync hr _ _ _ _ _ => have hl' := hr.listener; rw [hl] at hl'; cases hl'
    case excepted m x msg q v rest ex hl' _ _ _ _ _ _ _ => rw [hl] at hl'; cases hl'
    case responseBad m x msg q hl' _ _ _ _ _ _ _ => rw [hl] at hl'; cases hl'
    case responded m x msg q hl' _ _ _ _ _ _ => rw [hl] at hl'; cases hl'
    case flushEnd r eid sync' hl' hu =>
      refine .inr (.inr ⟨.none rfl hfree ?_, hu⟩)
      intro r e b h
      simp only at h
      split at h <;> cases h
    case flushDead r eid sync' l x hl' hu hx => exact .inl hl
    case flushSent r eid sync' l x q hl' hu hx m' hm => exact .inl hl
    case flushFailed r eid sync' l x q hl' hu hx m' err hm =>
      refine .inr (.inl ?_)
      simp [VMgr.fail, hm.frame.fails]
    case syncGone r hl' _ => rw [hl] at hl'; cases hl'
    case synced r q hl' _ => rw [hl] at hl'; cases hl'
  · left
    cases hm
    all_goals first
      | exact hl
      | (exact absurd ⟨_, rfl⟩ he)
      | (rw [finish_eq]; exact hl)
      | skip
    all_goals (rename_i h _ _ _ _ _ _ _ _ _; rw [hl] at h; cases h)

/-- Failures are never forgotten. -/
theorem move_fails {s s' : VSys} {e : VEvent} (h : Move cfg s e s') : ∃ l, s'.mgr.fails = l ++ s.mgr.fails := by
  cases h
  case issued next hst m' hm => exact ⟨[], by simp [updateState_eq, hm.frame.fails, propose_eq, VMgr.issue]⟩
  case issueFailed next hst m' err hm => exact ⟨[_], by simp only [VMgr.fail, hm.frame.fails, propose_eq]; rfl⟩
  case bodyZero t i r x rest q ht ha hx he hn hx' hz =>
    exact ⟨[_], (finish_frame cfg { s with mgr := s.mgr.fail (.refresh x.id) } t r (.raised .zeroDivisionError)).fails⟩
  case bodySent m' hm => exact ⟨[], hm.frame.fails⟩
  case bodyFailed t i r x rest q ht ha hx he hn hx' hz m' err hm =>
    refine ⟨[.refresh x.id], (finish_frame cfg { s with mgr := m'.fail (.refresh x.id) } t r (.raised err)).fails.trans ?_⟩
    simp only [VMgr.fail, hm.frame.fails]; rfl
  case pokeBegin => exact ⟨[], by simp [updateState_eq, propose_eq]⟩
  case pokeSent next hst m' hm => exact ⟨[], by simp [updateState_eq, hm.frame.fails, propose_eq]⟩
  case pokeFailed t i r l x a q ht hx next hst m' err hm =>
    refine ⟨[.poke x.id], (finish_frame cfg { s with mgr := { m'.fail (.poke x.id) with locked := false } } t r
      (.raised err)).fails.trans ?_⟩
    simp only [VMgr.fail, hm.frame.fails, propose_eq]; rfl
  case answered t i r q x ht hq he hx => exact ⟨[], (finish_frame cfg s t r _).fails⟩
  case reported t i r q ex ht hq he => exact ⟨[], (finish_frame cfg s t r _).fails⟩
  case timedOut t i r q ht hq he => exact ⟨[], (finish_frame cfg s t r _).fails⟩
  case reportFailed hr hl all next hst m' err hm =>
    exact ⟨[_], by simp only [VMgr.fail, hm.frame.fails, propose_eq]; rfl⟩
  case reportOne hr hl next hst m' hm => exact ⟨[], by simp [hm.frame.fails, propose_eq]⟩
  case reportAll hr hl next hst m' hm => exact ⟨[], by simp [updateState_eq, hm.frame.fails, propose_eq]⟩
  case responseBad i m x msg q hl hm hq hi hlk err m' hp =>
    rcases VMgr.processResponse_cases cfg s.mgr x i.seed with ⟨_, -, h⟩ | ⟨next, _, usm, h', -, h⟩ | ⟨_, _, -, -, h⟩ |
      ⟨-, h⟩ <;> rw [h] at hp <;> cases hp <;> exact ⟨[], rfl⟩
  case responded i m x msg q hl hm hq hi hlk m' hp =>
    rcases VMgr.processResponse_cases cfg s.mgr x i.seed with ⟨_, -, h⟩ | ⟨next, _, usm, h', -, h⟩ | ⟨next, _, h', -, h⟩ |
      ⟨-, h⟩ <;> rw [h] at hp <;> cases hp <;> exact ⟨[], rfl⟩
  case flushSent m' hm => exact ⟨[], hm.frame.fails⟩
  case flushFailed m' err hm => exact ⟨[_], by simp only [VMgr.fail, hm.frame.fails]; rfl⟩
  all_goals exact ⟨[], rfl⟩

theorem run_fails (s : VSys) (h : List VEvent) : ∃ l, (s.run cfg h).mgr.fails = l ++ s.mgr.fails := by
  refine run_induct (fun s' => ∃ l, s'.mgr.fails = l ++ s.mgr.fails) ⟨[], rfl⟩ ?_ h
  rintro s1 e s2 ⟨l, h1⟩ hm
  obtain ⟨l', h2⟩ := move_fails hm
  exact ⟨l' ++ l, by rw [h2, h1, List.append_assoc]⟩

/-- A report that completes discovery makes the listening thread send the queued requests. -/
theorem report_flush {s s' : VSys} {e : VEvent} {x : V3Incoming} (hx : Spec.Hands s e x) (hm : Move cfg s e s')
    (hs : s'.mgr.sent ≠ s.mgr.sent)
    (hr : ∀ all next, s.mgr.state.onReport s.mgr.engineID x.securityEngineID = .ok (all, next) → all = true) :
    ∃ r b, s'.listener = .flush r x.securityEngineID b := by
  obtain ⟨i, m, rfl, hl⟩ := hx
  cases hm
  case reportFailed m' err hm' => exact absurd (by simp only [VMgr.fail, sends_error hm', propose_eq]) hs
  case reportOne m1 x1 r q cause sync hrep hlk next hst m' hm' =>
    have hl' := hrep.listener
    rw [hl] at hl'
    injection hl' with _ hxx
    subst hxx
    cases hr _ _ hst
  case reportAll m1 x1 r q cause sync hrep hlk next hst m' hm' =>
    have hl' := hrep.listener
    rw [hl] at hl'
    injection hl' with _ hxx
    subst hxx
    exact ⟨r, sync, rfl⟩
  case responseBad m1 x1 msg q hl hmm hq hi hlk err m' hp =>
    rcases processResponse_cases cfg s.mgr x1 i.seed with ⟨_, -, h⟩ | ⟨next, _, usm, h', -, h⟩ | ⟨_, _, -, -, h⟩ |
      ⟨-, h⟩ <;> rw [h] at hp <;> cases hp <;> exact absurd rfl hs
  case responded m1 x1 msg q hl hmm hq hi hlk m' hp =>
    rcases processResponse_cases cfg s.mgr x1 i.seed with ⟨_, -, h⟩ | ⟨next, _, usm, h', -, h⟩ | ⟨next, _, h', -, h⟩ |
      ⟨-, h⟩ <;> rw [h] at hp <;> cases hp <;> exact absurd rfl hs
  case flushSent hl' _ _ _ _ => rw [hl] at hl'; cases hl'
  case flushFailed hl' _ _ _ _ _ => rw [hl] at hl'; cases hl'
  all_goals exact absurd rfl hs

end VSys

open VSys

/-- **C81** when discovery is completed by a report. Suppose that nothing was known of the engine before; that a report,
from the engine whose ID the manager was given if it was given one, was then answered by a transmission; that no send
raised an exception since; and that the listening thread is done with that report. Then no request is held back any
more, and every request of which the caller keeps a reference, which is unanswered, not overdue, and whose own
transmission did not raise an exception before, was transmitted and is scheduled for retransmission. -/
theorem C81_partial (hc : Spec.Created cfg m0) (h : List VEvent) (e : VEvent) (h' : List VEvent) (x : V3Incoming)
    (hu : Spec.Uninformed cfg m0 h) (hd : (after cfg m0 h).dropped = false) (hx : Spec.Hands (after cfg m0 h) e x)
    (hs : (after cfg m0 (h ++ [e])).mgr.sent ≠ (after cfg m0 h).mgr.sent)
    (hk : m0.engineID = none ∨ m0.engineID = some x.securityEngineID)
    (hf : (after cfg m0 (h ++ e :: h')).mgr.fails = (after cfg m0 (h ++ [e])).mgr.fails)
    (hl : ∀ r eid b, (after cfg m0 (h ++ e :: h')).listener ≠ .flush r eid b) :
    (∀ r, ¬ Spec.Queued (after cfg m0 (h ++ e :: h')) r) ∧
    ∀ r q, (after cfg m0 (h ++ e :: h')).mgr.deref r = some q → q.event = false →
      ¬ Spec.Overdue (h ++ e :: h') q.expiration → ¬ Spec.Failed (after cfg m0 (h ++ e :: h')) r →
      (∀ r0, .poke r0 ∉ (after cfg m0 (h ++ e :: h')).mgr.fails) →
      Spec.Transmitted (after cfg m0 (h ++ e :: h')) r ∧ Spec.Scheduled (after cfg m0 (h ++ e :: h')) r := by
  obtain ⟨k1, k2, k2'⟩ := hc.start
  have hst0 : m0.state ≠ .trustEveryResponse ∧ m0.state ≠ .requireAuthentication := by
    by_cases hn : m0.engineID = none
    · rw [k2 hn]; simp
    · rw [k2' hn]; simp
  have hrun : ∀ h2, after cfg m0 (h ++ e :: h2) = (after cfg m0 (h ++ [e])).run cfg h2 := by
    intro h2
    show after cfg m0 (h ++ ([e] ++ h2)) = _
    rw [← List.append_assoc, after_append]
  have hmv : Move cfg (after cfg m0 h) e (after cfg m0 (h ++ [e])) := by
    rw [after_snoc] at hs ⊢
    rcases step_move cfg (after cfg m0 h) e with hstay | hmv
    · rw [hstay] at hs; exact absurd rfl hs
    · exact hmv
  -- the state before the report
  have hbefore : ((after cfg m0 h).mgr.state = .synchronizing → (after cfg m0 h).mgr.engineID = some x.securityEngineID) ∧
      ∀ all next, (after cfg m0 h).mgr.state.onReport (after cfg m0 h).mgr.engineID x.securityEngineID = .ok (all, next) →
        all = true := by
    cases hn : m0.engineID with
    | none =>
      obtain ⟨k, -, -⟩ := blind ⟨hn, .inl (k2 hn), .inl k1⟩ (k2 hn) k1 h (fun x hx => (hu x hx).1 hn)
      refine ⟨fun hsy => ?_, fun all next hrep => ?_⟩
      · rcases k.state with h1 | h1 <;> rw [h1] at hsy <;> cases hsy
      · rcases k.state with h1 | h1 <;> rw [h1] at hrep <;> cases hrep
        rfl
    | some e0 =>
      have k2' := k2' (by rw [hn]; simp)
      obtain ⟨k, -, -⟩ := deaf (e0 := e0) ⟨hn, .inl k2', .inl k1⟩ k2' k1 h (fun x hx => (hu x hx).2 e0 hn) hd
      have he0 : e0 = x.securityEngineID := by
        rcases hk with hk | hk
        · rw [hn] at hk; cases hk
        · rw [hn] at hk; injection hk
      refine ⟨fun _ => k.engineID.trans (by rw [he0]), fun all next hrep => ?_⟩
      rcases k.state with h1 | h1 <;> rw [h1] at hrep
      · cases hrep
      · simp only [MState.onReport, k.engineID, he0, if_true] at hrep
        cases hrep
        rfl
  have hready : Ready (after cfg m0 (h ++ [e])) :=
    report_ready hx (move_turn hmv) hs (ready_of_state hst0 h) hbefore.1
  obtain ⟨r1, b, hflush⟩ := report_flush hx hmv hs hbefore.2
  -- from then on
  have key : ∀ h2, (after cfg m0 (h ++ e :: h2)).mgr.fails = (after cfg m0 (h ++ [e])).mgr.fails →
      Owner (after cfg m0 (h ++ e :: h2)) [] ∧
      ((after cfg m0 (h ++ e :: h2)).listener = .flush r1 x.securityEngineID b ∨
        (after cfg m0 (h ++ e :: h2)).mgr.unsent = []) ∨
      ((after cfg m0 (h ++ e :: h2)).mgr.unsent = [] ∧ Owner (after cfg m0 (h ++ e :: h2)) []) := by
    intro h2
    induction h2 using List.reverseRecOn with
    | nil =>
      intro _
      obtain ⟨held, ho⟩ := hc.owner (h ++ [e])
      obtain ⟨rfl, -⟩ := ho.flushing hflush
      exact .inl ⟨ho, .inl hflush⟩
    | append_singleton h2 e2 ih =>
      intro hf2
      have heq : h ++ e :: (h2 ++ [e2]) = (h ++ e :: h2) ++ [e2] := by simp
      rw [heq, after_snoc] at hf2 ⊢
      have hf1 : (after cfg m0 (h ++ e :: h2)).mgr.fails = (after cfg m0 (h ++ [e])).mgr.fails := by
        obtain ⟨l1, hl1⟩ := run_fails (cfg := cfg) (after cfg m0 (h ++ [e])) h2
        rw [← hrun] at hl1
        have : ∃ l2, ((after cfg m0 (h ++ e :: h2)).step cfg e2).mgr.fails = l2 ++ (after cfg m0 (h ++ e :: h2)).mgr.fails := by
          rcases step_move cfg (after cfg m0 (h ++ e :: h2)) e2 with hstay | hmv2
          · exact ⟨[], by rw [hstay]; rfl⟩
          · exact move_fails hmv2
        obtain ⟨l2, hl2⟩ := this
        rw [hl2, hl1] at hf2
        have hlen := congrArg List.length hf2
        simp only [List.length_append] at hlen
        have : l1 = [] := List.length_eq_zero_iff.1 (by omega)
        rw [hl1, this]; rfl
      have hr2 : Ready (after cfg m0 (h ++ e :: h2)) := by rw [hrun]; exact hready.run h2
      have ih := ih hf1
      rcases step_move cfg (after cfg m0 (h ++ e :: h2)) e2 with hstay | hmv2
      · rw [hstay]; exact ih
      · have done : Owner (after cfg m0 (h ++ e :: h2)) [] → (after cfg m0 (h ++ e :: h2)).mgr.unsent = [] →
            ((after cfg m0 (h ++ e :: h2)).step cfg e2).mgr.unsent = [] ∧
              Owner ((after cfg m0 (h ++ e :: h2)).step cfg e2) [] :=
          fun h1 h2 => (ready_empty hr2 hmv2 h1 h2).symm
        rcases ih with ⟨ho, hl2 | hu2⟩ | ⟨hu2, ho⟩
        · rcases move_flushing ho hl2 hmv2 with h3 | h3 | ⟨h3, h4⟩
          · obtain ⟨held, ho'⟩ := hc.owner ((h ++ e :: h2) ++ [e2])
            rw [after_snoc] at ho'
            obtain ⟨rfl, -⟩ := ho'.flushing h3
            exact .inl ⟨ho', .inl h3⟩
          · exact absurd (hf2.trans hf1.symm) h3
          · exact .inr ⟨h4, h3⟩
        · exact .inr (done ho hu2)
        · exact .inr (done ho hu2)
  have hend : Owner (after cfg m0 (h ++ e :: h')) [] ∧ (after cfg m0 (h ++ e :: h')).mgr.unsent = [] := by
    rcases key h' hf with ⟨ho, h1 | h1⟩ | ⟨h1, ho⟩
    · exact absurd h1 (hl _ _ _)
    · exact ⟨ho, h1⟩
    · exact ⟨ho, h1⟩
  have hempty : ∀ r, ¬ Spec.Queued (after cfg m0 (h ++ e :: h')) r := by
    intro r hr
    rw [Spec.queued_iff hend.1, hend.2] at hr
    simp at hr
  refine ⟨hempty, ?_⟩
  intro r q hq hev hov hfail hpoke
  rcases C54_partial hc _ r q hq hev (fun r' _ => hpoke r') with h1 | h1 | h1 | h1
  · refine ⟨scheduled_transmitted ?_ _ r h1, h1⟩
    obtain ⟨-, _, _, _, _, _, _, _, hm⟩ := hc
    obtain ⟨usm, -, rfl⟩ := VMgr.create_ok hm
    rfl
  · exact absurd h1 (hempty r)
  · exact absurd h1 hov
  · exact absurd h1 hfail

end Snmp
