import Verif.ManagerV3Lemmas
import Verif.Spec.ManagerV3
/-!
# C52: once authenticated, the manager's engine ID changes only by authenticated responses

Histories: any number of requests and threads, any datagrams, any failures of the transport, of the
registration of engines and of the security module, any interleaving of the atomic steps.
-/

namespace Snmp
namespace VSys

/-- The manager requires authentication, and no other state is pending. -/
def Settled (s : VSys) : Prop := s.mgr.state = .requireAuthentication ∧ s.mgr.next = none

theorem onReport_settled {mine : Option Bytes} {e : Bytes} {y : Bool × Option MState}
    (h : MState.onReport mine e .requireAuthentication = .ok y) : y = (false, none) := by cases h; rfl

theorem onRequest_settled {auth : Bool} {y : Bool × Option MState}
    (h : MState.onRequest auth .requireAuthentication = y) : y = (true, none) := by cases h; rfl

/-- Moves keep it. -/
theorem Settled.move {cfg : VCfg} {s s' : VSys} {e : VEvent} (hs : Settled s) (h : Move cfg s e s') : Settled s' := by
  obtain ⟨h1, h2⟩ := hs
  unfold Settled
  cases h
  case queued => exact ⟨h1, h2⟩
  case issued next hst m' hm =>
    have hf := hm.frame
    rw [h1] at hst
    cases onRequest_settled hst
    simp [VMgr.updateState_eq, hf.next, hf.state, VMgr.propose_eq, VMgr.issue, h1, h2]
  case issueFailed next hst m' err hm =>
    have hf := hm.frame
    rw [h1] at hst
    cases onRequest_settled hst
    simp [VMgr.fail, hf.next, hf.state, VMgr.propose_eq, VMgr.issue, h1, h2]
  case bodyZero t i r x rest q ht ha hx he hn hx' hz =>
    have hf := finish_frame cfg { s with mgr := s.mgr.fail (.refresh x.id) } t r (.raised .zeroDivisionError)
    exact ⟨hf.state.trans h1, hf.next.trans h2⟩
  case bodySent m' hm => have hf := hm.frame; exact ⟨hf.state.trans h1, hf.next.trans h2⟩
  case bodyFailed t i r x rest q ht ha hx he hn hx' hz m' err hm =>
    have hf := hm.frame
    have hf' := finish_frame cfg { s with mgr := m'.fail (.refresh x.id) } t r (.raised err)
    exact ⟨hf'.state.trans (hf.state.trans h1), hf'.next.trans (hf.next.trans h2)⟩
  case pokeBegin => simp [VMgr.updateState_eq, VMgr.propose_eq, h1, h2, MState.onInactive]
  case pokeSent next hst m' hm =>
    have hf := hm.frame
    rw [h1] at hst
    cases onRequest_settled hst
    simp [VMgr.updateState_eq, hf.next, hf.state, VMgr.propose_eq, h1, h2]
  case pokeFailed t i r l x a q ht hx next hst m' err hm =>
    have hf := hm.frame
    have hf' := finish_frame cfg { s with mgr := { m'.fail (.poke x.id) with locked := false } } t r (.raised err)
    rw [h1] at hst
    cases onRequest_settled hst
    refine ⟨hf'.state.trans (hf.state.trans ?_), hf'.next.trans (hf.next.trans ?_)⟩
    · simp [VMgr.propose_eq, h1]
    · simp [VMgr.propose_eq, h2]
  case answered t i r q x ht hq he hx => 
    have hf := finish_frame cfg s t r
      (if x.scopedPDU.pdu.first ≠ 0 then .errorResponse x.scopedPDU.pdu.first x.scopedPDU.pdu.second q.pdu
          else .bindings x.scopedPDU.pdu.bindings)
    exact ⟨hf.state.trans h1, hf.next.trans h2⟩
  case reported t i r q ex ht hq he =>
    have hf := finish_frame cfg s t r (.reported ex)
    exact ⟨hf.state.trans h1, hf.next.trans h2⟩
  case timedOut t i r q ht hq he =>
    have hf := finish_frame cfg s t r .timeout
    exact ⟨hf.state.trans h1, hf.next.trans h2⟩
  case reportFailed hr hl all next hst m' err hm =>
    have hf := hm.frame
    rw [h1] at hst
    cases onReport_settled hst
    simp [VMgr.fail, hf.next, hf.state, VMgr.propose_eq, h1, h2]
  case reportOne hr hl next hst m' hm =>
    have hf := hm.frame
    rw [h1] at hst
    cases onReport_settled hst
    simp [hf.next, hf.state, VMgr.propose_eq, h1, h2]
  case reportAll hr hl next hst m' hm =>
    rw [h1] at hst
    cases onReport_settled hst
  case responseBad i m x msg q hl hm hq hi hlk err m' hp =>
    rcases VMgr.processResponse_cases cfg s.mgr x i.seed with ⟨_, -, h⟩ | ⟨next, _, usm, h', -, h⟩ | ⟨_, _, -, -, h⟩ |
      ⟨-, h⟩ <;> rw [h] at hp <;> cases hp
    · exact ⟨h1, h2⟩
    · rw [h1] at h'
      simp only [MState.onResponse, Except.ok.injEq, Prod.mk.injEq] at h'
      exact ⟨h1, by simp [← h'.2, h2]⟩
  case responded i m x msg q hl hm hq hi hlk m' hp =>
    rcases VMgr.processResponse_cases cfg s.mgr x i.seed with ⟨_, -, h⟩ | ⟨next, _, usm, h', -, h⟩ | ⟨next, _, h', -, h⟩ |
      ⟨-, h⟩ <;> rw [h] at hp <;> cases hp
    · rw [h1] at h'
      simp only [MState.onResponse, Except.ok.injEq, Prod.mk.injEq] at h'
      simp [VMgr.setReq, ← h'.2, h1, h2]
    · exact ⟨h1, h2⟩
  case flushSent m' hm => have hf := hm.frame; exact ⟨hf.state.trans h1, hf.next.trans h2⟩
  case flushFailed m' err hm => have hf := hm.frame; exact ⟨hf.state.trans h1, hf.next.trans h2⟩
  all_goals exact ⟨h1, h2⟩

/-- While the manager is settled, its engine ID changes only by an authenticated response or when the
manager is collected. -/
theorem Settled.engineID {cfg : VCfg} {s s' : VSys} {e : VEvent} (hs : Settled s) (h : Move cfg s e s') :
    s'.mgr.engineID = s.mgr.engineID ∨ e = .drop ∧ s'.dropped = true ∨
      ∃ r x, Spec.Delivers cfg s e r x ∧ Spec.WithAuth x ∧ s'.mgr.engineID = some x.securityEngineID := by
  obtain ⟨h1, h2⟩ := hs
  cases h
  case issued next hst m' hm => exact .inl (by simp [VMgr.updateState_eq, hm.frame.engineID, VMgr.propose_eq, VMgr.issue])
  case issueFailed next hst m' err hm => exact .inl (by simp [VMgr.fail, hm.frame.engineID, VMgr.propose_eq, VMgr.issue])
  case bodyZero t i r x rest q ht ha hx he hn hx' hz =>
    exact .inl (finish_frame cfg { s with mgr := s.mgr.fail (.refresh x.id) } t r (.raised .zeroDivisionError)).engineID
  case bodySent m' hm => exact .inl hm.frame.engineID
  case bodyFailed t i r x rest q ht ha hx he hn hx' hz m' err hm =>
    exact .inl ((finish_frame cfg { s with mgr := m'.fail (.refresh x.id) } t r (.raised err)).engineID.trans
      hm.frame.engineID)
  case pokeBegin => exact .inl (by simp [VMgr.updateState_eq, VMgr.propose_eq])
  case pokeSent next hst m' hm => exact .inl (by simp [VMgr.updateState_eq, hm.frame.engineID, VMgr.propose_eq])
  case pokeFailed t i r l x a q ht hx next hst m' err hm =>
    refine .inl ((finish_frame cfg { s with mgr := { m'.fail (.poke x.id) with locked := false } } t r
      (.raised err)).engineID.trans (hm.frame.engineID.trans ?_))
    simp [VMgr.propose_eq]
  case answered t i r q x ht hq he hx => exact .inl (finish_frame cfg s t r _).engineID
  case reported t i r q ex ht hq he => exact .inl (finish_frame cfg s t r _).engineID
  case timedOut t i r q ht hq he => exact .inl (finish_frame cfg s t r _).engineID
  case reportFailed hr hl all next hst m' err hm => exact .inl (by simp [VMgr.fail, hm.frame.engineID, VMgr.propose_eq])
  case reportOne hr hl next hst m' hm => exact .inl (by simp [hm.frame.engineID, VMgr.propose_eq])
  case reportAll hr hl next hst m' hm =>
    exact .inl (by simp [VMgr.updateState_eq, hm.frame.engineID, VMgr.propose_eq])
  case responseBad i m x msg q hl hm hq hi hlk err m' hp =>
    left
    rcases VMgr.processResponse_cases cfg s.mgr x i.seed with ⟨_, -, h⟩ | ⟨next, _, usm, h', -, h⟩ | ⟨_, _, -, -, h⟩ |
      ⟨-, h⟩ <;> rw [h] at hp <;> cases hp <;> rfl
  case responded i m x msg q hl hm hq hi hlk m' hp =>
    rcases VMgr.processResponse_cases cfg s.mgr x i.seed with ⟨_, -, h⟩ | ⟨next, _, usm, h', -, h⟩ | ⟨next, _, h', -, h⟩ |
      ⟨-, h⟩ <;> rw [h] at hp <;> cases hp
    · rw [h1] at h'
      simp only [MState.onResponse, Except.ok.injEq, Prod.mk.injEq] at h'
      refine .inr (.inr ⟨msg.request, x, ⟨i, m, msg, rfl, hl, hm, rfl, by rw [hq]; rfl, hi, hlk, by rw [h]⟩, h'.1, rfl⟩)
    · exact .inl rfl
  case flushSent m' hm => exact .inl hm.frame.engineID
  case flushFailed m' err hm => exact .inl hm.frame.engineID
  case dropped => exact .inr (.inl ⟨rfl, rfl⟩)
  all_goals exact .inl rfl

theorem dropped_mono {cfg : VCfg} {s s' : VSys} {e : VEvent} (h : Move cfg s e s') (hd : s.dropped = true) :
    s'.dropped = true := by
  cases h <;> first | exact hd | (rw [finish_eq]; exact hd) | rfl

/-- A delivered authenticated response settles the manager. -/
theorem deliver_settles {cfg : VCfg} {s : VSys} {e : VEvent} {r : Nat} {x : V3Incoming}
    (h : Spec.Delivers cfg s e r x) (ha : Spec.WithAuth x) (hn : s.mgr.state = .requireAuthentication → s.mgr.next = none) :
    Settled (s.step cfg e) ∧ (s.step cfg e).mgr.engineID = some x.securityEngineID := by
  obtain ⟨i, m, msg, rfl, hl, hm, rfl, hq, hi, hlk, hp⟩ := h
  obtain ⟨q, hq⟩ := Option.isSome_iff_exists.1 hq
  have hstep : s.step cfg (.listen i) =
      { s with mgr := (s.mgr.processResponse cfg x i.seed).2.setReq msg.request (q.store x), listener := .idle } := by
    unfold step
    simp only
    unfold listen
    rw [hl]
    simp only
    unfold push
    simp only [hm]
    rw [if_neg (by rw [hi]; simp)]
    simp only [hq, hlk]
    generalize s.mgr.processResponse cfg x i.seed = y at hp
    obtain ⟨res, m'⟩ := y
    simp only at hp
    subst hp
    rfl
  rw [hstep]
  unfold Spec.WithAuth at ha
  rcases VMgr.processResponse_cases cfg s.mgr x i.seed with ⟨_, -, h⟩ | ⟨next, _, usm, h', -, h⟩ | ⟨next, _, h', -, h⟩ |
      ⟨h', h⟩
  · rw [h] at hp; cases hp
  · rw [h] at hp; cases hp
  · rw [h]
    refine ⟨⟨?_, rfl⟩, rfl⟩
    simp only [VMgr.setReq]
    rw [ha] at h'
    cases hst : s.mgr.state <;> rw [hst] at h' <;> simp [MState.onResponse] at h'
    · simp [← h']
    · simp [← h']
    · simp [← h', hn hst]
  · rw [ha] at h'
    cases hst : s.mgr.state <;> rw [hst] at h' <;> simp [MState.onResponse] at h'

/-- A new state replaces the pending one. -/
theorem state_change {cfg : VCfg} {s s' : VSys} {e : VEvent} (h : Move cfg s e s') :
    s'.mgr.state = s.mgr.state ∨ s'.mgr.next = none := by
  cases h
  case issued => exact .inr (by simp [VMgr.updateState_eq])
  case issueFailed next hst m' err hm => exact .inl (by simp [VMgr.fail, hm.frame.state, VMgr.propose_eq, VMgr.issue])
  case bodyZero t i r x rest q ht ha hx he hn hx' hz =>
    exact .inl (finish_frame cfg { s with mgr := s.mgr.fail (.refresh x.id) } t r (.raised .zeroDivisionError)).state
  case bodySent m' hm => exact .inl hm.frame.state
  case bodyFailed t i r x rest q ht ha hx he hn hx' hz m' err hm =>
    exact .inl ((finish_frame cfg { s with mgr := m'.fail (.refresh x.id) } t r (.raised err)).state.trans
      hm.frame.state)
  case pokeBegin => exact .inr (by simp [VMgr.updateState_eq])
  case pokeSent next hst m' hm => exact .inr (by simp [VMgr.updateState_eq])
  case pokeFailed t i r l x a q ht hx next hst m' err hm =>
    refine .inl ((finish_frame cfg { s with mgr := { m'.fail (.poke x.id) with locked := false } } t r
      (.raised err)).state.trans (hm.frame.state.trans ?_))
    simp [VMgr.propose_eq]
  case answered t i r q x ht hq he hx => exact .inl (finish_frame cfg s t r _).state
  case reported t i r q ex ht hq he => exact .inl (finish_frame cfg s t r _).state
  case timedOut t i r q ht hq he => exact .inl (finish_frame cfg s t r _).state
  case reportFailed hr hl all next hst m' err hm => exact .inl (by simp [VMgr.fail, hm.frame.state, VMgr.propose_eq])
  case reportOne hr hl next hst m' hm => exact .inl (by simp [hm.frame.state, VMgr.propose_eq])
  case reportAll hr hl next hst m' hm => exact .inr (by simp [VMgr.updateState_eq])
  case responseBad i m x msg q hl hm hq hi hlk err m' hp =>
    left
    rcases VMgr.processResponse_cases cfg s.mgr x i.seed with ⟨_, -, h⟩ | ⟨next, _, usm, h', -, h⟩ | ⟨_, _, -, -, h⟩ |
      ⟨-, h⟩ <;> rw [h] at hp <;> cases hp <;> rfl
  case responded i m x msg q hl hm hq hi hlk m' hp =>
    rcases VMgr.processResponse_cases cfg s.mgr x i.seed with ⟨_, -, h⟩ | ⟨next, _, usm, h', -, h⟩ | ⟨next, _, h', -, h⟩ |
      ⟨-, h⟩ <;> rw [h] at hp <;> cases hp
    · exact .inr rfl
    · exact .inl rfl
  case flushSent m' hm => exact .inl hm.frame.state
  case flushFailed m' err hm => exact .inl hm.frame.state
  all_goals exact .inl rfl

theorem next_none {cfg : VCfg} {m0 : VMgr} (h0 : m0.next = none) (h : List VEvent) :
    (after cfg m0 h).mgr.state = .requireAuthentication → (after cfg m0 h).mgr.next = none := by
  refine after_induct (fun _ s => s.mgr.state = .requireAuthentication → s.mgr.next = none) (fun _ => h0)
    (fun _ _ _ h => h) ?_ h
  intro h s e s' hi hm hs
  rcases state_change hm with hst | hst
  · rw [hst] at hs
    exact (Settled.move ⟨hs, hi hs⟩ hm).2
  · exact hst

end VSys

open VSys

theorem VMgr.create_ok {cfg : VCfg} {u : Usm} {engineID : Option Bytes} {r : Nat} {c0 : Cache V3Entry} {n0 : Nat} {seed : Bytes → Nat} {m0 : VMgr}
    (hm : VMgr.create cfg u engineID r c0 n0 seed = .ok m0) :
    ∃ usm, changeEngine cfg u none engineID seed = (.ok (), usm) ∧
      m0 = { reqs := fun _ => none, dead := fun _ => false, msgs := fun _ => none, bools := fun _ => false
             nextReq := 0, nextMsg := n0, nextBool := 0, active := [], unsent := []
             state := if engineID.isNone then .inactive else .unsynchronized
             next := none, engineID, gen := NumGen.new 32 true r, cache := c0, usm
             locked := false, sent := [], fails := [] } := by
  unfold VMgr.create at hm
  cases hc : changeEngine cfg u none engineID seed with
  | mk res usm =>
    rw [hc] at hm
    cases res with
    | error e => cases hm
    | ok x => injection hm with hm; exact ⟨usm, rfl, hm.symm⟩

/-- **C52.** Suppose that after some history the step `e` delivers an authenticated response. Then at every
later time: the manager requires authentication; unless it was collected it has an engine ID; and the next
step `e'` leaves the engine ID as it is, or delivers an authenticated response with the new engine ID, or
collects the manager. -/
theorem C52_engineID (cfg : VCfg) (u : Usm) (engineID : Option Bytes) (g : Nat) (c0 : Cache V3Entry) (n0 : Nat) (seed : Bytes → Nat) (m0 : VMgr)
    (hm : VMgr.create cfg u engineID g c0 n0 seed = .ok m0) (h : List VEvent) (e : VEvent) (r : Nat) (x : V3Incoming)
    (hx : Spec.Delivers cfg (after cfg m0 h) e r x) (ha : Spec.WithAuth x) (h' : List VEvent) (e' : VEvent) :
    let s := after cfg m0 (h ++ e :: h')
    s.mgr.state = .requireAuthentication ∧
    (s.dropped = false → s.mgr.engineID ≠ none) ∧
    ((s.step cfg e').mgr.engineID = s.mgr.engineID ∨
      (e' = .drop ∧ (s.step cfg e').dropped = true) ∨
      ∃ r' x', Spec.Delivers cfg s e' r' x' ∧ Spec.WithAuth x' ∧
        (s.step cfg e').mgr.engineID = some x'.securityEngineID) := by
  intro s
  obtain ⟨usm, -, hm0⟩ := VMgr.create_ok hm
  have hn := next_none (cfg := cfg) (m0 := m0) (by rw [hm0]) h
  obtain ⟨h1, h2⟩ := deliver_settles hx ha hn
  have hs : s = ((after cfg m0 h).step cfg e).run cfg h' := by
    show after cfg m0 (h ++ ([e] ++ h')) = _
    rw [← List.append_assoc, after_append, after_snoc]
  have key : Settled s ∧ (s.dropped = false → s.mgr.engineID ≠ none) := by
    rw [hs]
    refine run_induct (fun s => Settled s ∧ (s.dropped = false → s.mgr.engineID ≠ none))
      ⟨h1, fun _ => by rw [h2]; simp⟩ ?_ h'
    intro s e s' hi hmv
    refine ⟨hi.1.move hmv, fun hd => ?_⟩
    rcases hi.1.engineID hmv with he | ⟨-, hd'⟩ | ⟨_, _, -, -, he⟩
    · rw [he]
      refine hi.2 ?_
      cases hds : s.dropped with
      | false => rfl
      | true => rw [dropped_mono hmv hds] at hd; cases hd
    · rw [hd'] at hd; cases hd
    · rw [he]; simp
  refine ⟨key.1.1, key.2, ?_⟩
  rcases step_move cfg s e' with hst | hst
  · exact .inl (by rw [hst])
  · exact key.1.engineID hst

end Snmp
