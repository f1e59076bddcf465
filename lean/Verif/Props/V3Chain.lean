import Verif.Props.V3Sent
import Verif.Props.V3Book
/-!
# What a step does to messages and to the cache of outstanding messages: a chain of simple changes
-/

namespace Snmp

variable {cfg : VCfg} {m0 : VMgr}

/-- In the step `e` from `s` to `s'` a call of `wait()` on request `r` ends, or the handle is dropped. -/
def Spec.Ends (s s' : VSys) (e : VEvent) (r : Nat) : Prop :=
  e = .collect r ∨ ∃ t o, s'.threads t = .done r o ∧ s.threads t ≠ .done r o

namespace VSys

open VMgr

/-- A simple change. -/
inductive Prim (cfg : VCfg) (e : VEvent) (ends : Nat → Prop) : VMgr → VMgr → Prop
  | calm {m m' : VMgr} (h1 : m'.msgs = m.msgs) (h2 : m.nextMsg ≤ m'.nextMsg) (h3 : m'.sent = m.sent)
      (h4 : ∀ id e, m.cache.outstanding id = some e → (m.msgs e.handle).isSome → m'.cache.outstanding id = some e)
      (h5 : ∀ r q', m'.reqs r = some q' → (∃ q, m.reqs r = some q ∧ q'.messages = q.messages) ∨
        m.reqs r = none ∧ q'.messages = [])
      (h6 : ∀ r q, m.reqs r = some q → ∃ q', m'.reqs r = some q')
      (h7 : ∀ r, m'.dead r = true → m.dead r = true ∨ ∀ q, m'.reqs r = some q → q.messages = [])
      (h8 : ∀ id e, m'.cache.outstanding id = some e → m.cache.outstanding id = some e ∨
        m.nextMsg ≤ e.handle ∧ e.handle < m'.nextMsg) : Prim cfg e ends m m'
  | send {m m' : VMgr} (r : Nat) (q0 q : VReq) (h0 : m.reqs r = some q0) (hd : m.dead r = false) (hq : q.messages = q0.messages)
      (engineID : Option Bytes) (cause : Why) (i : SendIn) (res : Res Unit)
      (h : VMgr.Sends cfg m r q engineID cause i res m') : Prim cfg e ends m m'
  | close {m : VMgr} (r : Nat) (q : VReq) (hq : m.reqs r = some q) (he : ends r) : Prim cfg e ends m (m.closed cfg r q)

/-- Several of them. -/
inductive Chain (cfg : VCfg) (e : VEvent) (ends : Nat → Prop) : VMgr → VMgr → Prop
  | nil (m : VMgr) : Chain cfg e ends m m
  | cons {a b c : VMgr} (h : Prim cfg e ends a b) (h' : Chain cfg e ends b c) : Chain cfg e ends a c

section
variable {e : VEvent} {ends : Nat → Prop}

theorem Chain.one {a b : VMgr} (h : Prim cfg e ends a b) : Chain cfg e ends a b := .cons h (.nil b)

theorem Chain.trans {a b c : VMgr} (h : Chain cfg e ends a b) (h' : Chain cfg e ends b c) : Chain cfg e ends a c := by
  induction h with
  | nil => exact h'
  | cons p _ ih => exact .cons p (ih h')

/-- Nothing of interest changes. -/
theorem Prim.of_eq {m m' : VMgr} (h1 : m'.msgs = m.msgs) (h2 : m'.nextMsg = m.nextMsg) (h3 : m'.sent = m.sent)
    (h4 : m'.cache = m.cache) (h5 : m'.reqs = m.reqs) (h6 : m'.dead = m.dead) : Prim cfg e ends m m' :=
  .calm h1 (Nat.le_of_eq h2.symm) h3 (fun id e he _ => by rw [h4]; exact he) (fun r q' h => .inl ⟨q', by rw [← h5]; exact h, rfl⟩) (fun r q h => ⟨q, by rw [h5]; exact h⟩)
    (fun r h => .inl (by rw [← h6]; exact h)) (fun id e he => .inl (by rw [← h4]; exact he))

theorem Prim.set {m m' : VMgr} (r : Nat) (q q' : VReq) (hq : m.reqs r = some q) (hk : q'.messages = q.messages)
    (h1 : m'.msgs = m.msgs) (h2 : m'.nextMsg = m.nextMsg) (h3 : m'.sent = m.sent)
    (h4 : m'.cache = m.cache) (h5 : m'.reqs = setAt m.reqs r (some q')) (h6 : m'.dead = m.dead) : Prim cfg e ends m m' := by
  refine .calm h1 (Nat.le_of_eq h2.symm) h3 (fun id e he _ => by rw [h4]; exact he) (fun r1 q1 h => ?_) (fun r1 q1 h => ?_) (fun r h => .inl (by rw [← h6]; exact h))
    (fun id e he => .inl (by rw [← h4]; exact he))
  · rw [h5] at h
    by_cases hr : r1 = r
    · subst hr; rw [setAt_same] at h; cases h; exact .inl ⟨q, hq, hk⟩
    · rw [setAt_other _ _ hr] at h; exact .inl ⟨q1, h, rfl⟩
  · rw [h5]
    by_cases hr : r1 = r
    · subst hr; exact ⟨q', setAt_same _ _ _⟩
    · exact ⟨q1, by rw [setAt_other _ _ hr]; exact h⟩

theorem Prim.issue (m : VMgr) (q : VReq) (gen : NumGen) (h : m.reqs m.nextReq = none) (hq : q.messages = []) :
    Prim cfg e ends m (m.issue q gen) := by
  refine .calm rfl (Nat.le_refl _) rfl (fun _ _ he _ => he) (fun r1 q1 h1 => ?_) (fun r1 q1 h1 => ?_) (fun r h => .inl h)
    (fun _ _ he => .inl he)
  · simp only [VMgr.issue] at h1
    by_cases hr : r1 = m.nextReq
    · subst hr; rw [setAt_same] at h1; cases h1; exact .inr ⟨h, hq⟩
    · rw [setAt_other _ _ hr] at h1; exact .inl ⟨q1, h1, rfl⟩
  · simp only [VMgr.issue]
    by_cases hr : r1 = m.nextReq
    · subst hr; exact ⟨q, setAt_same _ _ _⟩
    · exact ⟨q1, by rw [setAt_other _ _ hr]; exact h1⟩

theorem Prim.propose (m : VMgr) (n : Option MState) : Prim cfg e ends m (m.propose n) := by
  rw [propose_eq]; exact .of_eq rfl rfl rfl rfl rfl rfl

theorem Prim.updateState (m : VMgr) : Prim cfg e ends m m.updateState := by
  rw [updateState_eq]; exact .of_eq rfl rfl rfl rfl rfl rfl

theorem Prim.sent {m m' : VMgr} {r : Nat} {q0 q : VReq} {engineID : Option Bytes} {cause : Why} {i : SendIn} {res : Res Unit}
    (h : VMgr.Sends cfg m r q engineID cause i res m') (h0 : m.reqs r = some q0 ∧ m.dead r = false) (hq : q.messages = q0.messages) :
    Prim cfg e ends m m' := .send r q0 q h0.1 h0.2 hq engineID cause i res h

theorem Chain.closing (m : VMgr) (r : Nat) (he : ends r) : Chain cfg e ends m (m.closing cfg r) := by
  unfold VMgr.closing
  cases hq : m.reqs r with
  | none => exact .nil m
  | some q => exact .one (.close r q hq he)

end

/-- Every step is such a chain; requests are closed only when a `wait()` on them ends or they are dropped. -/
theorem move_chain {s s' : VSys} {e : VEvent} (hlt : ∀ r, s.mgr.nextReq ≤ r → s.mgr.reqs r = none)
    (hold : s.mgr.DeadOld)     (hm : Move cfg s e s') : Chain cfg e (Spec.Ends s s' e) s.mgr s'.mgr := by
  have hnew := hlt _ (Nat.le_refl _)
  have hnewd := hold _ (Nat.le_refl _)
  have fin : ∀ (s0 : VSys) (t r : Nat) (o : VOutcome), s' = s0.finish cfg t r o → s0.threads = s.threads →
      (∀ r o, s.threads t ≠ .done r o) → Chain cfg e (Spec.Ends s s' e) s0.mgr s'.mgr := by
    intro s0 t r o h1 h2 h3
    have h4 : s'.mgr = s0.mgr.closing cfg r := by rw [h1, finish_eq]
    rw [h4]
    refine .closing _ _ (.inr ⟨t, ?_⟩)
    rw [h1, finish_eq]
    exact ⟨_, setAt_same _ _ _, h3 _ _⟩
  have prop : ∀ (m : VMgr) n r q, m.reqs r = some q ∧ m.dead r = false → (m.propose n).reqs r = some q ∧ (m.propose n).dead r = false :=
    fun m n r q h => by rw [propose_eq]; exact h
  have der : ∀ {r : Nat} {q : VReq}, s.mgr.deref r = some q → s.mgr.reqs r = some q ∧ s.mgr.dead r = false := fun h => ⟨(deref_some h).2, (deref_some h).1⟩
  cases hm
  case queued pdu user level timeout period t0 r0 i q hq hl hd hs =>
    exact .cons (.issue s.mgr q (VMgr.generateRequestID s.mgr.gen r0).2 hnew (by rw [hq]; rfl))
      (.one (.of_eq rfl rfl rfl rfl rfl rfl))
  case issued pdu user level timeout period t0 r0 i q hq hl hd next hs m' hm' =>
    refine .cons (.issue s.mgr q (VMgr.generateRequestID s.mgr.gen r0).2 hnew (by rw [hq]; rfl)) (.cons (.propose _ next)
      (.cons (.sent (q0 := q) hm' ?_ rfl) (.cons (.of_eq ?_ ?_ ?_ ?_ ?_ ?_) (.one (.updateState _)))))
    all_goals first | rfl | (exact prop _ _ _ _ ⟨setAt_same _ _ _, hnewd⟩)
  case issueFailed pdu user level timeout period t0 r0 i q hq hl hd next hs m' err hm' =>
    refine .cons (.issue s.mgr q (VMgr.generateRequestID s.mgr.gen r0).2 hnew (by rw [hq]; rfl)) (.cons (.propose _ next)
      (.cons (.sent (q0 := q) hm' ?_ rfl) (.one (.of_eq rfl rfl rfl rfl rfl rfl))))
    exact prop _ _ _ _ ⟨setAt_same _ _ _, hnewd⟩
  case bodyZero t i r x rest q ht ha hx he hn hx' hz =>
    exact .cons (b := s.mgr.fail (.refresh x.id)) (.of_eq rfl rfl rfl rfl rfl rfl) (fin { s with mgr := s.mgr.fail (.refresh x.id) } t r (.raised .zeroDivisionError) rfl rfl (by rw [ht]; intro _ _ h; cases h))
  case bodySent t i r x rest q ht ha hx he hn hx' hz m' hm' =>
    exact .cons (.sent hm' (der hx) rfl) (.one (.of_eq rfl rfl rfl rfl rfl rfl))
  case bodyFailed t i r x rest q ht ha hx he hn hx' hz m' err hm' =>
    exact .cons (.sent hm' (der hx) rfl) (.cons (b := m'.fail (.refresh x.id)) (.of_eq rfl rfl rfl rfl rfl rfl)
      (fin { s with mgr := m'.fail (.refresh x.id) } t r (.raised err) rfl rfl (by rw [ht]; intro _ _ h; cases h)))
  case pokeBegin t i r ht hl =>
    exact .cons (.propose s.mgr s.mgr.state.onInactive) (.cons (.updateState _) (.one (.of_eq rfl rfl rfl rfl rfl rfl)))
  case pokeSent t i r l x a q ht hx next hs m' hm' =>
    refine .cons (.propose _ next) (.cons (.sent (q0 := q) hm' ?_ rfl) (.cons (.of_eq ?_ ?_ ?_ ?_ ?_ ?_)
      (.one (.updateState _))))
    all_goals first | rfl | exact prop _ _ _ _ (der hx)
  case pokeFailed t i r l x a q ht hx next hs m' err hm' =>
    refine .cons (.propose _ next) (.cons (.sent (q0 := q) hm' ?_ rfl) (.cons (.of_eq ?_ ?_ ?_ ?_ ?_ ?_)
      (fin { s with mgr := { m'.fail (.poke x.id) with locked := false } } t r (.raised err) rfl rfl (by rw [ht]; intro _ _ h; cases h))))
    all_goals first | rfl | exact prop _ _ _ _ (der hx)
  case answered t i r q x ht hq he hx => exact fin s t r _ rfl rfl (by rw [ht]; intro _ _ h; cases h)
  case reported t i r q ex ht hq he => exact fin s t r _ rfl rfl (by rw [ht]; intro _ _ h; cases h)
  case timedOut t i r q ht hq he => exact fin s t r _ rfl rfl (by rw [ht]; intro _ _ h; cases h)
  case reportFailed i m x r q cause sync hr hl all next hs m' err hm' =>
    refine .cons (.propose _ next) (.cons (.sent (q0 := q) hm' ?_ rfl) (.one (.of_eq rfl rfl rfl rfl rfl rfl)))
    exact prop _ _ _ _ (der hr.deref)
  case reportOne i m x r q cause sync hr hl next hs m' hm' =>
    refine .cons (.propose _ next) (.cons (.sent (q0 := q) hm' ?_ rfl) (.one (.of_eq rfl rfl rfl rfl rfl rfl)))
    exact prop _ _ _ _ (der hr.deref)
  case reportAll i m x r q cause sync hr hl next hs m' hm' =>
    refine .cons (.propose _ next) (.cons (.sent (q0 := q) hm' ?_ rfl) (.cons (b := { m' with active := Heap.heapify m'.env m'.active }) (.of_eq ?_ ?_ ?_ ?_ ?_ ?_)
      (.cons (.updateState _) (.one (.of_eq ?_ ?_ ?_ ?_ ?_ ?_)))))
    all_goals first | rfl | (exact prop _ _ _ _ (der hr.deref))
  case excepted i m x msg q v rest ex hl hmm hq hi hv hn1 hn2 he =>
    refine .one (.set msg.request q _ (der hq).1 ?_ rfl rfl rfl rfl rfl rfl)
    unfold VReq.processException
    split <;> split <;> rfl
  case responseBad i m x msg q hl hmm hq hi hlk err m' hp =>
    rcases processResponse_cases cfg s.mgr x i.seed with ⟨_, -, h'⟩ | ⟨_, _, _, -, -, h'⟩ | ⟨_, _, -, -, h'⟩ | ⟨-, h'⟩ <;>
      rw [hp] at h' <;> cases h' <;> exact .one (.of_eq rfl rfl rfl rfl rfl rfl)
  case responded i m x msg q hl hmm hq hi hlk m' hp =>
    have hst : (q.store x).messages = q.messages := by unfold VReq.store; split <;> rfl
    rcases processResponse_cases cfg s.mgr x i.seed with ⟨_, -, h'⟩ | ⟨_, _, _, -, -, h'⟩ | ⟨_, _, -, -, h'⟩ | ⟨-, h'⟩ <;>
      rw [hp] at h' <;> cases h' <;> exact .one (.set msg.request q _ (der hq).1 hst rfl rfl rfl rfl rfl rfl)
  case flushSent i r eid sync l x q hl hu hx m' hm' =>
    exact .cons (b := { s.mgr with unsent := l }) (.of_eq rfl rfl rfl rfl rfl rfl) (.cons (.sent hm' (der hx) rfl) (.one (.of_eq rfl rfl rfl rfl rfl rfl)))
  case flushFailed i r eid sync l x q hl hu hx m' err hm' =>
    exact .cons (b := { s.mgr with unsent := l }) (.of_eq rfl rfl rfl rfl rfl rfl) (.cons (.sent hm' (der hx) rfl) (.one (.of_eq rfl rfl rfl rfl rfl rfl)))
  case synced i r q hl hq =>
    exact .one (.set r q { q with shared := s.mgr.nextBool } hq rfl rfl rfl rfl rfl rfl rfl)
  case collected r q hq =>
    refine .cons (.close r q (der hq).1 (.inl rfl)) (.one (.calm rfl (Nat.le_refl _) rfl (fun _ _ he _ => he) (fun r1 q1 h => .inl ⟨q1, h, rfl⟩)
      (fun r1 q1 h => ⟨q1, h⟩) (fun r1 h => ?_) (fun _ _ he => .inl he)))
    by_cases hr : r1 = r
    · subst hr
      refine .inr fun q1 h1 => ?_
      have : (s.mgr.closed cfg r1 q).reqs r1 = some _ := setAt_same _ _ _
      simp only at h1
      rw [this] at h1; cases h1; rfl
    · simp only at h
      rw [setAt_other _ _ hr] at h
      exact .inl h
  case other o usm cache n held ho =>
    refine .one (.calm rfl ho.le rfl ho.kept (fun r1 q1 h => .inl ⟨q1, h, rfl⟩) (fun r1 q1 h => ⟨q1, h⟩) (fun r1 h => .inl h)
      (fun id e he => ?_))
    rcases ho.outstanding id e he with h | ⟨h1, h2⟩
    · exact .inl h
    · exact .inr ⟨Nat.le_of_eq h1.symm, by simp only [h2, h1]; exact Nat.lt_succ_self _⟩
  all_goals exact .one (.of_eq rfl rfl rfl rfl rfl rfl)

end VSys
end Snmp
