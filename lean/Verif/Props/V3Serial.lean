import Verif.Props.V3Deliver
import Verif.Props.V3Discovery
/-!
# C88: under serial use a v3 manager does not refuse an answer to a request that is still of interest
-/

namespace Snmp

variable {cfg : VCfg} {m0 : VMgr}

/-! ## Specification -/

/-- The thread is inside a call of `wait()`. -/
def Spec.Busy (p : VPc) : Prop := p ≠ .idle ∧ ∀ r o, p ≠ .done r o

/-- Calls of `send` and `wait()` do not overlap: while a call of `wait()` is going on, no request is issued, and no
other call of `wait()` makes progress. The listening thread is not restricted. -/
def Spec.Serial (cfg : VCfg) (m0 : VMgr) (h : List VEvent) : Prop :=
  ∀ a e b, h = a ++ e :: b → ∀ t, Spec.Busy ((VSys.after cfg m0 a).threads t) →
    (∀ pdu user level timeout period t0 r0 i, e ≠ .send pdu user level timeout period t0 r0 i) ∧
    ∀ t' i, e = .step t' i → t' = t

/-- After the history `h` request `r`, with attributes `q`, is still of interest: its handle is alive, it is not complete, no
thread has seen the clock at or past its expiration, and neither sending it nor sending an older request from the queue
has failed. -/
structure Spec.OfInterest (cfg : VCfg) (m0 : VMgr) (h : List VEvent) (r : Nat) (q : VReq) : Prop where
  alive : (VSys.after cfg m0 h).mgr.deref r = some q
  incomplete : q.event = false
  unexpired : ¬ Spec.Overdue h q.expiration
  unfailed : ¬ Spec.Failed (VSys.after cfg m0 h) r
  older : ∀ r' < r, Fail.poke r' ∉ (VSys.after cfg m0 h).mgr.fails

/-- The manager either was used serially, or has completed discovery. -/
def Spec.Undisturbed (cfg : VCfg) (m0 : VMgr) (h : List VEvent) : Prop :=
  Spec.Serial cfg m0 h ∨ Spec.Discovered cfg m0 h

namespace VSys

open VMgr

/-! ## The states in order -/

/-- How far discovery and synchronization have come. -/
def rank : MState → Nat
  | .inactive | .unsynchronized => 0
  | .waitForDiscovery | .synchronizing => 1
  | .trustEveryResponse => 2
  | .requireAuthentication => 3

theorem onRequest_rank {st : MState} {auth b : Bool} {next : Option MState} (h : st.onRequest auth = (b, next)) :
    (rank st = 0 → ∃ n, next = some n ∧ rank n = 1) ∧ (rank st ≠ 0 → next = none) := by
  cases st <;> simp only [MState.onRequest, Prod.mk.injEq] at h <;> obtain ⟨-, rfl⟩ := h <;> simp [rank]

theorem onReport_rank {mine : Option Bytes} {e : Bytes} {st : MState} {all : Bool} {next : Option MState}
    (h : st.onReport mine e = .ok (all, next)) :
    rank st ≠ 0 ∧ (all = true → ∃ n, next = some n ∧ 2 ≤ rank n) ∧ (∀ n, next = some n → rank st < rank n) := by
  cases st <;> simp [MState.onReport] at h
  case waitForDiscovery => obtain ⟨rfl, rfl⟩ := h; simp [rank]
  case synchronizing =>
    split at h <;> (simp only [Except.ok.injEq, Prod.mk.injEq] at h; obtain ⟨rfl, rfl⟩ := h) <;> simp [rank]
  case trustEveryResponse => obtain ⟨rfl, rfl⟩ := h; simp [rank]
  case requireAuthentication => obtain ⟨rfl, rfl⟩ := h; simp [rank]

theorem onResponse_rank {mine : Option Bytes} {e : Bytes} {auth : Bool} {st : MState} {b : Bool} {next : Option MState}
    (h : st.onResponse mine e auth = .ok (b, next)) :
    rank st ≠ 0 ∧ (∀ n, next = some n → rank st < rank n) := by
  cases st <;> simp only [MState.onResponse] at h <;> try cases h
  case synchronizing =>
    split at h <;> (simp only [Except.ok.injEq, Prod.mk.injEq] at h; obtain ⟨rfl, rfl⟩ := h) <;> simp [rank]
  case trustEveryResponse => refine ⟨by simp [rank], fun n hn => ?_⟩; split at hn <;> cases hn; decide
  case requireAuthentication => simp [rank]

/-! ## The invariant -/

/-- Nothing is scheduled in a state in which nothing is going on. -/
structure Calm (s : VSys) : Prop where
  quiet : rank s.mgr.state = 0 → s.mgr.active = []
  next : ∀ n, s.mgr.next = some n → rank s.mgr.state < rank n
  flush : ∀ r e b, s.listener = .flush r e b → 2 ≤ rank s.mgr.state
  poke : rank s.mgr.state = 1 → ∀ t r, s.threads t = .poke r → s.mgr.active = []

/-- The same states, and the same or fewer requests scheduled. -/
theorem Calm.keep {s s' : VSys} (hc : Calm s) (h1 : s'.mgr.state = s.mgr.state)
    (h2 : ∀ n, s'.mgr.next = some n → s.mgr.next = some n ∨ rank s.mgr.state < rank n)
    (h3 : s.mgr.active = [] → s'.mgr.active = []) (h4 : ∀ r e b, s'.listener = .flush r e b → s.listener = .flush r e b)
    (h5 : ∀ t r, s'.threads t = .poke r → s.threads t = .poke r ∨ s.mgr.active = []) : Calm s' := by
  refine ⟨fun h => h3 (hc.quiet (by rw [← h1]; exact h)), fun n h => ?_, fun r e b h => ?_, fun h t r ht => ?_⟩
  · rw [h1]
    rcases h2 n h with h | h
    · exact hc.next n h
    · exact h
  · rw [h1]; exact hc.flush r e b (h4 r e b h)
  · rcases h5 t r ht with h6 | h6
    · exact h3 (hc.poke (by rw [← h1]; exact h) t r h6)
    · exact h3 h6

theorem heapify_nil (env : Env) : Heap.heapify env [] = [] := by
  have := heapify_ids env []
  simpa using this

theorem pop_of_nil {env : Env} {l : List Ref} (x : Ref) (rest : List Ref) (h : l = x :: rest) (h' : l = []) :
    Heap.pop env l = [] := by rw [h] at h'; cases h'

theorem setAt_poke {f : Nat → VPc} {t : Nat} {p : VPc} (hp : ∀ r, p ≠ .poke r) (t' r : Nat)
    (h : setAt f t p t' = .poke r) : f t' = .poke r := by
  by_cases htt : t' = t
  · subst htt; rw [setAt_same] at h; exact absurd h (hp r)
  · rw [setAt_other _ _ htt] at h; exact h

theorem rank_lt_next {m : VMgr} {st : MState} {next : Option MState} (h : ∀ n, m.next = some n → rank st < rank n)
    (h' : ∀ n, next = some n → rank st < rank n) : ∀ n, (next <|> m.next) = some n → rank st < rank n := by
  intro n hn
  cases next with
  | none => exact h n (by simpa using hn)
  | some k => exact h' n (by simpa using hn)

theorem getD_rank {st : MState} {next : Option MState} (h : ∀ n, next = some n → rank st < rank n) :
    rank st ≤ rank (next.getD st) := by
  cases next with
  | none => exact le_refl _
  | some n => exact le_of_lt (h n rfl)

theorem Calm.move {s s' : VSys} {e : VEvent} (hc : Calm s)
    (hser : ∀ t, Spec.Busy (s.threads t) →
      (∀ pdu user level timeout period t0 r0 i, e ≠ .send pdu user level timeout period t0 r0 i) ∧
      ∀ t' i, e = .step t' i → t' = t) (hm : Move cfg s e s') : Calm s' := by
  have hpoke : ∀ t r, s.threads t = .poke r → Spec.Busy (s.threads t) := by
    intro t r ht; rw [ht]; exact ⟨by simp, by simp⟩
  cases hm
  case queued => exact hc.keep rfl (fun n h => .inl h) id (fun _ _ _ h => h) (fun t r h => .inl h)
  case issued pdu user level timeout period t0 r0 i q hq hl hd next hs m' hm =>
    have hno : ∀ t r, s.threads t ≠ .poke r := fun t r ht =>
      (hser t (hpoke t r ht)).1 _ _ _ _ _ _ _ _ rfl
    obtain ⟨k1, k2⟩ := onRequest_rank hs
    have f := hm.frame
    have e1 : m'.next = (next <|> s.mgr.next) := by rw [f.next, propose_eq]; rfl
    have e2 : m'.state = s.mgr.state := by rw [f.state, propose_eq]; rfl
    have hlt : rank s.mgr.state ≤ rank (m'.next.getD m'.state) ∧ rank (m'.next.getD m'.state) ≠ 0 := by
      rw [e1, e2]
      by_cases h0 : rank s.mgr.state = 0
      · obtain ⟨n, rfl, hn⟩ := k1 h0
        simp [hn, h0]
      · have := k2 h0; subst this
        have hg := getD_rank hc.next
        exact ⟨hg, fun h => h0 (Nat.le_zero.1 (h ▸ hg))⟩
    rw [updateState_eq]
    exact ⟨fun h => absurd h hlt.2, fun n h => by simp at h,
      fun r e b h => le_trans (hc.flush r e b h) hlt.1, fun _ t r ht => absurd ht (hno t r)⟩
  case issueFailed pdu user level timeout period t0 r0 i q hq hl hd next hs m' err hm =>
    have f := hm.frame
    obtain ⟨k1, k2⟩ := onRequest_rank hs
    refine hc.keep ?_ ?_ ?_ (fun _ _ _ h => h) (fun t r h => .inl h)
    · simp only [VMgr.fail]; rw [f.state, propose_eq]; rfl
    · intro n h
      simp only [VMgr.fail] at h
      rw [f.next, propose_eq] at h
      by_cases h0 : rank s.mgr.state = 0
      · obtain ⟨n', rfl, hn⟩ := k1 h0
        simp at h; subst h; right; omega
      · have := k2 h0; subst this; exact .inl h
    · simp only [VMgr.fail]; rw [f.active, propose_eq]; exact id
  case wait t r q ht hq =>
    exact hc.keep rfl (fun n h => .inl h) id (fun _ _ _ h => h) (fun t r h => .inl (setAt_poke (by simp) _ _ h))
  case expired => exact hc.keep rfl (fun n h => .inl h) id (fun _ _ _ h => h) (fun t r h => .inl (setAt_poke (by simp) _ _ h))
  case unexpired => exact hc.keep rfl (fun n h => .inl h) id (fun _ _ _ h => h) (fun t r h => .inl (setAt_poke (by simp) _ _ h))
  case bodyEmpty ha => exact hc.keep rfl (fun n h => .inl h) id (fun _ _ _ h => h) (fun t r h => .inr ha)
  case bodyDead t i r x rest ht ha hx =>
    exact hc.keep rfl (fun n h => .inl h) (pop_of_nil x rest ha) (fun _ _ _ h => h)
      (fun t r h => .inl (setAt_poke (by simp) _ _ h))
  case bodyOver t i r x rest q ht ha hx ho =>
    exact hc.keep rfl (fun n h => .inl h) (pop_of_nil x rest ha) (fun _ _ _ h => h)
      (fun t r h => .inl (setAt_poke (by simp) _ _ h))
  case bodyWait => exact hc.keep rfl (fun n h => .inl h) id (fun _ _ _ h => h) (fun t r h => .inl (setAt_poke (by simp) _ _ h))
  case bodyZero t i r x rest q ht ha hx he hn hx' hz =>
    have f := finish_frame cfg { s with mgr := s.mgr.fail (.refresh x.id) } t r (.raised .zeroDivisionError)
    refine hc.keep f.state (fun n h => .inl (by rw [f.next] at h; exact h)) (fun h => by rw [f.active]; exact h) ?_ ?_
    · rw [finish_eq]; exact fun _ _ _ h => h
    · rw [finish_eq]; exact fun t r h => .inl (setAt_poke (by simp) _ _ h)
  case bodySent t i r x rest q ht ha hx he hn hx' hz m' hm =>
    have f := hm.frame
    exact hc.keep f.state (fun n h => .inl (by rw [← f.next]; exact h)) (fun h => by rw [ha] at h; cases h) (fun _ _ _ h => h)
      (fun t r h => .inl (setAt_poke (by simp) _ _ h))
  case bodyFailed t i r x rest q ht ha hx he hn hx' hz m' err hm =>
    have f := finish_frame cfg { s with mgr := m'.fail (.refresh x.id) } t r (.raised err)
    have g := hm.frame
    refine hc.keep (f.state.trans g.state) (fun n h => .inl ?_) (fun h => by rw [f.active]; exact g.active.trans h) ?_ ?_
    · rw [f.next] at h; rw [← g.next]; exact h
    · rw [finish_eq]; exact fun _ _ _ h => h
    · rw [finish_eq]; exact fun t r h => .inl (setAt_poke (by simp) _ _ h)
  case pokeBegin t i r ht hl =>
    rw [updateState_eq, propose_eq]
    have hact : rank s.mgr.state ≤ 1 → s.mgr.active = [] := by
      intro h
      rcases Nat.le_one_iff_eq_zero_or_eq_one.1 h with h | h
      · exact hc.quiet h
      · exact hc.poke h t r ht
    have hrank : 2 ≤ rank s.mgr.state → 2 ≤ rank ((s.mgr.state.onInactive <|> s.mgr.next).getD s.mgr.state) := by
      intro h
      have hno : s.mgr.state.onInactive = none := by
        revert h; cases s.mgr.state <;> simp [MState.onInactive, rank]
      rw [hno]
      exact le_trans h (by simpa using getD_rank hc.next)
    have hall : ∀ k, k ≤ 1 → rank ((s.mgr.state.onInactive <|> s.mgr.next).getD s.mgr.state) = k → s.mgr.active = [] := by
      intro k hk h
      by_contra hne
      have : 2 ≤ rank s.mgr.state := by
        by_contra h2
        exact hne (hact (by omega))
      have := hrank this
      omega
    exact ⟨fun h => hall 0 (by omega) h, fun n h => by simp at h, fun r e b h => hrank (hc.flush r e b h),
      fun h t r ht => hall 1 (by omega) h⟩
  case pokeEnd t i r a ht =>
    exact hc.keep rfl (fun n h => .inl h) id (fun _ _ _ h => h)
      (fun t r h => .inl (setAt_poke (by cases a <;> simp) _ _ h))
  case pokeDead => exact hc.keep rfl (fun n h => .inl h) id (fun _ _ _ h => h) (fun t r h => .inl (setAt_poke (by simp) _ _ h))
  case pokeQueued => exact hc.keep rfl (fun n h => .inl h) id (fun _ _ _ h => h) (fun t r h => .inl (setAt_poke (by simp) _ _ h))
  case pokeSent t i r l x a q ht hx next hs m' hm =>
    have hno : ∀ t' r', s.threads t' ≠ .poke r' := by
      intro t' r' ht'
      have := (hser t' (hpoke t' r' ht')).2 t i rfl
      subst this
      rw [ht] at ht'; cases ht'
    obtain ⟨k1, k2⟩ := onRequest_rank hs
    have f := hm.frame
    have e1 : m'.next = (next <|> s.mgr.next) := by rw [f.next, propose_eq]
    have e2 : m'.state = s.mgr.state := by rw [f.state, propose_eq]
    have hlt : rank s.mgr.state ≤ rank (m'.next.getD m'.state) ∧ rank (m'.next.getD m'.state) ≠ 0 := by
      rw [e1, e2]
      by_cases h0 : rank s.mgr.state = 0
      · obtain ⟨n, rfl, hn⟩ := k1 h0
        simp [hn, h0]
      · have := k2 h0; subst this
        have hg := getD_rank hc.next
        exact ⟨hg, fun h => h0 (Nat.le_zero.1 (h ▸ hg))⟩
    rw [updateState_eq]
    exact ⟨fun h => absurd h hlt.2, fun n h => by simp at h,
      fun r e b h => le_trans (hc.flush r e b h) hlt.1,
      fun _ t r ht => absurd (setAt_poke (by simp) _ _ ht) (hno t r)⟩
  case pokeFailed t i r l x a q ht hx next hs m' err hm =>
    have f := finish_frame cfg { s with mgr := { m'.fail (.poke x.id) with locked := false } } t r (.raised err)
    have g := hm.frame
    obtain ⟨k1, k2⟩ := onRequest_rank hs
    refine hc.keep (f.state.trans (g.state.trans (by rw [propose_eq]))) (fun n h => ?_)
      (fun h => by rw [f.active]; exact g.active.trans (by rw [propose_eq]; exact h)) ?_ ?_
    · rw [f.next] at h
      simp only [VMgr.fail] at h
      rw [g.next, propose_eq] at h
      by_cases h0 : rank s.mgr.state = 0
      · obtain ⟨n', rfl, hn⟩ := k1 h0
        simp at h; subst h; right; omega
      · have := k2 h0; subst this; left; simpa using h
    · rw [finish_eq]; exact fun _ _ _ h => h
    · rw [finish_eq]; exact fun t r h => .inl (setAt_poke (by simp) _ _ h)
  case woken => exact hc.keep rfl (fun n h => .inl h) id (fun _ _ _ h => h) (fun t r h => .inl (setAt_poke (by simp) _ _ h))
  case slept => exact hc.keep rfl (fun n h => .inl h) id (fun _ _ _ h => h) (fun t r h => .inl (setAt_poke (by simp) _ _ h))
  case answered t i r q x ht hq he hx =>
    rw [finish_eq]
    have f := closing_frame cfg s.mgr r
    exact hc.keep f.state (fun n h => .inl (by rw [f.next] at h; exact h)) (fun h => f.active.trans h) (fun _ _ _ h => h)
      (fun t r h => .inl (setAt_poke (by simp) _ _ h))
  case unanswered => exact hc.keep rfl (fun n h => .inl h) id (fun _ _ _ h => h) (fun t r h => .inl (setAt_poke (by simp) _ _ h))
  case reported t i r q x ht hq he =>
    rw [finish_eq]
    have f := closing_frame cfg s.mgr r
    exact hc.keep f.state (fun n h => .inl (by rw [f.next] at h; exact h)) (fun h => f.active.trans h) (fun _ _ _ h => h)
      (fun t r h => .inl (setAt_poke (by simp) _ _ h))
  case timedOut t i r q ht hq he =>
    rw [finish_eq]
    have f := closing_frame cfg s.mgr r
    exact hc.keep f.state (fun n h => .inl (by rw [f.next] at h; exact h)) (fun h => f.active.trans h) (fun _ _ _ h => h)
      (fun t r h => .inl (setAt_poke (by simp) _ _ h))
  case heardNothing => exact hc.keep rfl (fun n h => .inl h) id (fun _ _ _ h => h) (fun t r h => .inl h)
  case heard => exact hc.keep rfl (fun n h => .inl h) id (fun _ _ _ h => by simp at h) (fun t r h => .inl h)
  case pushStop => exact hc.keep rfl (fun n h => .inl h) id (fun _ _ _ h => by simp at h) (fun t r h => .inl h)
  case reportBad => exact hc.keep rfl (fun n h => .inl h) id (fun _ _ _ h => by simp at h) (fun t r h => .inl h)
  case reportFailed i m x r q cause sync hr hl all next hs m' err hm =>
    have f := hm.frame
    obtain ⟨-, -, k⟩ := onReport_rank hs
    refine hc.keep ?_ (fun n h => ?_) ?_ (fun _ _ _ h => by simp at h) (fun t r h => .inl h)
    · simp only [VMgr.fail]; rw [f.state, propose_eq]
    · simp only [VMgr.fail] at h
      rw [f.next, propose_eq] at h
      cases next with
      | none => left; simpa using h
      | some n' => right; exact k n (by simpa using h)
    · simp only [VMgr.fail]; rw [f.active, propose_eq]; exact id
  case reportOne i m x r q cause sync hr hl next hs m' hm =>
    have f := hm.frame
    obtain ⟨-, -, k⟩ := onReport_rank hs
    refine hc.keep ?_ (fun n h => ?_) ?_ (fun _ _ _ h => by split at h <;> simp at h) (fun t r h => .inl h)
    · simp only; rw [f.state, propose_eq]
    · simp only at h
      rw [f.next, propose_eq] at h
      cases next with
      | none => left; simpa using h
      | some n' => right; exact k n (by simpa using h)
    · intro h
      simp only
      rw [f.active, propose_eq]
      simp only [h]
      exact heapify_nil _
  case reportAll i m x r q cause sync hr hl next hs m' hm =>
    have f := hm.frame
    obtain ⟨-, k1, k2⟩ := onReport_rank hs
    obtain ⟨n, rfl, hn⟩ := k1 rfl
    have e1 : m'.next = some n := by rw [f.next, propose_eq]; rfl
    rw [updateState_eq]
    simp only [e1, Option.getD_some]
    refine ⟨fun h => ?_, fun n h => ?_, fun _ _ _ _ => ?_, fun h => ?_⟩
    · simp only at h; omega
    · simp at h
    · exact hn
    · simp only at h; omega
  case excepted => exact hc.keep rfl (fun n h => .inl h) id (fun _ _ _ h => by simp at h) (fun t r h => .inl h)
  case responseBad i m x msg q hl hm hq hi hlk err m' hp =>
    rcases VMgr.processResponse_cases cfg s.mgr x i.seed with ⟨_, -, h⟩ | ⟨next, _, usm, h', -, h⟩ | ⟨_, _, -, -, h⟩ |
      ⟨-, h⟩ <;> rw [h] at hp <;> cases hp
    · exact hc.keep rfl (fun n h => .inl h) id (fun _ _ _ h => by simp at h) (fun t r h => .inl h)
    · obtain ⟨-, k⟩ := onResponse_rank h'
      refine hc.keep rfl (fun n h => ?_) id (fun _ _ _ h => by simp at h) (fun t r h => .inl h)
      cases next with
      | none => left; simpa using h
      | some n' => right; exact k n (by simpa using h)
  case responded i m x msg q hl hm hq hi hlk m' hp =>
    rcases VMgr.processResponse_cases cfg s.mgr x i.seed with ⟨_, -, h⟩ | ⟨next, _, usm, h', -, h⟩ | ⟨next, _, h', -, h⟩ |
      ⟨-, h⟩ <;> rw [h] at hp <;> cases hp
    · obtain ⟨k0, k⟩ := onResponse_rank h'
      have hle := getD_rank (rank_lt_next (m := s.mgr) hc.next k)
      have h2 : 1 < rank s.mgr.state → 2 ≤ rank ((next <|> s.mgr.next).getD s.mgr.state) := fun h => by omega
      refine ⟨fun h => ?_, fun n h => by simp [VMgr.setReq] at h, fun r e b h => by simp at h, fun h t r ht => ?_⟩
      · simp only [VMgr.setReq] at h; omega
      · simp only [VMgr.setReq] at h ⊢
        exact hc.poke (by omega) t r ht
    · exact hc.keep rfl (fun n h => .inl h) id (fun _ _ _ h => by simp at h) (fun t r h => .inl h)
  case flushEnd i r eid sync hl hu =>
    exact hc.keep rfl (fun n h => .inl h) id (fun _ _ _ h => by split at h <;> simp at h) (fun t r h => .inl h)
  case flushDead => exact hc.keep rfl (fun n h => .inl h) id (fun _ _ _ h => h) (fun t r h => .inl h)
  case flushSent i r eid sync l x q hl hu hx m' hm =>
    have f := hm.frame
    have h2 := hc.flush _ _ _ hl
    have hst : m'.state = s.mgr.state := f.state
    refine ⟨fun h => ?_, fun n h => ?_, fun _ _ _ _ => ?_, fun h => ?_⟩
    · simp only [hst] at h; omega
    · simp only at h ⊢; rw [hst]; exact hc.next n (by rw [← f.next]; exact h)
    · simp only [hst]; exact h2
    · simp only [hst] at h; omega
  case flushFailed i r eid sync l x q hl hu hx m' err hm =>
    have f := hm.frame
    exact hc.keep f.state (fun n h => .inl (by rw [← h]; exact f.next.symm)) (fun h => f.active.trans h)
      (fun _ _ _ h => by simp at h) (fun t r h => .inl h)
  case syncGone => exact hc.keep rfl (fun n h => .inl h) id (fun _ _ _ h => by simp at h) (fun t r h => .inl h)
  case synced => exact hc.keep rfl (fun n h => .inl h) id (fun _ _ _ h => by simp at h) (fun t r h => .inl h)
  case collected => exact hc.keep rfl (fun n h => .inl h) id (fun _ _ _ h => h) (fun t r h => .inl h)
  case dropped => exact hc.keep rfl (fun n h => .inl h) id (fun _ _ _ h => h) (fun t r h => .inl h)
  case addUser => exact hc.keep rfl (fun n h => .inl h) id (fun _ _ _ h => h) (fun t r h => .inl h)
  case other => exact hc.keep rfl (fun n h => .inl h) id (fun _ _ _ h => h) (fun t r h => .inl h)

theorem calm (hc : Spec.Created cfg m0) (h : List VEvent) (hs : Spec.Serial cfg m0 h) : Calm (after cfg m0 h) := by
  induction h using List.reverseRecOn with
  | nil =>
    obtain ⟨hok, h0, engineID, g, c0, n0, seed, hu0, hm⟩ := hc
    obtain ⟨usm, hcc, hm0⟩ := VMgr.create_ok hm
    refine ⟨fun _ => ?_, fun n hn => ?_, (fun r e b h => by cases h), (fun _ t r ht => by cases ht)⟩
    · show m0.active = []
      rw [hm0]
    · have hn : m0.next = some n := hn
      rw [hm0] at hn; cases hn
  | append_singleton h e ih =>
    have hs' : Spec.Serial cfg m0 h := fun a e' b hab => hs a e' (b ++ [e]) (by rw [hab]; simp)
    have ih := ih hs'
    rw [after_snoc]
    rcases step_move cfg (after cfg m0 h) e with hm | hm
    · rw [hm]; exact ih
    · exact ih.move (fun t ht => hs h e [] rfl t ht) hm

/-! ## A queued request has no message yet -/

theorem VMgr.Sends.msgs {s s' : VMgr} {r : Nat} {q : VReq} {engineID : Option Bytes} {cause : Why}
    {i : SendIn} {res : Res Unit} (h : VMgr.Sends cfg s r q engineID cause i res s') {k : Nat} {msg : VMsg}
    (hk : s'.msgs k = some msg) : s.msgs k = some msg ∨ msg.request = r := by
  cases h with
  | refused e err usm he hc => exact .inl hk
  | made q1 usm1 usm cache id sent res he hb hu hs hpo hdo =>
    simp only at hk
    by_cases hkk : k = s.nextMsg
    · subst hkk; rw [setAt_same] at hk; cases hk; exact .inr rfl
    · rw [setAt_other _ _ hkk] at hk; exact .inl hk

theorem Reports.msg {s : VSys} {m : Nat} {x : V3Incoming} {r : Nat} {q : VReq} {cause : Why} {sync : Bool}
    (h : Reports s m x r q cause sync) : ∃ msg, s.mgr.msgs m = some msg ∧ msg.request = r := by
  cases h with
  | unknownEngine msg v rest hl hm hr => exact ⟨msg, hm, hr⟩
  | notInTime msg v rest hl hm hr => exact ⟨msg, hm, hr⟩

/-- Where the messages come from. -/
theorem move_msgs {s s' : VSys} {e : VEvent} (hm : Move cfg s e s') {k : Nat} {msg : VMsg} (hk : s'.mgr.msgs k = some msg) :
    (∃ k' msg', s.mgr.msgs k' = some msg' ∧ msg'.request = msg.request) ∨ msg.request ∈ ids s'.mgr.active ∨
    (s'.mgr.locked = false ∧ msg.request = s.mgr.nextReq ∧ s'.mgr.nextReq = s.mgr.nextReq + 1 ∧
      s'.mgr.unsent = s.mgr.unsent) ∨
    (s'.mgr.locked = false ∧ s'.mgr.nextReq = s.mgr.nextReq ∧ ((∃ t r l x a, s.threads t = .poking r (l ++ [x]) a ∧
      s'.mgr.unsent = s.mgr.unsent ∧ msg.request = x.id) ∨
      ∃ l x, s.mgr.unsent = l ++ [x] ∧ s'.mgr.unsent = l ∧ msg.request = x.id)) := by
  have cm : ∀ (m : VMgr) r, (m.closing cfg r).msgs = m.msgs := by
    intro m r; unfold VMgr.closing VMgr.closed; split <;> rfl
  cases hm
  case issued pdu user level timeout period t0 r0 i q hq hl hd next hs m' hm =>
    rw [updateState_eq] at hk ⊢
    rcases VMgr.Sends.msgs hm hk with h | h
    · rw [propose_eq] at h; exact .inl ⟨k, msg, h, rfl⟩
    · exact .inr (.inl ((push_ids _ _ _).mem_iff.2 (by simp [h])))
  case issueFailed pdu user level timeout period t0 r0 i q hq hl hd next hs m' err hm =>
    have f := hm.frame
    rcases VMgr.Sends.msgs hm hk with h | h
    · rw [propose_eq] at h; exact .inl ⟨k, msg, h, rfl⟩
    · refine .inr (.inr (.inl ⟨?_, h, ?_, ?_⟩)) <;> simp only [VMgr.fail]
      · rw [f.locked, propose_eq]; exact hl
      · rw [f.nextReq, propose_eq]; rfl
      · rw [f.unsent, propose_eq]; rfl
  case bodyZero t i r x rest q ht ha hx he hn hx' hz =>
    rw [finish_eq] at hk; simp only [cm] at hk; exact .inl ⟨k, msg, hk, rfl⟩
  case bodySent t i r x rest q ht ha hx he hn hx' hz m' hm =>
    have f := hm.frame
    rcases VMgr.Sends.msgs hm hk with h | h
    · exact .inl ⟨k, msg, h, rfl⟩
    · refine .inr (.inl ?_)
      simp only
      rw [f.active, ha]
      exact (replace_ids _ _ _).mem_iff.2 (by simp [h])
  case bodyFailed t i r x rest q ht ha hx he hn hx' hz m' err hm =>
    have f := hm.frame
    have g := finish_frame cfg { s with mgr := m'.fail (.refresh x.id) } t r (.raised err)
    rw [finish_eq] at hk; simp only [cm] at hk
    rcases VMgr.Sends.msgs hm hk with h | h
    · exact .inl ⟨k, msg, h, rfl⟩
    · refine .inr (.inl ?_)
      rw [g.active]
      show _ ∈ ids m'.active
      rw [f.active, ha]
      simp [h]
  case pokeBegin t i r ht hl =>
    rw [updateState_eq, propose_eq] at hk; exact .inl ⟨k, msg, hk, rfl⟩
  case pokeSent t i r l x a q ht hx next hs m' hm =>
    rw [updateState_eq] at hk ⊢
    rcases VMgr.Sends.msgs hm hk with h | h
    · rw [propose_eq] at h; exact .inl ⟨k, msg, h, rfl⟩
    · exact .inr (.inl ((push_ids _ _ _).mem_iff.2 (by simp [h])))
  case pokeFailed t i r l x a q ht hx next hs m' err hm =>
    have f := hm.frame
    have g := finish_frame cfg { s with mgr := { m'.fail (.poke x.id) with locked := false } } t r (.raised err)
    rw [finish_eq] at hk; simp only [cm] at hk
    rcases VMgr.Sends.msgs hm hk with h | h
    · rw [propose_eq] at h; exact .inl ⟨k, msg, h, rfl⟩
    · refine .inr (.inr (.inr ⟨g.locked, ?_, .inl ⟨t, r, l, x, a, ht, ?_, h⟩⟩))
      · rw [g.nextReq]; exact f.nextReq.trans (by rw [propose_eq])
      · rw [g.unsent]; exact f.unsent.trans (by rw [propose_eq])
  case answered t i r q x ht hq he hx => rw [finish_eq] at hk; simp only [cm] at hk; exact .inl ⟨k, msg, hk, rfl⟩
  case reported t i r q ex ht hq he => rw [finish_eq] at hk; simp only [cm] at hk; exact .inl ⟨k, msg, hk, rfl⟩
  case timedOut t i r q ht hq he => rw [finish_eq] at hk; simp only [cm] at hk; exact .inl ⟨k, msg, hk, rfl⟩
  case reportFailed i m x r q cause sync hr hl all next hs m' err hm =>
    rcases VMgr.Sends.msgs hm hk with h | h
    · rw [propose_eq] at h; exact .inl ⟨k, msg, h, rfl⟩
    · obtain ⟨msg', h1, h2⟩ := hr.msg; exact .inl ⟨_, msg', h1, h2.trans h.symm⟩
  case reportOne i m x r q cause sync hr hl next hs m' hm =>
    rcases VMgr.Sends.msgs hm hk with h | h
    · rw [propose_eq] at h; exact .inl ⟨k, msg, h, rfl⟩
    · obtain ⟨msg', h1, h2⟩ := hr.msg; exact .inl ⟨_, msg', h1, h2.trans h.symm⟩
  case reportAll i m x r q cause sync hr hl next hs m' hm =>
    rw [updateState_eq] at hk
    rcases VMgr.Sends.msgs hm hk with h | h
    · rw [propose_eq] at h; exact .inl ⟨k, msg, h, rfl⟩
    · obtain ⟨msg', h1, h2⟩ := hr.msg; exact .inl ⟨_, msg', h1, h2.trans h.symm⟩
  case responseBad i m x msg' q hl hm hq hi hlk err m' hp =>
    rcases VMgr.processResponse_cases cfg s.mgr x i.seed with ⟨_, -, h⟩ | ⟨next, _, usm, h', -, h⟩ | ⟨_, _, -, -, h⟩ |
      ⟨-, h⟩ <;> rw [h] at hp <;> cases hp <;> exact .inl ⟨k, msg, hk, rfl⟩
  case responded i m x msg' q hl hm hq hi hlk m' hp =>
    rcases VMgr.processResponse_cases cfg s.mgr x i.seed with ⟨_, -, h⟩ | ⟨next, _, usm, h', -, h⟩ | ⟨next, _, h', -, h⟩ |
      ⟨-, h⟩ <;> rw [h] at hp <;> cases hp <;> exact .inl ⟨k, msg, hk, rfl⟩
  case flushSent i r eid sync l x q hl hu hx m' hm =>
    rcases VMgr.Sends.msgs hm hk with h | h
    · exact .inl ⟨k, msg, h, rfl⟩
    · exact .inr (.inl ((push_ids _ _ _).mem_iff.2 (by simp [h])))
  case flushFailed i r eid sync l x q hl hu hx m' err hm =>
    have f := hm.frame
    rcases VMgr.Sends.msgs hm hk with h | h
    · exact .inl ⟨k, msg, h, rfl⟩
    · exact .inr (.inr (.inr ⟨rfl, f.nextReq, .inr ⟨l, x, hu, f.unsent, h⟩⟩))
  all_goals exact .inl ⟨k, msg, hk, rfl⟩

/-- What a step does to the queue. -/
theorem flow_queue {s s' : VSys} {e : VEvent} {held held' : List Ref} (hf : Flow s e s' held held') (r : Nat)
    (hr : r ∈ ids held' ++ ids s'.mgr.unsent) : r ∈ ids held ++ ids s.mgr.unsent ∨ s.mgr.nextReq ≤ r := by
  cases hf with
  | same ha hu hn => rw [hu] at hr; exact .inl hr
  | queued x hx ha hu hn =>
    rw [hu] at hr
    simp only [List.map_nil, List.nil_append, List.map_cons, List.mem_cons] at hr ⊢
    rcases hr with rfl | hr
    · exact .inr (le_of_eq hx.symm)
    · exact .inl hr
  | issued ha hu hn => rw [hu] at hr; exact .inl hr
  | issueFailed ha hu hn hf => rw [hu] at hr; exact .inl hr
  | popped x rest hx ho ha hu hn => rw [hu] at hr; exact .inl hr
  | pokeBegin ha hu hn => rw [hu] at hr; left; simpa using hr
  | pokeDead x ho ha hu hn => rw [hu] at hr; left; simp only [List.map_append, List.mem_append] at hr ⊢; tauto
  | pokeQueued x ha hu hn =>
    rw [hu] at hr; left
    simp only [List.map_append, List.mem_append, List.map_cons, List.mem_cons, List.map_nil, List.not_mem_nil, or_false] at hr ⊢
    tauto
  | pokeSent x ha hu hn => rw [hu] at hr; left; simp only [List.map_append, List.mem_append] at hr ⊢; tauto
  | pokeFailed x ha hu hn hf => rw [hu] at hr; left; simp only [List.map_append, List.mem_append, List.map_nil, List.not_mem_nil, false_or] at hr ⊢; tauto
  | flushDead x l ho hx ha hu hn => rw [hu] at hr; rw [hx]; left; simp only [List.map_append, List.mem_append] at hr ⊢; tauto
  | flushSent x l hx ha hu hn => rw [hu] at hr; rw [hx]; left; simp only [List.map_append, List.mem_append] at hr ⊢; tauto
  | flushFailed x l hx ha hu hn hf => rw [hu] at hr; rw [hx]; left; simp only [List.map_append, List.mem_append] at hr ⊢; tauto

/-- No message is of a request that is queued, or of one still to come. -/
theorem unspoken (hc : Spec.Created cfg m0) (h : List VEvent) (k : Nat) (msg : VMsg)
    (hk : (after cfg m0 h).mgr.msgs k = some msg) :
    ¬ Spec.Queued (after cfg m0 h) msg.request ∧ msg.request < (after cfg m0 h).mgr.nextReq := by
  induction h using List.reverseRecOn generalizing k msg with
  | nil =>
    obtain ⟨hok, h0, engineID, g, c0, n0, seed, hu0, hm⟩ := hc
    obtain ⟨usm, hcc, hm0⟩ := VMgr.create_ok hm
    have hk : m0.msgs k = some msg := hk
    rw [hm0] at hk; cases hk
  | append_singleton h e ih =>
    obtain ⟨held, hp, -⟩ := hc.kept h
    rw [after_snoc] at hk ⊢
    rcases step_move cfg (after cfg m0 h) e with hm | hm
    · rw [hm] at hk ⊢; exact ih k msg hk
    · obtain ⟨held', hp', hf⟩ := hp.move hm
      generalize (after cfg m0 h).step cfg e = s' at *
      generalize after cfg m0 h = s at *
      have hmono : s.mgr.nextReq ≤ s'.mgr.nextReq := by
        rcases flow_places hf with h | h <;> omega
      rw [Spec.queued_iff hp'.owner]
      have hnd := hp.nodup
      have hnd' := hp'.nodup
      unfold places at hnd hnd'
      rcases move_msgs hm hk with ⟨k', msg', h1, h2⟩ | h1 | ⟨h1, h2, h3, h4⟩ | ⟨h1, h2, h3⟩
      · obtain ⟨g1, g2⟩ := ih k' msg' h1
        rw [h2, Spec.queued_iff hp.owner] at g1
        rw [h2] at g2
        refine ⟨fun hx => ?_, by omega⟩
        rcases flow_queue hf _ hx with hx | hx
        · exact g1 hx
        · omega
      · exact ⟨fun hx => (List.nodup_append.1 hnd').2.2 _ h1 _ hx rfl, hp'.lt _ (List.mem_append.2 (.inl h1))⟩
      · obtain ⟨rfl, -⟩ := hp'.owner.unlocked h1
        refine ⟨fun hx => ?_, by omega⟩
        rw [h4, h2] at hx
        have := hp.lt s.mgr.nextReq (by simp only [places, List.mem_append]; right; right; simpa using hx)
        omega
      · obtain ⟨rfl, -⟩ := hp'.owner.unlocked h1
        simp only [List.map_nil, List.nil_append]
        rcases h3 with ⟨t, r, l, x, a, h3, h4, h5⟩ | ⟨l, x, h3, h4, h5⟩
        · obtain ⟨rfl, -⟩ := hp.owner.poking h3
          rw [h4, h5, h2]
          refine ⟨fun hx => ?_, hp.lt _ (by simp [places])⟩
          have := (List.nodup_append.1 hnd).2.1
          rw [List.nodup_append] at this
          exact this.2.2 x.id (by simp) x.id hx rfl
        · rw [h4, h5, h2]
          refine ⟨fun hx => ?_, hp.lt _ (by simp [places, h3])⟩
          have := (List.nodup_append.1 hnd).2.1
          rw [List.nodup_append, h3] at this
          have := show ((l ++ [x]).map Ref.id).Nodup from this.2.1
          rw [List.map_append, List.nodup_append] at this
          exact this.2.2 x.id hx x.id (by simp) rfl

/-! ## The manager is not idle while a request is of interest -/

theorem not_idle (hc : Spec.Created cfg m0) (h : List VEvent) (hu : Spec.Undisturbed cfg m0 h) (k : Nat) (msg : VMsg)
    (hk : (after cfg m0 h).mgr.msgs k = some msg) (q : VReq) (hi : Spec.OfInterest cfg m0 h msg.request q) :
    rank (after cfg m0 h).mgr.state ≠ 0 := by
  rcases hu with hs | hd
  · intro hr
    have hnil := (calm hc h hs).quiet hr
    rcases C54_partial hc h msg.request q hi.alive hi.incomplete hi.older with ⟨x, hx, -⟩ | h1 | h1 | h1
    · rw [hnil] at hx; cases hx
    · exact (unspoken hc h k msg hk).1 h1
    · exact hi.unexpired h1
    · exact hi.unfailed h1
  · rcases (discovered_ready hc h hd).state with h1 | h1 <;> rw [h1] <;> decide

/-- The engine of a request, and that of the manager, can be registered once more. -/
theorem engine_held (hc : Spec.Created cfg m0) (h : List VEvent) (r : Nat) (q : VReq)
    (hq : (after cfg m0 h).mgr.reqs r = some q) (e : Bytes)
    (he : (after cfg m0 h).mgr.engineID = some e ∨ q.engineID = some e) (seed : Bytes → Nat) :
    (changeEngine cfg (after cfg m0 h).mgr.usm (after cfg m0 h).mgr.engineID (some e) seed).1 = .ok () := by
  obtain ⟨base, hpos, hs⟩ := hc.sound h
  have hacc := hs.accounts
  generalize (after cfg m0 h).mgr = m at *
  have hheld : ∃ k, 0 < k ∧ m.usm.reg e = some (k, cfg.ns) := by
    refine hacc.ledger.held hpos ?_
    unfold Spec.holders Spec.naming
    rcases he with he | he
    · rw [if_pos he]; omega
    · have : 0 < ((List.range m.nextReq).filter fun r => decide ((m.reqs r).bind VReq.engineID = some e)).length := by
        rw [List.length_pos_iff_exists_mem]
        exact ⟨r, List.mem_filter.2 ⟨List.mem_range.2 (hacc.lt hq), by simp [hq, he]⟩⟩
      omega
  obtain ⟨rest, hrest⟩ := naming_mgr m.reqs m.nextReq
  have hl : Usm.Ledger base cfg.ns m.usm (fun e => rest e + one m.engineID e) :=
    hacc.ledger.congr fun e => (hrest m.engineID e).symm
  rcases changeEngine_spec hl hpos (some e) seed with ⟨h1, -⟩ | ⟨⟨err, -, e', he', href⟩, -⟩
  · exact h1
  · cases he'
    obtain ⟨k, hk, hreg⟩ := hheld
    exfalso
    unfold Usm.reg at hreg
    cases hg : m.usm.users.engines.get e with
    | none => rw [hg] at hreg; cases hreg
    | some peer =>
      rw [hg] at hreg
      simp only [Option.map_some, Option.some.injEq, Prod.mk.injEq] at hreg
      have : (m.usm.users.assign cfg.crypto e cfg.ns seed).1 = .ok true := by
        unfold UserRegistry.assign
        rw [hg]
        simp [RemoteEngine.assign, hreg.2]
      rcases href with h1 | ⟨h1, -⟩ <;> rw [this] at h1 <;> cases h1

theorem process_ok (hc : Spec.Created cfg m0) (h : List VEvent) (hu : Spec.Undisturbed cfg m0 h)
    (hm0 : m0.engineID ≠ none ∨ Spec.Discovered cfg m0 h) (k : Nat) (msg : VMsg)
    (hk : (after cfg m0 h).mgr.msgs k = some msg) (q : VReq) (hi : Spec.OfInterest cfg m0 h msg.request q)
    (x : V3Incoming)
    (he : (after cfg m0 h).mgr.engineID = some x.securityEngineID ∨ q.engineID = some x.securityEngineID)
    (seed : Bytes → Nat) : ((after cfg m0 h).mgr.processResponse cfg x seed).1 = .ok () := by
  have hrank := not_idle hc h hu k msg hk q hi
  have hch := engine_held hc h msg.request q (deref_some hi.alive).2 _ he seed
  have hst : (after cfg m0 h).mgr.state ≠ .waitForDiscovery := by
    rcases hm0 with hm0 | hd
    · obtain ⟨k1, -, k2⟩ := hc.start
      rcases closed_given.after (cfg := cfg) (.inl (k2 hm0)) k1 h with h1 | h1 | h1 <;> rw [h1] <;> simp
    · rcases (discovered_ready hc h hd).state with h1 | h1 <;> rw [h1] <;> simp
  rcases VMgr.processResponse_cases cfg (after cfg m0 h).mgr x seed with ⟨err, h1, h2⟩ | ⟨next, err, usm, h1, h2, h3⟩ |
      ⟨next, usm, h1, h2, h3⟩ | ⟨h1, h2⟩
  · exfalso
    generalize (after cfg m0 h).mgr.state = st at *
    cases st <;> simp [MState.onResponse, rank] at h1 hrank hst
    · split at h1 <;> cases h1
  · rw [h2] at hch; cases hch
  · rw [h3]
  · rw [h2]

end VSys

open VSys

/-- **C88**, responses; what is true of the code. The manager was created with an engine ID and used serially, or has
completed discovery. If the listening thread, the lock being free, processes a response for a request still of interest
and the response names the engine of the request or of the manager, the response is delivered: the request is then
complete. Missing: other use (`C88_false`); and a response to a request whose engine was not discovered yet. -/
theorem C88_partial (hc : Spec.Created cfg m0) (h : List VEvent) (hu : Spec.Undisturbed cfg m0 h)
    (hm0 : m0.engineID ≠ none ∨ Spec.Discovered cfg m0 h) (k : Nat) (msg : VMsg) (x : V3Incoming)
    (hl : (after cfg m0 h).listener = .push k x) (hk : (after cfg m0 h).mgr.msgs k = some msg) (q : VReq)
    (hi : Spec.OfInterest cfg m0 h msg.request q) (hx : x.scopedPDU.pdu.type = .response)
    (he : (after cfg m0 h).mgr.engineID = some x.securityEngineID ∨ q.engineID = some x.securityEngineID)
    (hlock : (after cfg m0 h).mgr.locked = false) (i : SendIn) :
    Spec.Delivers cfg (after cfg m0 h) (.listen i) msg.request x ∧
    ∃ q', (after cfg m0 (h ++ [.listen i])).mgr.reqs msg.request = some q' ∧ q'.event = true ∧
      Spec.verdict q' = some (Spec.answer x q.pdu) := by
  have hdel : Spec.Delivers cfg (after cfg m0 h) (.listen i) msg.request x :=
    ⟨i, k, msg, rfl, hl, hk, rfl, by rw [hi.alive]; rfl, by rw [hx]; rfl, hlock,
      process_ok hc h hu hm0 k msg hk q hi x he i.seed⟩
  refine ⟨hdel, ?_⟩
  obtain ⟨q1, q2, g1, g2, g3, g4, -⟩ := C68_delivered h (.listen i) msg.request x hdel
  rw [(VMgr.deref_some hi.alive).2] at g1
  cases g1
  exact ⟨q2, g2, g3, g4 hi.incomplete⟩

theorem VSys.report_sends (hc : Spec.Created cfg m0) (h : List VEvent) (hu : Spec.Undisturbed cfg m0 h) (k : Nat) (msg : VMsg)
    (hk : (after cfg m0 h).mgr.msgs k = some msg) (q : VReq) (hi : Spec.OfInterest cfg m0 h msg.request q)
    (hlock : (after cfg m0 h).mgr.locked = false) (e : Bytes) (cause : Why) (sync : Bool) (i : SendIn) :
    let s' := (after cfg m0 h).report cfg msg.request q e cause sync i
    (∃ k' w, s'.mgr.sent = ⟨msg.request, k', w⟩ :: (after cfg m0 h).mgr.sent) ∨
      s'.mgr.fails = .report msg.request :: (after cfg m0 h).mgr.fails := by
  have hrank := not_idle hc h hu k msg hk q hi
  generalize after cfg m0 h = s at *
  intro s'
  show (∃ k' w, (s.report cfg msg.request q e cause sync i).mgr.sent = ⟨msg.request, k', w⟩ :: s.mgr.sent) ∨
      (s.report cfg msg.request q e cause sync i).mgr.fails = .report msg.request :: s.mgr.fails
  unfold VSys.report
  rw [hlock]
  simp only [Bool.false_eq_true, if_false]
  unfold VMgr.onReport
  cases hr : s.mgr.state.onReport s.mgr.engineID e with
  | error err =>
    exfalso
    generalize s.mgr.state = st at *
    cases st <;> simp [MState.onReport, rank] at hr hrank
    · split at hr <;> cases hr
  | ok y =>
    obtain ⟨all, next⟩ := y
    simp only
    obtain ⟨res, m', h2, h3⟩ := send_cases cfg (s.mgr.propose next) msg.request q (some e) cause i
    rw [h2]
    have f := h3.frame
    cases res with
    | error err =>
      right
      simp only [VMgr.fail]
      rw [f.fails, VMgr.propose_eq]
    | ok u =>
      left
      obtain ⟨k', w, hw⟩ := h3.sent_ok
      rw [VMgr.propose_eq] at hw
      refine ⟨k', w, ?_⟩
      cases all with
      | true => simp only [if_true, VMgr.updateState_eq]; exact hw
      | false => simp only [Bool.false_eq_true, if_false, VSys.reported]; exact hw

/-- **C88**, discovery reports; what is true of the code. If the listening thread, the lock being free, processes a
report of an unknown engine ID for a request still of interest, and the report names another engine than the one the
request is addressed to, then the request is transmitted again, or that transmission raises an exception. -/
theorem C88_discovery (hc : Spec.Created cfg m0) (h : List VEvent) (hu : Spec.Undisturbed cfg m0 h) (k : Nat) (msg : VMsg)
    (x : V3Incoming) (hl : (after cfg m0 h).listener = .push k x) (hk : (after cfg m0 h).mgr.msgs k = some msg) (q : VReq)
    (hi : Spec.OfInterest cfg m0 h msg.request q) (hx : Spec.IsReport x) (v : VarBind) (rest : List VarBind)
    (hv : x.scopedPDU.pdu.bindings = v :: rest) (hn : v.name = Spec.unknownEngineIDs)
    (he : q.engineID ≠ some x.securityEngineID) (hlock : (after cfg m0 h).mgr.locked = false) (i : SendIn) :
    (∃ k' w, (after cfg m0 (h ++ [.listen i])).mgr.sent = ⟨msg.request, k', w⟩ :: (after cfg m0 h).mgr.sent) ∨
      (after cfg m0 (h ++ [.listen i])).mgr.fails = .report msg.request :: (after cfg m0 h).mgr.fails := by
  have key := report_sends hc h hu k msg hk q hi hlock x.securityEngineID (.unknownEngine k) false i
  have hq := hi.alive
  rw [after_snoc]
  generalize after cfg m0 h = s at *
  have : s.step cfg (.listen i) = s.report cfg msg.request q x.securityEngineID (.unknownEngine k) false i := by
    unfold VSys.step VSys.listen
    simp only [hl]
    unfold VSys.push
    have hint : x.scopedPDU.pdu.type.isInternal = true := by rw [show x.scopedPDU.pdu.type = .report from hx]; rfl
    simp only [hk, hint, if_true, hv]
    rw [if_pos (show v.name = usmStatsUnknownEngineIDs from hn), hq]
    simp only
    rw [if_neg (fun h => he h.symm)]
  rw [this]
  exact key

/-- **C88**, reports that the manager's clock is off; what is true of the code: likewise, unless a report of this
kind has been processed before for a message sent since. -/
theorem C88_synchronization (hc : Spec.Created cfg m0) (h : List VEvent) (hu : Spec.Undisturbed cfg m0 h) (k : Nat) (msg : VMsg)
    (x : V3Incoming) (hl : (after cfg m0 h).listener = .push k x) (hk : (after cfg m0 h).mgr.msgs k = some msg) (q : VReq)
    (hi : Spec.OfInterest cfg m0 h msg.request q) (hx : Spec.IsReport x) (v : VarBind) (rest : List VarBind)
    (hv : x.scopedPDU.pdu.bindings = v :: rest) (hn : v.name = Spec.notInTimeWindows)
    (hb : (after cfg m0 h).mgr.bools msg.shared = false) (hlock : (after cfg m0 h).mgr.locked = false) (i : SendIn) :
    (∃ k' w, (after cfg m0 (h ++ [.listen i])).mgr.sent = ⟨msg.request, k', w⟩ :: (after cfg m0 h).mgr.sent) ∨
      (after cfg m0 (h ++ [.listen i])).mgr.fails = .report msg.request :: (after cfg m0 h).mgr.fails := by
  have key := report_sends hc h hu k msg hk q hi hlock x.securityEngineID (.notInTime k) true i
  have hq := hi.alive
  rw [after_snoc]
  generalize after cfg m0 h = s at *
  have : s.step cfg (.listen i) = s.report cfg msg.request q x.securityEngineID (.notInTime k) true i := by
    unfold VSys.step VSys.listen
    simp only [hl]
    unfold VSys.push
    have hint : x.scopedPDU.pdu.type.isInternal = true := by rw [show x.scopedPDU.pdu.type = .report from hx]; rfl
    simp only [hk, hint, if_true, hv]
    rw [if_neg (by rw [hn]; decide), if_pos (show v.name = usmStatsNotInTimeWindows from hn), if_neg (by simp [hb]), hq]
  rw [this]
  exact key

/-- **C88**, end to end; what is true of the code. A datagram was sent for a request, and nothing has ended a `wait()` on it
since. A response to it arrives, the security module accepts it, and it names the engine of the request or of the
manager. The request is still of interest, and a thread sleeps in `wait()` on it. Then that thread ends with the response. -/
theorem C88_wait {h0 : List Spec.UsmOp} (hc : Spec.CreatedOn cfg h0 m0) (hs : Spec.Seeded m0) (hmax : 484 ≤ cfg.maxSize)
    (h1 : List VEvent) (e : VEvent) (h2 : List VEvent) (hh : Spec.Possible (h1 ++ [e])) (d : Sent)
    (hd : (after cfg m0 (h1 ++ [e])).mgr.sent = d :: (after cfg m0 h1).mgr.sent)
    (hn : Spec.StillWaited cfg m0 (h1 ++ [e]) h2 d.request) (w : Bytes) (stamp : ℚ) (x : V3Incoming)
    (hidle : (after cfg m0 (h1 ++ [e] ++ h2)).listener = .idle)
    (hw : Spec.ReadAs cfg (after cfg m0 (h1 ++ [e] ++ h2)).mgr.usm w stamp x) (ha : Spec.AnswerTo d.wire x)
    (hx : x.scopedPDU.pdu.type = .response) (hlock : (after cfg m0 (h1 ++ [e] ++ h2)).mgr.locked = false)
    (hu : Spec.Undisturbed cfg m0 (h1 ++ [e] ++ h2 ++ [.hear w stamp]))
    (hm0 : m0.engineID ≠ none ∨ Spec.Discovered cfg m0 (h1 ++ [e] ++ h2 ++ [.hear w stamp])) (q : VReq)
    (hi : Spec.OfInterest cfg m0 (h1 ++ [e] ++ h2 ++ [.hear w stamp]) d.request q)
    (he : (after cfg m0 (h1 ++ [e] ++ h2 ++ [.hear w stamp])).mgr.engineID = some x.securityEngineID ∨
      q.engineID = some x.securityEngineID)
    (t : Nat) (timeout since : ℚ) (ht : (after cfg m0 (h1 ++ [e] ++ h2)).threads t = .sleep d.request timeout since)
    (i i1 i2 : SendIn) :
    (after cfg m0 (h1 ++ [e] ++ h2 ++ [.hear w stamp, .listen i, .step t i1, .step t i2])).threads t =
      .done d.request (Spec.answer x q.pdu) := by
  obtain ⟨-, msg, k2, k3⟩ := C87_heard hc hs hmax h1 e h2 hh d hd hn w stamp x hidle hw ha
  rw [← k3] at hi
  have hok := process_ok hc.created _ hu hm0 d.message msg k2 q hi x he i.seed
  have hq := (VMgr.deref_some hi.alive).2
  rw [k3] at hq
  refine C87_wait hc hs hmax h1 e h2 hh d hd hn w stamp x hidle hw ha hx hlock i hok q ?_ hi.incomplete t timeout since ht
    i1 i2
  rw [after_snoc] at hq
  rcases step_move cfg (after cfg m0 (h1 ++ [e] ++ h2)) (.hear w stamp) with hm | hm
  · rw [hm] at hq; exact hq
  · generalize VSys.step cfg (after cfg m0 (h1 ++ [e] ++ h2)) (.hear w stamp) = s' at *
    cases hm <;> exact hq

end Snmp
