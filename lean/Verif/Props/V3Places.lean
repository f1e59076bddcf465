import Verif.Props.V3Wait
/-!
# Where the requests of a v3 manager are kept

Who holds `lock`, and how requests move between the heap `active`, the deque `unsent` and the local deque of
`poke`.
-/

namespace Snmp

variable {cfg : VCfg} {m0 : VMgr}

namespace VSys

open VMgr

/-- The thread is not in the loop of `poke`. -/
def Free (p : VPc) : Prop := ∀ r l a, p ≠ .poking r l a

/-- The listening thread is not in the loop of `onReport`. -/
def Quiet (p : VListen) : Prop := ∀ r e b, p ≠ .flush r e b

/-- Who holds `lock`; `held` is the local deque of `poke`. -/
inductive Owner (s : VSys) : List Ref → Prop
  | none (hl : s.mgr.locked = false) (ht : ∀ t, Free (s.threads t)) (hq : Quiet s.listener) : Owner s []
  | poke (t r : Nat) (held : List Ref) (a : Bool) (hl : s.mgr.locked = true) (hp : s.threads t = .poking r held a)
      (ht : ∀ t', t' ≠ t → Free (s.threads t')) (hq : Quiet s.listener) : Owner s held
  | flush (r : Nat) (e : Bytes) (b : Bool) (hl : s.mgr.locked = true) (ht : ∀ t, Free (s.threads t))
      (hq : s.listener = .flush r e b) : Owner s []

namespace Owner

variable {s s' : VSys} {held : List Ref}

theorem unlocked (h : Owner s held) (hl : s.mgr.locked = false) :
    held = [] ∧ (∀ t, Free (s.threads t)) ∧ Quiet s.listener := by
  cases h with
  | none _ ht hq => exact ⟨rfl, ht, hq⟩
  | poke t r held a hl' => rw [hl] at hl'; cases hl'
  | flush r e b hl' => rw [hl] at hl'; cases hl'

theorem poking (h : Owner s held) {t r : Nat} {l : List Ref} {a : Bool} (ht : s.threads t = .poking r l a) :
    held = l ∧ s.mgr.locked = true ∧ (∀ t', t' ≠ t → Free (s.threads t')) ∧ Quiet s.listener := by
  cases h with
  | none _ hf _ => exact absurd ht (hf t r l a)
  | poke t0 r0 held a0 hl hp hf hq =>
    by_cases h : t = t0
    · subst h
      rw [hp] at ht
      injection ht with _ h1 _
      exact ⟨h1, hl, hf, hq⟩
    · exact absurd ht (hf t h r l a)
  | flush _ _ _ _ hf _ => exact absurd ht (hf t r l a)

theorem flushing (h : Owner s held) {r : Nat} {e : Bytes} {b : Bool} (hl : s.listener = .flush r e b) :
    held = [] ∧ s.mgr.locked = true ∧ ∀ t, Free (s.threads t) := by
  cases h with
  | none _ _ hq => exact absurd hl (hq r e b)
  | poke t0 r0 held a0 _ _ _ hq => exact absurd hl (hq r e b)
  | flush r0 e0 b0 h1 hf _ => exact ⟨rfl, h1, hf⟩

/-- A step that has nothing to do with `lock`. -/
theorem keep (h : Owner s held) (hl : s'.mgr.locked = s.mgr.locked)
    (ht : ∀ t, s'.threads t = s.threads t ∨ Free (s.threads t) ∧ Free (s'.threads t))
    (hq : s'.listener = s.listener ∨ Quiet s.listener ∧ Quiet s'.listener) : Owner s' held := by
  have hf : ∀ t, Free (s.threads t) → Free (s'.threads t) := by
    intro t h
    rcases ht t with h1 | h1
    · rw [h1]; exact h
    · exact h1.2
  have hqq : Quiet s.listener → Quiet s'.listener := by
    intro h
    rcases hq with h1 | h1
    · rw [h1]; exact h
    · exact h1.2
  cases h with
  | none h1 h2 h3 => exact .none (hl.trans h1) (fun t => hf t (h2 t)) (hqq h3)
  | poke t r held a h1 h2 h3 h4 =>
    refine .poke t r held a (hl.trans h1) ?_ (fun t' h => hf t' (h3 t' h)) (hqq h4)
    rcases ht t with h5 | h5
    · rw [h5]; exact h2
    · exact absurd h2 (h5.1 r held a)
  | flush r e b h1 h2 h3 =>
    refine .flush r e b (hl.trans h1) (fun t => hf t (h2 t)) ?_
    rcases hq with h4 | h4
    · rw [h4]; exact h3
    · exact absurd h3 (h4.1 r e b)

/-- One thread moves, neither from nor to the loop of `poke`. -/
theorem thread (h : Owner s held) {t : Nat} {p0 p : VPc} (h0 : s.threads t = p0) (hp0 : Free p0) (hp : Free p)
    (hl : s'.mgr.locked = s.mgr.locked) (ht : s'.threads = setAt s.threads t p)
    (hq : s'.listener = s.listener) : Owner s' held := by
  refine h.keep hl (fun t' => ?_) (.inl hq)
  by_cases htt : t' = t
  · subst htt
    right
    rw [ht, setAt_same, h0]
    exact ⟨hp0, hp⟩
  · left
    rw [ht, setAt_other _ _ htt]

theorem listen (h : Owner s held) (hq0 : Quiet s.listener) (hq : Quiet s'.listener)
    (hl : s'.mgr.locked = s.mgr.locked) (ht : s'.threads = s.threads) : Owner s' held :=
  h.keep hl (fun t => .inl (by rw [ht])) (.inr ⟨hq0, hq⟩)

/-- Nothing concerning `lock` changes. -/
theorem mgr (h : Owner s held) (hl : s'.mgr.locked = s.mgr.locked) (ht : s'.threads = s.threads)
    (hq : s'.listener = s.listener) : Owner s' held :=
  h.keep hl (fun t => .inl (by rw [ht])) (.inl hq)

end Owner

/-- The numbers of the requests referred to. -/
abbrev ids (l : List Ref) : List Nat := l.map Ref.id

/-- The step `e` finds that the request `x` refers to need not be kept any longer. -/
def Over (s : VSys) (e : VEvent) (x : Ref) : Prop :=
  s.mgr.deref x.id = none ∨ ∃ q t i, s.mgr.deref x.id = some q ∧ e = .step t i ∧
    (q.event = true ∨ q.expiration ≤ i.now)

/-- How a step moves requests between `active`, `unsent` and the local deque of `poke`. -/
inductive Flow (s : VSys) (e : VEvent) (s' : VSys) : List Ref → List Ref → Prop
  | same {h : List Ref} (ha : (ids s'.mgr.active).Perm (ids s.mgr.active)) (hu : s'.mgr.unsent = s.mgr.unsent)
      (hn : s'.mgr.nextReq = s.mgr.nextReq) : Flow s e s' h h
  | queued (x : Ref) (hx : x.id = s.mgr.nextReq) (ha : s'.mgr.active = s.mgr.active)
      (hu : s'.mgr.unsent = x :: s.mgr.unsent) (hn : s'.mgr.nextReq = s.mgr.nextReq + 1) : Flow s e s' [] []
  | issued (ha : (ids s'.mgr.active).Perm (s.mgr.nextReq :: ids s.mgr.active))
      (hu : s'.mgr.unsent = s.mgr.unsent) (hn : s'.mgr.nextReq = s.mgr.nextReq + 1) : Flow s e s' [] []
  | issueFailed (ha : s'.mgr.active = s.mgr.active) (hu : s'.mgr.unsent = s.mgr.unsent)
      (hn : s'.mgr.nextReq = s.mgr.nextReq + 1) (hf : .issue s.mgr.nextReq ∈ s'.mgr.fails) : Flow s e s' [] []
  | popped {h : List Ref} (x : Ref) (rest : List Ref) (hx : s.mgr.active = x :: rest) (ho : Over s e x)
      (ha : (ids s'.mgr.active).Perm (ids rest)) (hu : s'.mgr.unsent = s.mgr.unsent)
      (hn : s'.mgr.nextReq = s.mgr.nextReq) : Flow s e s' h h
  | pokeBegin (ha : s'.mgr.active = s.mgr.active) (hu : s'.mgr.unsent = [])
      (hn : s'.mgr.nextReq = s.mgr.nextReq) : Flow s e s' [] s.mgr.unsent
  | pokeDead {l : List Ref} (x : Ref) (ho : Over s e x) (ha : s'.mgr.active = s.mgr.active)
      (hu : s'.mgr.unsent = s.mgr.unsent) (hn : s'.mgr.nextReq = s.mgr.nextReq) : Flow s e s' (l ++ [x]) l
  | pokeQueued {l : List Ref} (x : Ref) (ha : s'.mgr.active = s.mgr.active)
      (hu : s'.mgr.unsent = x :: s.mgr.unsent) (hn : s'.mgr.nextReq = s.mgr.nextReq) : Flow s e s' (l ++ [x]) l
  | pokeSent {l : List Ref} (x : Ref) (ha : (ids s'.mgr.active).Perm (x.id :: ids s.mgr.active))
      (hu : s'.mgr.unsent = s.mgr.unsent) (hn : s'.mgr.nextReq = s.mgr.nextReq) : Flow s e s' (l ++ [x]) l
  | pokeFailed {l : List Ref} (x : Ref) (ha : s'.mgr.active = s.mgr.active)
      (hu : s'.mgr.unsent = s.mgr.unsent) (hn : s'.mgr.nextReq = s.mgr.nextReq)
      (hf : .poke x.id ∈ s'.mgr.fails) : Flow s e s' (l ++ [x]) []
  | flushDead (x : Ref) (l : List Ref) (ho : Over s e x) (hx : s.mgr.unsent = l ++ [x])
      (ha : s'.mgr.active = s.mgr.active) (hu : s'.mgr.unsent = l) (hn : s'.mgr.nextReq = s.mgr.nextReq) :
      Flow s e s' [] []
  | flushSent (x : Ref) (l : List Ref) (hx : s.mgr.unsent = l ++ [x])
      (ha : (ids s'.mgr.active).Perm (x.id :: ids s.mgr.active)) (hu : s'.mgr.unsent = l)
      (hn : s'.mgr.nextReq = s.mgr.nextReq) : Flow s e s' [] []
  | flushFailed (x : Ref) (l : List Ref) (hx : s.mgr.unsent = l ++ [x])
      (ha : s'.mgr.active = s.mgr.active) (hu : s'.mgr.unsent = l) (hn : s'.mgr.nextReq = s.mgr.nextReq)
      (hf : .flush x.id ∈ s'.mgr.fails) : Flow s e s' [] []

theorem push_ids (env : Env) (l : List Ref) (x : Ref) : (ids (Heap.push env l x)).Perm (x.id :: ids l) := by
  refine (Heap.push_moved env l x).perm.trans ?_
  rw [List.map_append]
  exact List.perm_append_singleton _ _

theorem pop_ids (env : Env) (x : Ref) (l : List Ref) : (ids (Heap.pop env (x :: l))).Perm (ids l) :=
  (Heap.pop_moved env x l).perm

theorem replace_ids (env : Env) (x : Ref) (l : List Ref) : (ids (Heap.replace env (x :: l) x)).Perm (ids (x :: l)) := by
  unfold Heap.replace
  rw [List.set_cons_zero]
  exact (Heap.siftup_moved env _ 0).perm

theorem heapify_ids (env : Env) (l : List Ref) : (ids (Heap.heapify env l)).Perm (ids l) :=
  (Heap.heapify_moved env l).perm

/-- A step that leaves `active`, `unsent` and `nextReq` alone. -/
theorem flow_same {s s' : VSys} {e : VEvent} {held : List Ref} (ho : Owner s' held)
    (ha : s'.mgr.active = s.mgr.active) (hu : s'.mgr.unsent = s.mgr.unsent) (hn : s'.mgr.nextReq = s.mgr.nextReq)
    (hf : ∀ f ∈ s.mgr.fails, f ∈ s'.mgr.fails) :
    (∀ f ∈ s.mgr.fails, f ∈ s'.mgr.fails) ∧ ∃ held', Owner s' held' ∧ Flow s e s' held held' :=
  ⟨hf, held, ho, .same (by rw [ha]) hu hn⟩

/-- Every step keeps `lock` in order, and moves requests in one of these ways. -/
theorem move_flow {s s' : VSys} {e : VEvent} {held : List Ref} (ho : Owner s held) (hm : Move cfg s e s') :
    (∀ f ∈ s.mgr.fails, f ∈ s'.mgr.fails) ∧ ∃ held', Owner s' held' ∧ Flow s e s' held held' := by
  have fin : ∀ (s0 : VSys) (t r : Nat) (o : VOutcome), ∃ o', (s0.finish cfg t r o).threads = setAt s0.threads t (.done r o') ∧
      (s0.finish cfg t r o).listener = s0.listener := by
    intro s0 t r o
    rw [finish_eq]
    exact ⟨_, rfl, rfl⟩
  have fdone : ∀ r o, Free (.done r o) := fun _ _ _ _ _ h => by cases h
  cases hm
  case queued pdu user level timeout period t0 r0 i q hq hl hd hs =>
    obtain ⟨rfl, h1, h2⟩ := ho.unlocked hl
    exact ⟨fun f h => h, [], .none hl h1 h2, .queued _ rfl rfl rfl rfl⟩
  case issued pdu user level timeout period t0 r0 i q hq hl hd next hs m' hm' =>
    obtain ⟨rfl, h1, h2⟩ := ho.unlocked hl
    have f := hm'.frame
    simp only [updateState_eq, propose_eq, VMgr.issue] at f ⊢
    refine ⟨fun x h => by simpa [f.fails] using h, [], .none (by simpa [f.locked] using hl) h1 h2, .issued ?_ f.unsent f.nextReq⟩
    refine (push_ids _ _ _).trans ?_
    rw [f.active]
  case issueFailed pdu user level timeout period t0 r0 i q hq hl hd next hs m' err hm' =>
    obtain ⟨rfl, h1, h2⟩ := ho.unlocked hl
    have f := hm'.frame
    simp only [propose_eq, VMgr.issue, VMgr.fail] at f ⊢
    exact ⟨fun x h => by simp [f.fails, h], [], .none (by simpa [f.locked] using hl) h1 h2,
      .issueFailed f.active f.unsent f.nextReq (by simp)⟩
  case wait t r q ht hq =>
    refine flow_same (ho.thread (t := t) rfl ?_ (p := .test r) (fun _ _ _ h => by cases h) rfl rfl rfl) rfl rfl rfl fun _ h => h
    rcases ht with h | ⟨r', o, h⟩ <;> rw [h] <;> intro _ _ _ h <;> cases h
  case expired t i r q ht hq he =>
    exact flow_same (ho.thread ht (fun _ _ _ h => by cases h) (p := .finish r) (fun _ _ _ h => by cases h) rfl rfl rfl) rfl rfl rfl fun _ h => h
  case unexpired t i r q ht hq he =>
    exact flow_same (ho.thread ht (fun _ _ _ h => by cases h) (p := .body r) (fun _ _ _ h => by cases h) rfl rfl rfl) rfl rfl rfl fun _ h => h
  case bodyEmpty t i r ht ha =>
    exact flow_same (ho.thread ht (fun _ _ _ h => by cases h) (p := .poke r) (fun _ _ _ h => by cases h) rfl rfl rfl) rfl rfl rfl fun _ h => h
  case bodyDead t i r x rest ht ha hx =>
    refine ⟨fun _ h => h, held, ho.thread ht (fun _ _ _ h => by cases h) (p := .body r) (fun _ _ _ h => by cases h) rfl rfl rfl,
      .popped x rest ha (.inl hx) ?_ rfl rfl⟩
    simp only
    rw [ha]
    exact pop_ids _ _ _
  case bodyOver t i r x rest q ht ha hx hov =>
    refine ⟨fun _ h => h, held, ho.thread ht (fun _ _ _ h => by cases h) (p := .body r) (fun _ _ _ h => by cases h) rfl rfl rfl,
      .popped x rest ha (.inr ⟨q, t, i, hx, rfl, hov.imp id And.right⟩) ?_ rfl rfl⟩
    simp only
    rw [ha]
    exact pop_ids _ _ _
  case bodyWait t i r x rest q ht ha hx he hn =>
    exact flow_same (ho.thread ht (fun _ _ _ h => by cases h) (p := .sleep r (q.nextRefresh - i.now) i.now)
      (fun _ _ _ h => by cases h) rfl rfl rfl) rfl rfl rfl fun _ h => h
  case bodyZero t i r x rest q ht ha hx he hn hx' hz =>
    obtain ⟨o', h1, h2⟩ := fin { s with mgr := s.mgr.fail (.refresh x.id) } t r (.raised .zeroDivisionError)
    have f := finish_frame cfg { s with mgr := s.mgr.fail (.refresh x.id) } t r (.raised .zeroDivisionError)
    exact flow_same (ho.thread ht (fun _ _ _ h => by cases h) (fdone r o') f.locked h1 h2) f.active f.unsent f.nextReq
      fun _ h => by rw [f.fails]; simp [VMgr.fail, h]
  case bodySent t i r x rest q ht ha hx he hn hx' hz m' hm' =>
    have f := hm'.frame
    refine ⟨fun _ h => by simpa [f.fails] using h, held, ho.thread ht (fun _ _ _ h => by cases h) (p := .body r) (fun _ _ _ h => by cases h)
      f.locked rfl rfl, .same ?_ f.unsent f.nextReq⟩
    simp only
    rw [f.active, ha]
    exact replace_ids _ _ _
  case bodyFailed t i r x rest q ht ha hx he hn hx' hz m' err hm' =>
    have f0 := hm'.frame
    obtain ⟨o', h1, h2⟩ := fin { s with mgr := m'.fail (.refresh x.id) } t r (.raised err)
    have f := finish_frame cfg { s with mgr := m'.fail (.refresh x.id) } t r (.raised err)
    exact flow_same (ho.thread ht (fun _ _ _ h => by cases h) (fdone r o') (f.locked.trans f0.locked) h1 h2)
      (f.active.trans f0.active) (f.unsent.trans f0.unsent) (f.nextReq.trans f0.nextReq)
      fun _ h => by rw [f.fails]; simp [VMgr.fail, f0.fails, h]
  case pokeBegin t i r ht hl =>
    obtain ⟨rfl, h1, h2⟩ := ho.unlocked hl
    refine ⟨fun _ h => by simpa [updateState_eq, propose_eq] using h, s.mgr.unsent, .poke t r _ false rfl (setAt_same _ _ _) (fun t' ht' => ?_) h2,
      .pokeBegin ?_ rfl ?_⟩
    · simp only [setAt_other _ _ ht']; exact h1 t'
    · simp only [updateState_eq, propose_eq]
    · simp only [updateState_eq, propose_eq]
  case pokeEnd t i r a ht =>
    obtain ⟨rfl, h1, h2, h3⟩ := ho.poking ht
    refine ⟨fun _ h => h, [], .none rfl (fun t' => ?_) h3, .same (List.Perm.refl _) rfl rfl⟩
    by_cases htt : t' = t
    · subst htt
      simp only [setAt_same]
      cases a <;> intro _ _ _ h <;> cases h
    · simp only [setAt_other _ _ htt]; exact h2 t' htt
  case pokeDead t i r l x a ht hx =>
    obtain ⟨rfl, h1, h2, h3⟩ := ho.poking ht
    refine ⟨fun _ h => h, l, .poke t r l a h1 (setAt_same _ _ _) (fun t' ht' => ?_) h3, .pokeDead x (.inl hx) rfl rfl rfl⟩
    simp only [goto, setAt_other _ _ ht']; exact h2 t' ht'
  case pokeQueued t i r l x a q ht hx hs =>
    obtain ⟨rfl, h1, h2, h3⟩ := ho.poking ht
    refine ⟨fun _ h => h, l, .poke t r l a h1 (setAt_same _ _ _) (fun t' ht' => ?_) h3, .pokeQueued x rfl rfl rfl⟩
    simp only [setAt_other _ _ ht']; exact h2 t' ht'
  case pokeSent t i r l x a q ht hx next hs m' hm' =>
    obtain ⟨rfl, h1, h2, h3⟩ := ho.poking ht
    have f := hm'.frame
    simp only [updateState_eq, propose_eq] at f ⊢
    refine ⟨fun _ h => by simpa [f.fails] using h, l, .poke t r l true (f.locked.trans h1) (setAt_same _ _ _) (fun t' ht' => ?_) h3,
      .pokeSent x ?_ f.unsent f.nextReq⟩
    · simp only [setAt_other _ _ ht']; exact h2 t' ht'
    · refine (push_ids _ _ _).trans ?_
      rw [f.active]
  case pokeFailed t i r l x a q ht hx next hs m' err hm' =>
    obtain ⟨rfl, h1, h2, h3⟩ := ho.poking ht
    have f0 := hm'.frame
    simp only [propose_eq] at f0
    obtain ⟨o', e1, e2⟩ := fin { s with mgr := { m'.fail (.poke x.id) with locked := false } } t r (.raised err)
    have f := finish_frame cfg { s with mgr := { m'.fail (.poke x.id) with locked := false } } t r (.raised err)
    refine ⟨fun _ h => by rw [f.fails]; simp [VMgr.fail, f0.fails, h], [], .none f.locked (fun t' => ?_) (by rw [e2]; exact h3),
      .pokeFailed x (f.active.trans f0.active) (f.unsent.trans f0.unsent) (f.nextReq.trans f0.nextReq)
        (by rw [f.fails]; simp [VMgr.fail])⟩
    rw [e1]
    by_cases htt : t' = t
    · subst htt
      rw [setAt_same]
      exact fdone r o'
    · rw [setAt_other _ _ htt]; exact h2 t' htt
  case woken t i r timeout since q ht hq he =>
    exact flow_same (ho.thread ht (fun _ _ _ h => by cases h) (p := .finish r) (fun _ _ _ h => by cases h) rfl rfl rfl) rfl rfl rfl fun _ h => h
  case slept t i r timeout since q ht hq he hn =>
    exact flow_same (ho.thread ht (fun _ _ _ h => by cases h) (p := .test r) (fun _ _ _ h => by cases h) rfl rfl rfl) rfl rfl rfl fun _ h => h
  case answered t i r q x ht hq he hx =>
    obtain ⟨o', h1, h2⟩ := fin s t r (if x.scopedPDU.pdu.first ≠ 0 then .errorResponse x.scopedPDU.pdu.first x.scopedPDU.pdu.second q.pdu
          else .bindings x.scopedPDU.pdu.bindings)
    have f := finish_frame cfg s t r (if x.scopedPDU.pdu.first ≠ 0 then .errorResponse x.scopedPDU.pdu.first x.scopedPDU.pdu.second q.pdu
          else .bindings x.scopedPDU.pdu.bindings)
    exact flow_same (ho.thread ht (fun _ _ _ h => by cases h) (fdone r o') f.locked h1 h2) f.active f.unsent f.nextReq
      fun _ h => by rw [f.fails]; exact h
  case unanswered t i r q ht hq he =>
    exact flow_same (ho.thread ht (fun _ _ _ h => by cases h) (p := .failed r) (fun _ _ _ h => by cases h) rfl rfl rfl) rfl rfl rfl fun _ h => h
  case reported t i r q ex ht hq he =>
    obtain ⟨o', h1, h2⟩ := fin s t r (.reported ex)
    have f := finish_frame cfg s t r (.reported ex)
    exact flow_same (ho.thread ht (fun _ _ _ h => by cases h) (fdone r o') f.locked h1 h2) f.active f.unsent f.nextReq
      fun _ h => by rw [f.fails]; exact h
  case timedOut t i r q ht hq he =>
    obtain ⟨o', h1, h2⟩ := fin s t r .timeout
    have f := finish_frame cfg s t r .timeout
    exact flow_same (ho.thread ht (fun _ _ _ h => by cases h) (fdone r o') f.locked h1 h2) f.active f.unsent f.nextReq
      fun _ h => by rw [f.fails]; exact h
  case heardNothing w stamp usm hl hu hd =>
    exact flow_same (ho.mgr rfl rfl rfl) rfl rfl rfl fun _ h => h
  case heard w stamp usm m x msg msg' id en hl hw hu hx hr hid he hh hg hc =>
    exact flow_same (ho.listen (by rw [hl]; intro _ _ _ h; cases h) (fun _ _ _ h => by cases h) rfl rfl) rfl rfl rfl fun _ h => h
  case pushStop i m x hl =>
    exact flow_same (ho.listen (by rw [hl]; intro _ _ _ h; cases h) (fun _ _ _ h => by cases h) rfl rfl) rfl rfl rfl fun _ h => h
  case reportBad i m x r q cause sync hr hl err hs =>
    obtain ⟨rfl, h1, h2⟩ := ho.unlocked hl
    exact flow_same (ho.listen h2 (fun _ _ _ h => by cases h) rfl rfl) rfl rfl rfl fun _ h => h
  case reportFailed i m x r q cause sync hr hl all next hs m' err hm' =>
    obtain ⟨rfl, h1, h2⟩ := ho.unlocked hl
    have f := hm'.frame
    simp only [propose_eq] at f
    exact flow_same (ho.listen h2 (fun _ _ _ h => by cases h) f.locked rfl) f.active f.unsent f.nextReq
      fun _ h => by simp [VMgr.fail, f.fails, h]
  case reportOne i m x r q cause sync hr hl next hs m' hm' =>
    obtain ⟨rfl, h1, h2⟩ := ho.unlocked hl
    have f := hm'.frame
    simp only [propose_eq] at f
    refine ⟨fun _ h => by simpa [f.fails] using h, [], .none rfl h1 (by cases sync <;> intro _ _ _ h <;> cases h), .same ?_ f.unsent f.nextReq⟩
    refine (heapify_ids _ _).trans ?_
    rw [f.active]
  case reportAll i m x r q cause sync hr hl next hs m' hm' =>
    obtain ⟨rfl, h1, h2⟩ := ho.unlocked hl
    have f := hm'.frame
    simp only [propose_eq, updateState_eq] at f ⊢
    refine ⟨fun _ h => by simpa [f.fails] using h, [], .flush r _ sync rfl h1 rfl, .same ?_ f.unsent f.nextReq⟩
    refine (heapify_ids _ _).trans ?_
    rw [f.active]
  case excepted i m x msg q v rest ex hl hmm hq hi hv hn1 hn2 he =>
    exact flow_same (ho.listen (by rw [hl]; intro _ _ _ h; cases h) (fun _ _ _ h => by cases h) rfl rfl) rfl rfl rfl fun _ h => h
  case responseBad i m x msg q hl hmm hq hi hlk err m' hp =>
    have : m'.locked = s.mgr.locked ∧ m'.active = s.mgr.active ∧ m'.unsent = s.mgr.unsent ∧ m'.nextReq = s.mgr.nextReq ∧
        m'.fails = s.mgr.fails := by
      rcases processResponse_cases cfg s.mgr x i.seed with ⟨_, -, h⟩ | ⟨_, _, _, -, -, h⟩ | ⟨_, _, -, -, h⟩ | ⟨-, h⟩ <;>
        rw [hp] at h <;> cases h <;> exact ⟨rfl, rfl, rfl, rfl, rfl⟩
    obtain ⟨h1, h2, h3, h4, h5⟩ := this
    exact flow_same (ho.listen (by rw [hl]; intro _ _ _ h; cases h) (fun _ _ _ h => by cases h) h1 rfl) h2 h3 h4
      fun _ h => by simpa [h5] using h
  case responded i m x msg q hl hmm hq hi hlk m' hp =>
    have : m'.locked = s.mgr.locked ∧ m'.active = s.mgr.active ∧ m'.unsent = s.mgr.unsent ∧ m'.nextReq = s.mgr.nextReq ∧
        m'.fails = s.mgr.fails := by
      rcases processResponse_cases cfg s.mgr x i.seed with ⟨_, -, h⟩ | ⟨_, _, _, -, -, h⟩ | ⟨_, _, -, -, h⟩ | ⟨-, h⟩ <;>
        rw [hp] at h <;> cases h <;> exact ⟨rfl, rfl, rfl, rfl, rfl⟩
    obtain ⟨h1, h2, h3, h4, h5⟩ := this
    exact flow_same (ho.listen (by rw [hl]; intro _ _ _ h; cases h) (fun _ _ _ h => by cases h) h1 rfl) h2 h3 h4
      fun _ h => by simpa [VMgr.setReq, h5] using h
  case flushEnd i r eid sync hl hu =>
    obtain ⟨rfl, h1, h2⟩ := ho.flushing hl
    exact ⟨fun _ h => h, [], .none rfl h2 (by cases sync <;> intro _ _ _ h <;> cases h), .same (List.Perm.refl _) rfl rfl⟩
  case flushDead i r eid sync l x hl hu hx =>
    obtain ⟨rfl, h1, h2⟩ := ho.flushing hl
    exact ⟨fun _ h => h, [], ho.mgr rfl rfl rfl, .flushDead x l (.inl hx) hu rfl rfl rfl⟩
  case flushSent i r eid sync l x q hl hu hx m' hm' =>
    obtain ⟨rfl, h1, h2⟩ := ho.flushing hl
    have f := hm'.frame
    refine ⟨fun _ h => by simpa [f.fails] using h, [], ho.mgr f.locked rfl rfl, .flushSent x l hu ?_ f.unsent f.nextReq⟩
    refine (push_ids _ _ _).trans ?_
    rw [f.active]
  case flushFailed i r eid sync l x q hl hu hx m' err hm' =>
    obtain ⟨rfl, h1, h2⟩ := ho.flushing hl
    have f := hm'.frame
    exact ⟨fun _ h => by simp [VMgr.fail, f.fails, h], [], .none rfl h2 (fun _ _ _ h => by cases h),
      .flushFailed x l hu f.active f.unsent f.nextReq (by simp [VMgr.fail])⟩
  case syncGone i r hl hq =>
    exact flow_same (ho.listen (by rw [hl]; intro _ _ _ h; cases h) (fun _ _ _ h => by cases h) rfl rfl) rfl rfl rfl fun _ h => h
  case synced i r q hl hq =>
    exact flow_same (ho.listen (by rw [hl]; intro _ _ _ h; cases h) (fun _ _ _ h => by cases h) rfl rfl) rfl rfl rfl fun _ h => h
  case collected r q hq =>
    exact flow_same (ho.mgr rfl rfl rfl) rfl rfl rfl fun _ h => h
  case dropped hd ha =>
    exact flow_same (ho.mgr rfl rfl rfl) rfl rfl rfl fun _ h => h
  case addUser a seed =>
    exact flow_same (ho.mgr rfl rfl rfl) rfl rfl rfl fun _ h => h
  case other o usm cache n held' hs =>
    exact flow_same (ho.mgr rfl rfl rfl) rfl rfl rfl fun _ h => h

end VSys

end Snmp
