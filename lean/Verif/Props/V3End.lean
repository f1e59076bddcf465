import Verif.Props.V3Discovery
import Mathlib.Algebra.BigOperators.Group.Finset.Basic
/-!
# C93: `wait` ends (v3)

If every thread inside `wait` and the listening thread keep being scheduled, no new calls are made, and the
clock has passed the expirations, then every `wait` ends after a bounded number of rounds.
-/

namespace Snmp

open VSys

/-! ## Specification -/

/-- The step is a call of `sendRequest` or `wait`. -/
def Spec.isCall : VEvent → Bool
  | .send .. => true
  | .wait .. => true
  | _ => false

/-- The step is the arrival of a datagram. -/
def Spec.isDatagram : VEvent → Bool
  | .hear .. => true
  | _ => false

/-- The clock reading of a step of a thread inside `wait`. -/
def Spec.clock : VEvent → Option ℚ
  | .step _ i => some i.now
  | _ => none

/-- Thread `t` is inside `wait`. -/
def Spec.Waiting (s : VSys) (t : Nat) : Prop := s.threads t ≠ .idle ∧ ∀ r o, s.threads t ≠ .done r o

/-- A round in which every thread that is inside `wait` in the state `s`, and the listening thread, get a turn. -/
structure Spec.Fair (s : VSys) (round : List VEvent) : Prop where
  threads : ∀ t, Spec.Waiting s t → ∃ i, .step t i ∈ round
  listener : ∃ i, .listen i ∈ round

/-! ## Proofs -/

variable {cfg : VCfg} {m0 : VMgr}

namespace VSys

open VMgr

/-- How far the thread is from the end of `wait`. -/
def phase : VPc → Nat
  | .idle | .done _ _ => 0
  | .failed _ => 1
  | .finish _ => 2
  | .test _ => 3
  | .sleep _ _ _ => 4
  | .poking _ _ a => if a then 8 else 5
  | .poke _ => 6
  | .body _ => 7

/-- The number of requests in the local deque of `poke`. -/
def load : VPc → Nat
  | .poking _ l _ => l.length
  | _ => 0

/-- What a thread contributes to the potential. -/
def weight (K : Nat) (p : VPc) : Nat := K * phase p + (3 * K + 3) * load p

/-- How far the listening thread is from being idle. -/
def stage : VListen → Nat
  | .idle => 0
  | .sync _ => 1
  | .flush _ _ _ => 2
  | .push _ _ => 3

/-- The sum over the threads below `N`. -/
def total (N : Nat) (f : VPc → Nat) (s : VSys) : Nat := ∑ t ∈ Finset.range N, f (s.threads t)

/-- It decreases with every step of a thread or of the listening thread. -/
def potential (N K : Nat) (s : VSys) : Nat :=
  (3 * K + 2) * s.mgr.unsent.length + s.mgr.active.length + stage s.listener + total N (weight K) s

/-- The number of references to requests. -/
def references (N : Nat) (s : VSys) : Nat := s.mgr.unsent.length + s.mgr.active.length + total N load s

theorem total_set {N : Nat} (f : VPc → Nat) {s s' : VSys} {t : Nat} {p0 p : VPc} (h0 : s.threads t = p0) (hN : t < N)
    (ht : s'.threads = setAt s.threads t p) : total N f s' + f p0 = total N f s + f p := by
  have hm : t ∈ Finset.range N := Finset.mem_range.2 hN
  unfold total
  rw [← Finset.add_sum_erase _ _ hm, ← Finset.add_sum_erase (a := t) (s := Finset.range N) _ hm, ht, setAt_same, h0]
  have : ∑ x ∈ (Finset.range N).erase t, f (setAt s.threads t p x) = ∑ x ∈ (Finset.range N).erase t, f (s.threads x) := by
    refine Finset.sum_congr rfl fun x hx => ?_
    rw [setAt_other _ _ (Finset.ne_of_mem_erase hx)]
  rw [this]
  omega

theorem total_same {N : Nat} (f : VPc → Nat) {s s' : VSys} (ht : s'.threads = s.threads) : total N f s' = total N f s := by
  unfold total; rw [ht]

/-- No thread from `N` on is inside `wait`. -/
def Few (N : Nat) (s : VSys) : Prop := ∀ t, N ≤ t → s.threads t = .idle

/-- The clock reading `now` is not before the expiration of any request. -/
def Late (s : VSys) (now : ℚ) : Prop := ∀ r q, s.mgr.reqs r = some q → q.expiration ≤ now ∧ q.nextRefresh ≤ q.expiration

theorem ids_length {l l' : List Ref} (h : (ids l).Perm (ids l')) : l.length = l'.length := by
  have := h.length_eq
  simpa [ids] using this

theorem move_waiter {N K : Nat} {s s' : VSys} {t : Nat} {i : SendIn} (hf : Few N s) (hK : references N s < K)
    (hl : Late s i.now) (hm : Move cfg s (.step t i) s') :
    potential N K s' < potential N K s ∧ references N s' ≤ references N s := by
  have fin : ∀ (s0 : VSys) (r : Nat) (o : VOutcome), ∃ o',
      (s0.finish cfg t r o).threads = setAt s0.threads t (.done r o') ∧
      (s0.finish cfg t r o).listener = s0.listener := by
    intro s0 r o
    rw [finish_eq]
    exact ⟨_, rfl, rfl⟩
  have hN : ∀ p, s.threads t = p → p ≠ .idle → t < N := by
    intro p hp hne
    by_contra hlt
    exact hne (hp ▸ hf t (Nat.le_of_not_lt hlt))
  /- a thread moves, and `active` and `unsent` have new lengths -/
  have key : ∀ {s' : VSys} {p0 p : VPc}, s.threads t = p0 → p0 ≠ .idle → s'.threads = setAt s.threads t p →
      s'.listener = s.listener →
      (3 * K + 2) * s'.mgr.unsent.length + s'.mgr.active.length + weight K p <
        (3 * K + 2) * s.mgr.unsent.length + s.mgr.active.length + weight K p0 →
      s'.mgr.unsent.length + s'.mgr.active.length + load p ≤ s.mgr.unsent.length + s.mgr.active.length + load p0 →
      potential N K s' < potential N K s ∧ references N s' ≤ references N s := by
    intro s' p0 p h0 hne ht hls h1 h2
    have a1 := total_set (weight K) h0 (hN _ h0 hne) ht
    have a2 := total_set load h0 (hN _ h0 hne) ht
    unfold potential references
    rw [hls]
    omega
  /- only the thread moves -/
  have goes : ∀ {s' : VSys} {p0 p : VPc}, s.threads t = p0 → p0 ≠ .idle → s'.threads = setAt s.threads t p →
      s'.listener = s.listener → s'.mgr.unsent = s.mgr.unsent → s'.mgr.active = s.mgr.active →
      weight K p < weight K p0 → load p ≤ load p0 →
      potential N K s' < potential N K s ∧ references N s' ≤ references N s := by
    intro s' p0 p h0 hne ht hls hu ha h1 h2
    refine key h0 hne ht hls ?_ ?_ <;> rw [hu, ha] <;> omega
  have hK1 : 1 ≤ K := by omega
  generalize hev : VEvent.step t i = e at hm
  cases hm
  case expired t' i' r q ht hq he =>
    cases hev
    exact goes ht (by nofun) (p := .finish r) rfl rfl rfl rfl (by simp only [weight, phase, load]; omega) (by simp [load])
  case unexpired t' i' r q ht hq he =>
    cases hev
    exact absurd (hl r q hq).1 (not_le.2 he)
  case bodyEmpty t' i' r ht ha =>
    cases hev
    exact goes ht (by nofun) (p := .poke r) rfl rfl rfl rfl (by simp only [weight, phase, load]; omega) (by simp [load])
  case bodyDead t' i' r x rest ht ha hx =>
    cases hev
    have := ids_length (pop_ids s.mgr.env x rest)
    refine key ht (by nofun) (p := .body r) rfl rfl ?_ ?_ <;> simp only [ha, this, List.length_cons] <;> omega
  case bodyOver t' i' r x rest q ht ha hx ho =>
    cases hev
    have := ids_length (pop_ids s.mgr.env x rest)
    refine key ht (by nofun) (p := .body r) rfl rfl ?_ ?_ <;> simp only [ha, this, List.length_cons] <;> omega
  case bodyWait t' i' r x rest q ht ha hx he hn =>
    cases hev
    obtain ⟨h1, h2⟩ := hl _ q (VMgr.deref_some hx).2
    exact absurd (h2.trans h1) (not_le.2 hn)
  case bodyZero t' i' r x rest q ht ha hx he hn hx' hz =>
    cases hev
    exact absurd (hl _ q (VMgr.deref_some hx).2).1 (not_le.2 hx')
  case bodySent t' i' r x rest q ht ha hx he hn hx' hz m' hm' =>
    cases hev
    exact absurd (hl _ q (VMgr.deref_some hx).2).1 (not_le.2 hx')
  case bodyFailed t' i' r x rest q ht ha hx he hn hx' hz m' err hm' =>
    cases hev
    exact absurd (hl _ q (VMgr.deref_some hx).2).1 (not_le.2 hx')
  case pokeBegin t' i' r ht hlk =>
    cases hev
    have hu : s.mgr.unsent.length < K := by unfold references at hK; omega
    refine key ht (by nofun) (p := .poking r s.mgr.unsent false) rfl rfl ?_ ?_ <;>
      simp only [updateState_eq, propose_eq, weight, phase, load, List.length_nil, Bool.false_eq_true, if_false]
    · have : (3 * K + 3) * s.mgr.unsent.length = (3 * K + 2) * s.mgr.unsent.length + s.mgr.unsent.length := by ring
      omega
    · omega
  case pokeEnd t' i' r a ht =>
    cases hev
    refine goes ht (by nofun) rfl rfl rfl rfl ?_ ?_ <;> cases a <;> simp [weight, phase, load] <;> omega
  case pokeDead t' i' r l x a ht hx =>
    cases hev
    refine goes ht (by nofun) (p := .poking r l a) rfl rfl rfl rfl ?_ ?_ <;>
      simp only [weight, phase, load, List.length_append, List.length_cons, List.length_nil, Nat.mul_add] <;> omega
  case pokeQueued t' i' r l x a q ht hx hs =>
    cases hev
    refine key ht (by nofun) (p := .poking r l a) rfl rfl ?_ ?_ <;>
      simp only [weight, phase, load, List.length_append, List.length_cons, List.length_nil, Nat.mul_add] <;> omega
  case pokeSent t' i' r l x a q ht hx next hs m' hm' =>
    cases hev
    have f := hm'.frame
    simp only [propose_eq] at f
    have hlen := ids_length (l' := x :: s.mgr.active) (push_ids m'.env s.mgr.active x)
    refine key ht (by nofun) (p := .poking r l true) rfl rfl ?_ ?_ <;>
      simp only [updateState_eq, hlen, f.active, f.unsent, weight, phase, load, List.length_append, List.length_cons,
        List.length_nil, Nat.mul_add, if_true] <;> (try split) <;> omega
  case pokeFailed t' i' r l x a q ht hx next hs m' err hm' =>
    cases hev
    have f0 := hm'.frame
    simp only [propose_eq] at f0
    obtain ⟨o', e1, e2⟩ := fin { s with mgr := { m'.fail (.poke x.id) with locked := false } } r (.raised err)
    have f := finish_frame cfg { s with mgr := { m'.fail (.poke x.id) with locked := false } } t r (.raised err)
    refine goes ht (by nofun) e1 e2 (f.unsent.trans f0.unsent) (f.active.trans f0.active) ?_ ?_ <;>
      simp only [weight, phase, load, List.length_append, List.length_cons, List.length_nil, Nat.mul_add] <;> omega
  case woken t' i' r timeout since q ht hq he =>
    cases hev
    exact goes ht (by nofun) (p := .finish r) rfl rfl rfl rfl (by simp only [weight, phase, load]; omega) (by simp [load])
  case slept t' i' r timeout since q ht hq he hn =>
    cases hev
    exact goes ht (by nofun) (p := .test r) rfl rfl rfl rfl (by simp only [weight, phase, load]; omega) (by simp [load])
  case answered t' i' r q x ht hq he hx =>
    cases hev
    obtain ⟨o', h1, h2⟩ := fin s r (if x.scopedPDU.pdu.first ≠ 0 then .errorResponse x.scopedPDU.pdu.first x.scopedPDU.pdu.second q.pdu
          else .bindings x.scopedPDU.pdu.bindings)
    have f := finish_frame cfg s t r (if x.scopedPDU.pdu.first ≠ 0 then .errorResponse x.scopedPDU.pdu.first x.scopedPDU.pdu.second q.pdu
          else .bindings x.scopedPDU.pdu.bindings)
    exact goes ht (by nofun) h1 h2 f.unsent f.active (by simp only [weight, phase, load]; omega) (by simp [load])
  case unanswered t' i' r q ht hq he =>
    cases hev
    exact goes ht (by nofun) (p := .failed r) rfl rfl rfl rfl (by simp only [weight, phase, load]; omega) (by simp [load])
  case reported t' i' r q ex ht hq he =>
    cases hev
    obtain ⟨o', h1, h2⟩ := fin s r (.reported ex)
    have f := finish_frame cfg s t r (.reported ex)
    exact goes ht (by nofun) h1 h2 f.unsent f.active (by simp only [weight, phase, load]; omega) (by simp [load])
  case timedOut t' i' r q ht hq he =>
    cases hev
    obtain ⟨o', h1, h2⟩ := fin s r .timeout
    have f := finish_frame cfg s t r .timeout
    exact goes ht (by nofun) h1 h2 f.unsent f.active (by simp only [weight, phase, load]; omega) (by simp [load])
  all_goals cases hev

theorem move_listener {N K : Nat} {s s' : VSys} {i : SendIn} (hm : Move cfg s (.listen i) s') :
    potential N K s' < potential N K s ∧ references N s' ≤ references N s := by
  have key : ∀ {s' : VSys}, s'.threads = s.threads →
      (3 * K + 2) * s'.mgr.unsent.length + s'.mgr.active.length + stage s'.listener <
        (3 * K + 2) * s.mgr.unsent.length + s.mgr.active.length + stage s.listener →
      s'.mgr.unsent.length + s'.mgr.active.length ≤ s.mgr.unsent.length + s.mgr.active.length →
      potential N K s' < potential N K s ∧ references N s' ≤ references N s := by
    intro s' ht h1 h2
    have a1 := total_same (N := N) (weight K) ht
    have a2 := total_same (N := N) load ht
    unfold potential references
    omega
  have goes : ∀ {s' : VSys}, s'.threads = s.threads → s'.mgr.unsent = s.mgr.unsent →
      s'.mgr.active.length = s.mgr.active.length → stage s'.listener < stage s.listener →
      potential N K s' < potential N K s ∧ references N s' ≤ references N s := by
    intro s' ht hu ha hs
    refine key ht ?_ ?_
    · rw [hu, ha]; omega
    · rw [hu, ha]
  have hrep : ∀ {m x r q cause sync}, Reports s m x r q cause sync → s.listener = .push m x := by
    intro m x r q cause sync hr
    cases hr; assumption; assumption
  have pr : ∀ {m' : VMgr} {m x err}, s.mgr.processResponse cfg x i.seed = (err, m') → s.listener = .push m x →
      m'.active = s.mgr.active ∧ m'.unsent = s.mgr.unsent := by
    intro m' m x err hp _
    rcases processResponse_cases cfg s.mgr x i.seed with ⟨_, -, h⟩ | ⟨_, _, _, -, -, h⟩ | ⟨_, _, -, -, h⟩ | ⟨-, h⟩ <;>
        rw [hp] at h <;> cases h <;> exact ⟨rfl, rfl⟩
  generalize hev : VEvent.listen i = e at hm
  cases hm
  case pushStop i' m x hl =>
    cases hev
    exact goes rfl rfl rfl (by rw [hl]; simp [stage])
  case reportBad i' m x r q cause sync hr hl err hs =>
    cases hev
    exact goes rfl rfl rfl (by rw [hrep hr]; simp [stage])
  case reportFailed i' m x r q cause sync hr hl all next hs m' err hm' =>
    cases hev
    have f := hm'.frame
    simp only [propose_eq] at f
    exact goes rfl f.unsent (congrArg List.length f.active) (by rw [hrep hr]; simp [stage])
  case reportOne i' m x r q cause sync hr hl next hs m' hm' =>
    cases hev
    have f := hm'.frame
    simp only [propose_eq] at f
    refine goes rfl f.unsent ?_ (by rw [hrep hr]; cases sync <;> simp [stage])
    rw [ids_length (heapify_ids _ _), f.active]
  case reportAll i' m x r q cause sync hr hl next hs m' hm' =>
    cases hev
    have f := hm'.frame
    simp only [propose_eq] at f
    refine goes rfl ?_ ?_ (by rw [hrep hr]; simp [stage])
    · simp only [updateState_eq]; exact f.unsent
    · simp only [updateState_eq]
      rw [ids_length (heapify_ids _ _), f.active]
  case excepted i' m x msg q v rest ex hl hmm hq hi hv hn1 hn2 he =>
    cases hev
    exact goes rfl rfl rfl (by rw [hl]; simp [stage])
  case responseBad i' m x msg q hl hmm hq hi hlk err m' hp =>
    cases hev
    obtain ⟨h1, h2⟩ := pr hp hl
    exact goes rfl h2 (by rw [show _ = _ from h1]) (by rw [hl]; simp [stage])
  case responded i' m x msg q hl hmm hq hi hlk m' hp =>
    cases hev
    obtain ⟨h1, h2⟩ := pr hp hl
    exact goes rfl h2 (by simp only [VMgr.setReq]; rw [h1]) (by rw [hl]; simp [stage])
  case flushEnd i' r eid sync hl hu =>
    cases hev
    exact goes rfl rfl rfl (by rw [hl]; cases sync <;> simp [stage])
  case flushDead i' r eid sync l x hl hu hx =>
    cases hev
    refine key rfl ?_ ?_ <;> rw [hu] <;> simp only [List.length_append, List.length_cons, List.length_nil, Nat.mul_add] <;> omega
  case flushSent i' r eid sync l x q hl hu hx m' hm' =>
    cases hev
    have f := hm'.frame
    have hlen := ids_length (l' := x :: s.mgr.active) (push_ids m'.env s.mgr.active x)
    refine key rfl ?_ ?_ <;> rw [hu] <;>
      simp only [hlen, f.active, f.unsent, List.length_append, List.length_cons, List.length_nil, Nat.mul_add] <;> omega
  case flushFailed i' r eid sync l x q hl hu hx m' err hm' =>
    cases hev
    have f := hm'.frame
    refine key rfl ?_ ?_ <;> rw [hu] <;>
      simp only [VMgr.fail, f.active, f.unsent, hl, stage, List.length_append, List.length_cons, List.length_nil, Nat.mul_add] <;> omega
  case syncGone i' r hl hq =>
    cases hev
    exact goes rfl rfl rfl (by rw [hl]; simp [stage])
  case synced i' r q hl hq =>
    cases hev
    exact goes rfl rfl rfl (by rw [hl]; simp [stage])
  all_goals cases hev

/-- Neither a call nor a step of a thread or of the listening thread: it changes nothing that matters here. -/
theorem move_other {s s' : VSys} {e : VEvent} (n1 : Spec.isCall e = false) (n2 : ∀ t i, e ≠ .step t i)
    (n3 : ∀ i, e ≠ .listen i) (hm : Move cfg s e s') :
    s'.threads = s.threads ∧ s'.mgr.locked = s.mgr.locked ∧ (¬ Quiet s.listener → s'.listener = s.listener) ∧
    s'.mgr.unsent = s.mgr.unsent ∧ s'.mgr.active = s.mgr.active ∧
    stage s'.listener ≤ stage s.listener + 3 * (if Spec.isDatagram e then 1 else 0) := by
  cases hm
  case heardNothing w stamp usm hl hu hd => exact ⟨rfl, rfl, fun _ => rfl, rfl, rfl, by simp⟩
  case heard w stamp usm m x msg msg' id en hl hw hu hx hr hid he hh hg hc =>
    refine ⟨rfl, rfl, fun h => ?_, rfl, rfl, by rw [hl]; simp [stage, Spec.isDatagram]⟩
    exact absurd (by rw [hl]; intro _ _ _ h; cases h) h
  case collected r q hq => exact ⟨rfl, rfl, fun _ => rfl, rfl, rfl, by simp⟩
  case dropped hd ha => exact ⟨rfl, rfl, fun _ => rfl, rfl, rfl, by simp⟩
  case addUser a seed => exact ⟨rfl, rfl, fun _ => rfl, rfl, rfl, by simp⟩
  case other => exact ⟨rfl, rfl, fun _ => rfl, rfl, rfl, by simp⟩
  all_goals first
    | exact absurd rfl (n2 _ _)
    | exact absurd rfl (n3 _)
    | cases n1

/-- The thread can make a step now, unless the clock keeps it asleep. -/
def CanStep (s : VSys) (t : Nat) : Prop := Spec.Waiting s t ∧ ∀ r, s.threads t = .poke r → s.mgr.locked = false

/-- If some thread is inside `wait`, then such a thread can make a step, or the listening thread is in the loop of
`onReport`. -/
theorem someone {s : VSys} {held : List Ref} (ho : Owner s held) {t : Nat} (ht : Spec.Waiting s t) :
    (∃ t', CanStep s t') ∨ ¬ Quiet s.listener := by
  by_cases hp : ∃ r, s.threads t = .poke r
  · cases ho with
    | none hl _ _ => exact .inl ⟨t, ht, fun _ _ => hl⟩
    | poke t' r held a hl h1 _ _ =>
      refine .inl ⟨t', ⟨by rw [h1]; nofun, by intro _ _; rw [h1]; nofun⟩, fun r' h2 => ?_⟩
      rw [h1] at h2; cases h2
    | flush r e b _ _ h1 => exact .inr fun h => h r e b h1
  · exact .inl ⟨t, ht, fun r h => absurd ⟨r, h⟩ hp⟩

/-- A thread that can make a step makes one. -/
theorem moves_thread {s : VSys} {t : Nat} {i : SendIn} (hc : CanStep s t)
    (hr : ∀ r, (s.threads t = .test r ∨ (∃ d a, s.threads t = .sleep r d a) ∨ s.threads t = .finish r ∨
      s.threads t = .failed r) → ∃ q, s.mgr.reqs r = some q)
    (hs : ∀ r d since, s.threads t = .sleep r d since → since + d ≤ i.now) :
    Move cfg s (.step t i) (s.step cfg (.step t i)) := by
  have hne : ∀ p, p ≠ s.threads t → (s.advance cfg t i).threads t = p → s.advance cfg t i ≠ s := by
    intro p h1 h2 h3
    rw [h3] at h2
    exact h1 h2.symm
  show Move cfg s (.step t i) (s.advance cfg t i)
  have hd : s.advance cfg t i ≠ s → Move cfg s (.step t i) (s.advance cfg t i) :=
    fun h => (move_step cfg s t i).resolve_left h
  obtain ⟨⟨h1, h2⟩, h3⟩ := hc
  cases ht : s.threads t with
  | idle => exact absurd ht h1
  | done r o => exact absurd ht (h2 r o)
  | body r => exact move_body cfg s t r i ht
  | poking r l a => exact move_poking cfg s t r l a i ht
  | test r =>
    obtain ⟨q, hq⟩ := hr r (.inl ht)
    apply hd
    by_cases he : q.expiration ≤ i.now
    · refine hne (.finish r) (by rw [ht]; nofun) ?_
      unfold advance; rw [ht]; simp [hq, he, goto, setAt_same]
    · refine hne (.body r) (by rw [ht]; nofun) ?_
      unfold advance; rw [ht]; simp [hq, he, goto, setAt_same]
  | poke r =>
    apply hd
    refine hne (.poking r s.mgr.pokeBegin.1 false) (by rw [ht]; nofun) ?_
    unfold advance; rw [ht]; simp [h3 r ht, goto, setAt_same]
  | sleep r d since =>
    obtain ⟨q, hq⟩ := hr r (.inr (.inl ⟨d, since, ht⟩))
    have hw := hs r d since ht
    apply hd
    by_cases he : q.event = true
    · refine hne (.finish r) (by rw [ht]; nofun) ?_
      unfold advance; rw [ht]; simp [hq, he, goto, setAt_same]
    · refine hne (.test r) (by rw [ht]; nofun) ?_
      unfold advance; rw [ht]; simp [hq, he, hw, goto, setAt_same]
  | finish r =>
    obtain ⟨q, hq⟩ := hr r (.inr (.inr (.inl ht)))
    apply hd
    intro h
    have h4 : (s.advance cfg t i).threads t = .finish r := by rw [h, ht]
    revert h4
    unfold advance
    rw [ht]
    simp only [hq]
    split
    · rw [finish_eq]; simp only [setAt_same]; nofun
    · simp only [goto, setAt_same]; nofun
  | failed r =>
    obtain ⟨q, hq⟩ := hr r (.inr (.inr (.inr ht)))
    apply hd
    intro h
    have h4 : (s.advance cfg t i).threads t = .failed r := by rw [h, ht]
    revert h4
    unfold advance
    rw [ht]
    simp only [hq]
    split <;> (rw [finish_eq]; simp only [setAt_same]; nofun)

/-- In the loop of `onReport` the listening thread makes a step. -/
theorem moves_listener {s : VSys} {i : SendIn} (hq : ¬ Quiet s.listener) :
    Move cfg s (.listen i) (s.step cfg (.listen i)) := by
  refine (step_move cfg s (.listen i)).resolve_left fun h => ?_
  unfold Quiet at hq
  push Not at hq
  obtain ⟨r, eid, b, hl⟩ := hq
  have h' : s.listen cfg i = s := h
  unfold listen at h'
  rw [hl] at h'
  simp only at h'
  cases hu : s.mgr.unsent.getLast? with
  | none =>
    rw [hu] at h'
    simp only at h'
    have := congrArg VSys.listener h'
    rw [hl] at this
    unfold reported at this
    cases b <;> simp at this
  | some x =>
    rw [hu] at h'
    simp only at h'
    have hpos : 0 < s.mgr.unsent.length := by
      rcases hn : s.mgr.unsent with _ | ⟨y, l⟩
      · rw [hn] at hu; cases hu
      · simp
    have hfl : ∀ res m', ({ s.mgr with unsent := s.mgr.unsent.dropLast } : VMgr).flushOne cfg x eid i = (res, m') →
        m'.unsent = s.mgr.unsent.dropLast := by
      intro res m' hm
      unfold VMgr.flushOne at hm
      split at hm
      · cases hm; rfl
      · obtain ⟨res1, m1, h1, h2⟩ := send_cases cfg ({ s.mgr with unsent := s.mgr.unsent.dropLast } : VMgr) x.id ‹_›
          (some eid) .flush i
        rw [h1] at hm
        have f := h2.frame
        cases res1 <;> cases hm <;> exact f.unsent
    generalize hg : ({ s.mgr with unsent := s.mgr.unsent.dropLast } : VMgr).flushOne cfg x eid i = y at h'
    obtain ⟨res, m'⟩ := y
    have h1 := hfl res m' hg
    have h2 : m'.unsent = s.mgr.unsent := by
      cases res with
      | error err => exact congrArg (fun s : VSys => s.mgr.unsent) h'
      | ok u => exact congrArg (fun s : VSys => s.mgr.unsent) h'
    have := congrArg List.length (h1.symm.trans h2)
    rw [List.length_dropLast] at this
    omega

end VSys

/-- Every sleep ends at a clock reading that is past, or at the expiration of a request at the latest. -/
theorem sleep_ends (hc : Spec.Created cfg m0) (h : List VEvent) (t r : Nat) (d since : ℚ)
    (ht : (after cfg m0 h).threads t = .sleep r d since) :
    (since ∈ h.filterMap Spec.clock ∧ d = 0) ∨
      ∃ r' q', (after cfg m0 h).mgr.reqs r' = some q' ∧ since + d ≤ q'.expiration := by
  induction h using List.reverseRecOn with
  | nil => cases ht
  | append_singleton h e ih =>
    have later : ∀ r' q', (after cfg m0 h).mgr.reqs r' = some q' → since + d ≤ q'.expiration →
        ∃ r' q', (after cfg m0 (h ++ [e])).mgr.reqs r' = some q' ∧ since + d ≤ q'.expiration := by
      intro r' q' h1 h2
      obtain ⟨q2, h3, h4⟩ := run_later hc h [e] r' q' h1
      exact ⟨r', q2, h3, by rw [h4.expiration]; exact h2⟩
    by_cases h0 : (after cfg m0 h).threads t = .sleep r d since
    · rcases ih h0 with ⟨h1, h2⟩ | ⟨r', q', h1, h2⟩
      · exact .inl ⟨by rw [List.filterMap_append]; exact List.mem_append_left _ h1, h2⟩
      · exact .inr (later r' q' h1 h2)
    · obtain ⟨i, he, hsince, hd | ⟨-, r', q', -, h2, -, -, h3⟩⟩ := C69_sleep hc h e t r d since h0 ht
      · refine .inl ⟨?_, hd⟩
        rw [List.filterMap_append, he, hsince]
        simp [Spec.clock]
      · exact .inr (later r' q' (VMgr.deref_some h2).2 h3)

/-- Without calls, no request appears, and the expirations stay. -/
theorem no_births (hc : Spec.Created cfg m0) (h h' : List VEvent) (hn : ∀ e ∈ h', Spec.isCall e = false) (r : Nat) (q' : VReq)
    (hq' : (after cfg m0 (h ++ h')).mgr.reqs r = some q') :
    ∃ q, (after cfg m0 h).mgr.reqs r = some q ∧ q'.expiration = q.expiration := by
  have hex : ∃ q, (after cfg m0 h).mgr.reqs r = some q := by
    clear hc
    induction h' using List.reverseRecOn generalizing q' with
    | nil => rw [List.append_nil] at hq'; exact ⟨q', hq'⟩
    | append_singleton h' e ih =>
      rw [← List.append_assoc, after_snoc] at hq'
      have ih' := fun q' => ih (fun e he => hn e (List.mem_append_left _ he)) q'
      rcases step_move cfg (after cfg m0 (h ++ h')) e with hm | hm
      · rw [hm] at hq'; exact ih' q' hq'
      · rcases move_born hm r q' hq' with ⟨q, hq⟩ | ⟨-, pdu, timeout, t0, r0, i, he, -⟩
        · exact ih' q hq
        · have := hn e (by simp)
          rw [he] at this; cases this
  obtain ⟨q, hq⟩ := hex
  obtain ⟨q2, h2, h3⟩ := run_later hc h h' r q hq
  rw [h2] at hq'
  cases hq'
  exact ⟨q, hq, h3.expiration⟩

/-- Without calls, no thread enters `wait`. -/
theorem no_waits (hc : Spec.Created cfg m0) (h : List VEvent) (e : VEvent) (hn : Spec.isCall e = false) (t : Nat)
    (ht : ¬ Spec.Waiting (after cfg m0 h) t) :
    (after cfg m0 (h ++ [e])).threads t = (after cfg m0 h).threads t := by
  rcases step_goes hc h e t with hg | ⟨r, he, -⟩ | ⟨i, f, he, hg, -⟩
  · exact hg
  · rw [he] at hn; cases hn
  · exfalso
    apply ht
    constructor
    · intro h0; rw [h0] at hg; cases hg
    · intro r o h0; rw [h0] at hg; cases hg

/-- All threads with larger numbers than some have never been used. -/
theorem few (h : List VEvent) : ∃ N, VSys.Few N (after cfg m0 h) := by
  refine after_induct (cfg := cfg) (m0 := m0) (fun _ s => ∃ N, VSys.Few N s) ⟨0, fun t _ => rfl⟩ (fun _ _ _ h => h) ?_ h
  intro h s e s' ⟨N, hN⟩ hm
  have key : ∀ t, (∀ t', t' ≠ t → s'.threads t' = s.threads t') → ∃ N, VSys.Few N s' := by
    intro t ht
    refine ⟨max N (t + 1), fun t' h' => ?_⟩
    rw [ht t' (by omega)]
    exact hN t' (by omega)
  have same : s'.threads = s.threads → ∃ N, VSys.Few N s' := fun h => key 0 fun t' _ => by rw [h]
  have set : ∀ t p, s'.threads = setAt s.threads t p → ∃ N, VSys.Few N s' :=
    fun t p h => key t fun t' ht' => by rw [h, setAt_other _ _ ht']
  have fin : ∀ (s0 : VSys) (t r : Nat) (o : VOutcome), s0.threads = s.threads → s' = s0.finish cfg t r o → ∃ N, VSys.Few N s' := by
    intro s0 t r o h1 h2
    rw [h2, finish_eq] at set
    rw [h2, finish_eq]
    exact set t _ (by rw [← h1])
  cases hm <;> first
    | exact same rfl
    | exact set _ _ rfl
    | refine fin _ _ _ _ ?_ rfl; rfl

namespace Rounds

/-- What is fixed while the rounds go on. -/
structure Setting (cfg : VCfg) (m0 : VMgr) (h : List VEvent) (N K : Nat) : Prop where
  created : Spec.Created cfg m0
  few : VSys.Few N (after cfg m0 h)
  bound : VSys.references N (after cfg m0 h) < K

/-- The steps `h'` made after `h` are as the property demands. -/
structure Good (cfg : VCfg) (m0 : VMgr) (h h' : List VEvent) : Prop where
  calls : ∀ e ∈ h', Spec.isCall e = false
  steady : ((h ++ h').filterMap Spec.clock).Pairwise (· ≤ ·)
  late : ∀ now ∈ h'.filterMap Spec.clock, ∀ r q, (after cfg m0 h).mgr.reqs r = some q → q.expiration ≤ now

theorem Good.head {h a b : List VEvent} (hg : Good cfg m0 h (a ++ b)) : Good cfg m0 h a := by
  refine ⟨fun e he => hg.calls e (List.mem_append_left _ he), ?_, fun now hn => hg.late now ?_⟩
  · have := hg.steady
    rw [← List.append_assoc, List.filterMap_append] at this
    exact (List.pairwise_append.1 this).1
  · rw [List.filterMap_append]; exact List.mem_append_left _ hn

variable {h : List VEvent} {N K : Nat}

theorem late_now (hs : Setting cfg m0 h N K) {h' : List VEvent} {t : Nat} {i : SendIn}
    (hg : Good cfg m0 h (h' ++ [.step t i])) : VSys.Late (after cfg m0 (h ++ h')) i.now := by
  intro r q hq
  obtain ⟨q0, h0, h1⟩ := no_births hs.created h h' (fun e he => hg.calls e (List.mem_append_left _ he)) r q hq
  obtain ⟨base, -, hsound⟩ := hs.created.sound (h ++ h')
  refine ⟨?_, (hsound.reqs r q hq).bounded⟩
  rw [h1]
  exact hg.late i.now (by rw [List.filterMap_append]; simp [Spec.clock]) r q0 h0

/-- One step: nothing gets worse, apart from the arrival of a datagram; a step that is made gets things better. -/
theorem one (hs : Setting cfg m0 h N K) {h' : List VEvent} {e : VEvent} (hg : Good cfg m0 h (h' ++ [e]))
    (hf : VSys.Few N (after cfg m0 (h ++ h'))) (hb : VSys.references N (after cfg m0 (h ++ h')) < K) :
    (VSys.Few N (after cfg m0 (h ++ (h' ++ [e]))) ∧ VSys.references N (after cfg m0 (h ++ (h' ++ [e]))) < K) ∧
    (potential N K (after cfg m0 (h ++ (h' ++ [e]))) < potential N K (after cfg m0 (h ++ h')) ∨
      (potential N K (after cfg m0 (h ++ (h' ++ [e]))) ≤
          potential N K (after cfg m0 (h ++ h')) + 3 * (if Spec.isDatagram e then 1 else 0) ∧
        (after cfg m0 (h ++ (h' ++ [e]))).threads = (after cfg m0 (h ++ h')).threads ∧
        (after cfg m0 (h ++ (h' ++ [e]))).mgr.locked = (after cfg m0 (h ++ h')).mgr.locked ∧
        (¬ Quiet (after cfg m0 (h ++ h')).listener →
          (after cfg m0 (h ++ (h' ++ [e]))).listener = (after cfg m0 (h ++ h')).listener) ∧
        ((∃ t i, e = .step t i) ∨ (∃ i, e = .listen i) →
          ¬ Move cfg (after cfg m0 (h ++ h')) e (after cfg m0 (h ++ (h' ++ [e])))))) := by
  have hcall : Spec.isCall e = false := hg.calls e (by simp)
  have hfew : VSys.Few N (after cfg m0 (h ++ (h' ++ [e]))) := by
    intro t ht
    rw [← List.append_assoc, no_waits hs.created (h ++ h') e hcall t (fun hw => hw.1 (hf t ht))]
    exact hf t ht
  have hst : after cfg m0 (h ++ (h' ++ [e])) = (after cfg m0 (h ++ h')).step cfg e := by
    rw [← List.append_assoc, after_snoc]
  by_cases hmv : Move cfg (after cfg m0 (h ++ h')) e (after cfg m0 (h ++ (h' ++ [e])))
  · by_cases hw : ∃ t i, e = .step t i
    · obtain ⟨t, i, rfl⟩ := hw
      obtain ⟨h1, h2⟩ := move_waiter hf hb (late_now hs hg) hmv
      exact ⟨⟨hfew, by omega⟩, .inl h1⟩
    · by_cases hl : ∃ i, e = .listen i
      · obtain ⟨i, rfl⟩ := hl
        obtain ⟨h1, h2⟩ := move_listener (N := N) (K := K) hmv
        exact ⟨⟨hfew, by omega⟩, .inl h1⟩
      · obtain ⟨h1, h2, h3, h4, h5, h6⟩ := move_other hcall (fun t i he => hw ⟨t, i, he⟩) (fun i he => hl ⟨i, he⟩) hmv
        refine ⟨⟨hfew, ?_⟩, .inr ⟨?_, h1, h2, h3, fun h => absurd h (not_or.2 ⟨hw, hl⟩)⟩⟩
        · have := total_same (N := N) load h1
          unfold references at *
          rw [h4, h5]
          omega
        · have := total_same (N := N) (weight K) h1
          unfold potential
          rw [h4, h5]
          omega
  · have hsame : after cfg m0 (h ++ (h' ++ [e])) = after cfg m0 (h ++ h') := by
      rw [hst]
      refine (step_move cfg _ e).resolve_right fun hm => hmv ?_
      rw [hst]; exact hm
    refine ⟨⟨hfew, by rw [hsame]; exact hb⟩, .inr ⟨by rw [hsame]; omega, by rw [hsame], by rw [hsame], fun _ => by rw [hsame],
      fun _ => hmv⟩⟩

/-- Several steps: nothing gets worse, apart from the arrival of datagrams. -/
theorem several (hs : Setting cfg m0 h N K) {h' l : List VEvent} (hg : Good cfg m0 h (h' ++ l))
    (hf : VSys.Few N (after cfg m0 (h ++ h'))) (hb : VSys.references N (after cfg m0 (h ++ h')) < K) :
    (VSys.Few N (after cfg m0 (h ++ (h' ++ l))) ∧ VSys.references N (after cfg m0 (h ++ (h' ++ l))) < K) ∧
    potential N K (after cfg m0 (h ++ (h' ++ l))) ≤ potential N K (after cfg m0 (h ++ h')) + 3 * l.countP Spec.isDatagram := by
  induction l generalizing h' with
  | nil => simp only [List.append_nil]; exact ⟨⟨hf, hb⟩, by simp⟩
  | cons e l ih =>
    rw [show h' ++ e :: l = h' ++ [e] ++ l by simp] at hg ⊢
    obtain ⟨⟨h1, h2⟩, h3⟩ := one hs hg.head hf hb
    obtain ⟨h4, h5⟩ := ih hg h1 h2
    refine ⟨h4, ?_⟩
    rw [List.countP_cons]
    rcases h3 with h3 | ⟨h3, -⟩ <;> omega

/-- Whoever can make a step, and gets a turn, makes one. -/
theorem turn (hs : Setting cfg m0 h N K) {h' l : List VEvent} (hg : Good cfg m0 h (h' ++ l))
    (hf : VSys.Few N (after cfg m0 (h ++ h'))) (hb : VSys.references N (after cfg m0 (h ++ h')) < K)
    (ha : (∃ t, CanStep (after cfg m0 (h ++ h')) t ∧ ∃ i, .step t i ∈ l) ∨
      (¬ Quiet (after cfg m0 (h ++ h')).listener ∧ ∃ i, .listen i ∈ l)) :
    potential N K (after cfg m0 (h ++ (h' ++ l))) < potential N K (after cfg m0 (h ++ h')) + 3 * l.countP Spec.isDatagram := by
  induction l generalizing h' with
  | nil => simp at ha
  | cons e l ih =>
    rw [show h' ++ e :: l = h' ++ [e] ++ l by simp] at hg ⊢
    obtain ⟨⟨h1, h2⟩, h3⟩ := one hs hg.head hf hb
    have hst : after cfg m0 (h ++ (h' ++ [e])) = (after cfg m0 (h ++ h')).step cfg e := by
      rw [← List.append_assoc, after_snoc]
    rw [List.countP_cons]
    rcases h3 with h3 | ⟨h3, h4, h5, h6, h7⟩
    · obtain ⟨-, h8⟩ := several hs hg h1 h2
      omega
    · have := ih hg h1 h2 (by
        rcases ha with ⟨t, hcan, i, hi⟩ | ⟨hq, i, hi⟩
        · left
          refine ⟨t, ⟨?_, ?_⟩, i, ?_⟩
          · unfold Spec.Waiting
            rw [h4]; exact hcan.1
          · rw [h4, h5]; exact hcan.2
          · rcases List.mem_cons.1 hi with he | hi
            · exfalso
              subst he
              apply h7 (.inl ⟨t, i, rfl⟩)
              rw [hst]
              obtain ⟨base, -, hsound⟩ := hs.created.sound (h ++ h')
              refine moves_thread hcan (fun r hr => ?_) fun r d since hsl => ?_
              · have ht := hsound.threads t
                rcases hr with hr | ⟨d, a, hr⟩ | hr | hr <;> rw [hr] at ht
                · exact ht
                · exact ht
                · obtain ⟨q, hq, -⟩ := ht; exact ⟨q, hq⟩
                · obtain ⟨q, hq, -⟩ := ht; exact ⟨q, hq⟩
              · rcases sleep_ends hs.created (h ++ h') t r d since hsl with ⟨hm, hd⟩ | ⟨r', q', hq', hle⟩
                · have hst := hg.head.steady
                  rw [← List.append_assoc, List.filterMap_append] at hst
                  have := (List.pairwise_append.1 hst).2.2 since hm i.now (by simp [Spec.clock])
                  rw [hd]; linarith
                · exact hle.trans (late_now hs hg.head r' q' hq').1
            · exact hi
        · right
          refine ⟨by rw [h6 hq]; exact hq, i, ?_⟩
          rcases List.mem_cons.1 hi with he | hi
          · exfalso
            subst he
            apply h7 (.inr ⟨i, rfl⟩)
            rw [hst]
            exact moves_listener hq
          · exact hi)
      omega

/-- A thread inside `wait` was inside `wait` before. -/
theorem waited (hs : Setting cfg m0 h N K) {h' l : List VEvent} (hg : Good cfg m0 h (h' ++ l)) {t : Nat}
    (ht : Spec.Waiting (after cfg m0 (h ++ (h' ++ l))) t) : Spec.Waiting (after cfg m0 (h ++ h')) t := by
  induction l using List.reverseRecOn with
  | nil => rwa [List.append_nil] at ht
  | append_singleton l e ih =>
    rw [← List.append_assoc h' l] at hg ht
    refine ih hg.head ?_
    by_contra hw
    have := no_waits hs.created (h ++ (h' ++ l)) e (hg.calls e (by simp)) t hw
    rw [List.append_assoc] at this
    apply hw
    unfold Spec.Waiting at *
    rw [this] at ht
    exact ht

/-- As long as a thread is inside `wait`, every round brings the ends nearer. -/
theorem rounds (hs : Setting cfg m0 h N K) {h' : List VEvent} {l : List (List VEvent)} (hg : Good cfg m0 h (h' ++ l.flatten))
    (hr : ∀ round ∈ l, Spec.Fair (after cfg m0 h) round)
    (hf : VSys.Few N (after cfg m0 (h ++ h'))) (hb : VSys.references N (after cfg m0 (h ++ h')) < K) {t : Nat}
    (ht : Spec.Waiting (after cfg m0 (h ++ (h' ++ l.flatten))) t) :
    potential N K (after cfg m0 (h ++ (h' ++ l.flatten))) + l.length ≤
      potential N K (after cfg m0 (h ++ h')) + 3 * l.flatten.countP Spec.isDatagram := by
  induction l generalizing h' with
  | nil => simp
  | cons round l ih =>
    rw [show h' ++ (round :: l).flatten = h' ++ round ++ l.flatten by simp] at hg ht ⊢
    have hg' := hg.head
    obtain ⟨⟨h1, h2⟩, -⟩ := several hs hg' hf hb
    have hlast := ih hg (fun r hm => hr r (List.mem_cons_of_mem _ hm)) h1 h2 ht
    have hw := waited hs hg' (waited hs hg ht)
    obtain ⟨held, ho⟩ := hs.created.owner (h ++ h')
    have hfair := hr round List.mem_cons_self
    have hgs := hg'.head
    have := turn hs hg' hf hb (by
      rcases someone ho hw with ⟨t', hcan⟩ | hq
      · left
        refine ⟨t', hcan, hfair.threads t' ?_⟩
        have := waited (h' := []) hs (t := t') (by simpa using hgs) (by simpa using hcan.1)
        simpa using this
      · exact .inr ⟨hq, hfair.listener⟩)
    rw [List.flatten_cons, List.countP_append, List.length_cons]
    omega

end Rounds

/-- **C93, v3.** After any history there is a number `N` such that, however the history continues: if no further
calls are made, the clock does not run backwards and has passed the expiration of every request, and the
continuation consists of rounds in each of which every thread inside `wait` and the listening thread get a turn,
then after `N` rounds, and three more for each datagram that arrived, no thread is inside `wait` any more. -/
theorem C93_v3 (hc : Spec.Created cfg m0) (h : List VEvent) :
    ∃ N, ∀ rounds : List (List VEvent),
      (∀ round ∈ rounds, Spec.Fair (after cfg m0 h) round) →
      (∀ e ∈ rounds.flatten, Spec.isCall e = false) →
      ((h ++ rounds.flatten).filterMap Spec.clock).Pairwise (· ≤ ·) →
      (∀ now ∈ rounds.flatten.filterMap Spec.clock,
        ∀ r q, (after cfg m0 h).mgr.reqs r = some q → q.expiration ≤ now) →
      N + 3 * rounds.flatten.countP Spec.isDatagram ≤ rounds.length →
      ∀ t, ¬ Spec.Waiting (after cfg m0 (h ++ rounds.flatten)) t := by
  obtain ⟨N, hN⟩ := few (cfg := cfg) (m0 := m0) h
  have hs : Rounds.Setting cfg m0 h N (references N (after cfg m0 h) + 1) := ⟨hc, hN, Nat.lt_succ_self _⟩
  refine ⟨potential N (references N (after cfg m0 h) + 1) (after cfg m0 h) + 1, fun rounds h1 h2 h3 h4 h5 t ht => ?_⟩
  have := Rounds.rounds (h' := []) hs ⟨by simpa using h2, by simpa using h3, by simpa using h4⟩ h1
    (by simpa using hs.few) (by simp) (t := t) (by simpa using ht)
  simp only [List.append_nil, List.nil_append] at this
  omega

end Snmp
