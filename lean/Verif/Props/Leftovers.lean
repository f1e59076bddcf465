import Verif.Props.Failures
import Verif.Props.CommunityManagers
import Verif.Props.V3Kept
/-!
# C117: what dropped requests leave in a manager

A manager keeps weak references to its requests, in a heap (v1/v2c) or in a heap and a queue (v3), and removes those
whose request is gone only while some thread is inside `wait()`. A program that sends requests and drops the handles
without waiting therefore makes them grow without bound. What holds is that each request has at most one entry.
-/

namespace Snmp

/-- The number of requests that manager `k` was asked to send. -/
def Spec.sends (k : Nat) : List CEvent → Nat
  | [] => 0
  | .send k' .. :: h => (if k' = k then 1 else 0) + Spec.sends k h
  | _ :: h => Spec.sends k h

theorem Spec.sends_append (k : Nat) (h h' : List CEvent) : Spec.sends k (h ++ h') = Spec.sends k h + Spec.sends k h' := by
  induction h with
  | nil => simp [Spec.sends]
  | cons e h ih => cases e <;> simp [Spec.sends, ih, Nat.add_assoc]

theorem CMgr.reallySend_frame (v : Version) (s : CMgr) (r : Nat) (q : CReq) (draws : Nat → Nat) (chan : Option PyErr) :
    (s.reallySend v r q draws chan).2.heaps = s.heaps ∧ (s.reallySend v r q draws chan).2.dead = s.dead ∧
    ∀ r', r' ≠ r → (s.reallySend v r q draws chan).2.reqs r' = s.reqs r' := by
  obtain ⟨id, cb, cache, sent, h, -⟩ := CMgr.reallySend_spec v s r q draws chan
  rw [h]
  exact ⟨rfl, rfl, fun r' hr => setAt_other _ _ hr⟩

theorem CMgr.sendRequest_frame (v : Version) (s : CMgr) (k r : Nat) (pdu : Pdu) (community : Bytes)
    (timeout period t0 t1 : ℚ) (draws : Nat → Nat) (chan : Option PyErr) :
    (∃ l, (l.map Ref.id).Perm (r :: (s.heaps k).map Ref.id) ∧
      (s.sendRequest v k r pdu community timeout period t0 t1 draws chan).2.heaps = setAt s.heaps k l) ∧
    (s.sendRequest v k r pdu community timeout period t0 t1 draws chan).2.dead = s.dead ∧
    ∀ r', r' ≠ r → (s.sendRequest v k r pdu community timeout period t0 t1 draws chan).2.reqs r' = s.reqs r' := by
  unfold CMgr.sendRequest
  simp only
  generalize ht : (CMgr.mk (s.setReq r (CReq.new k pdu community timeout period t0)).reqs
      (s.setReq r (CReq.new k pdu community timeout period t0)).dead
      (setAt (s.setReq r (CReq.new k pdu community timeout period t0)).heaps k
        (Heap.push (s.setReq r (CReq.new k pdu community timeout period t0)).env
          ((s.setReq r (CReq.new k pdu community timeout period t0)).heaps k)
          ⟨r, WeakKey.new (CReq.new k pdu community timeout period t0).nextRefresh⟩))
      (s.setReq r (CReq.new k pdu community timeout period t0)).cache
      (s.setReq r (CReq.new k pdu community timeout period t0)).sent) = m
  obtain ⟨h1, h2, h3⟩ := CMgr.reallySend_frame v m r
    ((CReq.new k pdu community timeout period t0).setNextRefresh (t1 + (CReq.new k pdu community timeout period t0).period))
    draws chan
  refine ⟨⟨Heap.push (s.setReq r (CReq.new k pdu community timeout period t0)).env (s.heaps k)
      ⟨r, WeakKey.new (CReq.new k pdu community timeout period t0).nextRefresh⟩, VSys.push_ids _ _ _, ?_⟩, ?_, ?_⟩
  · rw [h1, ← ht]; rfl
  · rw [h2, ← ht]; rfl
  · intro r' hr
    rw [h3 r' hr, ← ht]
    exact setAt_other _ _ hr

theorem CMgr.collect_frame (s : CMgr) (r : Nat) : (s.collect r).heaps = s.heaps ∧
    (∀ r', r' ≠ r → (s.collect r).reqs r' = s.reqs r' ∧ (s.collect r).dead r' = s.dead r') ∧
    (s.collect r).deref r = none := by
  unfold CMgr.collect
  cases hd : s.deref r with
  | none => exact ⟨rfl, fun _ _ => ⟨rfl, rfl⟩, hd⟩
  | some q =>
    simp only
    split
    · rename_i hc
      simp only [CMgr.close, hc, if_true]
      refine ⟨rfl, fun r' hr => ⟨setAt_other _ _ hr, setAt_other _ _ hr⟩, ?_⟩
      simp [CMgr.deref, setAt_same]
    · refine ⟨rfl, fun r' hr => ⟨rfl, setAt_other _ _ hr⟩, ?_⟩
      simp [CMgr.deref, setAt_same]

/-- How a step changes the entries of manager `k`. -/
theorem CSys.step_entries (v : Version) (s : CSys) (e : CEvent) (k : Nat) :
    (∃ l, ((s.mgr.heaps k).map Ref.id).Perm (l ++ ((s.step v e).mgr.heaps k).map Ref.id)) ∨
    ∃ r, s.mgr.reqs r = none ∧ (((s.step v e).mgr.heaps k).map Ref.id).Perm (r :: (s.mgr.heaps k).map Ref.id) ∧
      Spec.sends k [e] = 1 := by
  have hc := step_chg v s e
  generalize s.step v e = s' at hc
  have keep : ∀ {l : List Ref}, (s'.mgr.heaps k) = l → (l.map Ref.id).Perm ((s.mgr.heaps k).map Ref.id) →
      ∃ l, ((s.mgr.heaps k).map Ref.id).Perm (l ++ (s'.mgr.heaps k).map Ref.id) :=
    fun h hp => ⟨[], by rw [h]; exact hp.symm⟩
  cases hc with
  | same h => exact .inl (keep (by rw [h]) (.refl _))
  | @created k' r pdu community timeout period t0 t1 draws chan hn =>
    obtain ⟨⟨l, hl, hh⟩, -, -⟩ := CMgr.sendRequest_frame v s.mgr k' r pdu community timeout period t0 t1 draws chan
    by_cases hk : k' = k
    · subst hk
      refine .inr ⟨r, hn, ?_, by simp [Spec.sends]⟩
      show (((s.mgr.sendRequest v k' r pdu community timeout period t0 t1 draws chan).2.heaps k').map Ref.id).Perm _
      rw [hh, setAt_same]; exact hl
    · refine .inl (keep (l := s.mgr.heaps k) ?_ (.refl _))
      show (s.mgr.sendRequest v k' r pdu community timeout period t0 t1 draws chan).2.heaps k = _
      rw [hh, setAt_other _ _ (fun h => hk h.symm)]
  | closed hq hc ho h ht => exact .inl (keep (by rw [h]; rfl) (.refl _))
  | @popped t now draws chan s' k' ref rest hb hh hd h =>
    by_cases hk : k' = k
    · subst hk
      refine .inl ⟨[ref.id], ?_⟩
      rw [h]
      simp only [setAt_same]
      rw [hh]
      exact ((VSys.pop_ids _ ref rest).cons ref.id).symm
    · exact .inl (keep (by rw [h]; exact setAt_other _ _ (fun h => hk h.symm)) (.refl _))
  | @resent t now draws chan s' k' ref rest q m' hb hh hd h1 h2 h3 h4 hs h =>
    have hf := (CMgr.reallySend_frame v s.mgr ref.id (CMgr.resent q now) draws chan).1
    rw [hs] at hf
    simp only at hf
    by_cases hk : k' = k
    · subst hk
      refine .inl (keep (l := Heap.replace m'.env (s.mgr.heaps k') ref) (by rw [h]; simp only [setAt_same, hf]) ?_)
      rw [hh]
      exact VSys.replace_ids _ ref rest
    · exact .inl (keep (by rw [h]; simp only; rw [setAt_other _ _ (fun h => hk h.symm), hf]) (.refl _))
  | @failed t now draws chan s' k' ref rest q m' e hb hh hd h1 h2 h3 h4 hs h =>
    have hf := (CMgr.reallySend_frame v s.mgr ref.id (CMgr.resent q now) draws chan).1
    rw [hs] at hf
    simp only at hf
    exact .inl (keep (by rw [h, hf]) (.refl _))
  | heard hr => exact .inl (keep (by show (s.mgr.hear v _).2.heaps k = _; rw [(CMgr.hear_frame v s.mgr _).2.2.1]) (.refl _))
  | pushed hr hq => exact .inl (keep rfl (.refl _))
  | collected => exact .inl (keep (by show (s.mgr.collect _).heaps k = _; rw [(CMgr.collect_frame s.mgr _).1]) (.refl _))

/-- **C117** (v1/v2c), the part that holds: a manager has at most one entry for each request, and so at most as many
as it was asked to send requests. -/
theorem C117_community_partial (v : Version) (g : Nat) (h : List CEvent) (k : Nat) :
    (((CSys.after v g h).mgr.heaps k).map Ref.id).Nodup ∧ ((CSys.after v g h).mgr.heaps k).length ≤ Spec.sends k h := by
  induction h using List.reverseRecOn with
  | nil => exact ⟨List.nodup_nil, Nat.zero_le _⟩
  | append_singleton h e ih =>
    obtain ⟨i1, i2⟩ := ih
    rw [CSys.after_snoc, Spec.sends_append]
    rcases CSys.step_entries v (CSys.after v g h) e k with ⟨l, hl⟩ | ⟨r, hr, hl, hs⟩
    · refine ⟨(List.nodup_append.1 (hl.nodup_iff.1 i1)).2.1, ?_⟩
      have := hl.length_eq
      simp only [List.length_map, List.length_append] at this
      omega
    · refine ⟨hl.nodup_iff.2 (List.nodup_cons.2 ⟨fun hm => ?_, i1⟩), ?_⟩
      · obtain ⟨x, hx, rfl⟩ := List.mem_map.1 hm
        obtain ⟨q, hq, -⟩ := CSys.owned v g h k x hx
        rw [hr] at hq; cases hq
      · have := hl.length_eq
        simp only [List.length_map, List.length_cons] at this
        omega

/-- `n` requests are sent, and each handle is dropped at once. -/
def Spec.sendAndDrop : Nat → List CEvent
  | 0 => []
  | n + 1 => Spec.sendAndDrop n ++ [Spec.sendAt n 10 1, .collect n]

/-- **C117** is false of the code (v1/v2c): for every `n` there is a history after which no request is left, but the
manager has `n` entries. -/
theorem C117_community_false (v : Version) (g n : Nat) :
    (∀ r, (CSys.after v g (Spec.sendAndDrop n)).mgr.deref r = none) ∧
    ((CSys.after v g (Spec.sendAndDrop n)).mgr.heaps 0).length = n := by
  have key : (∀ r, (CSys.after v g (Spec.sendAndDrop n)).mgr.deref r = none) ∧
      (∀ r, n ≤ r → (CSys.after v g (Spec.sendAndDrop n)).mgr.reqs r = none) ∧
      ((CSys.after v g (Spec.sendAndDrop n)).mgr.heaps 0).length = n := by
    induction n with
    | zero => exact ⟨fun r => rfl, fun r _ => rfl, rfl⟩
    | succ n ih =>
      obtain ⟨i1, i2, i3⟩ := ih
      have e : CSys.after v g (Spec.sendAndDrop (n + 1)) =
          ((CSys.after v g (Spec.sendAndDrop n)).step v (Spec.sendAt n 10 1)).step v (.collect n) := by
        rw [Spec.sendAndDrop, ← CSys.after_snoc, ← CSys.after_snoc, List.append_assoc]; rfl
      rw [e]
      generalize CSys.after v g (Spec.sendAndDrop n) = s at *
      have e1 : s.step v (Spec.sendAt n 10 1) = { s with mgr := (s.mgr.sendRequest v 0 n ⟨.getRequest, 0, 0, 0, []⟩ [] 10 1 0 0
          (fun m => if m = 0 then n + 1 else m + 7) none).2 } := by
        unfold Spec.sendAt CSys.step
        simp [i2 n (Nat.le_refl n)]
      rw [e1]
      obtain ⟨⟨l, h1, h2⟩, h3, h4⟩ := CMgr.sendRequest_frame v s.mgr 0 n ⟨.getRequest, 0, 0, 0, []⟩ [] 10 1 0 0
        (fun m => if m = 0 then n + 1 else m + 7) none
      generalize (s.mgr.sendRequest v 0 n ⟨.getRequest, 0, 0, 0, []⟩ [] 10 1 0 0
          (fun m => if m = 0 then n + 1 else m + 7) none).2 = m at *
      obtain ⟨c1, c2, c3⟩ := CMgr.collect_frame m n
      refine ⟨fun r => ?_, fun r hr => ?_, ?_⟩
      · by_cases hr : r = n
        · subst hr; exact c3
        · obtain ⟨d1, d2⟩ := c2 r hr
          have := i1 r
          show (m.collect n).deref r = none
          unfold CMgr.deref at this ⊢
          rw [d1, d2, h3, h4 r hr]; exact this
      · show (m.collect n).reqs r = none
        rw [(c2 r (by omega)).1, h4 r (by omega)]
        exact i2 r (by omega)
      · show ((m.collect n).heaps 0).length = _
        rw [c1, h2, setAt_same]
        have := h1.length_eq
        simp only [List.length_map, List.length_cons] at this
        omega
  exact ⟨key.1, key.2.2⟩

/-! ## v3 -/

section V3
open VSys Demo Spec

variable {cfg : VCfg} {m0 : VMgr}

theorem VSys.length_le_of_nodup {l : List Nat} {n : Nat} (h : l.Nodup) (hl : ∀ r ∈ l, r < n) : l.length ≤ n := by
  have : l ⊆ List.range n := fun r hr => List.mem_range.2 (hl r hr)
  have := (h.subperm this).length_le
  simpa using this

/-- **C117** (v3), the part that holds: a manager has at most one entry for each request, in the heap and the queue
taken together, and so at most as many as requests were created. -/
theorem C117_partial (hc : Spec.Created cfg m0) (h : List VEvent) (l : List Ref) (hl : Spec.Queue (after cfg m0 h) l) :
    ((after cfg m0 h).mgr.active.map Ref.id ++ l.map Ref.id).Nodup ∧
    (after cfg m0 h).mgr.active.length + l.length ≤ (after cfg m0 h).mgr.nextReq := by
  obtain ⟨held, hp, -⟩ := hc.kept h
  have hn := (C54_once hc h l hl).1
  refine ⟨hn, ?_⟩
  rw [Spec.queue_iff hp.owner] at hl
  subst hl
  have := VSys.length_le_of_nodup hn (n := (after cfg m0 h).mgr.nextReq) (fun r hr => hp.lt r (by rw [List.map_append] at hr; exact hr))
  simpa using this

/-- A request is sent by a manager that does not know its engine, and the handle is dropped; then this happens `n` times
more. -/
def Spec.queueAndDrop : Nat → List VEvent
  | 0 => [Demo.issue 0 10 1, .collect 0]
  | n + 1 => Spec.queueAndDrop n ++ [Demo.issue 0 10 1, .collect (n + 1)]

theorem VMgr.collect_leaves (cfg : VCfg) (m : VMgr) (r : Nat) : (m.collect cfg r).state = m.state ∧
    (m.collect cfg r).locked = m.locked ∧ (m.collect cfg r).unsent = m.unsent ∧ (m.collect cfg r).nextReq = m.nextReq ∧
    (m.collect cfg r).active = m.active ∧
    (m.collect cfg r).deref r = none ∧ ∀ r', r' ≠ r → (m.collect cfg r).deref r' = m.deref r' := by
  unfold VMgr.collect
  cases hd : m.deref r with
  | none => exact ⟨rfl, rfl, rfl, rfl, rfl, hd, fun _ _ => rfl⟩
  | some q =>
    simp only
    unfold VMgr.close
    simp only
    split
    all_goals
      refine ⟨rfl, rfl, rfl, rfl, rfl, by simp [VMgr.deref, setAt_same], fun r' hr => ?_⟩
      simp [VMgr.deref, VMgr.setReq, setAt_other _ _ hr]

/-- **C117** is false of the code (v3): for every `n` there is a history after which no request is left, but the queue of
the manager has `n` entries. -/
theorem C117_false (n : Nat) :
    (∀ r, (after demoCfg (demo none) (Spec.queueAndDrop n)).mgr.deref r = none) ∧
    (after demoCfg (demo none) (Spec.queueAndDrop n)).mgr.unsent.length = n := by
  have key : (∀ r, (after demoCfg (demo none) (Spec.queueAndDrop n)).mgr.deref r = none) ∧
      (after demoCfg (demo none) (Spec.queueAndDrop n)).mgr.unsent.length = n ∧
      (after demoCfg (demo none) (Spec.queueAndDrop n)).mgr.nextReq = n + 1 ∧
      (after demoCfg (demo none) (Spec.queueAndDrop n)).mgr.state = .waitForDiscovery ∧
      (after demoCfg (demo none) (Spec.queueAndDrop n)).mgr.locked = false ∧
      (after demoCfg (demo none) (Spec.queueAndDrop n)).dropped = false := by
    induction n with
    | zero =>
      refine ⟨fun r => ?_, by decide +kernel, by decide +kernel, by decide +kernel, by decide +kernel, by decide +kernel⟩
      by_cases hr : r = 0
      · subst hr
        have : ((after demoCfg (demo none) (Spec.queueAndDrop 0)).mgr.deref 0).isNone = true := by decide +kernel
        exact Option.isNone_iff_eq_none.1 this
      · obtain ⟨base, hp, hs⟩ := (demo_created none (.inl rfl)).sound (Spec.queueAndDrop 0)
        have hn : (after demoCfg (demo none) (Spec.queueAndDrop 0)).mgr.nextReq = 1 := by decide +kernel
        have := hs.accounts.later r (by omega)
        unfold VMgr.deref
        rw [this]; split <;> rfl
    | succ n ih =>
      obtain ⟨i1, i2, i3, i4, i5, i6⟩ := ih
      have e : after demoCfg (demo none) (Spec.queueAndDrop (n + 1)) =
          ((after demoCfg (demo none) (Spec.queueAndDrop n)).step demoCfg (Demo.issue 0 10 1)).step demoCfg
            (.collect (n + 1)) := by
        rw [Spec.queueAndDrop, ← after_snoc, ← after_snoc, List.append_assoc]; rfl
      rw [e]
      generalize after demoCfg (demo none) (Spec.queueAndDrop n) = s at *
      obtain ⟨m, hm, j1, j2, j3, j4, j5⟩ : ∃ m, s.step demoCfg (Demo.issue 0 10 1) = { s with mgr := m } ∧
          (∀ r, r ≠ n + 1 → m.deref r = s.mgr.deref r) ∧ m.unsent.length = n + 1 ∧ m.nextReq = n + 2 ∧
          m.state = .waitForDiscovery ∧ m.locked = false := by
        refine ⟨(s.mgr.sendRequest demoCfg ⟨.getRequest, 0, 0, 0, []⟩ [97] noAuthNoPriv 10 1 0 1 (Demo.input 0)).2, ?_, ?_⟩
        · unfold Demo.issue VSys.step
          simp only [i5, i6, Bool.or_self, Bool.false_eq_true, ↓reduceIte]
        · unfold VMgr.sendRequest
          generalize VMgr.generateRequestID s.mgr.gen 1 = g
          obtain ⟨id, gen⟩ := g
          simp only [VMgr.setReq, i4, MState.onRequest, VMgr.propose_eq]
          refine ⟨fun r hr => ?_, by simp [i2], by simp [i3], trivial, i5⟩
          unfold VMgr.deref
          simp only
          rw [setAt_other _ _ (by omega)]
      rw [hm]
      obtain ⟨c1, c2, c3, c4, -, c5, c6⟩ := VMgr.collect_leaves demoCfg m (n + 1)
      refine ⟨fun r => ?_, ?_, ?_, ?_, ?_, i6⟩
      · by_cases hr : r = n + 1
        · subst hr; exact c5
        · show (m.collect demoCfg (n + 1)).deref r = none
          rw [c6 r hr, j1 r hr]; exact i1 r
      · show (m.collect demoCfg (n + 1)).unsent.length = _
        rw [c3]; exact j2
      · show (m.collect demoCfg (n + 1)).nextReq = _
        rw [c4]; exact j3
      · show (m.collect demoCfg (n + 1)).state = _
        rw [c1]; exact j4
      · show (m.collect demoCfg (n + 1)).locked = _
        rw [c2]; exact j5
  exact ⟨key.1, key.2.1⟩

/-- Non-vacuity: after three requests, of which one was dropped and two are still held, the heaps have three entries; the dropped
one is gone when a thread that waits finds it first in the heap. -/
theorem C117_example :
    let h := [Demo.issue 0 10 1, Demo.issue 0 10 1, Demo.issue 0 10 1, .collect 0]
    let c := [Spec.sendAt 0 10 1, Spec.sendAt 1 10 1, Spec.sendAt 2 10 1, .collect 0]
    (after demoCfg (demo (some [1])) h).mgr.active.map Ref.id = [0, 1, 2] ∧
    (after demoCfg (demo (some [1])) (h ++ [.wait 0 1, at_ 0 0, at_ 0 0])).mgr.active.length = 2 ∧
    Spec.Queue (after demoCfg (demo (some [1])) [Demo.issue 0 10 1]) [] ∧
    ((CSys.after .v1 1 c).mgr.heaps 0).map Ref.id = [0, 1, 2] ∧ Spec.sends 0 c = 3 ∧
    ((CSys.after .v1 1 (c ++ [.wait 0 1, Spec.stepC 0, Spec.stepC 0, Spec.stepC 0])).mgr.heaps 0).length = 2 := by
  refine ⟨by decide +kernel, by decide +kernel, .inr ⟨?_, by decide +kernel⟩, by decide +kernel, by decide +kernel, by decide +kernel⟩
  intro t r l a ht
  have : (after demoCfg (demo (some [1])) [Demo.issue 0 10 1]).threads t = .idle := rfl
  rw [this] at ht; cases ht

end V3

end Snmp
