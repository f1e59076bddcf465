import Verif.Props.CommunityMatch
/-!
# C64: which exceptions end `wait` on a v1/v2c handle
-/

namespace Snmp

/-! ## Specification -/

/-- The thread is inside `wait`. -/
def Pc.Inside : Pc → Prop
  | .idle | .done _ _ => False
  | _ => True

/-- The thread is inside `wait` on the request `r`. -/
def Pc.InsideOn (p : Pc) (r : Nat) : Prop :=
  p = .test r ∨ p = .loop r ∨ p = .body r ∨ ∃ d since, p = .sleep r d since

/-- At no time during the history `h` are two threads inside `wait` on requests of manager `k`. -/
def Spec.OneAtATime (v : Version) (g : Nat) (k : Nat) (h : List CEvent) : Prop :=
  ∀ h1 h2, h = h1 ++ h2 → ∀ t t' r r' q q',
    ((CSys.after v g h1).threads t).InsideOn r → (CSys.after v g h1).mgr.reqs r = some q → q.manager = k →
    ((CSys.after v g h1).threads t').InsideOn r' → (CSys.after v g h1).mgr.reqs r' = some q' → q'.manager = k →
    t = t'

/-! ## Proofs -/

theorem Heap.push_ne_nil (env : Env) (l : List Ref) (x : Ref) : Heap.push env l x ≠ [] := by
  intro h
  have := (Heap.push_moved env l x).length
  rw [h] at this
  simp at this

theorem CMgr.reallySend_heap (v : Version) (s : CMgr) (r : Nat) (q : CReq) (draws : Nat → Nat) (chan : Option PyErr) :
    (s.reallySend v r q draws chan).2.heaps = s.heaps := by
  obtain ⟨id, cb, cache, sent, hs, -⟩ := reallySend_spec v s r q draws chan
  rw [hs]

/-- Only a step of a thread that looks at the heap of manager `k` takes the last item off it. -/
theorem CSys.heap_ne_nil {v : Version} {s : CSys} {e : CEvent} {k : Nat} (h : s.mgr.heaps k ≠ [])
    (h' : (s.step v e).mgr.heaps k = []) :
    ∃ t now draws chan r, e = .step t now draws chan ∧ s.threads t = .body r ∧ s.mgr.managerOf r = k := by
  cases e with
  | send k0 r pdu community timeout period t0 t1 draws chan =>
    exfalso
    unfold CSys.step at h'
    simp only at h'
    split at h'
    · exact h h'
    · unfold CMgr.sendRequest at h'
      simp only at h'
      rw [CMgr.reallySend_heap] at h'
      simp only at h'
      by_cases hk : k = k0
      · subst hk
        rw [setAt_same] at h'
        exact Heap.push_ne_nil _ _ _ h'
      · rw [setAt_other _ _ hk] at h'
        exact h h'
  | wait t r =>
    exfalso
    unfold CSys.step at h'
    simp only at h'
    split at h' <;> exact h h'
  | step t now draws chan =>
    have hs : s.step v (.step t now draws chan) = s.advance v t now draws chan := rfl
    rw [hs] at h'
    obtain ⟨-, h2 | ⟨r0, q0, h0, h2⟩ | ⟨r0, ht, h2⟩⟩ := CSys.advance_mgr v s t now draws chan
    · rw [h2] at h'; exact absurd h' h
    · rw [h2] at h'
      rcases CMgr.close_cases s.mgr r0 q0 with ⟨k, -⟩ | ⟨-, k⟩ <;> rw [k] at h' <;> exact absurd h' h
    · refine ⟨t, now, draws, chan, r0, rfl, ht, ?_⟩
      by_contra hk
      rw [h2] at h'
      obtain ⟨s1, heap, hb, hs, -⟩ := CMgr.refreshBody_cases v s.mgr (s.mgr.managerOf r0) now draws chan
      rw [hb] at h'
      simp only at h'
      rw [setAt_other _ _ (Ne.symm hk)] at h'
      rcases hs with hs | ⟨ref, rest, q, -, -, -, -, -, -, hs⟩
      · rw [hs] at h'; exact h h'
      · rw [hs, CMgr.reallySend_heap] at h'; exact h h'
  | hear w =>
    exfalso
    unfold CSys.step at h'
    simp only at h'
    split at h'
    · exact h h'
    · simp only at h'; rw [(CMgr.hear_frame v s.mgr w).2.2.1] at h'; exact h h'
  | push =>
    exfalso
    unfold CSys.step at h'
    simp only at h'
    split at h'
    · exact h h'
    · split at h' <;> exact h h'
  | collect r =>
    exfalso
    unfold CSys.step CMgr.collect at h'
    simp only at h'
    split at h'
    · exact h h'
    · rename_i q _
      simp only at h'
      split at h'
      · rcases CMgr.close_cases s.mgr r q with ⟨k, -⟩ | ⟨-, k⟩ <;> rw [k] at h' <;> exact h h'
      · exact h h'

/-- A thread waits on a request that exists. -/
theorem CSys.inside_known (v : Version) (g : Nat) (h : List CEvent) (t r : Nat)
    (ht : ((CSys.after v g h).threads t).InsideOn r) : ∃ q, (CSys.after v g h).mgr.reqs r = some q := by
  induction h using List.reverseRecOn with
  | nil => rcases ht with ht | ht | ht | ⟨d, since, ht⟩ <;> cases ht
  | append_singleton h e ih =>
    rw [CSys.after_snoc] at ht ⊢
    have keep : ((CSys.after v g h).threads t).InsideOn r → ∃ q, ((CSys.after v g h).step v e).mgr.reqs r = some q := by
      intro hi
      obtain ⟨q, hq⟩ := ih hi
      obtain ⟨q', hq', -⟩ := (CSys.step_evolves v (CSys.after v g h) e).keep r q hq
      exact ⟨q', hq'⟩
    rcases CSys.step_threads v (CSys.after v g h) e t with hs | ⟨r', he, h0, hs⟩ | ⟨now, draws, chan, he, hs⟩
    · rw [hs] at ht; exact keep ht
    · rw [hs] at ht
      have hr : r' = r := by
        rcases ht with ht | ht | ht | ⟨d, since, ht⟩ <;> cases ht
        rfl
      subst hr
      subst he
      unfold CSys.step at hs ⊢
      simp only at hs ⊢
      have : ∃ q, (CSys.after v g h).mgr.deref r' = some q := by
        cases hd : (CSys.after v g h).mgr.deref r' with
        | some q => exact ⟨q, rfl⟩
        | none =>
          exfalso
          rw [hd] at hs
          rcases h0 with h0 | ⟨a, b, h0⟩ <;> (rw [h0] at hs; simp only at hs; rw [h0] at hs; cases hs)
      obtain ⟨q, hd⟩ := this
      refine ⟨q, ?_⟩
      split <;> exact (CMgr.deref_some hd).1
    · rw [hs] at ht
      apply keep
      have hb := (CSys.advance_threads v (CSys.after v g h) t now draws chan).2
      cases hp : (CSys.after v g h).threads t with
      | idle => rw [hp] at hb; simp only [Moves] at hb; rw [hb] at ht; rcases ht with ht | ht | ht | ⟨d, since, ht⟩ <;> cases ht
      | done r o => rw [hp] at hb; simp only [Moves] at hb; rw [hb] at ht; rcases ht with ht | ht | ht | ⟨d, since, ht⟩ <;> cases ht
      | test r0 =>
        rw [hp] at hb
        simp only [Moves] at hb
        rcases hb with ⟨-, hb⟩ | ⟨q, -, ⟨-, hb | hb⟩ | ⟨-, hb⟩⟩ <;> rw [hb] at ht <;>
          (rcases ht with ht | ht | ht | ⟨d, since, ht⟩ <;> cases ht <;> exact .inl rfl)
      | loop r0 =>
        rw [hp] at hb
        simp only [Moves] at hb
        rcases hb with ⟨-, hb⟩ | ⟨hh, hb⟩ <;> rw [hb] at ht <;> rcases ht with ht | ht | ht | ⟨d, since, ht⟩ <;>
          cases ht
        · exact .inr (.inl rfl)
        · exact .inr (.inl rfl)
      | body r0 =>
        rw [hp] at hb
        simp only [Moves] at hb
        rcases hb with ⟨x, -, hb⟩ | hb | ⟨d, -, hb⟩ <;> rw [hb] at ht <;>
          (rcases ht with ht | ht | ht | ⟨d, since, ht⟩ <;> cases ht <;> exact .inr (.inr (.inl rfl)))
      | sleep r0 a b =>
        rw [hp] at hb
        simp only [Moves] at hb
        rcases hb with ⟨-, hb⟩ | ⟨q, -, ⟨-, hb⟩ | ⟨-, hb⟩ | ⟨-, -, hb⟩ | ⟨m, -, -, ⟨-, hb⟩ | ⟨-, hb⟩⟩⟩ <;> rw [hb] at ht <;>
          (rcases ht with ht | ht | ht | ⟨d, since, ht⟩ <;> cases ht <;> exact .inr (.inr (.inr ⟨_, _, rfl⟩)))

theorem CMgr.managerOf_eq {s : CMgr} {r : Nat} {q : CReq} (h : s.reqs r = some q) : s.managerOf r = q.manager := by
  unfold managerOf; rw [h]; rfl

theorem Spec.OneAtATime.prefix {v : Version} {g k : Nat} {h : List CEvent} {e : CEvent}
    (ho : Spec.OneAtATime v g k (h ++ [e])) : Spec.OneAtATime v g k h :=
  fun h1 h2 he => ho h1 (h2 ++ [e]) (by rw [he]; simp)

/-- If threads wait one at a time, the thread about to look at the heap finds it not empty. -/
theorem CSys.body_heap {v : Version} {g : Nat} {h : List CEvent} {t r k : Nat} (ho : Spec.OneAtATime v g k h)
    (ht : (CSys.after v g h).threads t = .body r) (hk : (CSys.after v g h).mgr.managerOf r = k) :
    (CSys.after v g h).mgr.heaps k ≠ [] := by
  induction h using List.reverseRecOn with
  | nil => cases ht
  | append_singleton h e ih =>
    have ih := ih ho.prefix
    have back : ∀ p, (CSys.after v g h).threads t = p → p.InsideOn r → (CSys.after v g h).mgr.managerOf r = k := by
      intro p hp hin
      obtain ⟨q, hq⟩ := CSys.inside_known v g h t r (by rw [hp]; exact hin)
      rw [CSys.after_snoc, CSys.step_manager e hq] at hk
      exact hk
    rw [CSys.after_snoc] at ht ⊢
    intro hnil
    rcases CSys.step_threads v (CSys.after v g h) e t with hs | ⟨r', -, -, hs⟩ | ⟨now, draws, chan, he, hs⟩
    · rw [hs] at ht
      have hk0 := back _ ht (.inr (.inr (.inl rfl)))
      obtain ⟨t', now, draws, chan, r', he, hin, hk'⟩ := CSys.heap_ne_nil (ih ht hk0) hnil
      obtain ⟨q, hq⟩ := CSys.inside_known v g h t r (.inr (.inr (.inl ht)))
      obtain ⟨q', hq'⟩ := CSys.inside_known v g h t' r' (.inr (.inr (.inl hin)))
      have : t = t' := ho h [e] rfl t t' r r' q q' (.inr (.inr (.inl ht))) hq (by rw [← CMgr.managerOf_eq hq]; exact hk0)
        (.inr (.inr (.inl hin))) hq' (by rw [← CMgr.managerOf_eq hq']; exact hk')
      subst this
      subst he
      have hb := (CSys.advance_threads v (CSys.after v g h) t now draws chan).2
      have hadv : ((CSys.after v g h).advance v t now draws chan).threads t = .body r := by
        have := hs; rw [ht] at this; exact this
      rw [hadv, ht] at hb
      simp only [Moves] at hb
      rcases hb with ⟨x, -, hb⟩ | hb | ⟨d, -, hb⟩ <;> cases hb
    · rw [hs] at ht; cases ht
    · rw [hs] at ht
      have hb := (CSys.advance_threads v (CSys.after v g h) t now draws chan).2
      rw [ht] at hb
      cases hp : (CSys.after v g h).threads t with
      | idle => rw [hp] at hb; cases hb
      | done r o => rw [hp] at hb; cases hb
      | test r0 =>
        rw [hp] at hb
        simp only [Moves] at hb
        rcases hb with ⟨-, hb⟩ | ⟨q, -, ⟨-, hb | hb⟩ | ⟨-, hb⟩⟩ <;> cases hb
      | loop r0 =>
        rw [hp] at hb
        simp only [Moves] at hb
        rcases hb with ⟨-, hb⟩ | ⟨hh, hb⟩
        · cases hb
        · injection hb with hb; subst hb
          have hst : ((CSys.after v g h).step v e).mgr = (CSys.after v g h).mgr := by
            rw [he]
            show ((CSys.after v g h).advance v t now draws chan).mgr = _
            unfold CSys.advance
            rw [hp]
            simp only
            split <;> rfl
          rw [hst] at hnil
          rw [back _ hp (.inr (.inl rfl))] at hh
          exact hh hnil
      | body r0 =>
        rw [hp] at hb
        simp only [Moves] at hb
        rcases hb with ⟨x, -, hb⟩ | hb | ⟨d, -, hb⟩ <;> cases hb
      | sleep r0 a b =>
        rw [hp] at hb
        simp only [Moves] at hb
        rcases hb with ⟨-, hb⟩ | ⟨q, -, ⟨-, hb⟩ | ⟨-, hb⟩ | ⟨-, -, hb⟩ | ⟨m, -, -, ⟨-, hb⟩ | ⟨-, hb⟩⟩⟩ <;> cases hb

/-- **C64** (v1/v2c), the part that holds: an exception other than `Timeout` and `ErrorResponse` that ends `wait`
on the request `r` is IndexError, and then some time two threads were inside `wait` on requests of the same
manager; or AssertionError, and then the request was no longer pending; or ZeroDivisionError, and then some request
of the same manager has the refresh period zero; or it was raised by the channel in this very step; or some request
of the same manager exists that could not be sent at all when `sendRequest` was called. -/
theorem C64_partial (v : Version) (g : Nat) (h : List CEvent) (e : CEvent) (t r : Nat) (x : PyErr)
    (h0 : (CSys.after v g h).threads t ≠ .done r (.raised x))
    (h1 : (CSys.after v g (h ++ [e])).threads t = .done r (.raised x)) :
    (x = .assertionError ∧ ¬ Spec.Pending v g h r) ∨ (∃ now draws, e = .step t now draws (some x)) ∨
    ∃ q0, (CSys.after v g h).mgr.reqs r = some q0 ∧
      ((x = .indexError ∧ ¬ Spec.OneAtATime v g q0.manager h) ∨
        (x = .zeroDivisionError ∧ ∃ r' q, (CSys.after v g h).mgr.reqs r' = some q ∧ q.manager = q0.manager ∧
          q.period = 0) ∨
        ∃ r' q, (CSys.after v g h).mgr.reqs r' = some q ∧ q.manager = q0.manager ∧
          ∀ w, (r', w) ∉ (CSys.after v g h).mgr.sent) := by
  have hi := CSys.Inv.after v g h
  have hb := CSys.CbInv.after v g h
  rw [CSys.after_snoc] at h1
  have nopend : ∀ q, (CSys.after v g h).mgr.reqs r = some q → q.callback = false → ¬ Spec.Pending v g h r := by
    intro q hq hc hp
    obtain ⟨q', hq', hc', -⟩ := hp.callback
    rw [hq] at hq'; injection hq' with hq'; subst hq'
    rw [hc] at hc'; cases hc'
  have fin : ∀ (q : CReq) p r0, (CSys.after v g h).mgr.reqs r0 = some q →
      ((CSys.after v g h).finish t r0 q p).threads t = .done r (.raised x) →
      x = .assertionError ∧ ¬ Spec.Pending v g h r := by
    intro q p r0 hq hs
    obtain ⟨-, -, ⟨hc, h3⟩ | ⟨hc, h3⟩⟩ := CSys.finish_cases (CSys.after v g h) t r0 q p
    · rw [h3, setAt_same] at hs; injection hs with a b; injection b with b; subst a
      exact ⟨b.symm, nopend q hq hc⟩
    · rw [h3, setAt_same] at hs; injection hs with a b
      split at b
      · cases b
      · split at b <;> cases b
  rcases CSys.step_threads v (CSys.after v g h) e t with hs | ⟨r', -, -, hs⟩ | ⟨now, draws, chan, he, hs⟩
  · rw [hs] at h1; exact absurd h1 h0
  · rw [hs] at h1; cases h1
  · rw [hs] at h1
    unfold CSys.advance at h1
    split at h1
    · exact absurd h1 h0
    · exact absurd h1 h0
    · split at h1
      · exact absurd h1 h0
      · rename_i q hq
        split at h1
        · exact .inl (fin q _ _ hq h1)
        · simp only [setAt_same] at h1; cases h1
    · split at h1 <;> (simp only [setAt_same] at h1; cases h1)
    · rename_i r0 ht
      split at h1
      · rename_i x0 m' hbody
        simp only [setAt_same] at h1
        injection h1 with a b; injection b with b; subst a; subst b
        have hbody := congrArg Prod.fst hbody
        obtain ⟨q0, hq0⟩ := CSys.inside_known v g h t r0 (.inr (.inr (.inl ht)))
        simp only at hbody
        unfold CMgr.refreshBody at hbody
        split at hbody
        · rename_i hnil
          injection hbody with hbody
          exact .inr (.inr ⟨q0, hq0, .inl ⟨hbody.symm, fun ho => CSys.body_heap ho ht (CMgr.managerOf_eq hq0)
            (by rw [CMgr.managerOf_eq hq0] at hnil; exact hnil)⟩⟩)
        · rename_i ref rest hh
          split at hbody
          · cases hbody
          · rename_i q hd
            obtain ⟨hq, hdd⟩ := CMgr.deref_some hd
            have hman : q.manager = q0.manager := by
              obtain ⟨q', hq', hk⟩ := CSys.owned v g h _ ref (by rw [hh]; exact List.mem_cons_self)
              rw [hq] at hq'; injection hq' with hq'; subst hq'
              rw [hk, CMgr.managerOf_eq hq0]
            have unsent : (q.pdu.requestID = 0 ∨ (Message.mk v q.community q.pdu).encode = .error x0) →
                ∃ r' q, (CSys.after v g h).mgr.reqs r' = some q ∧ q.manager = q0.manager ∧
                  ∀ w, (r', w) ∉ (CSys.after v g h).mgr.sent := by
              intro hf
              refine ⟨ref.id, q, hq, hman, fun w hw => ?_⟩
              obtain ⟨q', hq', hz, henc⟩ := hi.mgr.sent ref.id w hw
              rw [hq] at hq'; injection hq' with hq'; subst hq'
              rcases hf with hf | hf
              · exact hz hf
              · rw [henc] at hf; cases hf
            rcases CMgr.refreshRequest_cases v (CSys.after v g h).mgr ref.id q now draws chan with ⟨k, -⟩ |
              ⟨k, -, k1⟩ | ⟨k, -, -, -, k4⟩ | ⟨k1, k2, k3, k4, ⟨k0, k⟩ | ⟨e', k0, k⟩⟩
            · rw [k] at hbody; cases hbody
            · rw [k] at hbody; simp only at hbody; split at hbody <;> cases hbody
            · rw [k] at hbody
              injection hbody with hbody
              exact .inr (.inr ⟨q0, hq0, .inr (.inl ⟨hbody.symm, ref.id, q, hq, hman, k4⟩)⟩)
            · rw [k] at hbody; simp only [lt_self_iff_false, ↓reduceIte] at hbody; cases hbody
            · rw [k] at hbody
              injection hbody with hbody
              subst hbody
              right
              rcases CMgr.reallySend_full v (CSys.after v g h).mgr ref.id (CMgr.resent q now) draws chan
                (fun hc => by have := hi.mgr.callbackID hb hq hc; exact this) with ⟨hz, -⟩ |
                ⟨id, cb, c, hk, ⟨e2, he2, hz⟩ | ⟨w, -, -, hz⟩⟩
              · exact .inr ⟨q0, hq0, .inr (.inr (unsent (.inl hz)))⟩
              · rw [hz] at k0
                injection k0 with k0; subst k0
                rcases he2 with he2 | he2
                · rcases hk with ⟨k, -⟩ | ⟨-, k, -⟩
                  · exact .inr ⟨q0, hq0, .inr (.inr (unsent (.inl k)))⟩
                  · rw [k] at he2; exact .inr ⟨q0, hq0, .inr (.inr (unsent (.inr he2)))⟩
                · exact .inl ⟨now, draws, by rw [he, he2]⟩
              · rw [hz] at k0; cases k0
      · simp only [setAt_same] at h1; cases h1
      · simp only [setAt_same] at h1; cases h1
    · split at h1
      · exact absurd h1 h0
      · rename_i q hq
        split at h1
        · rename_i hev
          split at h1
          · rename_i hn
            have := hi.mgr.event _ q hq
            rw [hev, hn] at this; cases this
          · exact .inl (fin q _ _ hq h1)
        · split at h1
          · exact absurd h1 h0
          · split at h1
            · simp only [setAt_same] at h1; cases h1
            · exact absurd h1 h0

/-- Two threads wait on handles of two managers that share the message processor, and one of the managers fails to
send: the other thread goes on. -/
theorem C64_managers (v : Version) (hv : v = .v1 ∨ v = .v2c) :
    let h := [Spec.issue 0 10 1, .send 1 1 Spec.emptyGet [] 10 1 0 0 (fun _ => 2) none, .wait 0 0, .wait 1 1,
      Spec.tick 0 0, Spec.tick 1 0, Spec.tick 0 0, Spec.tick 1 0, .step 0 2 (fun _ => 1) (some .osError),
      Spec.tick 1 0]
    (CSys.after v 1 h).threads 0 = .done 0 (.raised .osError) ∧
    (CSys.after v 1 h).threads 1 = .sleep 1 (some 1) 0 ∧
    ((CSys.after v 1 h).mgr.heaps 0).map Ref.id = [0] ∧ ((CSys.after v 1 h).mgr.heaps 1).map Ref.id = [1] := by
  rcases hv with rfl | rfl <;> decide +kernel

/-- Non-vacuity of C64, one case for each explanation: two threads; a request waited on twice; a refresh period of
zero; a failing channel. -/
theorem C64_example (v : Version) (hv : v = .v1 ∨ v = .v2c) :
    (CSys.after v 1 [Spec.issue 0 1 1, .wait 0 0, .wait 1 0, Spec.tick 0 0, Spec.tick 0 0, Spec.tick 1 0,
      Spec.tick 1 0, Spec.tick 0 2, Spec.tick 1 2]).threads 1 = .done 0 (.raised .indexError) ∧
    (CSys.after v 1 [Spec.issue 0 1 1, .wait 0 0, Spec.tick 0 2, .wait 1 0, Spec.tick 1 2]).threads 1 =
      .done 0 (.raised .assertionError) ∧
    (CSys.after v 1 [Spec.issue 0 1 0, .wait 0 0, Spec.tick 0 0, Spec.tick 0 0, Spec.tick 0 0]).threads 0 =
      .done 0 (.raised .zeroDivisionError) ∧
    (CSys.after v 1 [Spec.issue 0 3 1, .wait 0 0, Spec.tick 0 0, Spec.tick 0 0,
      .step 0 2 (fun _ => 1) (some .osError)]).threads 0 = .done 0 (.raised .osError) := by
  rcases hv with rfl | rfl <;> decide +kernel

end Snmp
