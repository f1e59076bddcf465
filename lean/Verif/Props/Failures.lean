import Verif.Props.CommunityThreads
import Verif.Props.Reserved
import Verif.Props.V3Witness
/-!
# C115: whose transmission failed when `wait()` raises

`wait()` on one request does the resending for every request of the manager, and an exception from the channel
propagates out of it: so `wait()` on one request is ended by the failure to resend another. What holds is that
the failed transmission is one of a request of the same manager that is alive, unanswered and not over, and whose
resending was due; if there is no other such request, it is the request's own.
-/

namespace Snmp

/-- At time `now` the request `r` of manager `k` may have to be sent again: it has not been dropped, no response has
arrived and its timeout has not passed. -/
def Spec.OpenC (s : CSys) (k r : Nat) (now : ℚ) : Prop :=
  ∃ q, s.mgr.deref r = some q ∧ q.manager = k ∧ q.event = false ∧ now < q.expiration

/-- The channel's failure is what the outcome of `reallySend` depends on only if the datagram was ready. -/
theorem CMgr.reallySend_chan (v : Version) (s : CMgr) (r : Nat) (q : CReq) (draws : Nat → Nat) (x : PyErr)
    (hd : (s.reallySend v r q draws none).1 ≠ .error x) (hx : (s.reallySend v r q draws (some x)).1 = .error x) :
    ∃ w, (s.reallySend v r q draws none).1 = .ok () ∧
      (s.reallySend v r q draws none).2.sent = (r, w) :: s.sent := by
  unfold CMgr.reallySend at *
  generalize prepareOutgoingCommunity v s.cache q.pdu r q.community draws = p at *
  obtain ⟨msg, pdu, cache, registered⟩ := p
  simp only at *
  cases registered with
  | some i =>
    cases hc : q.callback with
    | true => simp only [hc] at hd hx ⊢; exact absurd hx hd
    | false =>
      simp only [hc] at hd hx ⊢
      cases msg with
      | error e => simp only at hd hx; exact absurd hx hd
      | ok w => exact ⟨w, rfl, rfl⟩
  | none =>
    simp only at hd hx ⊢
    cases msg with
    | error e => simp only at hd hx; exact absurd hx hd
    | ok w => exact ⟨w, rfl, rfl⟩

/-- **C115** (v1/v2c), the part that holds: if `wait` on the request `r` raises an exception only because the channel
raised it (with a channel that does not fail, the step does not end `wait` in this way), then a request of the
same manager, neither dropped nor answered nor over, was being resent, as its time had come; without the failure, its
datagram would have been the one sent. -/
theorem C115_community_partial (v : Version) (g : Nat) (h : List CEvent) (t r : Nat) (now : ℚ) (draws : Nat → Nat) (x : PyErr)
    (h0 : (CSys.after v g (h ++ [.step t now draws none])).threads t ≠ .done r (.raised x))
    (h1 : (CSys.after v g (h ++ [.step t now draws (some x)])).threads t = .done r (.raised x)) :
    ∃ q r' q' w, (CSys.after v g h).mgr.reqs r = some q ∧ Spec.OpenC (CSys.after v g h) q.manager r' now ∧
      (CSys.after v g h).mgr.reqs r' = some q' ∧ q'.nextRefresh ≤ now ∧
      (CSys.after v g (h ++ [.step t now draws none])).mgr.sent = (r', w) :: (CSys.after v g h).mgr.sent := by
  rw [CSys.after_snoc] at h0 h1
  rw [CSys.after_snoc]
  simp only [CSys.step] at h0 h1 ⊢
  unfold CSys.advance at *
  cases ht : (CSys.after v g h).threads t with
  | idle => rw [ht] at h0 h1; simp only at h0 h1; exact absurd h1 h0
  | done a b => rw [ht] at h0 h1; simp only at h0 h1; exact absurd h1 h0
  | test a => rw [ht] at h0 h1; simp only at h0 h1; exact absurd h1 h0
  | loop a => rw [ht] at h0 h1; simp only at h0 h1; exact absurd h1 h0
  | sleep a b c => rw [ht] at h0 h1; simp only at h0 h1; exact absurd h1 h0
  | body r0 =>
    rw [ht] at h0 h1
    simp only at h0 h1 ⊢
    obtain ⟨q0, hq0⟩ := CSys.inside_known v g h t r0 (.inr (.inr (.inl ht)))
    have hm := CMgr.managerOf_eq hq0
    generalize hA : (CSys.after v g h).mgr.refreshBody v ((CSys.after v g h).mgr.managerOf r0) now draws none = A at *
    generalize hB : (CSys.after v g h).mgr.refreshBody v ((CSys.after v g h).mgr.managerOf r0) now draws (some x) = B at *
    have eB : B.1 = .error x ∧ r0 = r := by
      obtain ⟨b1, b2⟩ := B
      cases b1 with
      | error e =>
        simp only [setAt_same] at h1
        injection h1 with a b; injection b with b
        exact ⟨by rw [b], a⟩
      | ok u => cases u <;> (simp only [setAt_same] at h1; cases h1)
    obtain ⟨eB, rfl⟩ := eB
    have eA : A.1 ≠ .error x := by
      intro hh
      obtain ⟨a1, a2⟩ := A
      simp only at hh
      subst hh
      exact h0 (by simp only [setAt_same])
    have key : ∃ r' q' w, Spec.OpenC (CSys.after v g h) q0.manager r' now ∧
        (CSys.after v g h).mgr.reqs r' = some q' ∧ q'.nextRefresh ≤ now ∧
        A.2.sent = (r', w) :: (CSys.after v g h).mgr.sent := by
      clear h0 h1
      unfold CMgr.refreshBody at hA hB
      rw [hm] at hA hB
      cases hh : (CSys.after v g h).mgr.heaps q0.manager with
      | nil => rw [hh] at hA hB; simp only at hA hB; rw [← hA] at eA; rw [← hB] at eB; exact absurd eB eA
      | cons ref rest =>
        rw [hh] at hA hB
        simp only at hA hB
        cases hd : (CSys.after v g h).mgr.deref ref.id with
        | none => rw [hd] at hA hB; simp only at hA hB; rw [← hA] at eA; rw [← hB] at eB; exact absurd eB eA
        | some q =>
          rw [hd] at hA hB
          simp only at hA hB
          obtain ⟨hq, -⟩ := CMgr.deref_some hd
          have hman : q.manager = q0.manager := by
            obtain ⟨q', hq', hk⟩ := CSys.owned v g h _ ref (by rw [hh]; exact List.mem_cons_self)
            rw [hq] at hq'; injection hq' with hq'; subst hq'
            exact hk
          rcases CMgr.refreshRequest_cases v (CSys.after v g h).mgr ref.id q now draws (some x) with ⟨k, -⟩ |
            ⟨k, -, k1⟩ | ⟨k, j1, j2, j3, j4⟩ | ⟨k1, k2, k3, k4, ⟨k0, k⟩ | ⟨e', k0, k⟩⟩
          · rw [k] at hB; rw [← hB] at eB; cases eB
          · rw [k] at hB; rw [← hB] at eB; simp only at eB; split at eB <;> cases eB
          · rcases CMgr.refreshRequest_cases v (CSys.after v g h).mgr ref.id q now draws none with ⟨l, l1⟩ |
              ⟨l, -, l1⟩ | ⟨l, -⟩ | ⟨-, -, -, l4, -⟩
            · rcases l1 with l1 | ⟨-, l1⟩
              · rw [j1] at l1; cases l1
              · exact absurd j3 (not_lt.2 l1)
            · exact absurd l1 (not_lt.2 j2)
            · rw [k] at hB; rw [l] at hA
              rw [← hA] at eA; rw [← hB] at eB; exact absurd eB eA
            · exact absurd j4 l4
          · rw [k] at hB; rw [← hB] at eB; simp only [lt_self_iff_false, ↓reduceIte] at eB; cases eB
          · rw [k] at hB; rw [← hB] at eB; simp only at eB; injection eB with eB; subst eB
            refine ⟨ref.id, q, ?_⟩
            rcases CMgr.refreshRequest_cases v (CSys.after v g h).mgr ref.id q now draws none with ⟨l, l1⟩ |
              ⟨l, -, l1⟩ | ⟨l, -, -, -, l4⟩ | ⟨-, -, -, -, ⟨l0, l⟩ | ⟨e2, l0, l⟩⟩
            · rcases l1 with l1 | ⟨-, l1⟩
              · rw [k1] at l1; cases l1
              · exact absurd k3 (not_lt.2 l1)
            · exact absurd l1 (not_lt.2 k2)
            · exact absurd l4 k4
            · obtain ⟨w, -, hw⟩ := CMgr.reallySend_chan v _ _ _ draws e' (by rw [l0]; simp) k0
              refine ⟨w, ⟨q, hd, hman, k1, k3⟩, hq, k2, ?_⟩
              rw [l] at hA
              simp only [lt_self_iff_false, ↓reduceIte] at hA
              rw [← hA]
              exact hw
            · rw [l] at hA
              rw [← hA] at eA
              simp only at eA
              obtain ⟨w, hw, -⟩ := CMgr.reallySend_chan v _ _ _ draws e' (by rw [l0]; intro hh; injection hh with hh; exact eA (by rw [hh])) k0
              rw [l0] at hw; cases hw
    obtain ⟨r', q', w, a1, a2, a3, a4⟩ := key
    refine ⟨q0, r', q', w, hq0, a1, a2, a3, ?_⟩
    obtain ⟨b1, b2⟩ := A
    cases b1 with
    | error e => exact a4
    | ok u => cases u <;> exact a4

/-- **C115** (v1/v2c): if no other request of the manager is alive, unanswered and not over, then `wait` on the
request raises the channel's exception only for a transmission of that request. -/
theorem C115_community_alone (v : Version) (g : Nat) (h : List CEvent) (t r : Nat) (now : ℚ) (draws : Nat → Nat)
    (x : PyErr) (q : CReq) (hq : (CSys.after v g h).mgr.reqs r = some q)
    (hn : ∀ r', r' ≠ r → ¬ Spec.OpenC (CSys.after v g h) q.manager r' now)
    (h0 : (CSys.after v g (h ++ [.step t now draws none])).threads t ≠ .done r (.raised x))
    (h1 : (CSys.after v g (h ++ [.step t now draws (some x)])).threads t = .done r (.raised x)) :
    ∃ w, (CSys.after v g (h ++ [.step t now draws none])).mgr.sent = (r, w) :: (CSys.after v g h).mgr.sent := by
  obtain ⟨q0, r', q', w, a0, a1, -, -, a4⟩ := C115_community_partial v g h t r now draws x h0 h1
  rw [hq] at a0; injection a0 with a0; subst a0
  by_cases hr : r' = r
  · subst hr; exact ⟨w, a4⟩
  · exact absurd a1 (hn r' hr)

/-- A request with the timeout `timeout`, resent every `period`, sent at time 0. -/
def Spec.sendAt (r : Nat) (timeout period : ℚ) : CEvent :=
  .send 0 r ⟨.getRequest, 0, 0, 0, []⟩ [] timeout period 0 0 (fun n => if n = 0 then r + 1 else n + 7) none

/-- Two requests of one manager; the first is to be resent every second, the second is not due for a long time.
Thread 0 waits on the second. -/
def Spec.twoRequests : List CEvent :=
  [Spec.sendAt 0 10 1, Spec.sendAt 1 10 5, .wait 0 1, Spec.stepC 2, Spec.stepC 2]

/-- **C115** is false of the code (v1/v2c): the failure to resend request 0 ends `wait` on request 1. -/
theorem C115_community_false :
    (CSys.after .v1 1 (Spec.twoRequests ++ [.step 0 2 (fun _ => 1) (some .osError)])).threads 0 =
      .done 1 (.raised .osError) ∧
    (CSys.after .v1 1 (Spec.twoRequests ++ [.step 0 2 (fun _ => 1) none])).threads 0 = .loop 1 ∧
    ((CSys.after .v1 1 (Spec.twoRequests ++ [.step 0 2 (fun _ => 1) none])).mgr.sent.map Prod.fst) = [0, 1, 0] := by
  refine ⟨?_, ?_, ?_⟩
  all_goals decide +kernel

/-! ## v3 -/

section V3
open VSys Demo Spec

variable {cfg : VCfg} {m0 : VMgr}

/-- **C115** (v3), the part that holds: if `wait()` on the request `r` raises an exception that is not its own, then a
request of the same manager that is alive was being sent: it was being resent, neither answered nor over, as its time
had come, or it had been queued. -/
theorem C115_partial (hc : Spec.Created cfg m0) (h : List VEvent) (e : VEvent) (t r : Nat) (err : PyErr)
    (h0 : ¬ ∃ r' o', (after cfg m0 h).threads t = .done r' o')
    (h1 : (after cfg m0 (h ++ [e])).threads t = .done r (.raised err)) :
    ∃ i r' q', e = .step t i ∧ (after cfg m0 h).mgr.deref r' = some q' ∧
      (((after cfg m0 (h ++ [e])).mgr.fails = .refresh r' :: (after cfg m0 h).mgr.fails ∧ q'.event = false ∧
          q'.nextRefresh ≤ i.now ∧ i.now < q'.expiration) ∨
        (after cfg m0 (h ++ [e])).mgr.fails = .poke r' :: (after cfg m0 h).mgr.fails) := by
  obtain ⟨i, q, he, -, r', q', h3, ⟨h4, h5, -⟩ | ⟨h4, -⟩⟩ := C68_faithful hc h e t r _ h0 h1
  · exact ⟨i, r', q', he, h3, .inl ⟨h4, h5⟩⟩
  · exact ⟨i, r', q', he, h3, .inr h4⟩

/-- **C115** (v3): if all other requests of the manager have been dropped, then `wait()` on the request raises such an
exception only for a transmission of that request. -/
theorem C115_alone (hc : Spec.Created cfg m0) (h : List VEvent) (e : VEvent) (t r : Nat) (err : PyErr)
    (hn : ∀ r', r' ≠ r → (after cfg m0 h).mgr.deref r' = none)
    (h0 : ¬ ∃ r' o', (after cfg m0 h).threads t = .done r' o')
    (h1 : (after cfg m0 (h ++ [e])).threads t = .done r (.raised err)) :
    (after cfg m0 (h ++ [e])).mgr.fails = .refresh r :: (after cfg m0 h).mgr.fails ∨
      (after cfg m0 (h ++ [e])).mgr.fails = .poke r :: (after cfg m0 h).mgr.fails := by
  obtain ⟨i, r', q', -, h3, h4⟩ := C115_partial hc h e t r err h0 h1
  by_cases hr : r' = r
  · subst hr
    rcases h4 with ⟨h4, -⟩ | h4
    · exact .inl h4
    · exact .inr h4
  · rw [hn r' hr] at h3; cases h3

/-- **C115** is false of the code (v3): the failure to resend request 0 ends `wait()` on request 1. -/
theorem C115_false :
    let h := [Demo.issue 0 10 1, Demo.issue 0 10 5, .wait 1 1, at_ 1 2]
    (after demoCfg (demo (some [1])) (h ++ [at_ 1 2 (some .osError)])).threads 1 = .done 1 (.raised .osError) ∧
    (after demoCfg (demo (some [1])) (h ++ [at_ 1 2 (some .osError)])).mgr.fails = [.refresh 0] ∧
    (after demoCfg (demo (some [1])) (h ++ [at_ 1 2])).threads 1 = .body 1 := by
  decide +kernel

/-- Non-vacuity of `C115_alone` and `C115_community_alone`: with the other request dropped, the exception comes
from the request's own transmission. -/
theorem C115_example :
    let h := [Demo.issue 0 10 1, Demo.issue 0 10 5, .wait 1 1, .collect 0, at_ 1 6, at_ 1 6]
    let c := [Spec.sendAt 0 10 1, Spec.sendAt 1 10 5, .wait 0 1, .collect 0, Spec.stepC 6, Spec.stepC 6, Spec.stepC 6,
      Spec.stepC 6]
    (after demoCfg (demo (some [1])) h).mgr.deref 0 = none ∧
    (after demoCfg (demo (some [1])) (h ++ [at_ 1 6 (some .osError)])).threads 1 = .done 1 (.raised .osError) ∧
    (after demoCfg (demo (some [1])) (h ++ [at_ 1 6 (some .osError)])).mgr.fails = [.refresh 1] ∧
    (CSys.after .v1 1 (c ++ [.step 0 6 (fun _ => 1) (some .osError)])).threads 0 = .done 1 (.raised .osError) ∧
    ((CSys.after .v1 1 (c ++ [.step 0 6 (fun _ => 1) none])).mgr.sent.map Prod.fst) = [1, 1, 0] := by
  refine ⟨?_, ?_, ?_, ?_, ?_⟩
  all_goals decide +kernel

end V3

end Snmp
