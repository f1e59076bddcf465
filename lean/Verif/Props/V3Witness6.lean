import Verif.Props.V3Serial
import Verif.Props.V3Witness5
/-!
# C88: an example, and why it is false in general
-/

namespace Snmp

open VSys Spec Demo

variable {cfg : VCfg} {m0 : VMgr}

/-- One request, then only one thread: this is serial use. -/
theorem serial_one (hc : Created cfg m0) (e0 : VEvent) (h : List VEvent)
    (h1 : ∀ pdu user level timeout period t0 r0 i, .send pdu user level timeout period t0 r0 i ∉ h)
    (h2 : ∀ t i, .step t i ∈ h → t = 0) (h3 : ∀ t r, .wait t r ∈ e0 :: h → t = 0) : Serial cfg m0 (e0 :: h) := by
  have idle : ∀ a, (∀ t r, .wait t r ∈ a → t = 0) → ∀ t, t ≠ 0 → (after cfg m0 a).threads t = .idle := by
    intro a
    induction a using List.reverseRecOn with
    | nil => intro _ t _; rfl
    | append_singleton a e ih =>
      intro hw t ht
      have := ih (fun t r hm => hw t r (by simp [hm])) t ht
      rcases step_goes hc a e t with hg | ⟨r', he, hg⟩ | ⟨i', f, he, hg, -⟩
      · rw [hg]; exact this
      · exact absurd (hw t r' (by simp [he])) ht
      · rw [after_snoc, he]
        show ((after cfg m0 a).advance cfg t i').threads t = _
        unfold VSys.advance
        rw [this]
        simp only
        exact this
  intro a e b hab t ht
  have hw : ∀ t r, .wait t r ∈ a → t = 0 := fun t r hm => h3 t r (by rw [hab]; simp [hm])
  have ht0 : t = 0 := by
    by_contra hne
    exact ht.1 (idle a hw t hne)
  subst ht0
  rcases split_cons hab with ⟨ha, -, -⟩ | ⟨a', -, hab'⟩
  · rw [ha] at ht; exact absurd rfl ht.1
  · refine ⟨fun pdu user level timeout period t0 r0 i he => ?_, fun t' i he => ?_⟩
    · exact h1 pdu user level timeout period t0 r0 i (by rw [hab', he]; simp)
    · exact h2 t' i (by rw [hab', he]; simp)

theorem of_interest {h : List VEvent} {r : Nat} {exp : ℚ}
    (h1 : ((after cfg m0 h).mgr.deref r).map (fun q => (q.event, q.expiration)) = some (false, exp))
    (h2 : h.all (fun e => match e with | .step _ i => decide (i.now < exp) | _ => true) = true)
    (h3 : (after cfg m0 h).mgr.fails.all (fun f => match f with | .report _ => true | .refresh _ => true | _ => false) = true) :
    ∃ q, OfInterest cfg m0 h r q ∧ (after cfg m0 h).mgr.reqs r = some q := by
  cases hq : (after cfg m0 h).mgr.deref r with
  | none => rw [hq] at h1; cases h1
  | some q =>
    rw [hq] at h1
    simp only [Option.map_some, Option.some.injEq, Prod.mk.injEq] at h1
    rw [List.all_eq_true] at h2 h3
    refine ⟨q, ⟨hq, h1.1, ?_, ?_, ?_⟩, (VMgr.deref_some hq).2⟩
    · rintro ⟨t, i, hm, hle⟩
      have := h2 _ hm
      simp only [decide_eq_true_eq] at this
      rw [h1.2] at hle
      exact absurd hle (not_le.2 this)
    · rintro (hm | hm | hm) <;> exact absurd (h3 _ hm) (by simp)
    · intro r' _ hm
      exact absurd (h3 _ hm) (by simp)

/-- Non-vacuity of C88: an authenticated request to a known engine, a thread in `wait()`; the response. -/
theorem C88_example :
    let h := [Demo.issue 0 10 1 authNoPriv, .wait 0 0, at_ 0 0, at_ 0 0, arrives 0 authNoPriv 1 [1] [97] aResponse]
    ∃ k msg q, Undisturbed demoCfg (demo (some [1])) h ∧
      (after demoCfg (demo (some [1])) h).listener = .push k (received authNoPriv 1 [1] [97] aResponse) ∧
      (after demoCfg (demo (some [1])) h).mgr.msgs k = some msg ∧ OfInterest demoCfg (demo (some [1])) h msg.request q ∧
      (after demoCfg (demo (some [1])) h).mgr.engineID = some [1] ∧
      (after demoCfg (demo (some [1])) h).mgr.locked = false := by
  intro h
  have hc := demo_created (some [1]) (.inr rfl)
  have e1 : (after demoCfg (demo (some [1])) h).listener = .push 0 (received authNoPriv 1 [1] [97] aResponse) ∧
      ((after demoCfg (demo (some [1])) h).mgr.msgs 0).map VMsg.request = some 0 ∧
      ((after demoCfg (demo (some [1])) h).mgr.deref 0).map (fun q => (q.event, q.expiration)) = some (false, 10) ∧
      (after demoCfg (demo (some [1])) h).mgr.fails.length = 0 ∧
      (after demoCfg (demo (some [1])) h).mgr.engineID = some [1] ∧
      (after demoCfg (demo (some [1])) h).mgr.locked = false := by decide +kernel
  obtain ⟨k1, k2, k3, k4, k5, k6⟩ := e1
  rw [List.length_eq_zero_iff] at k4
  cases hm : (after demoCfg (demo (some [1])) h).mgr.msgs 0 with
  | none => rw [hm] at k2; cases k2
  | some msg =>
    rw [hm] at k2
    simp only [Option.map_some, Option.some.injEq] at k2
    obtain ⟨q, hq, -⟩ := of_interest (h := h) (r := 0) k3 (by decide +kernel) (by rw [k4]; rfl)
    refine ⟨0, msg, q, .inl ?_, k1, hm, by rw [k2]; exact hq, k5, k6⟩
    exact serial_one hc _ _ (by simp [at_, arrives]) (by simp [at_, arrives])
      (by simp [at_, arrives, Demo.issue])

theorem not_completed {h : List VEvent} {r : Nat} {e : VEvent}
    (h1 : ((after cfg m0 (h ++ [e])).mgr.reqs r).map VReq.event = some false) :
    ∃ q, (after cfg m0 (h ++ [e])).mgr.reqs r = some q ∧ q.event = false := by
  cases hq : (after cfg m0 (h ++ [e])).mgr.reqs r with
  | none => rw [hq] at h1; cases h1
  | some q => rw [hq] at h1; exact ⟨q, rfl, by simpa using h1⟩

/-- C88 is false of the code. Two threads are in `wait()` on an expired request and find that nothing is left to resend;
the first resets the state of the manager; a new request is issued and transmitted; then the second thread resets the
state again. The response to the new request, which is in every way acceptable and of interest, is then refused with
SNMPLibraryBug: the request stays incomplete. -/
theorem C88_false :
    let h := [Demo.issue 0 1 1 authNoPriv, .wait 0 0, .wait 1 0, at_ 0 0, at_ 1 0, at_ 0 1, at_ 0 1, at_ 1 1, at_ 0 1,
      at_ 0 1, Demo.issue 1 10 1 authNoPriv, at_ 1 1, at_ 1 1, arrives 1 authNoPriv 2 [1] [97] aResponse]
    ∃ k msg q q', (after demoCfg (demo (some [1])) h).listener = .push k (received authNoPriv 2 [1] [97] aResponse) ∧
      (after demoCfg (demo (some [1])) h).mgr.msgs k = some msg ∧ OfInterest demoCfg (demo (some [1])) h msg.request q ∧
      (after demoCfg (demo (some [1])) h).mgr.engineID = some [1] ∧
      (after demoCfg (demo (some [1])) h).mgr.locked = false ∧
      (after demoCfg (demo (some [1])) h).mgr.fails = [] ∧
      ((after demoCfg (demo (some [1])) h).mgr.processResponse demoCfg (received authNoPriv 2 [1] [97] aResponse)
        (input 1).seed).1 = .error .libraryBug ∧
      (after demoCfg (demo (some [1])) (h ++ [deliver 1])).mgr.reqs msg.request = some q' ∧ q'.event = false := by
  intro h
  have e1 : (after demoCfg (demo (some [1])) h).listener = .push 1 (received authNoPriv 2 [1] [97] aResponse) ∧
      ((after demoCfg (demo (some [1])) h).mgr.msgs 1).map VMsg.request = some 1 ∧
      ((after demoCfg (demo (some [1])) h).mgr.deref 1).map (fun q => (q.event, q.expiration)) = some (false, 11) ∧
      (after demoCfg (demo (some [1])) h).mgr.fails.length = 0 ∧
      (after demoCfg (demo (some [1])) h).mgr.engineID = some [1] ∧
      (after demoCfg (demo (some [1])) h).mgr.locked = false ∧
      (after demoCfg (demo (some [1])) h).mgr.state = .unsynchronized ∧
      ((after demoCfg (demo (some [1])) (h ++ [deliver 1])).mgr.reqs 1).map VReq.event = some false := by decide +kernel
  obtain ⟨k1, k2, k3, k4, k5, k6, k7, k8⟩ := e1
  rw [List.length_eq_zero_iff] at k4
  obtain ⟨q', hq', he'⟩ := not_completed k8
  cases hm : (after demoCfg (demo (some [1])) h).mgr.msgs 1 with
  | none => rw [hm] at k2; cases k2
  | some msg =>
    rw [hm] at k2
    simp only [Option.map_some, Option.some.injEq] at k2
    obtain ⟨q, hq, -⟩ := of_interest (h := h) (r := 1) k3 (by decide +kernel) (by rw [k4]; rfl)
    refine ⟨1, msg, q, q', k1, hm, by rw [k2]; exact hq, k5, k6, k4, ?_, by rw [k2]; exact hq', he'⟩
    unfold VMgr.processResponse
    rw [k7]
    rfl

/-- C88 is false of the code even for serial use, if sending fails once during discovery. The engine is discovered by a report;
the transmission that follows fails; the retransmission succeeds; but its response is refused with DiscoveryError, as
the manager still waits for a report. -/
theorem C88_false_discovery :
    let h := [Demo.issue 0 10 1, .wait 0 0, at_ 0 0, at_ 0 0,
      arrives 0 noAuthNoPriv 1 [1] [] (aReport usmStatsUnknownEngineIDs), deliver 0 (some .osError), at_ 0 1, at_ 0 1,
      at_ 0 1, arrives 1 noAuthNoPriv 3 [1] [97] aResponse]
    ∃ k msg q q', Serial demoCfg (demo none) h ∧
      (after demoCfg (demo none) h).listener = .push k (received noAuthNoPriv 3 [1] [97] aResponse) ∧
      (after demoCfg (demo none) h).mgr.msgs k = some msg ∧ OfInterest demoCfg (demo none) h msg.request q ∧
      q.engineID = some [1] ∧ (after demoCfg (demo none) h).mgr.locked = false ∧
      ((after demoCfg (demo none) h).mgr.processResponse demoCfg (received noAuthNoPriv 3 [1] [97] aResponse)
        (input 1).seed).1 = .error .discoveryError ∧
      (after demoCfg (demo none) (h ++ [deliver 1])).mgr.reqs msg.request = some q' ∧ q'.event = false := by
  intro h
  have hc := demo_created none (.inl rfl)
  have e1 : (after demoCfg (demo none) h).listener = .push 2 (received noAuthNoPriv 3 [1] [97] aResponse) ∧
      ((after demoCfg (demo none) h).mgr.msgs 2).map VMsg.request = some 0 ∧
      ((after demoCfg (demo none) h).mgr.deref 0).map (fun q => (q.event, q.expiration)) = some (false, 10) ∧
      (after demoCfg (demo none) h).mgr.fails.all
        (fun f => match f with | .report _ => true | .refresh _ => true | _ => false) = true ∧
      ((after demoCfg (demo none) h).mgr.reqs 0).map VReq.engineID = some (some [1]) ∧
      (after demoCfg (demo none) h).mgr.locked = false ∧
      (after demoCfg (demo none) h).mgr.state = .waitForDiscovery ∧
      ((after demoCfg (demo none) (h ++ [deliver 1])).mgr.reqs 0).map VReq.event = some false := by decide +kernel
  obtain ⟨k1, k2, k3, k4, k5, k6, k7, k8⟩ := e1
  obtain ⟨q', hq', he'⟩ := not_completed k8
  cases hm : (after demoCfg (demo none) h).mgr.msgs 2 with
  | none => rw [hm] at k2; cases k2
  | some msg =>
    rw [hm] at k2
    simp only [Option.map_some, Option.some.injEq] at k2
    obtain ⟨q, hq, hr⟩ := of_interest (h := h) (r := 0) k3 (by decide +kernel) k4
    rw [hr] at k5
    refine ⟨2, msg, q, q', ?_, k1, hm, by rw [k2]; exact hq, by simpa using k5, k6, ?_, by rw [k2]; exact hq', he'⟩
    · exact serial_one hc _ _ (by simp [at_, arrives, deliver]) (by simp [at_, arrives, deliver]; tauto)
        (by simp [at_, arrives, deliver, Demo.issue])
    · unfold VMgr.processResponse
      rw [k7]
      rfl

end Snmp
