import Verif.Props.V3Demo
import Verif.Props.V3Release
/-! # C80 and C81: what is false, and examples -/

namespace Snmp

open VSys Spec Demo

variable {cfg : VCfg} {m0 : VMgr}

theorem uninformed_of_no_listen (h : List VEvent) (hl : ∀ i, .listen i ∉ h) : Uninformed cfg m0 h := by
  rintro x ⟨h1, e, h2, rfl, i, m, rfl, -⟩
  exact absurd (by simp) (hl i)

/-! ## C80 -/

/-- Non-vacuity of `C80_hold_unknown`: one request was transmitted by a manager that knows no engine ID. The next one,
at any level, is held back. -/
theorem C80_example_unknown :
    let h := [Demo.issue 0 10 1 authNoPriv]
    let s := after demoCfg (demo none) h
    Created demoCfg (demo none) ∧ (demo none).engineID = none ∧ Uninformed demoCfg (demo none) h ∧
    Probing demoCfg (demo none) h ∧ s.mgr.locked = false ∧ s.dropped = false ∧
    Holds s (s.step demoCfg (Demo.issue 0 10 1 authNoPriv)) ∧ Holds s (s.step demoCfg (Demo.issue 0 10 1)) := by
  intro h s
  have hc := demo_created none (.inl rfl)
  have hu : Uninformed demoCfg (demo none) h := uninformed_of_no_listen h (by simp [h, Demo.issue])
  have e1 : (demo none).engineID = none ∧ s.mgr.sent ≠ (after demoCfg (demo none) []).mgr.sent ∧
      s.mgr.locked = false ∧ s.dropped = false := by decide +kernel
  have hp : Probing demoCfg (demo none) h :=
    ⟨[], _, [], rfl, .inl ⟨_, _, _, _, _, _, _, _, rfl⟩, e1.2.1, fun h3 e' h4 hx => by simp at hx⟩
  exact ⟨hc, e1.1, hu, hp, e1.2.2.1, e1.2.2.2,
    C80_hold_unknown hc e1.1 h hu hp e1.2.2.1 e1.2.2.2 _ _ _ _ _ _ _ _,
    C80_hold_unknown hc e1.1 h hu hp e1.2.2.1 e1.2.2.2 _ _ _ _ _ _ _ _⟩

/-- Non-vacuity of `C80_hold_known` and `C80_unauthenticated`: one request was transmitted by a manager that knows the
engine ID. The next one is held back if it is authenticated, and transmitted otherwise. -/
theorem C80_example_known :
    let h := [Demo.issue 0 10 1 authNoPriv]
    let s := after demoCfg (demo (some [1])) h
    Created demoCfg (demo (some [1])) ∧ (demo (some [1])).engineID = some [1] ∧ Uninformed demoCfg (demo (some [1])) h ∧
    Probing demoCfg (demo (some [1])) h ∧ s.mgr.locked = false ∧ s.dropped = false ∧
    Holds s (s.step demoCfg (Demo.issue 0 10 1 authNoPriv)) ∧ Transmits s (s.step demoCfg (Demo.issue 0 10 1)) := by
  intro h s
  have hc := demo_created (some [1]) (.inr rfl)
  have hu : Uninformed demoCfg (demo (some [1])) h := uninformed_of_no_listen h (by simp [h, Demo.issue])
  have e1 : (demo (some [1])).engineID = some [1] ∧ s.mgr.sent ≠ (after demoCfg (demo (some [1])) []).mgr.sent ∧
      s.mgr.locked = false ∧ s.dropped = false := by decide +kernel
  have hp : Probing demoCfg (demo (some [1])) h :=
    ⟨[], _, [], rfl, .inl ⟨_, _, _, _, _, _, _, _, rfl⟩, e1.2.1, fun h3 e' h4 hx => by simp at hx⟩
  exact ⟨hc, e1.1, hu, hp, e1.2.2.1, e1.2.2.2,
    C80_hold_known hc [1] e1.1 h hu hp e1.2.2.1 e1.2.2.2 _ _ _ rfl _ _ _ _ _,
    C80_unauthenticated hc (by rw [e1.1]; simp) h e1.2.2.1 e1.2.2.2 _ _ _ rfl _ _ _ _ _⟩

/-- Non-vacuity of `C80_probe`: a request of a manager that knows no engine ID got no answer; its thread, at its
expiration, found nothing scheduled and turned to the requests held back. The next request is transmitted. -/
theorem C80_example_probe :
    let h := [Demo.issue 0 1 1 authNoPriv, .wait 0 0, at_ 0 (1/2), at_ 0 1, at_ 0 1, at_ 0 1, at_ 0 1]
    let s := after demoCfg (demo none) h
    Created demoCfg (demo none) ∧ Uninformed demoCfg (demo none) h ∧ ¬ Probing demoCfg (demo none) h ∧
    s.mgr.fails = [] ∧ s.mgr.locked = false ∧ s.dropped = false ∧
    Transmits s (s.step demoCfg (Demo.issue 1 10 1 authNoPriv)) := by
  intro h s
  have hc := demo_created none (.inl rfl)
  have hu : Uninformed demoCfg (demo none) h := uninformed_of_no_listen h (by simp [h, Demo.issue, at_])
  have e1 : s.mgr.fails = [] ∧ s.mgr.locked = false ∧ s.dropped = false ∧
      (after demoCfg (demo none) (h.take 5)).threads 0 = .poke 0 ∧
      (after demoCfg (demo none) (h.take 5)).mgr.locked = false ∧
      (after demoCfg (demo none) (h.take 6)).mgr.sent = (after demoCfg (demo none) (h.take 5)).mgr.sent ∧
      s.mgr.sent = (after demoCfg (demo none) (h.take 6)).mgr.sent := by decide +kernel
  obtain ⟨h1, h2, h3, h4, h5, h6, h7⟩ := e1
  have hp : ¬ Probing demoCfg (demo none) h := by
    rw [show h = (h.take 5 ++ [at_ 0 1]) ++ [at_ 0 1] from rfl, probing_snoc, probing_snoc]
    rintro (⟨-, hx⟩ | ⟨⟨-, hx⟩ | ⟨-, hx⟩, -⟩)
    · exact hx h7
    · exact hx h6
    · exact hx ⟨0, _, 0, rfl, h4, h5⟩
  exact ⟨hc, hu, hp, h1, h2, h3, C80_probe hc h hu hp h1 h2 h3 _ _ _ _ _ _ _ _⟩

/-- Non-vacuity of `C80_discovered`: a report completes discovery for a manager that knows no engine ID, and an
authenticated response for one that does. The next request is transmitted. -/
theorem C80_example_discovered :
    let h := [Demo.issue 0 10 1 authNoPriv, arrives 0 noAuthNoPriv 1 [1] [] (aReport usmStatsUnknownEngineIDs), deliver 0,
      deliver 0]
    let s := after demoCfg (demo none) h
    let h' := [Demo.issue 0 10 1 authNoPriv, arrives 0 authNoPriv 1 [1] [97] aResponse, deliver 0]
    let s' := after demoCfg (demo (some [1])) h'
    Discovered demoCfg (demo none) h ∧ s.mgr.locked = false ∧ s.dropped = false ∧
    Transmits s (s.step demoCfg (Demo.issue 0 10 1 authNoPriv)) ∧
    Discovered demoCfg (demo (some [1])) h' ∧ s'.mgr.locked = false ∧ s'.dropped = false ∧
    Transmits s' (s'.step demoCfg (Demo.issue 0 10 1 authNoPriv)) := by
  intro h s h' s'
  have e1 : (demo none).engineID = none ∧
      (after demoCfg (demo none) (h.take 2)).listener =
        .push 0 (received noAuthNoPriv 1 [1] [] (aReport usmStatsUnknownEngineIDs)) ∧
      (after demoCfg (demo none) (h.take 3)).mgr.sent ≠ (after demoCfg (demo none) (h.take 2)).mgr.sent ∧
      s.mgr.locked = false ∧ s.dropped = false := by decide +kernel
  have e2 : (after demoCfg (demo (some [1])) (h'.take 2)).listener = .push 0 (received authNoPriv 1 [1] [97] aResponse) ∧
      (after demoCfg (demo (some [1])) (h'.take 2)).mgr.msgs 0 = some ⟨0, some 1, 0, .issue⟩ ∧
      ((after demoCfg (demo (some [1])) (h'.take 2)).mgr.deref 0).isSome = true ∧
      (after demoCfg (demo (some [1])) (h'.take 2)).mgr.locked = false ∧
      ((after demoCfg (demo (some [1])) (h'.take 2)).mgr.processResponse demoCfg
        (received authNoPriv 1 [1] [97] aResponse) (fun _ => 0)).1.isOk = true ∧
      s'.mgr.locked = false ∧ s'.dropped = false := by decide +kernel
  obtain ⟨h1, h2, h3, h4, h5⟩ := e1
  obtain ⟨k1, k2, k3, k4, k5, k6, k7⟩ := e2
  have hd : Discovered demoCfg (demo none) h :=
    ⟨h.take 2, _, _, rfl, .inl ⟨_, ⟨_, _, rfl, h2⟩, h3, .inl h1⟩⟩
  have hd' : Discovered demoCfg (demo (some [1])) h' := by
    refine ⟨h'.take 2, _, _, rfl, .inr ⟨0, _, ⟨_, 0, _, rfl, k1, k2, rfl, k3, rfl, k4, ?_⟩, .inl rfl⟩⟩
    show ((after demoCfg (demo (some [1])) (h'.take 2)).mgr.processResponse demoCfg
        (received authNoPriv 1 [1] [97] aResponse) (fun _ => 0)).1 = .ok ()
    generalize ((after demoCfg (demo (some [1])) (h'.take 2)).mgr.processResponse demoCfg
        (received authNoPriv 1 [1] [97] aResponse) (fun _ => 0)).1 = res at k5 ⊢
    cases res with
    | error e => cases k5
    | ok u => rfl
  exact ⟨hd, h4, h5, C80_discovered (demo_created none (.inl rfl)) h hd h4 h5 _ _ _ _ _ _ _ _, hd', k6, k7,
    C80_discovered (demo_created (some [1]) (.inr rfl)) h' hd' k6 k7 _ _ _ _ _ _ _ _⟩

/-! ## C81 -/

/-- **C81** is false: request 1 is held back while request 0 probes the engine; an unauthenticated request 2 is also on
its way. At 0 an authenticated response to request 0 completes discovery. From then on every new request would be
transmitted at once; but request 1 stays in the queue as long as request 2 is scheduled, and its `wait()` ends at its
expiration, 3, without it ever having been transmitted. -/
theorem C81_false :
    let h := [Demo.issue 0 10 10 authNoPriv, Demo.issue 0 3 1 authNoPriv, Demo.issue 0 10 2,
      arrives 0 authNoPriv 1 [1] [97] aResponse, deliver 0, .wait 1 1, at_ 1 0, at_ 1 0, at_ 1 2, at_ 1 (5/2), at_ 1 (5/2),
      at_ 1 (5/2)]
    let s := after demoCfg (demo (some [1])) h
    Created demoCfg (demo (some [1])) ∧ Discovered demoCfg (demo (some [1])) (h.take 5) ∧
    s.mgr.locked = false ∧ s.dropped = false ∧ s.mgr.fails = [] ∧
    Queued s 1 ∧ Transmits s (s.step demoCfg (Demo.issue (5/2) 10 1 authNoPriv)) ∧
    (after demoCfg (demo (some [1])) (h ++ [at_ 1 4, at_ 1 4, at_ 1 4, at_ 1 4])).threads 1 = .done 1 .timeout ∧
    ¬ Transmitted (after demoCfg (demo (some [1])) (h ++ [at_ 1 4, at_ 1 4, at_ 1 4, at_ 1 4])) 1 := by
  intro h s
  have hc := demo_created (some [1]) (.inr rfl)
  have e2 : (after demoCfg (demo (some [1])) (h.take 4)).listener = .push 0 (received authNoPriv 1 [1] [97] aResponse) ∧
      (after demoCfg (demo (some [1])) (h.take 4)).mgr.msgs 0 = some ⟨0, some 1, 0, .issue⟩ ∧
      ((after demoCfg (demo (some [1])) (h.take 4)).mgr.deref 0).isSome = true ∧
      (after demoCfg (demo (some [1])) (h.take 4)).mgr.locked = false ∧
      ((after demoCfg (demo (some [1])) (h.take 4)).mgr.processResponse demoCfg
        (received authNoPriv 1 [1] [97] aResponse) (fun _ => 0)).1.isOk = true := by decide +kernel
  have e3 : s.mgr.locked = false ∧ s.dropped = false ∧ s.mgr.fails = [] ∧ s.mgr.unsent.map Ref.id = [1] ∧
      (after demoCfg (demo (some [1])) (h ++ [at_ 1 4, at_ 1 4, at_ 1 4, at_ 1 4])).threads 1 = .done 1 .timeout ∧
      (after demoCfg (demo (some [1])) (h ++ [at_ 1 4, at_ 1 4, at_ 1 4, at_ 1 4])).mgr.sent.map Sent.request = [2, 2, 0] := by
    decide +kernel
  obtain ⟨k1, k2, k3, k4, k5⟩ := e2
  obtain ⟨h1, h2, h3, h4, h5, h6⟩ := e3
  have hd : ∀ l, Discovered demoCfg (demo (some [1])) (h.take 5 ++ l) := by
    intro l
    refine ⟨h.take 4, _, l, rfl, .inr ⟨0, _, ⟨_, 0, _, rfl, k1, k2, rfl, k3, rfl, k4, ?_⟩, .inl rfl⟩⟩
    show ((after demoCfg (demo (some [1])) (h.take 4)).mgr.processResponse demoCfg
        (received authNoPriv 1 [1] [97] aResponse) (fun _ => 0)).1 = .ok ()
    generalize ((after demoCfg (demo (some [1])) (h.take 4)).mgr.processResponse demoCfg
        (received authNoPriv 1 [1] [97] aResponse) (fun _ => 0)).1 = res at k5 ⊢
    cases res with
    | error e => cases k5
    | ok u => rfl
  refine ⟨hc, by simpa using hd [], h1, h2, h3, ?_, C80_discovered hc h (hd (h.drop 5)) h1 h2 _ _ _ _ _ _ _ _, h5, ?_⟩
  · obtain ⟨held, ho⟩ := hc.owner h
    rw [queued_iff ho]
    exact List.mem_append_right _ (by show 1 ∈ s.mgr.unsent.map Ref.id; rw [h4]; simp)
  · rintro ⟨d, hd1, hd2⟩
    have := List.mem_map_of_mem (f := Sent.request) hd1
    rw [h6, hd2] at this
    simp at this

/-- Non-vacuity of `C81_partial`: two requests are held back while request 0 discovers the engine; the report makes the
manager transmit all three. -/
theorem C81_example :
    let h := [Demo.issue 0 10 1 authNoPriv, Demo.issue 0 10 1 authNoPriv, Demo.issue 0 10 1,
      arrives 0 noAuthNoPriv 1 [1] [] (aReport usmStatsUnknownEngineIDs)]
    let s := after demoCfg (demo none) h
    let h' := [deliver 0, deliver 0, deliver 0]
    let s' := after demoCfg (demo none) (h ++ deliver 0 :: h')
    Uninformed demoCfg (demo none) h ∧ s.dropped = false ∧
    Hands s (deliver 0) (received noAuthNoPriv 1 [1] [] (aReport usmStatsUnknownEngineIDs)) ∧
    (after demoCfg (demo none) (h ++ [deliver 0])).mgr.sent ≠ s.mgr.sent ∧ (demo none).engineID = none ∧
    s'.mgr.fails = (after demoCfg (demo none) (h ++ [deliver 0])).mgr.fails ∧ s'.listener = .idle ∧
    s.mgr.unsent.map Ref.id = [2, 1] ∧ s'.mgr.sent.map Sent.request = [2, 1, 0, 0] ∧
    (s'.mgr.deref 1).map VReq.event = some false ∧ ¬ Failed s' 1 ∧ (∀ r, .poke r ∉ s'.mgr.fails) := by
  intro h s h' s'
  have e1 : s.dropped = false ∧
      s.listener = .push 0 (received noAuthNoPriv 1 [1] [] (aReport usmStatsUnknownEngineIDs)) ∧
      (after demoCfg (demo none) (h ++ [deliver 0])).mgr.sent ≠ s.mgr.sent ∧ (demo none).engineID = none ∧
      s'.mgr.fails = (after demoCfg (demo none) (h ++ [deliver 0])).mgr.fails ∧ s'.listener = .idle ∧
      s.mgr.unsent.map Ref.id = [2, 1] ∧ s'.mgr.sent.map Sent.request = [2, 1, 0, 0] ∧
      (s'.mgr.deref 1).map VReq.event = some false ∧ s'.mgr.fails = [] := by decide +kernel
  obtain ⟨h1, h2, h3, h4, h5, h6, h7, h8, h9, h10⟩ := e1
  refine ⟨uninformed_of_no_listen h (by simp [h, Demo.issue, arrives]), h1, ⟨_, _, rfl, h2⟩, h3, h4, h5, h6, h7, h8, h9, ?_, ?_⟩
  · unfold Failed; rw [h10]; simp
  · rw [h10]; simp

end Snmp
