import Verif.Props.V3Demo
/-! # Properties of v3 managers that are false, and examples -/

namespace Snmp

open VSys Spec Demo

/-- **C54** is false: request 0, on whose answer to the discovery message the others wait, expires; a thread
waiting on request 1 starts discovery anew, and the channel raises an exception. Request 2 is alive, not
answered, did not expire and did not fail, but it is neither scheduled nor queued: it is never sent. -/
theorem C54_false :
    let h := [Demo.issue 0 1 1, Demo.issue 0 100 1, Demo.issue 0 100 1, .wait 0 1, at_ 0 2, at_ 0 2, at_ 0 2, at_ 0 2,
      at_ 0 2 (some .osError)]
    let s := after demoCfg (demo none) h
    Created demoCfg (demo none) ∧
    (s.mgr.deref 2).map (fun q => (q.event, q.expiration)) = some (false, 100) ∧
    ¬ Scheduled s 2 ∧ ¬ Queued s 2 ∧ ¬ Overdue h 100 ∧ ¬ Failed s 2 := by
  intro h s
  have hc := demo_created none (.inl rfl)
  have e1 : s.mgr.active.map Ref.id = [] ∧ s.mgr.unsent.map Ref.id = [] ∧ s.mgr.fails = [.poke 1] ∧
      (s.mgr.deref 2).map (fun q => (q.event, q.expiration)) = some (false, 100) ∧ s.mgr.locked = false := by
    decide +kernel
  obtain ⟨h1, h2, h3, h4, h5⟩ := e1
  have hA : s.mgr.active = [] := List.map_eq_nil_iff.1 h1
  have hU : s.mgr.unsent = [] := List.map_eq_nil_iff.1 h2
  refine ⟨hc, h4, ?_, ?_, ?_, ?_⟩
  · rintro ⟨x, hx, -⟩
    rw [hA] at hx; cases hx
  · rintro ⟨l, x, hl, hx, -⟩
    obtain ⟨held, hp, -⟩ := hc.kept h
    rw [queue_iff hp.owner, (hp.owner.unlocked h5).1] at hl
    have hl : l = [] ++ s.mgr.unsent := hl
    rw [hU] at hl
    rw [hl] at hx
    cases hx
  · rintro ⟨t, i, hi, hlt⟩
    simp only [h, issue, at_, List.mem_cons, List.not_mem_nil, or_false, reduceCtorEq, false_or] at hi
    rcases hi with hi | hi | hi | hi | hi <;> · injection hi with _ hi; rw [hi] at hlt; revert hlt; simp only [input]; norm_num
  · unfold Failed; rw [h3]; decide

/-- Non-vacuity of C54: three requests, one scheduled, two queued in order of issue. -/
theorem C54_example :
    let s := after demoCfg (demo none) [Demo.issue 0 1 1, Demo.issue 0 100 1, Demo.issue 0 100 1]
    s.mgr.active.map Ref.id = [0] ∧ s.mgr.unsent.map Ref.id = [2, 1] := by
  decide +kernel

/-- Non-vacuity of C54: when the report arrives, request 0 is sent, then the queued requests in order of issue. -/
theorem C54_order_example :
    let h := [Demo.issue 0 1 1, Demo.issue 0 100 1, Demo.issue 0 100 1,
      arrives 0 noAuthNoPriv 1 [1] [] (aReport usmStatsUnknownEngineIDs), deliver 0]
    let s := after demoCfg (demo none) h
    let s' := after demoCfg (demo none) (h ++ [deliver 0])
    let s'' := after demoCfg (demo none) (h ++ [deliver 0, deliver 0, deliver 0])
    s.listener = .flush 0 [1] false ∧ s.mgr.unsent.map Ref.id = [2, 1] ∧
    s'.mgr.sent.map Sent.request = 1 :: s.mgr.sent.map Sent.request ∧
    s''.mgr.sent.map Sent.request = [2, 1, 0, 0] ∧ s''.mgr.unsent = [] ∧ s''.listener = .idle := by
  decide +kernel

/-- **C67** is false: a request is resent at time 5 because of a report, although it expired at time 1; another
one is resent because of a report, although it was answered. -/
theorem C67_false :
    (let h := [Demo.issue 0 1 1, arrives 5 noAuthNoPriv 1 [1] [] (aReport usmStatsUnknownEngineIDs)]
     Created demoCfg (demo none) ∧
     ((after demoCfg (demo none) h).mgr.reqs 0).map VReq.expiration = some 1 ∧
     (after demoCfg (demo none) h).mgr.sent.map Sent.request = [0] ∧
     (after demoCfg (demo none) (h ++ [deliver 5])).mgr.sent.map Sent.request = [0, 0]) ∧
    (let h := [Demo.issue 0 10 1, arrives 0 noAuthNoPriv 1 [1] [97] aResponse, deliver 0,
       arrives 0 noAuthNoPriv 1 [1] [97] (aReport usmStatsNotInTimeWindows)]
     Created demoCfg (demo (some [1])) ∧
     ((after demoCfg (demo (some [1])) h).mgr.reqs 0).map VReq.event = some true ∧
     (after demoCfg (demo (some [1])) h).mgr.sent.map Sent.request = [0] ∧
     (after demoCfg (demo (some [1])) (h ++ [deliver 0])).mgr.sent.map Sent.request = [0, 0]) := by
  refine ⟨⟨demo_created none (.inl rfl), by decide +kernel⟩, ⟨demo_created _ (.inr rfl), by decide +kernel⟩⟩

/-- Non-vacuity of C67: a request sent at 0 with period 1 is resent at 5/2; its next refresh time is 3. -/
theorem C67_example :
    let h := [Demo.issue 0 10 1, .wait 0 0, at_ 0 0, at_ 0 0, at_ 0 (5/2), at_ 0 (5/2), at_ 0 (5/2)]
    (after demoCfg (demo (some [1])) h).mgr.sent.map Sent.request = [0, 0] ∧
    ((after demoCfg (demo (some [1])) h).mgr.reqs 0).map VReq.nextRefresh = some 3 := by
  decide +kernel

/-- **C72** is false: the response was received but not yet delivered when the first `wait` gave up with
`Timeout`; the second `wait` returns its bindings. -/
theorem C72_false :
    let h := [Demo.issue 0 1 1, arrives 0 noAuthNoPriv 1 [1] [97] aResponse, .wait 0 0, at_ 0 1, at_ 0 1, at_ 0 1]
    Created demoCfg (demo (some [1])) ∧
    (after demoCfg (demo (some [1])) h).threads 0 = .done 0 .timeout ∧
    (after demoCfg (demo (some [1])) (h ++ [deliver 1, .wait 0 0, at_ 0 1, at_ 0 1])).threads 0 =
      .done 0 (.bindings aResponse.bindings) :=
  ⟨demo_created _ (.inr rfl), by decide +kernel⟩

/-- A response answers message 0 of request 0; the listening thread is about to push it. -/
theorem delivers_example {cfg : VCfg} {s : VSys} {i : SendIn} {x : V3Incoming}
    (h : s.listener = .push 0 x ∧ (s.mgr.msgs 0).map VMsg.request = some 0 ∧ (s.mgr.deref 0).isSome = true ∧
      x.scopedPDU.pdu.type.isInternal = false ∧ s.mgr.locked = false ∧
      (s.mgr.processResponse cfg x i.seed).1.isOk = true) : Delivers cfg s (.listen i) 0 x := by
  obtain ⟨h1, h2, h3, h4, h5, h6⟩ := h
  cases hm : s.mgr.msgs 0 with
  | none => rw [hm] at h2; cases h2
  | some msg =>
    rw [hm] at h2
    injection h2 with h2
    refine ⟨i, 0, msg, rfl, h1, hm, h2, h3, h4, h5, ?_⟩
    cases hr : (s.mgr.processResponse cfg x i.seed).1 with
    | error e => rw [hr] at h6; cases h6
    | ok u => rfl

/-- Non-vacuity of C52 and C68: an authenticated request of a manager that was told the engine ID, and an
authenticated response to it; and the request discovers the engine ID first. -/
theorem C52_example :
    (let h := [Demo.issue 0 10 1 authNoPriv, arrives 0 authNoPriv 1 [1] [97] aResponse]
     let x := received authNoPriv 1 [1] [97] aResponse
     Delivers demoCfg (after demoCfg (demo (some [1])) h) (deliver 0) 0 x ∧ WithAuth x) ∧
    (let h := [Demo.issue 0 10 1 authNoPriv, arrives 0 noAuthNoPriv 1 [1] [] (aReport usmStatsUnknownEngineIDs),
       deliver 0, deliver 0, arrives 0 authNoPriv 2 [1] [97] aResponse]
     (after demoCfg (demo none) h).listener = .push 1 (received authNoPriv 2 [1] [97] aResponse) ∧
     (after demoCfg (demo none) h).mgr.state = .trustEveryResponse ∧
     (after demoCfg (demo none) (h ++ [deliver 0])).mgr.state = .requireAuthentication ∧
     (after demoCfg (demo none) (h ++ [deliver 0])).mgr.engineID = some [1]) := by
  refine ⟨⟨delivers_example (by decide +kernel), rfl⟩, by decide +kernel⟩

/-- Non-vacuity of C68 and C69: `wait` sleeps until the request is due, and returns the bindings when the
response arrives. -/
theorem C68_example :
    let h := [Demo.issue 0 10 1, .wait 0 0, at_ 0 0, at_ 0 0]
    let h' := [arrives (1/2) noAuthNoPriv 1 [1] [97] aResponse, deliver (1/2), at_ 0 (1/2), at_ 0 (1/2)]
    (after demoCfg (demo (some [1])) h).threads 0 = .sleep 0 1 0 ∧
    (after demoCfg (demo (some [1])) (h ++ h')).threads 0 = .done 0 (.bindings aResponse.bindings) := by
  decide +kernel

/-- Non-vacuity of C68, C56: an unauthenticated report of an unknown user does not end `wait`; at the expiration
it is raised. Without it `Timeout` is raised. -/
theorem C56_example :
    let h := [Demo.issue 0 1 2, .wait 0 0, at_ 0 0, at_ 0 0,
      arrives 0 noAuthNoPriv 1 [1] [97] (aReport usmStatsUnknownUserNames)]
    let x := received noAuthNoPriv 1 [1] [97] (aReport usmStatsUnknownUserNames)
    let ex : Report := ⟨.unknownUserName, ⟨usmStatsUnknownUserNames, .int .counter32 1⟩⟩
    ReportsError demoCfg (after demoCfg (demo (some [1])) h) (deliver 0) 0 x ex ∧ ¬ WithAuth x ∧
    (after demoCfg (demo (some [1])) (h ++ [deliver 0, at_ 0 (1/2)])).threads 0 = .sleep 0 1 0 ∧
    (after demoCfg (demo (some [1])) (h ++ [deliver 0, at_ 0 1, at_ 0 1, at_ 0 1, at_ 0 1])).threads 0 =
      .done 0 (.reported ex) ∧
    (after demoCfg (demo (some [1])) (h ++ [at_ 0 1, at_ 0 1, at_ 0 1, at_ 0 1])).threads 0 = .done 0 .timeout := by
  intro h x ex
  refine ⟨?_, by unfold WithAuth; decide, by decide +kernel⟩
  have h1 : (after demoCfg (demo (some [1])) h).listener = .push 0 x ∧
      ((after demoCfg (demo (some [1])) h).mgr.msgs 0).map VMsg.request = some 0 ∧
      ((after demoCfg (demo (some [1])) h).mgr.deref 0).isSome = true := by decide +kernel
  obtain ⟨h1, h2, h3⟩ := h1
  cases hm : (after demoCfg (demo (some [1])) h).mgr.msgs 0 with
  | none => rw [hm] at h2; cases h2
  | some msg =>
    rw [hm] at h2
    injection h2 with h2
    exact ⟨_, 0, msg, _, [], rfl, h1, hm, h2, h3, rfl, rfl, by decide, by decide, by decide⟩

/-- An authenticated report ends `wait` at once. -/
theorem C56_example_authenticated :
    let h := [Demo.issue 0 10 1 authNoPriv, .wait 0 0, at_ 0 0, at_ 0 0,
      arrives 0 authNoPriv 1 [1] [97] (aReport usmStatsUnknownUserNames), deliver 0, at_ 0 0, at_ 0 0, at_ 0 0]
    (after demoCfg (demo (some [1])) h).threads 0 =
      .done 0 (.reported ⟨.unknownUserName, ⟨usmStatsUnknownUserNames, .int .counter32 1⟩⟩) := by
  decide +kernel

/-- Non-vacuity of C71: two threads wait on two handles, both resend, one of them gets the exception of the
channel. -/
theorem C71_example :
    let h := [Demo.issue 0 10 1, Demo.issue 0 10 1, .wait 0 0, .wait 1 1, at_ 0 0, at_ 1 0, at_ 0 2, at_ 1 2 (some .osError)]
    (after demoCfg (demo (some [1])) h).threads 0 = .body 0 ∧
    (after demoCfg (demo (some [1])) h).threads 1 = .done 1 (.raised .osError) := by
  decide +kernel

/-- Non-vacuity of C53: the manager and a request name engine [1], a collected request does not; when all was
collected, no registration is left. -/
theorem C53_example :
    let h := [Demo.issue 0 10 1, Demo.issue 0 10 1, .collect 1]
    (after demoCfg (demo (some [1])) h).mgr.usm.reg [1] = some (2, "") ∧
    (after demoCfg (demo (some [1])) (h ++ [.collect 0, .drop])).mgr.usm.reg [1] = none ∧
    (after demoCfg (demo (some [1])) (h ++ [.collect 0, .drop])).dropped = true := by
  decide +kernel

/-- Non-vacuity of C53 with others: another manager registers engine [1] in the same namespace and sends a message; when this
manager and its requests were collected, the other's registration remains, and goes with its release. The other
manager cannot release what it does not hold. -/
theorem C53_others_example :
    let h := [Demo.issue 0 10 1, .other (.register [1] "" fun _ => 0),
      .other (.send ⟨.getRequest, 0, 0, 0, []⟩ [1] [97] noAuthNoPriv (fun _ => 1) 0), Demo.issue 0 10 1]
    (after demoCfg (demo (some [1])) h).mgr.usm.reg [1] = some (4, "") ∧
    (after demoCfg (demo (some [1])) h).held [1] = some (1, "") ∧
    (after demoCfg (demo (some [1])) h).mgr.nextMsg = 3 ∧
    (after demoCfg (demo (some [1])) h).mgr.sent.map Sent.message = [2, 0] ∧
    (after demoCfg (demo (some [1])) (h ++ [.collect 0, .collect 1, .drop])).mgr.usm.reg [1] = some (1, "") ∧
    (after demoCfg (demo (some [1])) (h ++ [.collect 0, .collect 1, .drop, .other (.release [1] ""),
      .other (.release [1] "")])).mgr.usm.reg [1] = none := by
  decide +kernel

end Snmp
