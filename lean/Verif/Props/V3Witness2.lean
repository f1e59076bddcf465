import Verif.Props.V3Demo
import Verif.Props.V3Heap
import Verif.Props.V3Secure
import Verif.Props.V3Reports
/-! # C33, C55 and C70: what is false, and examples -/

namespace Snmp

open VSys Spec Demo

/-! ## C70 -/

/-- **C70** is false: requests 0 and 1 are due at 1 and 2. At 5/2 a thread resends request 0, and the channel raises
an exception; the refresh time of request 0 is now 3, but it stays in front. Another thread, which examines request 0
next, goes to sleep until 3, although request 1, scheduled, alive and unanswered, was due at 2. -/
theorem C70_false :
    let h := [Demo.issue 0 10 1, Demo.issue 0 10 2, .wait 0 0, at_ 0 (5/2), at_ 0 (5/2) (some .osError), .wait 1 1,
      at_ 1 (5/2)]
    let s := after demoCfg (demo (some [1])) h
    Created demoCfg (demo (some [1])) ∧ s.threads 1 = .body 1 ∧
    Examined s 0 ∧ (s.mgr.deref 0).map VReq.nextRefresh = some 3 ∧
    Scheduled s 1 ∧ (s.mgr.deref 1).map (fun q => (q.nextRefresh, q.event)) = some (2, false) ∧
    (after demoCfg (demo (some [1])) (h ++ [at_ 1 (5/2)])).threads 1 = .sleep 1 (1/2) (5/2) := by
  intro h s
  have e1 : s.threads 1 = .body 1 ∧ s.mgr.active.map Ref.id = [0, 1] ∧
      (s.mgr.deref 0).map VReq.nextRefresh = some 3 ∧
      (s.mgr.deref 1).map (fun q => (q.nextRefresh, q.event)) = some (2, false) ∧
      (after demoCfg (demo (some [1])) (h ++ [at_ 1 (5/2)])).threads 1 = .sleep 1 (1/2) (5/2) := by
    decide +kernel
  obtain ⟨h1, h2, h3, h4, h5⟩ := e1
  refine ⟨demo_created _ (.inr rfl), h1, ?_, h3, ?_, h4, h5⟩
  · cases ha : s.mgr.active with
    | nil => rw [ha] at h2; cases h2
    | cons x l =>
      rw [ha] at h2
      injection h2 with h2 _
      exact ⟨x, by rw [ha]; rfl, h2⟩
  · have : 1 ∈ s.mgr.active.map Ref.id := by rw [h2]; simp
    obtain ⟨x, hx, hx'⟩ := List.mem_map.1 this
    exact ⟨x, hx, hx'⟩

/-- Non-vacuity of C70: three requests, nothing failed; the one due first is in front, also after it was resent and
after it was collected, when it is dropped. -/
theorem C70_example :
    let h := [Demo.issue 0 10 3, Demo.issue 0 10 1, Demo.issue 0 10 2, .wait 0 0, at_ 0 (3/2)]
    let s := after demoCfg (demo (some [1])) h
    let s1 := after demoCfg (demo (some [1])) (h ++ [at_ 0 (3/2)])
    let s2 := after demoCfg (demo (some [1])) (h ++ [.collect 1])
    let s3 := after demoCfg (demo (some [1])) (h ++ [.collect 1, at_ 0 (3/2)])
    s.mgr.fails = [] ∧ s.threads 0 = .body 0 ∧ s.mgr.active.map Ref.id = [1, 0, 2] ∧
    s1.mgr.active.head?.map Ref.id = some 2 ∧ s1.mgr.fails = [] ∧
    (s1.mgr.deref 1).map VReq.nextRefresh = some 2 ∧ (s1.mgr.deref 2).map VReq.nextRefresh = some 2 ∧
    s2.mgr.active.head?.map Ref.id = some 1 ∧ (s2.mgr.deref 1).isNone = true ∧
    s3.mgr.active.map Ref.id = [2, 0] ∧
    (after demoCfg (demo (some [1])) (h ++ [.collect 1, at_ 0 (3/2), at_ 0 (3/2)])).threads 0 =
      .sleep 0 (1/2) (3/2) := by
  decide +kernel

/-! ## C33 -/

/-- **C33** is false: a request at level authNoPriv is sent without knowing the engine, so a discovery message goes
out first. A report tells the engine ID, and the request is sent with authentication. Then a forged response without
any security, to the discovery message, which is still outstanding, completes the request: `wait()` returns its
bindings. -/
theorem C33_false :
    let h := [Demo.issue 0 10 1 authNoPriv, .wait 0 0, at_ 0 0, at_ 0 0,
      arrives 0 noAuthNoPriv 1 [1] [] (aReport usmStatsUnknownEngineIDs), deliver 0, deliver 0,
      arrives 0 noAuthNoPriv 1 [] [] aResponse, deliver 0, at_ 0 0]
    let s := after demoCfg (demo none) h
    Created demoCfg (demo none) ∧ (s.mgr.reqs 0).map VReq.level = some authNoPriv ∧
    (s.mgr.reqs 0).map VReq.userName = some [97] ∧
    (after demoCfg (demo none) (h ++ [at_ 0 0])).threads 0 = .done 0 (.bindings aResponse.bindings) ∧
    (after demoCfg (demo none) (h.take 8)).listener = .push 0 (received noAuthNoPriv 1 [] [] aResponse) ∧
    (received noAuthNoPriv 1 [] [] aResponse).header.flags.level.auth = false ∧
    ∀ e ∈ h, ∀ w stamp, e = .hear w stamp →
      w = datagram noAuthNoPriv 1 [1] [] (aReport usmStatsUnknownEngineIDs) ∨ w = datagram noAuthNoPriv 1 [] [] aResponse := by
  intro h s
  refine ⟨demo_created _ (.inl rfl), ?_⟩
  have e1 : (s.mgr.reqs 0).map VReq.level = some authNoPriv ∧ (s.mgr.reqs 0).map VReq.userName = some [97] ∧
      (after demoCfg (demo none) (h ++ [at_ 0 0])).threads 0 = .done 0 (.bindings aResponse.bindings) ∧
      (after demoCfg (demo none) (h.take 8)).listener = .push 0 (received noAuthNoPriv 1 [] [] aResponse) ∧
      (received noAuthNoPriv 1 [] [] aResponse).header.flags.level.auth = false := by decide +kernel
  obtain ⟨h1, h2, h3, h4, h5⟩ := e1
  refine ⟨h1, h2, h3, h4, h5, ?_⟩
  intro e he w stamp hw
  subst hw
  simp only [h, Demo.issue, at_, arrives, deliver, List.mem_cons, List.not_mem_nil, or_false, reduceCtorEq, false_or,
    VEvent.hear.injEq] at he
  rcases he with he | he
  · exact .inl he.1
  · exact .inr he.1

/-- Non-vacuity of C33: an authenticated request completed by an authenticated response; a forged response without
security is not delivered. -/
theorem C33_example :
    let h := [Demo.issue 0 10 1 authNoPriv, .wait 0 0, at_ 0 0, at_ 0 0]
    let h1 := h ++ [arrives 0 authNoPriv 1 [1] [97] aResponse, deliver 0, at_ 0 0]
    (after demoCfg (demo (some [1])) h1).threads 0 = .finish 0 ∧
    (after demoCfg (demo (some [1])) (h1 ++ [at_ 0 0])).threads 0 = .done 0 (.bindings aResponse.bindings) ∧
    ((after demoCfg (demo (some [1])) h1).mgr.reqs 0).map VReq.level = some authNoPriv ∧
    (after demoCfg (demo (some [1])) (h ++ [arrives 0 noAuthNoPriv 1 [1] [97] aResponse])).listener = .idle ∧
    (after demoCfg (demo (some [1])) (h ++ [arrives 0 noAuthNoPriv 1 [] [] aResponse])).listener = .idle := by
  decide +kernel

/-! ## C55 -/

theorem Demo.triggers {s : VSys} {i : SendIn} {x : V3Incoming} {v : VarBind} {rest : List VarBind} {r m m' : Nat}
    (hl : s.listener = .push m x) (hi : x.scopedPDU.pdu.type.isInternal = true)
    (hv : x.scopedPDU.pdu.bindings = v :: rest) (hn : v.name = usmStatsNotInTimeWindows)
    (hs : (s.step demoCfg (.listen i)).mgr.sent =
      ⟨r, m', (((s.step demoCfg (.listen i)).mgr.sent.head?).map Sent.wire).getD []⟩ :: s.mgr.sent) :
    Triggers demoCfg s (.listen i) m m' :=
  ⟨i, x, v, rest, r, _, rfl, hl, hi, hv, hn, hs⟩

/-- **C55** is false: request 1 is queued until request 0 is answered. A notInTimeWindows report answering message 0
makes request 0 be resent as message 1, and then request 1 is sent, at which the channel raises an exception. A second
report answering message 0 makes request 0 be resent again; so would one answering message 1. -/
theorem C55_false :
    let h := [Demo.issue 0 10 1 authNoPriv, Demo.issue 0 10 1 authNoPriv,
      arrives 0 noAuthNoPriv 1 [1] [97] (aReport usmStatsNotInTimeWindows)]
    let h1 := h ++ [deliver 0, deliver 0 (some .osError),
      arrives 0 noAuthNoPriv 1 [1] [97] (aReport usmStatsNotInTimeWindows)]
    let h2 := h ++ [deliver 0, deliver 0 (some .osError),
      arrives 0 noAuthNoPriv 2 [1] [97] (aReport usmStatsNotInTimeWindows)]
    Created demoCfg (demo (some [1])) ∧
    Triggers demoCfg (after demoCfg (demo (some [1])) h) (deliver 0) 0 1 ∧
    Triggers demoCfg (after demoCfg (demo (some [1])) h1) (deliver 0) 0 3 ∧
    Triggers demoCfg (after demoCfg (demo (some [1])) h2) (deliver 0) 1 3 := by
  intro h h1 h2
  refine ⟨demo_created _ (.inr rfl), ?_, ?_, ?_⟩
  · exact Demo.triggers (r := 0) (x := received noAuthNoPriv 1 [1] [97] (aReport usmStatsNotInTimeWindows))
      (by decide +kernel) rfl rfl rfl (by decide +kernel)
  · exact Demo.triggers (r := 0) (x := received noAuthNoPriv 1 [1] [97] (aReport usmStatsNotInTimeWindows))
      (by decide +kernel) rfl rfl rfl (by decide +kernel)
  · exact Demo.triggers (r := 0) (x := received noAuthNoPriv 2 [1] [97] (aReport usmStatsNotInTimeWindows))
      (by decide +kernel) rfl rfl rfl (by decide +kernel)

/-- Non-vacuity of C55: without the exception, the first report triggers a resend, and none of the following
does. -/
theorem C55_example :
    let h := [Demo.issue 0 10 1 authNoPriv, Demo.issue 0 10 1 authNoPriv,
      arrives 0 noAuthNoPriv 1 [1] [97] (aReport usmStatsNotInTimeWindows)]
    let again := fun id => [arrives 0 noAuthNoPriv id [1] [97] (aReport usmStatsNotInTimeWindows), deliver 0]
    let h1 := h ++ [deliver 0, deliver 0, deliver 0, deliver 0]
    Triggers demoCfg (after demoCfg (demo (some [1])) h) (deliver 0) 0 1 ∧
    (after demoCfg (demo (some [1])) h1).mgr.sent.map Sent.message = [2, 1, 0] ∧
    (after demoCfg (demo (some [1])) h1).mgr.fails = [] ∧
    (after demoCfg (demo (some [1])) (h1 ++ again 1 ++ again 2)).mgr.sent.map Sent.message = [2, 1, 0] ∧
    (after demoCfg (demo (some [1])) (h1 ++ again 1 ++ again 2 ++ again 3)).mgr.sent.map Sent.message =
      [3, 2, 1, 0] := by
  refine ⟨?_, by decide +kernel⟩
  exact Demo.triggers (r := 0) (x := received noAuthNoPriv 1 [1] [97] (aReport usmStatsNotInTimeWindows))
    (by decide +kernel) rfl rfl rfl (by decide +kernel)

end Snmp
