import Verif.Props.V3Exchange
import Verif.Props.V3Witness5
/-! # C94: an example -/

namespace Snmp

open VSys Spec Demo

/-- What an answer has to match in a datagram. -/
def Demo.marks (d : Sent) : Option ((Int × Bool × SecurityLevel) × Bytes × Bytes) :=
  (V3Message.decode (.bytes d.wire)).toOption.bind fun y => (UsmParams.decode y.securityParameters).toOption.map
    fun p => ((y.header.id, y.header.flags.reportable, y.header.flags.level), (p.engineID, p.userName))

/-- An authenticated request with a timeout of ten seconds; a thread goes to sleep in `wait()` on it. -/
def Demo.first : List VEvent := .send ⟨.getRequest, 0, 0, 0, []⟩ [97] authNoPriv 10 1 0 1 (input 0) :: waits 0 0 (input 0) (input 0)

/-- The agent answers the discovery message. -/
def Demo.second : List VEvent :=
  Demo.first ++ gets (datagram noAuthNoPriv 1 [1] [] (aReport unknownEngineIDs)) 0 (input 0) (input 0) (input 0)

/-- The agent reports that the manager's clock is off. -/
def Demo.third : List VEvent :=
  Demo.second ++ gets (datagram authNoPriv 2 [1] [97] (aReport notInTimeWindows)) 0 (input 0) (input 0) (input 0)

theorem third_possible : Possible Demo.third := by
  refine ⟨?_, ?_⟩
  · intro e he i hi k
    have : i = (input 0).draws := by
      simp only [Demo.third, Demo.second, Demo.first, waits, gets, List.cons_append, List.nil_append, List.mem_cons,
        List.not_mem_nil, or_false] at he
      rcases he with rfl | rfl | rfl | rfl | rfl | rfl | rfl | rfl | rfl | rfl | rfl | rfl <;> cases hi <;> rfl
    rw [this]
    show Spec.Draw 31 1
    unfold Spec.Draw; decide
  · intro pdu user level timeout period t0 r0 i he
    simp only [Demo.third, Demo.second, Demo.first, waits, gets, List.cons_append, List.nil_append, List.mem_cons,
      VEvent.send.injEq, reduceCtorEq, List.not_mem_nil, or_false] at he
    obtain ⟨rfl, -, rfl, -⟩ := he
    exact ⟨empty_sendable, by decide⟩

/-- Non-vacuity of C94: every hypothesis is met, in turn, by an authenticated request of a manager that knows no engine ID; the thread in
`wait()` ends with the bindings of the response. -/
theorem C94_example :
    (after demoCfg (demo none) (Demo.third ++ [.hear (datagram authNoPriv 3 [1] [97] aResponse) 0, deliver 0, at_ 0 0, at_ 0 0])).threads
      0 = .done 0 (.bindings aResponse.bindings) := by
  have hc := demo_createdOn none (.inl rfl)
  have hs := demo_seeded none (.inl rfl)
  have p2 : Possible Demo.second := possible_left (b := gets _ 0 _ _ _) third_possible
  have p1 : Possible Demo.first := possible_left (b := gets _ 0 _ _ _) p2
  have e1 : (demo none).engineID = none ∧
      (after demoCfg (demo none) Demo.first).mgr.fails.length = 0 ∧ (after demoCfg (demo none) Demo.second).mgr.fails.length = 0 ∧
      (after demoCfg (demo none) Demo.third).mgr.fails.length = 0 ∧
      (after demoCfg (demo none) Demo.third).mgr.sent.map Demo.marks =
        [some ((3, true, authNoPriv), ([1], [97])), some ((2, true, authNoPriv), ([1], [97])), some ((1, true, noAuthNoPriv), ([], []))] := by
    decide +kernel
  obtain ⟨m1, f1, f2, f3, marks⟩ := e1
  rw [List.length_eq_zero_iff] at f1 f2 f3
  obtain ⟨d0, s0, -, k⟩ := C94_unknown hc hs (by decide) m1 ⟨.getRequest, 0, 0, 0, []⟩ [97] authNoPriv 10 1 0 1 (input 0) 0 (input 0) (input 0)
    (by show (0 : ℚ) < 0 + 10; norm_num) (by show (0 : ℚ) < min (0 + 10) (0 + 1); norm_num) Demo.first rfl p1 f1
  obtain ⟨d1, q, id, s1, -, -, -, -, -, k⟩ :
      ∃ d1 q id, (after demoCfg (demo none) Demo.second).mgr.sent = [d1, d0] ∧ _ ∧ _ ∧ _ ∧ _ ∧ _ ∧ _ := by
    refine k (datagram noAuthNoPriv 1 [1] [] (aReport unknownEngineIDs)) 0
      (received noAuthNoPriv 1 [1] [] (aReport unknownEngineIDs)) (input 0) (input 0) (input 0) (read_as (by decide +kernel)) ?_
      ⟨rfl, _, _, rfl, rfl⟩ p2 f2
    have : (after demoCfg (demo none) Demo.first).mgr.sent.map Demo.marks = [some ((1, true, noAuthNoPriv), ([], []))] := by
      decide +kernel
    rw [s0] at this
    simp only [List.map_cons, List.map_nil, List.cons.injEq, and_true] at this
    exact answer_to this rfl rfl rfl (.inl rfl)
  obtain ⟨d2, s2, -, -, k⟩ : ∃ d2, (after demoCfg (demo none) Demo.third).mgr.sent = d2 :: (after demoCfg (demo none) Demo.second).mgr.sent ∧
      _ ∧ _ ∧ _ := by
    refine k (datagram authNoPriv 2 [1] [97] (aReport notInTimeWindows)) 0
      (received authNoPriv 2 [1] [97] (aReport notInTimeWindows)) (input 0) (input 0) (input 0) (read_as (by decide +kernel)) ?_
      ⟨rfl, _, _, rfl, rfl⟩ rfl third_possible f3
    have : (after demoCfg (demo none) Demo.second).mgr.sent.map Demo.marks =
        [some ((2, true, authNoPriv), ([1], [97])), some ((1, true, noAuthNoPriv), ([], []))] := by
      decide +kernel
    rw [s1] at this
    simp only [List.map_cons, List.map_nil, List.cons.injEq, and_true] at this
    exact answer_to this.1 rfl rfl rfl (.inl rfl)
  have := k (datagram authNoPriv 3 [1] [97] aResponse) 0 (received authNoPriv 3 [1] [97] aResponse) (input 0) (input 0) (input 0)
    (read_as (by decide +kernel)) ?_ rfl
  · exact this
  · rw [s2, s1] at marks
    simp only [List.map_cons, List.map_nil, List.cons.injEq, and_true] at marks
    exact answer_to marks.1 rfl rfl rfl (.inr ⟨rfl, rfl, rfl, ⟨fun _ => rfl, fun _ h => h⟩⟩)

end Snmp
