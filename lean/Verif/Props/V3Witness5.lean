import Verif.Props.V3Deliver
import Verif.Props.V3Witness3
import Verif.Props.V3Witness4
/-! # C87: examples -/

namespace Snmp

open VSys Spec Demo

variable {cfg : VCfg} {m0 : VMgr}

/-- A step that is not a `collect` ends a `wait()` only if it is a step of the waiting thread. -/
theorem not_ends (hc : Created cfg m0) (h : List VEvent) (e : VEvent) (r : Nat) (h1 : e ≠ .collect r)
    (h2 : ∀ t i, e = .step t i → ∀ o, (after cfg m0 (h ++ [e])).threads t ≠ .done r o) :
    ¬ Ends (after cfg m0 h) (after cfg m0 (h ++ [e])) e r := by
  rintro (h3 | ⟨t, o, h3, h4⟩)
  · exact h1 h3
  · rcases step_goes hc h e t with hg | ⟨r', he, hg⟩ | ⟨i, f, he, -, -⟩
    · exact h4 (hg ▸ h3)
    · rw [h3] at hg; cases hg
    · exact h2 t i he o h3

theorem split_cons {α : Type} {x : α} {l a b : List α} {e : α} (h : x :: l = a ++ e :: b) :
    a = [] ∧ e = x ∧ b = l ∨ ∃ a', a = x :: a' ∧ l = a' ++ e :: b := by
  cases a with
  | nil => simp only [List.nil_append, List.cons.injEq] at h; exact .inl ⟨rfl, h.1.symm, h.2.symm⟩
  | cons y a' => simp only [List.cons_append, List.cons.injEq] at h; exact .inr ⟨a', by rw [h.1], h.2⟩

theorem read_as {u : Usm} {w : Bytes} {stamp : ℚ} {x : V3Incoming}
    (h : ((V3Message.decode (.bytes w)).toOption.bind fun y => (u.processIncoming cfg.backend cfg.crypto y stamp).1.toOption.map
      fun y' => (y'.header, y'.scopedPDU, y'.securityEngineID, y'.securityName)) =
      some (x.header, some x.scopedPDU, some x.securityEngineID, some x.securityName)) :
    ReadAs cfg u w stamp x := by
  unfold ReadAs
  cases h1 : V3Message.decode (.bytes w) with
  | error e => rw [h1] at h; cases h
  | ok y =>
    rw [h1] at h
    cases h2 : (u.processIncoming cfg.backend cfg.crypto y stamp).1 with
    | error e => simp only [Except.toOption, Option.bind_some] at h; rw [h2] at h; cases h
    | ok y' =>
      simp only [Except.toOption, Option.bind_some] at h
      rw [h2] at h
      simp only [Option.map_some, Option.some.injEq, Prod.mk.injEq] at h
      exact ⟨y, y', rfl, h2, h⟩

/-- The fields of a datagram that matter for an answer. -/
theorem answer_to {w : Bytes} {x : V3Incoming} {id : Int} {e n : Bytes} {level : SecurityLevel}
    (h : ((V3Message.decode (.bytes w)).toOption.bind fun y => (UsmParams.decode y.securityParameters).toOption.map
      fun p => ((y.header.id, y.header.flags.reportable, y.header.flags.level), (p.engineID, p.userName))) =
      some ((id, true, level), (e, n)))
    (h1 : x.header.id = id) (h2 : x.securityName = n) (h3 : x.scopedPDU.contextName = [])
    (h4 : x.scopedPDU.pdu.type = .report ∨ x.scopedPDU.pdu.type = .response ∧ x.securityEngineID = e ∧
      x.scopedPDU.contextEngineID = e ∧ AtLeast x.header.flags.level level) : AnswerTo w x := by
  cases hy : V3Message.decode (.bytes w) with
  | error e => rw [hy] at h; cases h
  | ok y =>
    rw [hy] at h
    simp only [Except.toOption, Option.bind_some] at h
    cases hp : UsmParams.decode y.securityParameters with
    | error e => rw [hp] at h; cases h
    | ok p =>
      rw [hp] at h
      simp only [Option.map_some, Option.some.injEq, Prod.mk.injEq] at h
      obtain ⟨⟨e1, e2, e3⟩, e4, e5⟩ := h
      exact ⟨y, p, hy, hp, e2, by rw [h1, e1], by rw [h2, e5], h3, by rw [e3, e4]; exact h4⟩

/-- A single request with an empty PDU can occur. -/
theorem issue_possible (now timeout period : ℚ) (level : SecurityLevel) (hl : level.priv = true → level.auth = true)
    (chan : Option PyErr) : Possible [Demo.issue now timeout period level chan] := by
  refine ⟨?_, ?_⟩
  · intro e he i hi k
    simp only [List.mem_singleton] at he
    subst he
    cases hi
    show Spec.Draw 31 1
    unfold Spec.Draw; decide
  · intro pdu user level timeout period t0 r0 i he
    simp only [List.mem_singleton, Demo.issue, VEvent.send.injEq] at he
    obtain ⟨rfl, -, rfl, -⟩ := he
    exact ⟨empty_sendable, hl⟩

/-- Non-vacuity of C87: an authenticated request is sent, a thread sleeps in `wait()` on it; a response with the
message's ID arrives, and `wait()` returns its bindings. -/
theorem C87_example :
    let e := Demo.issue 0 10 1 authNoPriv
    let h2 := [.wait 0 0, at_ 0 0, at_ 0 0]
    let x := received authNoPriv 1 [1] [97] aResponse
    let w := datagram authNoPriv 1 [1] [97] aResponse
    ∃ d, (after demoCfg (demo (some [1])) [e]).mgr.sent = d :: (after demoCfg (demo (some [1])) []).mgr.sent ∧
      StillWaited demoCfg (demo (some [1])) [e] h2 d.request ∧ AnswerTo d.wire x ∧
      ReadAs demoCfg (after demoCfg (demo (some [1])) ([e] ++ h2)).mgr.usm w 0 x ∧
      (after demoCfg (demo (some [1])) ([e] ++ h2 ++ [.hear w 0, deliver 0, at_ 0 0, at_ 0 0])).threads 0 =
        .done 0 (.bindings aResponse.bindings) := by
  intro e h2 x w
  have hc := demo_createdOn (some [1]) (.inr rfl)
  have e1 : (after demoCfg (demo (some [1])) []).mgr.sent.length = 0 ∧
      (after demoCfg (demo (some [1])) [e]).mgr.sent.map (fun d => (d.request, d.message)) = [(0, 0)] ∧
      (after demoCfg (demo (some [1])) [e]).mgr.sent.map (fun d => (V3Message.decode (.bytes d.wire)).toOption.bind fun y =>
        (UsmParams.decode y.securityParameters).toOption.map
          fun p => ((y.header.id, y.header.flags.reportable, y.header.flags.level), (p.engineID, p.userName))) =
        [some ((1, true, authNoPriv), ([1], [97]))] := by decide +kernel
  obtain ⟨h1, h3, h4⟩ := e1
  rw [List.length_eq_zero_iff] at h1
  obtain ⟨d, hd⟩ : ∃ d, (after demoCfg (demo (some [1])) [e]).mgr.sent = [d] := by
    cases hs : (after demoCfg (demo (some [1])) [e]).mgr.sent with
    | nil => rw [hs] at h3; cases h3
    | cons d l =>
      rw [hs] at h3
      cases l with
      | nil => exact ⟨d, rfl⟩
      | cons _ _ => simp at h3
  rw [hd] at h3 h4
  simp only [List.map_cons, List.map_nil, List.cons.injEq, Prod.mk.injEq, and_true] at h3
  simp only [List.map_cons, List.map_nil, List.cons.injEq, and_true] at h4
  have hsent : (after demoCfg (demo (some [1])) ([] ++ [e])).mgr.sent = d :: (after demoCfg (demo (some [1])) []).mgr.sent := by
    rw [h1]; exact hd
  have e2 : (after demoCfg (demo (some [1])) ([e] ++ [.wait 0 0] ++ [at_ 0 0])).threads 0 = .body 0 ∧
      (after demoCfg (demo (some [1])) ([e] ++ h2)).threads 0 = .sleep 0 1 0 ∧
      (after demoCfg (demo (some [1])) ([e] ++ h2)).listener = .idle ∧
      (after demoCfg (demo (some [1])) ([e] ++ h2)).mgr.locked = false ∧
      ((after demoCfg (demo (some [1])) ([e] ++ h2)).mgr.reqs 0).map VReq.event = some false ∧
      ((after demoCfg (demo (some [1])) ([e] ++ h2 ++ [.hear w 0])).mgr.processResponse demoCfg x
        (fun _ => 0)).1.isOk = true := by decide +kernel
  obtain ⟨k1, k2, k3, k4, k5, k6⟩ := e2
  have hstill : StillWaited demoCfg (demo (some [1])) [e] h2 d.request := by
    intro a e' b hab
    rcases split_cons hab with ⟨ha, he, -⟩ | ⟨a1, ha, hab⟩
    · rw [ha, he]; exact not_ends hc.created _ _ _ (by simp) (by simp)
    rw [ha]
    rcases split_cons hab with ⟨ha, he, -⟩ | ⟨a2, ha, hab⟩
    · rw [ha, he]
      refine not_ends hc.created ([e] ++ [.wait 0 0]) (at_ 0 0) _ (by simp [at_]) (fun t i ht o => ?_)
      injection ht with ht; subst ht; rw [k1]; simp
    rw [ha]
    rcases split_cons hab with ⟨ha, he, -⟩ | ⟨a3, ha, hab⟩
    · rw [ha, he]
      refine not_ends hc.created ([e] ++ [.wait 0 0, at_ 0 0]) (at_ 0 0) _ (by simp [at_]) (fun t i ht o => ?_)
      injection ht with ht; subst ht
      have : [e] ++ [VEvent.wait 0 0, at_ 0 0] ++ [at_ 0 0] = [e] ++ h2 := rfl
      rw [this, k2]; simp
    · simp at hab
  have hans : AnswerTo d.wire x := answer_to h4 rfl rfl rfl (.inr ⟨rfl, rfl, rfl, ⟨fun _ => rfl, fun _ h => h⟩⟩)
  have hread : ReadAs demoCfg (after demoCfg (demo (some [1])) ([e] ++ h2)).mgr.usm w 0 x :=
    read_as (by decide +kernel)
  refine ⟨d, hsent, hstill, hans, hread, ?_⟩
  cases hq : (after demoCfg (demo (some [1])) ([e] ++ h2)).mgr.reqs 0 with
  | none => rw [hq] at k5; cases k5
  | some q =>
    rw [hq] at k5
    have hok : ((after demoCfg (demo (some [1])) ([e] ++ h2 ++ [.hear w 0])).mgr.processResponse demoCfg x
        (input 0).seed).1 = .ok () := by
      show ((after demoCfg (demo (some [1])) ([e] ++ h2 ++ [.hear w 0])).mgr.processResponse demoCfg x
        (fun _ => 0)).1 = .ok ()
      generalize ((after demoCfg (demo (some [1])) ([e] ++ h2 ++ [.hear w 0])).mgr.processResponse demoCfg x
        (fun _ => 0)).1 = res at k6 ⊢
      cases res with
      | error e => cases k6
      | ok u => rfl
    have := C87_wait hc (demo_seeded (some [1]) (.inr rfl)) (by decide) [] e h2 (issue_possible _ _ _ _ (by decide) _) d hsent hstill w 0 x k3 hread hans rfl k4
      (input 0) hok q (by rw [h3.1]; exact hq) (by simpa using k5) 0 1 0 (by rw [h3.1]; exact k2) (input 0) (input 0)
    rw [h3.1] at this
    exact this

end Snmp
