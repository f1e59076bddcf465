import Verif.Props.V3Demo
import Verif.Props.V3Sent
/-! # Examples for C79 and later -/

namespace Snmp

open VSys Spec Demo

theorem Spec.demo_createdOn (engineID : Option Bytes) (h : engineID = none ∨ engineID = some [1]) :
    CreatedOn demoCfg demoUsers (demo engineID) := by
  have ok : ∀ {α : Type} {x : Res α}, x.isOk = true → ∃ m, x = .ok m := by
    intro α x hx
    cases x with
    | error e => cases hx
    | ok m => exact ⟨m, rfl⟩
  refine ⟨flatCrypto_ok, engineID, 1, Cache.new 31 false 1, 0, fun _ => 0, (fun _ _ h => by cases h), ?_⟩
  obtain ⟨m, hm⟩ : ∃ m, VMgr.create demoCfg (Usm.after demoCfg.backend demoCfg.crypto demoUsers) engineID 1
      (Cache.new 31 false 1) 0
      (fun _ => 0) = .ok m := ok (by rcases h with rfl | rfl <;> decide +kernel)
  have : demo engineID = m := by unfold demo; rw [hm]
  rw [this]; exact hm

theorem Spec.demo_seeded (engineID : Option Bytes) (h : engineID = none ∨ engineID = some [1]) :
    Seeded (demo engineID) := by
  refine ⟨1, 0, ⟨by decide, by decide⟩, ?_⟩
  rcases h with rfl | rfl <;> decide +kernel

/-- Non-vacuity of C79: a request with privacy to an unknown engine; the manager sends a discovery message, and after a
report the request. The hypotheses hold, and both kinds of datagram are in the list. -/
theorem C79_example :
    let h := [Demo.issue 0 10 1 authPriv, arrives 0 noAuthNoPriv 1 [1] [] (aReport usmStatsUnknownEngineIDs), deliver 0]
    let s := after demoCfg (demo none) h
    CreatedOn demoCfg demoUsers (demo none) ∧ Seeded (demo none) ∧ 484 ≤ demoCfg.maxSize ∧ Possible h ∧
    s.mgr.sent.map Sent.request = [0, 0] ∧ s.mgr.sent.map Sent.message = [1, 0] ∧
    s.mgr.sent.map (fun d => match V3Message.decode (.bytes d.wire) with
      | .error _ => none
      | .ok x => some x.header.flags.level) = [some authPriv, some noAuthNoPriv] := by
  intro h s
  refine ⟨demo_createdOn _ (.inl rfl), demo_seeded _ (.inl rfl), by decide, ⟨?_, ?_⟩, by decide +kernel⟩
  · intro e he i hi k
    have : i = (input 0).draws := by
      simp only [h, Demo.issue, arrives, deliver, List.mem_cons, List.not_mem_nil, or_false] at he
      rcases he with rfl | rfl | rfl <;> simp [drawn, inputs] at hi <;> exact hi.symm
    subst this
    exact (⟨by decide, by decide⟩ : Spec.Draw 31 1)
  · intro pdu user level timeout period t0 r0 i hi
    simp only [h, Demo.issue, arrives, deliver, List.mem_cons, List.not_mem_nil, or_false, reduceCtorEq,
      VEvent.send.injEq] at hi
    obtain ⟨rfl, rfl, rfl, -⟩ := hi
    exact ⟨empty_sendable, fun _ => rfl⟩

end Snmp
