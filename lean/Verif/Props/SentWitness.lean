import Verif.Props.SentV3
import Verif.Props.V3Witness5
/-! # C103: examples -/

namespace Snmp

open VSys Spec Demo

/-- Non-vacuity of C103_partial: the request of the user to the engine, with and without privacy, is produced, and meets the hypotheses. -/
theorem C103_example (b : Backend) (priv : Bool) :
    ∃ w s', ((Usm.after b flatCrypto Spec.setup).prepareOutgoing b flatCrypto (Spec.request priv) [1] [97] 0).1 = .ok w ∧
      s'.contextEngineID = [1] ∧ Spec.SamePdu ⟨.getRequest, 1, 0, 0, [⟨[1, 3, 6], .null⟩]⟩ s'.pdu ∧
      Spec.PeerReads flatCrypto Spec.sampleUser (Spec.request priv).header [1] 0 0 s' w ∧
      ((priv = true → b = .pycryptodome) → Spec.IsProtected flatCrypto Spec.sampleUser (Spec.request priv).header [1] 0 0 s' w) := by
  obtain ⟨w, hw⟩ := request_sent b flatCrypto flatCrypto_ok priv 0
  have hlen : ((Usm.after b flatCrypto Spec.setup).prepareOutgoing b flatCrypto (Spec.request priv) [1] [97] 0).1.toOption.map
      (fun w => decide (w.length ≤ 65535)) = some true := by
    cases b with
    | pycryptodome => cases priv <;> decide +kernel
    | openssl x => cases x <;> cases priv <;> decide +kernel
  rw [hw] at hlen
  simp only [Except.toOption, Option.map_some, Option.some.injEq, decide_eq_true_eq] at hlen
  obtain ⟨s', h1, -, h2, h3, h4⟩ := C103_partial b flatCrypto flatCrypto_ok Spec.setup Spec.sampleUser (Spec.request priv) _
    ⟨by show (0 : Int) ≤ 7; decide, by show (484 : Int) ≤ 1472; decide, fun _ => rfl⟩ rfl request_sendable
    (by
      intro v hv
      rw [List.mem_singleton] at hv
      subst hv
      exact ⟨⟨1, 3, _, rfl, by decide, by decide, by simp [firstPairOk]⟩, fun o ho => by cases ho⟩) [1] 0 w hw hlen 0 0
    (by cases b with
        | pycryptodome => cases priv <;> decide +kernel
        | openssl x => cases x <;> cases priv <;> decide +kernel)
    (fun _ => ⟨[], fun _ => 0, [.register [1] "" (fun _ => 0)], true, 1, rfl, by decide +kernel, (setup_user flatCrypto).choose_spec.choose_spec.1⟩)
  exact ⟨w, s', hw, h1, h2, h3, h4⟩

/-- Non-vacuity of C103_request_partial: a manager that knows the engine ID sends a request with privacy at once. -/
theorem C103_request_example : ∃ d hd s, (after demoCfg (demo (some [1])) [Demo.issue 0 10 1 authPriv]).mgr.sent = [d] ∧
    hd.flags.level = authPriv ∧ s.contextEngineID = [1] ∧ Spec.SamePdu ⟨.getRequest, 1, 0, 0, []⟩ s.pdu ∧
    Spec.IsProtected flatCrypto Spec.sampleUser hd [1] 0 0 s d.wire := by
  have e1 : (after demoCfg (demo (some [1])) []).mgr.sent.length = 0 ∧
      (after demoCfg (demo (some [1])) [Demo.issue 0 10 1 authPriv]).mgr.sent.map (fun d => (d.request, decide (d.wire.length ≤ 65535))) = [(0, true)] ∧
      ((after demoCfg (demo (some [1])) [Demo.issue 0 10 1 authPriv]).mgr.reqs 0).map (fun q => (q.engineID, q.userName, q.level, decide (q.pdu = ⟨.getRequest, 1, 0, 0, []⟩))) =
        some (some [1], [97], authPriv, true) := by decide +kernel
  obtain ⟨h1, h2, h3⟩ := e1
  rw [List.length_eq_zero_iff] at h1
  obtain ⟨d, hs⟩ : ∃ d, (after demoCfg (demo (some [1])) [Demo.issue 0 10 1 authPriv]).mgr.sent = [d] := by
    cases hx : (after demoCfg (demo (some [1])) [Demo.issue 0 10 1 authPriv]).mgr.sent with
    | nil => rw [hx] at h2; cases h2
    | cons d l =>
      rw [hx] at h2
      simp only [List.map_cons, List.cons.injEq, List.map_eq_nil_iff] at h2
      exact ⟨d, by rw [h2.2]⟩
  rw [hs] at h2
  simp only [List.map_cons, List.map_nil, List.cons.injEq, and_true, Prod.mk.injEq, decide_eq_true_eq] at h2
  obtain ⟨q, i, ki, k1, k2, -⟩ := C103_request_partial (demo_createdOn (some [1]) (.inr rfl)) (demo_seeded (some [1]) (.inr rfl)) (by decide) []
    (Demo.issue 0 10 1 authPriv) (issue_possible _ _ _ _ (by decide) _) d (by rw [List.nil_append, hs, h1]) h2.2
  rw [List.nil_append] at k1 k2
  rw [h2.1] at k1
  rw [k1] at h3
  simp only [Option.map_some, Option.some.injEq, Prod.mk.injEq, decide_eq_true_eq] at h3
  obtain ⟨q1, q2, q3, q4⟩ := h3
  have tk : (after demoCfg (demo (some [1])) [Demo.issue 0 10 1 authPriv]).mgr.usm.timekeeper.getEngineTime [1] i.stamp = (0, 0) := by
    cases ki
    decide +kernel
  obtain ⟨hd, s, j1, -, -, j2, -, j3, -, j4⟩ := k2 (by rw [q4]; intro v hv; cases hv) [1] q1 Spec.sampleUser (by rw [q2]; rfl)
    (fun _ => ⟨rfl, [], fun _ => 0, [], true, rfl, by decide +kernel⟩) 0 0 (by rw [q3]; exact tk)
  refine ⟨d, hd, s, hs, by rw [j1, q3], j2, ?_, j4 (fun _ => rfl)⟩
  rw [← q4]; exact j3

end Snmp
