import Verif.Props.V3Discovery
/-!
# C56: which exception is made of a report
-/

namespace Snmp

open VSys VMgr

variable {cfg : VCfg} {m0 : VMgr}

/-! ## Specification -/

/-- The exception class for a report that names the object `name` (RFC 3414, section 5: the instances of the usmStats
counters are 1.3.6.1.6.3.15.1.1.1.0 to 1.3.6.1.6.3.15.1.1.6.0). There is none for notInTimeWindows (2) and
unknownEngineIDs (4), which make the manager send the request again. -/
def Spec.reportClass (name : List Nat) : Option ReportKind :=
  if name = [1, 3, 6, 1, 6, 3, 15, 1, 1, 1, 0] then some .unsupportedSecLevel
  else if name = [1, 3, 6, 1, 6, 3, 15, 1, 1, 2, 0] then none
  else if name = [1, 3, 6, 1, 6, 3, 15, 1, 1, 3, 0] then some .unknownUserName
  else if name = [1, 3, 6, 1, 6, 3, 15, 1, 1, 4, 0] then none
  else if name = [1, 3, 6, 1, 6, 3, 15, 1, 1, 5, 0] then some .wrongDigest
  else if name = [1, 3, 6, 1, 6, 3, 15, 1, 1, 6, 0] then some .decryptionError
  else some .unrecognized

/-- In the step `e` the listening thread hands `x` over to the request `r`, which still exists. -/
def Spec.HandsTo (s : VSys) (e : VEvent) (r : Nat) (x : V3Incoming) : Prop :=
  ∃ i m msg, e = .listen i ∧ s.listener = .push m x ∧ s.mgr.msgs m = some msg ∧ msg.request = r ∧ (s.mgr.deref r).isSome

/-! ## Proofs -/

/-- **C56.** The exception made of a report: its class is determined by the object named first, which it carries; the
two classes whose text contains the user name need one that is valid UTF-8. -/
theorem C56_class (s : VSys) (e : VEvent) (r : Nat) (x : V3Incoming) (ex : Report) :
    Spec.ReportsError cfg s e r x ex ↔
      Spec.HandsTo s e r x ∧ Spec.IsReport x ∧ x.scopedPDU.pdu.bindings.head? = some ex.binding ∧
      Spec.reportClass ex.binding.name = some ex.kind ∧
      (ex.kind = .unknownUserName ∨ ex.kind = .wrongDigest → cfg.utf8 x.securityName = true) := by
  have hint : x.scopedPDU.pdu.type.isInternal = true ↔ Spec.IsReport x := by
    unfold Spec.IsReport
    cases x.scopedPDU.pdu.type <;> simp [PduType.isInternal]
  have hmk : ∀ v, (v.name ≠ Spec.unknownEngineIDs ∧ v.name ≠ Spec.notInTimeWindows ∧
      makeReport cfg.utf8 x.securityName v = .ok ex) ↔ (v = ex.binding ∧ Spec.reportClass v.name = some ex.kind ∧
      (ex.kind = .unknownUserName ∨ ex.kind = .wrongDigest → cfg.utf8 x.securityName = true)) := by
    intro v
    obtain ⟨k, b⟩ := ex
    unfold makeReport Spec.reportClass
    simp only [Spec.unknownEngineIDs, Spec.notInTimeWindows, usmStatsUnsupportedSecLevels,
      usmStatsUnknownUserNames, usmStatsWrongDigests, usmStatsDecryptionErrors, usmStats, List.cons_append, List.nil_append]
    by_cases h1 : v.name = [1, 3, 6, 1, 6, 3, 15, 1, 1, 1, 0]
    · simp [h1, and_comm]; aesop
    by_cases h2 : v.name = [1, 3, 6, 1, 6, 3, 15, 1, 1, 2, 0]
    · simp [h2]
    by_cases h3 : v.name = [1, 3, 6, 1, 6, 3, 15, 1, 1, 3, 0]
    · simp [h3]; aesop
    by_cases h4 : v.name = [1, 3, 6, 1, 6, 3, 15, 1, 1, 4, 0]
    · simp [h4]
    by_cases h5 : v.name = [1, 3, 6, 1, 6, 3, 15, 1, 1, 5, 0]
    · simp [h5]; aesop
    by_cases h6 : v.name = [1, 3, 6, 1, 6, 3, 15, 1, 1, 6, 0]
    · simp [h6]; aesop
    simp [h1, h2, h3, h4, h5, h6]; aesop
  constructor
  · rintro ⟨i, m, msg, v, rest, h1, h2, h3, h4, h5, h6, h7, h8⟩
    obtain ⟨rfl, k1, k2⟩ := (hmk v).1 h8
    exact ⟨⟨i, m, msg, h1, h2, h3, h4, h5⟩, hint.1 h6, by rw [h7]; rfl, k1, k2⟩
  · rintro ⟨⟨i, m, msg, h1, h2, h3, h4, h5⟩, h6, h7, h8⟩
    cases hb : x.scopedPDU.pdu.bindings with
    | nil => rw [hb] at h7; cases h7
    | cons v rest =>
      rw [hb] at h7
      injection h7 with h7
      subst h7
      exact ⟨i, m, msg, ex.binding, rest, h1, h2, h3, h4, h5, hint.2 h6, hb, (hmk ex.binding).2 ⟨rfl, h8⟩⟩

/-- **C56.** If `wait()` raises an error that was reported, then that error is of the class for the object named by a
report handed to the request, and not the one for notInTimeWindows or unknownEngineIDs. -/
theorem C56_raised (hc : Spec.Created cfg m0) (h : List VEvent) (e : VEvent) (t r : Nat) (ex : Report)
    (h0 : ¬ ∃ r' o', (after cfg m0 h).threads t = .done r' o')
    (h1 : (after cfg m0 (h ++ [e])).threads t = .done r (.reported ex)) :
    ∃ h1 e1 h2 x, h = h1 ++ e1 :: h2 ∧ Spec.HandsTo (after cfg m0 h1) e1 r x ∧ Spec.IsReport x ∧
      x.scopedPDU.pdu.bindings.head? = some ex.binding ∧ Spec.reportClass ex.binding.name = some ex.kind := by
  obtain ⟨q, x, -, ⟨k1, e1, k2, hk, hr⟩, -⟩ := C56_outcome hc h e t r ex h0 h1
  obtain ⟨a, b, c, d, -⟩ := (C56_class _ _ _ _ _).1 hr
  exact ⟨k1, e1, k2, x, hk, a, b, c, d⟩

end Snmp
