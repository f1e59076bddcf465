import Verif.Compare
import Verif.Props.Message
/-!
# Comparison of values: C91, C92
-/

namespace Snmp

/-! ## C91: equality -/

/-- Injectivity of the outer layer. -/
theorem Ber.encode_inj {t u : Tag} {a b e : Bytes} (h : Ber.encode t a = .ok e) (h' : Ber.encode u b = .ok e) :
    t = u ∧ a = b := by
  have h1 := (Ber.encode_inv h).2 []
  have h2 := (Ber.encode_inv h').2 []
  rw [h1] at h2
  simp only [Option.some.injEq, Prod.mk.injEq] at h2
  exact ⟨h2.1, h2.2.1⟩

theorem Value.pyEq_of_canon {v w : Value} (h : v.canon = w.canon) : v.pyEq w = true := by
  cases v with
  | int t n =>
    cases w with
    | int u m =>
      cases t <;> cases u <;> simp_all [Value.canon, Value.pyEq, IntType.tag]
    | _ => cases t <;> cases h
  | _ =>
    cases w with
    | int u m => cases u <;> cases h
    | _ => first | (cases h; simp [Value.pyEq]) | cases h

theorem Value.encode_of_pyEq {v w : Value} (h : v.pyEq w = true) : v.encode = w.encode := by
  cases v with
  | int t n =>
    cases w with
    | int u m =>
      simp only [Value.pyEq, Bool.and_eq_true, beq_iff_eq] at h
      obtain ⟨rfl, h⟩ := h
      simp [Value.encode, Value.type, SmiType.tag, h, Value.serialize]
    | _ => simp [Value.pyEq] at h
  | _ =>
    cases w <;> first | rfl | (simp only [Value.pyEq, beq_iff_eq, Bool.false_eq_true] at h; subst h; rfl) | (simp [Value.pyEq] at h)

/-- A value a user can put into a variable binding and that the wire can represent (as in C20). -/
structure Spec.SendableValue (v : Value) : Prop where
  ok : v.Constructible
  smi : ∀ n, v ≠ .int .integer n
  survives : ∀ o, v = .oid o → Spec.Survives o

theorem Spec.SendableValue.portable {v : Value} (h : Spec.SendableValue v) : v.Portable := by
  refine ⟨h.ok, ?_, ?_⟩
  · intro o ho
    have hc := h.ok
    rw [ho] at hc
    exact (survives_iff ((Oid.new_ofNat_iff o o).1 hc).1).1 (h.survives o ho)
  · intro n hn; exact absurd hn (h.smi n)

theorem Spec.Sendable.value {v : VarBind} (h : Spec.Sendable v) : Spec.SendableValue v.value :=
  ⟨h.valueOk, h.valueSmi, h.valueSurvives⟩

/-- **C91** for values: `==` says the same as comparing encodings. Missing: OIDs that do not survive encoding
(`C91_false`). -/
theorem C91_values_partial (v w : Value) (hv : Spec.SendableValue v) (hw : Spec.SendableValue w) (e f : Bytes)
    (he : v.encode = .ok e) (hf : w.encode = .ok f) : v.pyEq w = true ↔ e = f := by
  constructor
  · intro h
    rw [Value.encode_of_pyEq h, hf] at he
    exact (Except.ok.inj he).symm
  · rintro rfl
    obtain ⟨a, ha, hae⟩ := asn1Encode_ok he
    obtain ⟨b, hb, hbe⟩ := asn1Encode_ok hf
    obtain ⟨ht, rfl⟩ := Ber.encode_inj hae hbe
    have h1 := Value.canon_deserialize hv.portable ha (Asn1Data.valid_bytes a) rfl
    have h2 := Value.canon_deserialize hw.portable hb (Asn1Data.valid_bytes a) rfl
    have hty : v.canon.type = w.canon.type := by
      have := Value.lookup_type v
      rw [ht, Value.lookup_type w] at this
      exact (Except.ok.inj this).symm
    rw [hty, h2] at h1
    exact Value.pyEq_of_canon (Except.ok.inj h1).symm

/-- `==` on values is an equivalence, for all values. -/
theorem C91_values_equivalence :
    (∀ v : Value, v.pyEq v = true) ∧ (∀ v w : Value, v.pyEq w = w.pyEq v) ∧
    (∀ u v w : Value, u.pyEq v = true → v.pyEq w = true → u.pyEq w = true) := by
  refine ⟨fun v => ?_, fun v w => ?_, fun u v w h k => ?_⟩
  · cases v <;> simp [Value.pyEq]
  · cases v <;> cases w <;> simp [Value.pyEq, Bool.beq_comm]
  · cases u <;> cases v <;> simp only [Value.pyEq, Bool.false_eq_true] at h <;> cases w <;>
      simp_all [Value.pyEq]

theorem VarBind.pyEq_iff (a b : VarBind) : a.pyEq b = true ↔ a.name = b.name ∧ a.value.pyEq b.value = true := by
  simp [VarBind.pyEq, Value.pyEq]

theorem VarBindList.pyEq_iff (l m : List VarBind) :
    VarBindList.pyEq l m = true ↔ List.Forall₂ (fun a b => a.pyEq b = true) l m := by
  induction l generalizing m with
  | nil =>
    cases m with
    | nil => simp [VarBindList.pyEq]
    | cons b m => exact ⟨fun h => by simp [VarBindList.pyEq] at h, nofun⟩
  | cons a l ih =>
    cases m with
    | nil => exact ⟨fun h => by simp [VarBindList.pyEq] at h, nofun⟩
    | cons b m =>
      rw [List.forall₂_cons, ← ih m]
      unfold VarBindList.pyEq
      by_cases h : l.length = m.length
      · simp [h]
      · simp [h]

theorem VarBind.encode_of_pyEq {a b : VarBind} (h : a.pyEq b = true) : a.encode = b.encode := by
  obtain ⟨h1, h2⟩ := (VarBind.pyEq_iff a b).1 h
  simp only [VarBind.encode, VarBind.serialize, h1, Value.encode_of_pyEq h2]

theorem VarBindList.encode_of_pyEq {l m : List VarBind} (h : VarBindList.pyEq l m = true) :
    VarBindList.encode l = VarBindList.encode m := by
  have key : ∀ {l m : List VarBind}, List.Forall₂ (fun a b => a.pyEq b = true) l m →
      joinEncodings VarBind.encode l = joinEncodings VarBind.encode m := by
    intro l m h
    induction h with
    | nil => rfl
    | cons hab _ ih => simp only [joinEncodings, VarBind.encode_of_pyEq hab, ih]
  simp only [VarBindList.encode, key ((VarBindList.pyEq_iff l m).1 h)]

theorem VarBindList.pyEq_of_canon {l m : List VarBind} (h : l.map VarBind.canon = m.map VarBind.canon) :
    VarBindList.pyEq l m = true := by
  rw [VarBindList.pyEq_iff]
  induction l generalizing m with
  | nil => cases m with
    | nil => exact .nil
    | cons b m => cases h
  | cons a l ih => cases m with
    | nil => cases h
    | cons b m =>
      simp only [List.map_cons, List.cons.injEq] at h
      refine .cons ?_ (ih h.2)
      rw [VarBind.pyEq_iff]
      have h1 := congrArg VarBind.name h.1
      have h2 := congrArg VarBind.value h.1
      exact ⟨h1, Value.pyEq_of_canon h2⟩

/-- **C91** for lists of variable bindings (a single one is the list of it). -/
theorem C91_bindings_partial (l m : List VarBind) (hl : ∀ v ∈ l, Spec.Sendable v) (hm : ∀ v ∈ m, Spec.Sendable v)
    (e f : Bytes) (he : VarBindList.encode l = .ok e) (hf : VarBindList.encode m = .ok f) :
    VarBindList.pyEq l m = true ↔ e = f := by
  constructor
  · intro h
    rw [VarBindList.encode_of_pyEq h, hf] at he
    exact (Except.ok.inj he).symm
  · rintro rfl
    obtain ⟨t1, h1, -⟩ := VarBindList.decode_encode (fun v hv => (hl v hv).portable) he (Asn1Data.valid_bytes e)
      (rest := []) (by simp [Asn1Data.copy]) (leftovers := false) (.inr rfl) true
    obtain ⟨t2, h2, -⟩ := VarBindList.decode_encode (fun v hv => (hm v hv).portable) hf (Asn1Data.valid_bytes e)
      (rest := []) (by simp [Asn1Data.copy]) (leftovers := false) (.inr rfl) true
    rw [h1] at h2
    have := congrArg Prod.fst (Except.ok.inj h2)
    exact VarBindList.pyEq_of_canon this

theorem IntType.new_integer32 {n : Int} (h : IntType.integer32.inRange n = true) : IntType.integer32.new n = .ok n := by
  simp [IntType.new, h]

theorem Pdu.fieldEq_ok {a b : Int} (ha : IntType.integer32.inRange a = true)
    (hb : IntType.integer32.inRange b = true) : Pdu.fieldEq a b = .ok (a == b) := by
  simp [Pdu.fieldEq, IntType.new_integer32 ha, IntType.new_integer32 hb, Except.bind, Value.pyEq]

/-- The fields of a PDU that encodes are in range. -/
theorem Pdu.encode_fields {p : Pdu} {e : Bytes} (h : p.encode = .ok e) :
    IntType.integer32.inRange p.requestID = true ∧ IntType.integer32.inRange p.first = true ∧
    IntType.integer32.inRange p.second = true := by
  obtain ⟨b, hb, -⟩ := asn1Encode_ok h
  unfold Pdu.serialize at hb
  obtain ⟨x, hx, hb⟩ := bind_ok hb
  obtain ⟨y, hy, hb⟩ := bind_ok hb
  obtain ⟨z, hz, -⟩ := bind_ok hb
  exact ⟨(encodeInteger_ok hx).1, (encodeInteger_ok hy).1, (encodeInteger_ok hz).1⟩

theorem Pdu.pyEq_ok {p q : Pdu} {e f : Bytes} (he : p.encode = .ok e) (hf : q.encode = .ok f) :
    ∃ b, p.pyEq q = .ok b ∧ (b = true ↔ p.type = q.type ∧ p.requestID = q.requestID ∧ p.first = q.first ∧
      p.second = q.second ∧ VarBindList.pyEq p.bindings q.bindings = true) := by
  obtain ⟨a1, a2, a3⟩ := Pdu.encode_fields he
  obtain ⟨b1, b2, b3⟩ := Pdu.encode_fields hf
  unfold Pdu.pyEq
  by_cases ht : p.type = q.type
  · rw [if_neg (by simp [ht]), Pdu.fieldEq_ok a1 b1]
    simp only [Except.bind]
    by_cases h1 : p.requestID = q.requestID
    · rw [if_neg (by simp [h1]), Pdu.fieldEq_ok a2 b2]
      simp only
      by_cases h2 : p.first = q.first
      · rw [if_neg (by simp [h2]), Pdu.fieldEq_ok a3 b3]
        simp only
        by_cases h3 : p.second = q.second
        · rw [if_neg (by simp [h3])]
          exact ⟨_, rfl, by simp [ht, h1, h2, h3]⟩
        · rw [if_pos (by simp [h3])]
          exact ⟨_, rfl, by simp [h3]⟩
      · rw [if_pos (by simp [h2])]
        exact ⟨_, rfl, by simp [h2]⟩
    · rw [if_pos (by simp [h1])]
      exact ⟨_, rfl, by simp [h1]⟩
  · rw [if_pos (by simp [ht])]
    exact ⟨_, rfl, by simp [ht]⟩

theorem PduType.tag_inj {t u : PduType} (h : t.tag = u.tag) : t = u := by
  cases t <;> cases u <;> first | rfl | (exact absurd h (by decide))

/-- **C91** for PDUs: comparing two PDUs that can be sent does not raise, and says the same as comparing encodings. -/
theorem C91_pdus_partial (p q : Pdu) (hp : Spec.PduSendable p) (hq : Spec.PduSendable q) (e f : Bytes)
    (he : p.encode = .ok e) (hf : q.encode = .ok f) : p.pyEq q = .ok (decide (e = f)) := by
  obtain ⟨b, h1, h2⟩ := Pdu.pyEq_ok he hf
  rw [h1]
  congr 1
  rw [Bool.eq_iff_iff, h2, decide_eq_true_iff]
  constructor
  · rintro ⟨q1, q2, q3, q4, q5⟩
    have : p.encode = q.encode := by
      simp only [Pdu.encode, Pdu.serialize, q1, q2, q3, q4, VarBindList.encode_of_pyEq q5]
    rw [this, hf] at he
    exact (Except.ok.inj he).symm
  · rintro rfl
    obtain ⟨x, -, hxe⟩ := asn1Encode_ok he
    obtain ⟨y, -, hye⟩ := asn1Encode_ok hf
    have ht := PduType.tag_inj (Ber.encode_inj hxe hye).1
    obtain ⟨t1, k1, -⟩ := Pdu.decode_encode hp.good.1 hp.good.2 he (Asn1Data.valid_bytes e)
      (rest := []) (by simp [Asn1Data.copy]) (leftovers := false) (.inr rfl) true
    obtain ⟨t2, k2, -⟩ := Pdu.decode_encode hq.good.1 hq.good.2 hf (Asn1Data.valid_bytes e)
      (rest := []) (by simp [Asn1Data.copy]) (leftovers := false) (.inr rfl) true
    rw [ht, k2] at k1
    have h := congrArg Prod.fst (Except.ok.inj k1)
    exact ⟨ht, (congrArg Pdu.requestID h).symm, (congrArg Pdu.first h).symm, (congrArg Pdu.second h).symm,
      VarBindList.pyEq_of_canon (congrArg Pdu.bindings h).symm⟩

/-- C91 is false of the OIDs 1 and 1.0, which are different but encode alike; and comparing a PDU whose request ID does
not fit raises ValueError. -/
theorem C91_false :
    (Value.oid [1]).Constructible ∧ (Value.oid [1, 0]).Constructible ∧
    (Value.oid [1]).pyEq (.oid [1, 0]) = false ∧ (Value.oid [1]).encode = (Value.oid [1, 0]).encode ∧
    (⟨.getRequest, 2 ^ 31, 0, 0, []⟩ : Pdu).pyEq ⟨.getRequest, 2 ^ 31, 0, 0, []⟩ = .error .valueError := by
  refine ⟨by decide +kernel, by decide +kernel, by decide +kernel, by decide +kernel, by decide +kernel⟩

/-- Non-vacuity: objects of two classes that are equal, and two PDUs that differ. -/
theorem C91_example :
    Spec.SendableValue (.int .unsigned32 5) ∧ Spec.SendableValue (.int .gauge32 5) ∧
    (Value.int .unsigned32 5).pyEq (.int .gauge32 5) = true ∧
    (Value.int .unsigned32 5).pyEq (.int .counter32 5) = false ∧
    (∃ e, (Value.int .unsigned32 5).encode = .ok e ∧ (Value.int .gauge32 5).encode = .ok e) ∧
    (⟨.getRequest, 7, 0, 0, []⟩ : Pdu).pyEq ⟨.getRequest, 8, 0, 0, []⟩ = .ok false ∧
    (⟨.getRequest, 7, 0, 0, []⟩ : Pdu).pyEq ⟨.getNextRequest, 7, 0, 0, []⟩ = .ok false := by
  refine ⟨⟨by decide +kernel, by simp, by simp⟩, ⟨by decide +kernel, by simp, by simp⟩, by decide, by decide,
    ⟨_, rfl, by decide +kernel⟩, by decide +kernel, by decide +kernel⟩

/-! ## C92: order of OIDs -/

/-- The order of the MIB tree (RFC 3416 section 2: "lexicographical"): `a` comes before `b` if `b` extends `a`, or if at the
first place where they differ `a` has the smaller number. -/
def Spec.Before (a b : List Nat) : Prop :=
  (∃ x t, b = a ++ x :: t) ∨ (∃ p x s y t, a = p ++ x :: s ∧ b = p ++ y :: t ∧ x < y)

/-- **C92**: `<` is the order of the MIB tree. -/
theorem C92_order (a b : List Nat) : Oid.lt a b = true ↔ Spec.Before a b := by
  unfold Oid.lt
  induction a generalizing b with
  | nil =>
    cases b with
    | nil =>
      simp only [tupleLt, Bool.false_eq_true, false_iff]
      rintro (⟨x, t, h⟩ | ⟨p, x, s, y, t, h, -⟩)
      · cases h
      · cases p <;> cases h
    | cons b y => exact ⟨fun _ => .inl ⟨b, y, rfl⟩, fun _ => rfl⟩
  | cons a x ih =>
    cases b with
    | nil =>
      simp only [tupleLt, Bool.false_eq_true, false_iff]
      rintro (⟨x, t, h⟩ | ⟨p, x, s, y, t, -, h, -⟩)
      · cases h
      · cases p <;> cases h
    | cons b y =>
      simp only [tupleLt]
      split
      · rename_i hab
        subst hab
        rw [ih]
        constructor
        · rintro (⟨z, t, h⟩ | ⟨p, z, s, w, t, h1, h2, h3⟩)
          · exact .inl ⟨z, t, by rw [h]; rfl⟩
          · exact .inr ⟨a :: p, z, s, w, t, by rw [h1]; rfl, by rw [h2]; rfl, h3⟩
        · rintro (⟨z, t, h⟩ | ⟨p, z, s, w, t, h1, h2, h3⟩)
          · simp only [List.cons_append, List.cons.injEq, true_and] at h
            exact .inl ⟨z, t, h⟩
          · cases p with
            | nil =>
              simp only [List.nil_append, List.cons.injEq] at h1 h2
              omega
            | cons c p =>
              simp only [List.cons_append, List.cons.injEq] at h1 h2
              exact .inr ⟨p, z, s, w, t, h1.2, h2.2, h3⟩
      · rename_i hab
        rw [decide_eq_true_iff]
        constructor
        · intro h
          exact .inr ⟨[], a, x, b, y, rfl, rfl, h⟩
        · rintro (⟨z, t, h⟩ | ⟨p, z, s, w, t, h1, h2, h3⟩)
          · simp only [List.cons_append, List.cons.injEq] at h
            exact absurd h.1.symm hab
          · cases p with
            | nil =>
              simp only [List.nil_append, List.cons.injEq] at h1 h2
              omega
            | cons c p =>
              simp only [List.cons_append, List.cons.injEq] at h1 h2
              exact absurd (h1.1.trans h2.1.symm) hab

/-- **C92**: of two OIDs exactly one of `a < b`, `a == b`, `b < a` holds. -/
theorem C92_total (a b : List Nat) :
    (Oid.lt a b = true ∨ (Value.oid a).pyEq (.oid b) = true ∨ Oid.lt b a = true) ∧
    ¬ (Oid.lt a b = true ∧ Oid.lt b a = true) ∧
    ((Value.oid a).pyEq (.oid b) = true → Oid.lt a b = false ∧ Oid.lt b a = false) := by
  simp only [Value.pyEq, beq_iff_eq, Oid.lt]
  induction a generalizing b with
  | nil => cases b <;> simp [tupleLt]
  | cons a x ih =>
    cases b with
    | nil => simp [tupleLt]
    | cons b y =>
      simp only [tupleLt]
      by_cases hab : a = b
      · subst hab
        simpa using ih y
      · have hba : ¬ b = a := fun h => hab h.symm
        simp only [hab, hba, if_false, decide_eq_true_iff, List.cons.injEq, false_and, false_or, false_implies, and_true]
        omega

/-- **C92**: `<` is transitive. -/
theorem C92_trans (a b c : List Nat) (h : Oid.lt a b = true) (k : Oid.lt b c = true) : Oid.lt a c = true := by
  unfold Oid.lt at *
  induction a generalizing b c with
  | nil =>
    cases c with
    | nil => cases b <;> simp [tupleLt] at h k
    | cons => rfl
  | cons a x ih =>
    cases b with
    | nil => cases h
    | cons b y =>
      cases c with
      | nil => cases k
      | cons c z =>
        simp only [tupleLt] at h k ⊢
        split at h
        · rename_i hab
          subst hab
          split at k
          · rename_i hac
            subst hac
            rw [if_pos rfl]
            exact ih _ _ h k
          · rename_i hac
            rw [if_neg hac]
            exact k
        · rename_i hab
          split at k
          · rename_i hbc
            subst hbc
            rw [if_neg hab]
            exact h
          · simp only [decide_eq_true_iff] at h k
            rw [if_neg (by omega), decide_eq_true_iff]
            omega

/-- **C92**: what lies between two OIDs of a subtree belongs to the subtree, so that walking stops correctly at the first
OID outside it. -/
theorem C92_subtree (p a b c : List Nat) (ha : p <+: a) (hc : p <+: c) (h : Oid.lt a b = true)
    (k : Oid.lt b c = true) : p <+: b := by
  unfold Oid.lt at h k
  induction p generalizing a b c with
  | nil => exact List.nil_prefix
  | cons q p ih =>
    cases a with
    | nil => simp at ha
    | cons x a =>
      cases c with
      | nil => simp at hc
      | cons z c =>
        rw [List.cons_prefix_cons] at ha hc
        obtain ⟨rfl, ha⟩ := ha
        obtain ⟨rfl, hc⟩ := hc
        cases b with
        | nil => cases h
        | cons y b =>
          simp only [tupleLt] at h k
          by_cases hq : q = y
          · subst hq
            rw [if_pos rfl] at h k
            rw [List.cons_prefix_cons]
            exact ⟨rfl, ih a b c ha hc h k⟩
          · rw [if_neg hq, decide_eq_true_iff] at h
            rw [if_neg (fun e => hq e.symm), decide_eq_true_iff] at k
            omega

/-- Non-vacuity: sysDescr < sysDescr.0 < sysObjectID, in the subtree `system`. -/
theorem C92_example : Oid.lt [1, 3, 6, 1, 2, 1, 1, 1] [1, 3, 6, 1, 2, 1, 1, 1, 0] = true ∧
    Oid.lt [1, 3, 6, 1, 2, 1, 1, 1, 0] [1, 3, 6, 1, 2, 1, 1, 2] = true ∧
    Oid.lt [1, 3, 6, 1, 2, 1, 1, 9] [1, 3, 6, 1, 2, 1, 1, 10] = true ∧
    [1, 3, 6, 1, 2, 1, 1] <+: [1, 3, 6, 1, 2, 1, 1, 1] := by decide

end Snmp
