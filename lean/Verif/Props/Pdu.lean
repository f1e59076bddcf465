import Verif.PduLemmas
import Verif.Props.Smi
/-!
# Properties C10 (VarBind, VarBindList, PDU), C20-C23
-/

set_option linter.unusedSimpArgs false

namespace Snmp

theorem ParseOnly.result {α : Type} {r : Res (α × Subbytes)} (h : ParseOnly r) :
    (∃ v tail, r = .ok (v, tail)) ∨ r = .error .parseError := by
  cases r with
  | ok x => exact .inl ⟨x.1, x.2, rfl⟩
  | error e => rw [h e rfl]; exact .inr rfl

/-- C10 for `VarBind.decode`. -/
theorem C10_varbind (d : Asn1Data) (hv : d.Valid) (leftovers copy : Bool) :
    (∃ v tail, VarBind.decode d leftovers copy = .ok (v, tail)) ∨
    VarBind.decode d leftovers copy = .error .parseError :=
  (VarBind.decode_parseOnly hv leftovers copy).result

/-- C10 for `VarBindList.decode`. -/
theorem C10_varbindlist (d : Asn1Data) (hv : d.Valid) (leftovers copy : Bool) :
    (∃ v tail, VarBindList.decode d leftovers copy = .ok (v, tail)) ∨
    VarBindList.decode d leftovers copy = .error .parseError :=
  (VarBindList.decode_parseOnly hv leftovers copy).result

/-- C10 for every PDU class. -/
theorem C10_pdu (t : PduType) (d : Asn1Data) (hv : d.Valid) (leftovers copy : Bool) :
    (∃ v tail, t.decode d leftovers copy = .ok (v, tail)) ∨
    t.decode d leftovers copy = .error .parseError :=
  (t.decode_parseOnly hv leftovers copy).result

example : (Asn1Data.bytes [0xa2, 3, 2, 1, 5]).Valid := Asn1Data.valid_bytes _

/-! ## C20 -/

/-- A variable binding a user can send: its name and value were accepted by their constructors,
the value is of an SMI class (not the bare ASN.1 `INTEGER`), and OIDs in it survive encoding. -/
structure Spec.Sendable (v : VarBind) : Prop where
  nameOk : Spec.OidOk (v.name.map Int.ofNat)
  nameSurvives : Spec.Survives v.name
  valueOk : v.value.Constructible
  valueSmi : ∀ n, v.value ≠ .int .integer n
  valueSurvives : ∀ o, v.value = .oid o → Spec.Survives o

theorem Spec.Sendable.portable {v : VarBind} (h : Spec.Sendable v) : v.Portable := by
  have hl := (oidOk_ofNat _).1 h.nameOk
  refine ⟨hl, (survives_iff hl).1 h.nameSurvives, h.valueOk, ?_, ?_⟩
  · intro o ho
    have hc := h.valueOk
    rw [ho] at hc
    exact (survives_iff ((Oid.new_ofNat_iff o o).1 hc).1).1 (h.valueSurvives o ho)
  · intro n hn; exact absurd hn (h.valueSmi n)

/-- `==` on variable bindings and PDUs (snmp/pdu.py:75-79): names equal and values equal. -/
def Spec.SameBinding (a b : VarBind) : Prop :=
  a.name = b.name ∧ a.value.pyEq b.value = true ∧ a.value.type.tag = b.value.type.tag ∧
  -- the very same class, except that Unsigned32 and Gauge32 are one ASN.1 type
  (a.value.type ≠ .int .unsigned32 → a = b)

theorem canon_same {v : VarBind} (h : Spec.Sendable v) : Spec.SameBinding v v.canon := by
  obtain ⟨name, value⟩ := v
  refine ⟨rfl, ?_, ?_, ?_⟩
  · cases value with
    | int t n => cases t <;> simp [VarBind.canon, Value.canon, Value.pyEq, IntType.tag]
    | _ => simp [VarBind.canon, Value.canon, Value.pyEq]
  · cases value with
    | int t n => cases t <;> simp [VarBind.canon, Value.canon, Value.type, SmiType.tag, IntType.tag]
    | _ => rfl
  · intro hne
    cases value with
    | int t n =>
      cases t with
      | unsigned32 => exact absurd rfl hne
      | integer => exact absurd rfl (h.valueSmi n)
      | _ => rfl
    | _ => rfl

/-- C20: every sendable binding decodes from its encoding to an equal one, whatever follows. -/
theorem C20_roundtrip (v : VarBind) (hs : Spec.Sendable v) (e rest : Bytes)
    (he : v.encode = .ok e) (d : Asn1Data) (hv : d.Valid) (hd : d.copy = e ++ rest)
    (leftovers copy : Bool) (hlo : leftovers = true ∨ rest = []) :
    ∃ w tail, VarBind.decode d leftovers copy = .ok (w, tail) ∧ tail.copy = rest ∧
      Spec.SameBinding v w := by
  obtain ⟨tail, h1, -, h3⟩ := VarBind.decode_encode hs.portable he hv hd hlo copy
  exact ⟨_, tail, h1, h3, canon_same hs⟩

/-- The tags of SMIv2 values and of the three exceptions (RFC 2578, RFC 3416). -/
def Spec.smiTags : List Tag :=
  [⟨2, false, .universal⟩, ⟨4, false, .universal⟩, ⟨5, false, .universal⟩, ⟨6, false, .universal⟩,
   ⟨0, false, .application⟩, ⟨1, false, .application⟩, ⟨2, false, .application⟩,
   ⟨3, false, .application⟩, ⟨4, false, .application⟩, ⟨6, false, .application⟩,
   ⟨0, false, .contextSpecific⟩, ⟨1, false, .contextSpecific⟩, ⟨2, false, .contextSpecific⟩]

/-- C20: a binding whose value has any other tag is refused. -/
theorem C20_unknown_tag (name : List Nat) (t : Tag) (ht : t ∉ Spec.smiTags)
    (body n x e rest : Bytes) (hn : (Value.oid name).encode = .ok n)
    (hx : Ber.encode t body = .ok x) (he : Ber.encode ⟨16, true, .universal⟩ (n ++ x) = .ok e)
    (d : Asn1Data) (hv : d.Valid) (hd : d.copy = e ++ rest) (leftovers copy : Bool) :
    VarBind.decode d leftovers copy = .error .parseError := by
  rcases C10_varbind d hv leftovers copy with ⟨w, tail, hok⟩ | h
  · exfalso
    obtain ⟨b, hb, hdes, -, hread, -⟩ := asn1Decode_ok hv hok
    obtain ⟨-, hr⟩ := Ber.encode_inv he
    rw [hd, hr rest] at hread
    simp only [Option.some.injEq, Prod.mk.injEq] at hread
    have hbc := hread.2.1.symm
    unfold VarBind.deserialize at hdes
    cases h1 : asn1Decode SmiType.oid.tag Oid.deserialize b true with
    | error e => rw [h1] at hdes; cases hdes
    | ok v1 =>
      obtain ⟨nm, tl⟩ := v1
      rw [h1] at hdes
      simp only [Except.bind] at hdes
      obtain ⟨b2, hb2, -, hwf, hread2, -⟩ := asn1Decode_ok hb h1
      obtain ⟨nb, hnb, hne⟩ := asn1Encode_ok hn
      obtain ⟨-, hr2⟩ := Ber.encode_inv hne
      rw [hbc, hr2 x] at hread2
      simp only [Option.some.injEq, Prod.mk.injEq] at hread2
      have htl := hread2.2.2.symm
      cases h2 : Ber.decode (.sub tl) none false true with
      | error e => rw [h2] at hdes; cases hdes
      | ok v2 =>
        obtain ⟨id, bd, tl2⟩ := v2
        rw [h2] at hdes
        simp only at hdes
        obtain ⟨-, -, -, hread3, -⟩ := Ber.decode_ok (Asn1Data.valid_sub hwf) h2
        obtain ⟨-, hr3⟩ := Ber.encode_inv hx
        have := hr3 []
        rw [List.append_nil] at this
        rw [show (Asn1Data.sub tl).copy = x from htl, this] at hread3
        simp only [Option.some.injEq, Prod.mk.injEq] at hread3
        rw [← hread3.1] at hdes
        have hlk : VarBind.lookup t = .error .parseError := by
          unfold VarBind.lookup
          have : VarBind.types.find? (fun s => decide (s.tag = t)) = none := by
            rw [List.find?_eq_none]
            intro s hs
            simp only [decide_eq_true_eq]
            intro hst
            apply ht
            rw [← hst]
            clear hst
            revert s
            decide
          rw [this]; rfl
        rw [hlk] at hdes
        cases hdes
  · exact h

example : Spec.Sendable ⟨[1, 3, 6, 1], .int .unsigned32 4000000000⟩ where
  nameOk := (oidOk_ofNat _).2 ((Oid.new_ofNat_iff _ _).1
    (show Oid.new ([1, 3, 6, 1].map Int.ofNat) = .ok [1, 3, 6, 1] by decide +kernel)).1
  nameSurvives := ⟨1, 3, [6, 1], rfl, by unfold Spec.firstPairOk; omega⟩
  valueOk := by decide +kernel
  valueSmi := by intro n h; cases h
  valueSurvives := by intro n h; cases h
example : (⟨[1, 3, 6, 1], .octets [1]⟩ : VarBind).encode =
    .ok [0x30, 8, 6, 3, 0x2b, 6, 1, 4, 1, 1] := by decide +kernel
example : (⟨7, false, .application⟩ : Tag) ∉ Spec.smiTags := by decide

/-! ## C21 -/

/-- Field ranges of RFC 3416: error status 0..18 and error index within the bindings, or, for
GetBulk, non-negative non-repeaters and max-repetitions. -/
def Spec.FieldsOk (p : Pdu) : Prop :=
  if p.type = .getBulkRequest then 0 ≤ p.first ∧ 0 ≤ p.second
  else (0 ≤ p.first ∧ p.first ≤ 18) ∧ (0 ≤ p.second ∧ p.second ≤ p.bindings.length)

theorem isBulk_iff (t : PduType) : t.isBulk = true ↔ t = .getBulkRequest := by
  cases t <;> simp [PduType.isBulk]

theorem specFields_iff (p : Pdu) : Spec.FieldsOk p ↔ p.FieldsOk := by
  unfold Spec.FieldsOk Pdu.FieldsOk
  by_cases h : p.type = .getBulkRequest
  · rw [if_pos h, if_pos ((isBulk_iff _).2 h)]
  · rw [if_neg h, if_neg (fun h' => h ((isBulk_iff _).1 h'))]

/-- Two lists of bindings equal item by item, in order. -/
def Spec.SameBindings (a b : List VarBind) : Prop := List.Forall₂ Spec.SameBinding a b

theorem canon_list {l : List VarBind} (h : ∀ v ∈ l, Spec.Sendable v) :
    Spec.SameBindings l (l.map VarBind.canon) := by
  induction l with
  | nil => exact .nil
  | cons v l ih =>
    exact .cons (canon_same (h v (by simp))) (ih fun w hw => h w (by simp [hw]))

/-- C21: binding lists of any length round-trip, in order. -/
theorem C21_list (l : List VarBind) (hs : ∀ v ∈ l, Spec.Sendable v) (e rest : Bytes)
    (he : VarBindList.encode l = .ok e) (d : Asn1Data) (hv : d.Valid) (hd : d.copy = e ++ rest)
    (leftovers copy : Bool) (hlo : leftovers = true ∨ rest = []) :
    ∃ l' tail, VarBindList.decode d leftovers copy = .ok (l', tail) ∧ tail.copy = rest ∧
      Spec.SameBindings l l' := by
  obtain ⟨tail, h1, -, h3⟩ := VarBindList.decode_encode (fun v hv => (hs v hv).portable) he hv hd hlo copy
  exact ⟨_, tail, h1, h3, canon_list hs⟩

/-- C21: every PDU with fields in range decodes to an equal PDU of the same class. -/
theorem C21_pdu (p : Pdu) (hf : Spec.FieldsOk p) (hs : ∀ v ∈ p.bindings, Spec.Sendable v)
    (e rest : Bytes) (he : p.encode = .ok e) (d : Asn1Data) (hv : d.Valid)
    (hd : d.copy = e ++ rest) (leftovers copy : Bool) (hlo : leftovers = true ∨ rest = []) :
    ∃ q tail, p.type.decode d leftovers copy = .ok (q, tail) ∧ tail.copy = rest ∧
      q.type = p.type ∧ q.requestID = p.requestID ∧ q.first = p.first ∧ q.second = p.second ∧
      Spec.SameBindings p.bindings q.bindings := by
  obtain ⟨tail, h1, -, h3⟩ := Pdu.decode_encode ((specFields_iff p).1 hf)
    (fun v hv => (hs v hv).portable) he hv hd hlo copy
  exact ⟨_, tail, h1, h3, rfl, rfl, rfl, rfl, canon_list hs⟩

/-- C21: encoding succeeds exactly if the three integers fit in 32 bits (given that the bindings
encode and the whole is below the BER size limit); otherwise `ValueError`. -/
theorem C21_encodes (p : Pdu) (l : Bytes) (hl : VarBindList.encode p.bindings = .ok l)
    (hsmall : l.length < 256 ^ 126) :
    (Spec.intRange .integer32 p.requestID ∧ Spec.intRange .integer32 p.first ∧
      Spec.intRange .integer32 p.second → ∃ e, p.encode = .ok e) ∧
    (¬ (Spec.intRange .integer32 p.requestID ∧ Spec.intRange .integer32 p.first ∧
      Spec.intRange .integer32 p.second) → p.encode = .error .valueError) := by
  have enc : ∀ n, (Spec.intRange .integer32 n → ∃ e, encodeInteger n = .ok e ∧ e.length ≤ 100) ∧
      (¬ Spec.intRange .integer32 n → encodeInteger n = .error .valueError) := by
    intro n
    rw [← intRange_iff]
    constructor
    · intro h
      obtain ⟨e, he⟩ := encodeInteger_exists h
      refine ⟨e, he, ?_⟩
      obtain ⟨-, he'⟩ := encodeInteger_ok he
      obtain ⟨b, hb, hbe⟩ := asn1Encode_ok he'
      simp only [Value.serialize] at hb
      obtain ⟨bs, h1, -, -, h4⟩ := intSerialize_spec n
      rw [h1] at hb; injection hb with hb; subst hb
      have hr := (IntType.inRange_iff .integer32 n).1 h
      have hlen := h4 4 (by omega) ⟨by simpa using hr.1, by simpa using hr.2⟩
      have : ∃ x, encodeLength bs.length = .ok x ∧ x.length = 1 := by
        unfold encodeLength; rw [if_pos (by omega)]; exact ⟨_, rfl, rfl⟩
      obtain ⟨x, hx, hxl⟩ := this
      simp only [Ber.encode, hx, Value.type, SmiType.tag, IntType.tag, Except.bind] at hbe
      injection hbe with hbe
      rw [← hbe]
      simp [Tag.encode, hxl]; omega
    · intro h
      unfold encodeInteger IntType.new
      rw [if_neg h]; rfl
  unfold Pdu.encode Pdu.serialize
  constructor
  · rintro ⟨h1, h2, h3⟩
    obtain ⟨a, ha, la⟩ := (enc _).1 h1
    obtain ⟨b, hb, lb⟩ := (enc _).1 h2
    obtain ⟨c, hc, lc⟩ := (enc _).1 h3
    rw [ha, hb, hc, hl]
    simp only [Except.bind, asn1Encode]
    refine (Ber.encode_ok _ ?_).imp fun _ h => h.1
    simp only [List.length_append]
    have : (256:Nat)^126 + 300 < 256 ^ 127 := by norm_num
    omega
  · intro h
    by_cases h1 : Spec.intRange .integer32 p.requestID
    · obtain ⟨a, ha, -⟩ := (enc _).1 h1
      rw [ha]
      by_cases h2 : Spec.intRange .integer32 p.first
      · obtain ⟨b, hb, -⟩ := (enc _).1 h2
        rw [hb]
        by_cases h3 : Spec.intRange .integer32 p.second
        · exact absurd ⟨h1, h2, h3⟩ h
        · rw [(enc _).2 h3]; rfl
      · rw [(enc _).2 h2]; rfl
    · rw [(enc _).2 h1]; rfl

example : Spec.FieldsOk ⟨.response, 7, 2, 1, [⟨[1, 3], .null⟩]⟩ := by simp [Spec.FieldsOk]
example : (⟨.getBulkRequest, -1, 0, 10, []⟩ : Pdu).encode =
    .ok [0xa5, 11, 2, 1, 255, 2, 1, 0, 2, 1, 10, 0x30, 0] := by decide +kernel

/-! ## C22 -/

/-- C22, as far as it is true. Missing from the full statement: an error index below zero is let
through when the status is `noError`, see `C22_false`. -/
theorem C22_partial (t : PduType) (d : Asn1Data) (hv : d.Valid) (leftovers copy : Bool) (p : Pdu)
    (tail : Subbytes) (h : t.decode d leftovers copy = .ok (p, tail)) :
    p.type = t ∧
    (t = .getBulkRequest → 0 ≤ p.first ∧ 0 ≤ p.second) ∧
    (t ≠ .getBulkRequest → (0 ≤ p.first ∧ p.first ≤ 18) ∧ p.second ≤ p.bindings.length ∧
      (p.first ≠ 0 → 0 ≤ p.second)) := by
  obtain ⟨b, hb, hdes, -⟩ := asn1Decode_ok hv h
  unfold PduType.deserialize at hdes
  cases h1 : decodeInteger b with
  | error e => rw [h1] at hdes; cases hdes
  | ok v1 =>
  obtain ⟨r, d1⟩ := v1
  rw [h1] at hdes; simp only [Except.bind] at hdes
  cases h2 : decodeInteger (.sub d1) with
  | error e => rw [h2] at hdes; cases hdes
  | ok v2 =>
  obtain ⟨f, d2⟩ := v2
  rw [h2] at hdes; simp only at hdes
  cases h3 : decodeInteger (.sub d2) with
  | error e => rw [h3] at hdes; cases hdes
  | ok v3 =>
  obtain ⟨s, d3⟩ := v3
  rw [h3] at hdes; simp only at hdes
  cases h4 : VarBindList.decode (.sub d3) with
  | error e => rw [h4] at hdes; cases hdes
  | ok v4 =>
  obtain ⟨l, d4⟩ := v4
  rw [h4] at hdes; simp only at hdes
  have hbk := isBulk_iff t
  split at hdes
  · rename_i hbulk
    split at hdes
    · cases hdes
    split at hdes
    · cases hdes
    injection hdes with hdes; subst hdes
    exact ⟨rfl, fun _ => ⟨by simp only; omega, by simp only; omega⟩,
      fun hh => absurd (hbk.1 hbulk) hh⟩
  · rename_i hbulk
    split at hdes
    · cases hdes
    rename_i hes
    split at hdes
    · cases hdes
    rename_i hix
    injection hdes with hdes; subst hdes
    refine ⟨rfl, fun hh => absurd (hbk.2 hh) hbulk, fun _ => ⟨?_, ?_, ?_⟩⟩
    · simp [isErrorStatus] at hes; exact hes
    · simp only; omega
    · simp only; intro hf; omega

/-- C22: a PDU (with sendable bindings) that violates the field rules is refused with `ParseError`
when it arrives, unless the violation is a negative error index together with `noError`. -/
theorem C22_refused_partial (p : Pdu) (hs : ∀ v ∈ p.bindings, Spec.Sendable v)
    (hf : ¬ Spec.FieldsOk p)
    (hgap : ¬ (p.type ≠ .getBulkRequest ∧ p.first = 0 ∧ p.second < 0))
    (e rest : Bytes) (he : p.encode = .ok e) (d : Asn1Data) (hv : d.Valid)
    (hd : d.copy = e ++ rest) (leftovers copy : Bool) :
    p.type.decode d leftovers copy = .error .parseError := by
  rcases C10_pdu p.type d hv leftovers copy with ⟨q, tail, hok⟩ | h
  · exfalso
    obtain ⟨b, hb, hdes, -, hread, -⟩ := asn1Decode_ok hv hok
    obtain ⟨body, hbody, hbe⟩ := asn1Encode_ok he
    obtain ⟨-, hr⟩ := Ber.encode_inv hbe
    rw [hd, hr rest] at hread
    simp only [Option.some.injEq, Prod.mk.injEq] at hread
    rw [Pdu.deserialize_raw (fun v hv => (hs v hv).portable) hbody hb hread.2.1.symm] at hdes
    rw [specFields_iff] at hf
    unfold Pdu.FieldsOk at hf
    have hbk := isBulk_iff p.type
    split at hdes
    · rename_i hbulk
      rw [if_pos hbulk] at hf
      split at hdes
      · cases hdes
      split at hdes
      · cases hdes
      omega
    · rename_i hbulk
      rw [if_neg hbulk] at hf
      split at hdes
      · cases hdes
      rename_i hes
      split at hdes
      · cases hdes
      rename_i hix
      simp [isErrorStatus] at hes
      have : p.type ≠ .getBulkRequest := fun hh => hbulk (hbk.2 hh)
      have hg : ¬ (p.first = 0 ∧ p.second < 0) := fun hh => hgap ⟨this, hh⟩
      omega
  · exact h

/-- C22 is false of the code: a Response with `noError` and error index -1 is accepted. -/
theorem C22_false : ∃ (d : Asn1Data) (tail : Subbytes), d.Valid ∧
    PduType.response.decode d = .ok (⟨.response, 1, 0, -1, []⟩, tail) := by
  have he : (⟨.response, 1, 0, -1, []⟩ : Pdu).encode =
    .ok [0xa2, 11, 2, 1, 1, 2, 1, 0, 2, 1, 255, 0x30, 0] := by decide +kernel
  obtain ⟨body, hbody, hbe⟩ := asn1Encode_ok he
  obtain ⟨tail, h, -⟩ := asn1Decode_encoded (des := PduType.response.deserialize)
    (obj := ⟨.response, 1, 0, -1, []⟩) hbe
    (fun b hb hbc => by
      have := Pdu.deserialize_raw (p := ⟨.response, 1, 0, -1, []⟩) (by simp) hbody hb hbc
      rw [this]; rfl)
    (Asn1Data.valid_bytes [0xa2, 11, 2, 1, 1, 2, 1, 0, 2, 1, 255, 0x30, 0])
    (rest := []) rfl (leftovers := false) (.inr rfl) true
  exact ⟨_, tail, Asn1Data.valid_bytes _, h⟩

example : ¬ Spec.FieldsOk ⟨.response, 1, 5, -1, []⟩ := by simp [Spec.FieldsOk]

/-! ## C23 -/

/-- C23: the cause of an `ErrorResponse` with a non-negative index, which every error response from
the wire has (`C22_partial`). -/
theorem C23_cause (index : Int) (request : Pdu) (h : 0 ≤ index) :
    (index = 0 → errorCause index request = .request request) ∧
    (∀ v, 1 ≤ index → request.bindings[(index - 1).toNat]? = some v →
      errorCause index request = .binding v) ∧
    ((request.bindings.length : Int) < index → errorCause index request = .index index) := by
  unfold errorCause
  refine ⟨fun h0 => if_pos h0, ?_, ?_⟩
  · intro v h1 hv
    have hlt : (index - 1).toNat < request.bindings.length := by
      by_contra hc
      rw [List.getElem?_eq_none (by omega)] at hv; cases hv
    rw [if_neg (by omega)]
    have hj : pyIndex request.bindings (index - 1) = .ok v := by
      unfold pyIndex
      have h0 : ¬ index - 1 < 0 := by omega
      have h2 : 0 ≤ index - 1 := by omega
      simp only [h0, h2, ↓reduceIte, hv]
      rfl
    rw [hj]
  · intro hlt
    rw [if_neg (by omega)]
    have hj : pyIndex request.bindings (index - 1) = .error .indexError := by
      unfold pyIndex
      have h0 : ¬ index - 1 < 0 := by omega
      have h2 : 0 ≤ index - 1 := by omega
      simp only [h0, h2, ↓reduceIte]
      rw [List.getElem?_eq_none (by omega)]
      rfl
    rw [hj]

/-- C23: for a negative index, which only a locally built `ErrorResponse` can have, Python's
negative indexing picks a binding from the end. -/
theorem C23_negative_false : ∃ (p : Pdu) (v : VarBind), p.bindings = [v, ⟨[1, 4], .null⟩] ∧
    errorCause (-1) p = .binding v :=
  ⟨⟨.getRequest, 0, 0, 0, [⟨[1, 3], .null⟩, ⟨[1, 4], .null⟩]⟩, ⟨[1, 3], .null⟩, rfl, by decide⟩

example : errorCause 2 ⟨.getRequest, 0, 0, 0, [⟨[1, 3], .null⟩, ⟨[1, 4], .null⟩]⟩ =
    .binding ⟨[1, 4], .null⟩ := by decide

end Snmp
