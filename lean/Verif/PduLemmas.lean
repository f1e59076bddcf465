import Verif.Pdu
import Verif.DecodeLemmas
/-!
# Lemmas about variable bindings and PDUs
-/

set_option linter.unusedSimpArgs false

namespace Snmp

/-! ## Exceptions -/

theorem VarBind.lookup_parseOnly (t : Tag) : ParseOnly (VarBind.lookup t) := by
  unfold VarBind.lookup
  cases VarBind.types.find? fun s => s.tag = t with
  | none => exact ParseOnly.err
  | some x => exact ParseOnly.ok x

theorem VarBind.deserialize_parseOnly {d : Asn1Data} (hv : d.Valid) :
    ParseOnly (VarBind.deserialize d) := by
  unfold VarBind.deserialize
  apply ParseOnly.bind (asn1Decode_parseOnly hv (fun b _ _ => Oid.deserialize_parseOnly b) _ _)
  rintro ⟨name, tail⟩ h
  obtain ⟨b, -, -, htail, -⟩ := asn1Decode_ok hv h
  apply ParseOnly.bind (Ber.decode_parseOnly (Asn1Data.valid_sub htail) _ _ _)
  rintro ⟨t, body, tl⟩ h2
  obtain ⟨hb, -⟩ := Ber.decode_ok (Asn1Data.valid_sub htail) h2
  apply ParseOnly.bind (VarBind.lookup_parseOnly t)
  intro ty _
  exact ParseOnly.bind (ty.deserialize_parseOnly hb) fun x _ => ParseOnly.ok _

theorem VarBind.decode_parseOnly {d : Asn1Data} (hv : d.Valid) (l c : Bool) :
    ParseOnly (VarBind.decode d l c) :=
  asn1Decode_parseOnly hv (fun _ hb _ => VarBind.deserialize_parseOnly hb) l c

theorem VarBindList.deserializeLoop_parseOnly {s : Subbytes} (hs : s.WF) :
    ParseOnly (VarBindList.deserializeLoop s) := by
  fun_induction VarBindList.deserializeLoop s with
  | case1 s hb e h =>
    have := VarBind.decode_parseOnly (Asn1Data.valid_sub hs) true true e h
    rw [this]; exact ParseOnly.err
  | case2 s hb var tail h ih =>
    obtain ⟨b, -, -, htail, -⟩ := asn1Decode_ok (Asn1Data.valid_sub hs) h
    exact ParseOnly.map (ih htail)
  | case3 s hb => exact ParseOnly.ok _

theorem VarBindList.deserialize_parseOnly {d : Asn1Data} (hv : d.Valid) :
    ParseOnly (VarBindList.deserialize d) := VarBindList.deserializeLoop_parseOnly hv

theorem VarBindList.decode_parseOnly {d : Asn1Data} (hv : d.Valid) (l c : Bool) :
    ParseOnly (VarBindList.decode d l c) :=
  asn1Decode_parseOnly hv (fun _ hb _ => VarBindList.deserialize_parseOnly hb) l c

theorem decodeInteger_parseOnly {d : Asn1Data} (hv : d.Valid) (l : Bool) :
    ParseOnly (decodeInteger d l) :=
  asn1Decode_parseOnly hv (fun b _ _ => IntType.deserialize_parseOnly _ b) l true

theorem PduType.deserialize_parseOnly (t : PduType) {d : Asn1Data} (hv : d.Valid) :
    ParseOnly (t.deserialize d) := by
  unfold PduType.deserialize
  apply ParseOnly.bind (decodeInteger_parseOnly hv _)
  rintro ⟨r, d1⟩ h1
  obtain ⟨-, -, -, w1, -⟩ := asn1Decode_ok hv h1
  apply ParseOnly.bind (decodeInteger_parseOnly (Asn1Data.valid_sub w1) _)
  rintro ⟨f, d2⟩ h2
  obtain ⟨-, -, -, w2, -⟩ := asn1Decode_ok (Asn1Data.valid_sub w1) h2
  apply ParseOnly.bind (decodeInteger_parseOnly (Asn1Data.valid_sub w2) _)
  rintro ⟨s, d3⟩ h3
  obtain ⟨-, -, -, w3, -⟩ := asn1Decode_ok (Asn1Data.valid_sub w2) h3
  apply ParseOnly.bind (VarBindList.decode_parseOnly (Asn1Data.valid_sub w3) _ _)
  rintro ⟨l, d4⟩ h4
  dsimp only
  split
  · split
    · exact ParseOnly.err
    · split
      · exact ParseOnly.err
      · exact ParseOnly.ok _
  · split
    · exact ParseOnly.err
    · split
      · exact ParseOnly.err
      · exact ParseOnly.ok _

theorem PduType.decode_parseOnly (t : PduType) {d : Asn1Data} (hv : d.Valid) (l c : Bool) :
    ParseOnly (t.decode d l c) :=
  asn1Decode_parseOnly hv (fun _ hb _ => t.deserialize_parseOnly hb) l c

/-! ## Round trips -/

/-- The class a value decodes to inside a variable binding: `Unsigned32` comes back as `Gauge32`
and a bare `INTEGER` as `Integer32`, which have the same tags. -/
def Value.canon : Value → Value
  | .int .unsigned32 v => .int .gauge32 v
  | .int .integer v => .int .integer32 v
  | v => v

/-- A value that variable bindings can carry faithfully: constructible by an SMI class
(`INTEGER`, which is not an SMI class, only within 32 bits), and, if an OID, one that survives. -/
def Value.Portable (v : Value) : Prop :=
  v.Constructible ∧ (∀ o, v = .oid o → OidSurvives o) ∧
  (∀ n, v = .int .integer n → IntType.integer32.inRange n = true)

theorem Value.lookup_type (v : Value) : VarBind.lookup v.type.tag = .ok v.canon.type := by
  cases v with
  | int t n => cases t <;> rfl
  | _ => rfl

theorem Value.canon_deserialize {v : Value} (hp : v.Portable) {body : Bytes}
    (hb : v.serialize = .ok body) {d : Asn1Data} (hv : d.Valid) (hd : d.copy = body) :
    v.canon.type.deserialize d = .ok v.canon := by
  obtain ⟨hc, ho, hi⟩ := hp
  have hwire : ∀ w : Value, (∀ o, w = .oid o → OidSurvives o) → w.Constructible → w.wire = w := by
    intro w hw hcw
    cases w with
    | oid o =>
      have hl := ((Oid.new_ofNat_iff o o).1 hcw).1
      simp only [Value.wire]; rw [(Oid.wireForm_eq_iff hl).2 (hw o rfl)]
    | _ => rfl
  have key : v.canon.Constructible := by
    cases v with
    | int t n =>
      cases t <;> simp only [Value.canon, Value.Constructible] at hc ⊢ <;> try exact hc
      exact hi n rfl
    | _ => exact hc
  have hser : v.canon.serialize = .ok body := by
    rw [← hb]
    cases v with
    | int t n => cases t <;> rfl
    | _ => rfl
  have ho' : ∀ o, v.canon = .oid o → OidSurvives o := by
    intro o h
    cases v with
    | int t n => cases t <;> cases h
    | oid o' => exact ho o h
    | _ => cases h
  have := Value.deserialize_serialize key hser hv hd
  rwa [hwire _ ho' key] at this

/-- A binding that survives: valid surviving name and portable value. -/
def VarBind.Portable (v : VarBind) : Prop :=
  OidLimits v.name ∧ OidSurvives v.name ∧ v.value.Portable

/-- What a binding decodes to. -/
def VarBind.canon (v : VarBind) : VarBind := ⟨v.name, v.value.canon⟩

theorem VarBind.deserialize_serialize {v : VarBind} (hp : v.Portable) {body : Bytes}
    (hb : v.serialize = .ok body) {d : Asn1Data} (hv : d.Valid) (hd : d.copy = body) :
    VarBind.deserialize d = .ok v.canon := by
  obtain ⟨hl, hs, hval⟩ := hp
  unfold VarBind.serialize at hb
  cases hn : (Value.oid v.name).encode with
  | error e => rw [hn] at hb; cases hb
  | ok a =>
    rw [hn] at hb
    simp only [Except.bind] at hb
    cases hw : v.value.encode with
    | error e => rw [hw] at hb; cases hb
    | ok b =>
      rw [hw] at hb
      simp only [Except.ok.injEq] at hb
      subst hb
      obtain ⟨nb, hnb, hne⟩ := asn1Encode_ok hn
      simp only [Value.serialize, Except.ok.injEq] at hnb
      obtain ⟨tail, h1, h2, h3⟩ := asn1Decode_encoded (des := Oid.deserialize) (obj := v.name) hne
        (fun x hx hxb => by
          rw [Oid.deserialize_serialize hl x (by rw [hxb, hnb]), (Oid.wireForm_eq_iff hl).2 hs])
        hv hd (leftovers := true) (.inl rfl) true
      unfold VarBind.deserialize
      have h1' : asn1Decode SmiType.oid.tag Oid.deserialize d true true = .ok (v.name, tail) := h1
      rw [h1']
      simp only [Except.bind]
      obtain ⟨vb, hvb, hve⟩ := asn1Encode_ok hw
      obtain ⟨bd, tl, h4, h5, h6, h7, h8⟩ := Ber.decode_encoded hve (Asn1Data.valid_sub h2)
        (rest := []) (by simpa [Asn1Data.copy] using h3) (.inl rfl) (leftovers := false) (.inr rfl) true
      rw [h4]
      simp only
      rw [Value.lookup_type]
      simp only
      rw [Value.canon_deserialize hval hvb h5 h6]
      rfl

theorem VarBind.decode_encode {v : VarBind} (hp : v.Portable) {e rest : Bytes}
    (he : v.encode = .ok e) {d : Asn1Data} (hv : d.Valid) (hd : d.copy = e ++ rest)
    {leftovers : Bool} (hlo : leftovers = true ∨ rest = []) (copy : Bool) :
    ∃ tail, VarBind.decode d leftovers copy = .ok (v.canon, tail) ∧ tail.WF ∧ tail.copy = rest := by
  obtain ⟨b, hb, hbe⟩ := asn1Encode_ok he
  exact asn1Decode_encoded hbe (fun x hx hxb => VarBind.deserialize_serialize hp hb hx hxb) hv hd hlo copy

theorem Ber.encode_length {t : Tag} {d e : Bytes} (h : Ber.encode t d = .ok e) : 2 ≤ e.length := by
  obtain ⟨-, hr⟩ := Ber.encode_inv h
  have := readTLV_parts_len (hr [])
  simp at this; omega

theorem VarBindList.loop_encode {l : List VarBind} (hp : ∀ v ∈ l, v.Portable) {e : Bytes}
    (he : joinEncodings VarBind.encode l = .ok e) {s : Subbytes} (hs : s.WF) (hd : s.copy = e) :
    VarBindList.deserializeLoop s = .ok (l.map VarBind.canon) := by
  induction l generalizing s e with
  | nil =>
    simp only [joinEncodings, Except.ok.injEq] at he
    rw [VarBindList.deserializeLoop, if_neg]
    · rfl
    · have := Asn1Data.bool_valid (Asn1Data.valid_sub hs)
      simp only [Asn1Data.bool, Asn1Data.copy] at this
      rw [this, hd, ← he]; simp
  | cons v l ih =>
    simp only [joinEncodings] at he
    cases hv : v.encode with
    | error x => rw [hv] at he; cases he
    | ok a =>
      rw [hv] at he
      simp only [Except.bind] at he
      cases hl : joinEncodings VarBind.encode l with
      | error x => rw [hl] at he; cases he
      | ok b =>
        rw [hl] at he
        simp only [Except.ok.injEq] at he
        obtain ⟨tail, h1, h2, h3⟩ := VarBind.decode_encode (hp v (by simp)) hv
          (Asn1Data.valid_sub hs) (rest := b) (by simpa [Asn1Data.copy, he] using hd)
          (leftovers := true) (.inl rfl) true
        have hrec := ih (fun w hw => hp w (by simp [hw])) hl h2 h3
        have hbool : s.bool = true := by
          have := Asn1Data.bool_valid (Asn1Data.valid_sub hs)
          simp only [Asn1Data.bool, Asn1Data.copy] at this
          rw [this, hd, ← he]
          obtain ⟨bb, hbb, hbe⟩ := asn1Encode_ok hv
          have := Ber.encode_length hbe
          cases a with
          | nil => simp at this
          | cons x y => simp
        rw [VarBindList.deserializeLoop, if_pos hbool]
        split
        · rename_i e' he'
          rw [h1] at he'; cases he'
        · rename_i var tl he'
          rw [h1] at he'
          simp only [Except.ok.injEq, Prod.mk.injEq] at he'
          obtain ⟨rfl, rfl⟩ := he'
          rw [hrec]; rfl

theorem VarBindList.decode_encode {l : List VarBind} (hp : ∀ v ∈ l, v.Portable) {e rest : Bytes}
    (he : VarBindList.encode l = .ok e) {d : Asn1Data} (hv : d.Valid) (hd : d.copy = e ++ rest)
    {leftovers : Bool} (hlo : leftovers = true ∨ rest = []) (copy : Bool) :
    ∃ tail, VarBindList.decode d leftovers copy = .ok (l.map VarBind.canon, tail) ∧ tail.WF ∧
      tail.copy = rest := by
  obtain ⟨b, hb, hbe⟩ := asn1Encode_ok he
  refine asn1Decode_encoded hbe (fun x hx hxb => ?_) hv hd hlo copy
  apply VarBindList.loop_encode hp hb hx
  rw [← hxb, Asn1Data.copy_eq, Subbytes.copy_eq_contents]

theorem encodeInteger_ok {n : Int} {e : Bytes} (h : encodeInteger n = .ok e) :
    IntType.integer32.inRange n = true ∧ (Value.int .integer32 n).encode = .ok e := by
  unfold encodeInteger IntType.new at h
  split at h
  · rename_i hr; exact ⟨hr, h⟩
  · cases h

theorem decodeInteger_encode {n : Int} {e rest : Bytes} (he : encodeInteger n = .ok e)
    {d : Asn1Data} (hv : d.Valid) (hd : d.copy = e ++ rest) {leftovers : Bool}
    (hlo : leftovers = true ∨ rest = []) :
    ∃ tail, decodeInteger d leftovers = .ok (n, tail) ∧ tail.WF ∧ tail.copy = rest := by
  obtain ⟨hr, he'⟩ := encodeInteger_ok he
  obtain ⟨b, hb, hbe⟩ := asn1Encode_ok he'
  refine asn1Decode_encoded hbe (fun x hx hxb => ?_) hv hd hlo true
  obtain ⟨bs, h1, -, h3, -⟩ := intSerialize_spec n
  simp only [Value.serialize] at hb
  rw [h1] at hb; injection hb with hb
  unfold IntType.deserialize
  rw [hxb, ← hb, h3, IntType.construct_eq, if_pos hr]

theorem encodeInteger_exists {n : Int} (h : IntType.integer32.inRange n = true) :
    ∃ e, encodeInteger n = .ok e := by
  unfold encodeInteger IntType.new
  rw [if_pos h]
  simp only [Except.bind]
  unfold Value.encode asn1Encode
  obtain ⟨bs, h1, h2, -, h4⟩ := intSerialize_spec n
  simp only [Value.serialize, h1, Except.bind]
  have hr := (IntType.inRange_iff .integer32 n).1 h
  have hlen := h4 4 (by omega) ⟨by simpa using hr.1, by simpa using hr.2⟩
  have : (4 : Nat) < 256 ^ 127 := by decide
  exact (Ber.encode_ok _ (by omega)).imp fun _ h => h.1

/-- The fields `PDU`/`BulkPDU` accepts from the wire, with the error index in its proper range. -/
def Pdu.FieldsOk (p : Pdu) : Prop :=
  if p.type.isBulk then 0 ≤ p.first ∧ 0 ≤ p.second
  else (0 ≤ p.first ∧ p.first ≤ 18) ∧ 0 ≤ p.second ∧ p.second ≤ p.bindings.length

/-- What a PDU decodes to. -/
def Pdu.canon (p : Pdu) : Pdu := { p with bindings := p.bindings.map VarBind.canon }

/-- Decoding the contents of any encodable PDU reaches the checks with its own fields. -/
theorem Pdu.deserialize_raw {p : Pdu} (hp : ∀ v ∈ p.bindings, v.Portable)
    {body : Bytes} (hb : p.serialize = .ok body) {d : Asn1Data} (hv : d.Valid)
    (hd : d.copy = body) : p.type.deserialize d =
      if p.type.isBulk then
        if p.first < 0 then .error .parseError
        else if p.second < 0 then .error .parseError
        else .ok p.canon
      else
        if !isErrorStatus p.first then .error .parseError
        else if (p.first ≠ 0 ∧ p.second < 0) ∨ p.second > (p.bindings.length : Int) then
          .error .parseError
        else .ok p.canon := by
  unfold Pdu.serialize at hb
  cases ha : encodeInteger p.requestID with
  | error x => rw [ha] at hb; cases hb
  | ok a =>
  cases hb' : encodeInteger p.first with
  | error x => rw [ha, hb'] at hb; cases hb
  | ok b =>
  cases hc : encodeInteger p.second with
  | error x => rw [ha, hb', hc] at hb; cases hb
  | ok c =>
  cases hl : VarBindList.encode p.bindings with
  | error x => rw [ha, hb', hc, hl] at hb; cases hb
  | ok l =>
  rw [ha, hb', hc, hl] at hb
  simp only [Except.bind, Except.ok.injEq] at hb
  subst hb
  obtain ⟨t1, e1, w1, c1⟩ := decodeInteger_encode ha hv (rest := b ++ c ++ l)
    (by rw [hd]; simp) (leftovers := true) (.inl rfl)
  obtain ⟨t2, e2, w2, c2⟩ := decodeInteger_encode hb' (Asn1Data.valid_sub w1) (rest := c ++ l)
    (by rw [Asn1Data.copy, c1]; simp) (leftovers := true) (.inl rfl)
  obtain ⟨t3, e3, w3, c3⟩ := decodeInteger_encode hc (Asn1Data.valid_sub w2) (rest := l)
    (by rw [Asn1Data.copy, c2]) (leftovers := true) (.inl rfl)
  obtain ⟨t4, e4, w4, c4⟩ := VarBindList.decode_encode hp hl (Asn1Data.valid_sub w3) (rest := [])
    (by rw [Asn1Data.copy, c3]; simp) (leftovers := false) (.inr rfl) true
  unfold PduType.deserialize
  rw [e1]; simp only [Except.bind]
  rw [e2]; simp only
  rw [e3]; simp only
  rw [e4]; simp only [List.length_map]
  rfl

theorem Pdu.deserialize_serialize {p : Pdu} (hf : p.FieldsOk) (hp : ∀ v ∈ p.bindings, v.Portable)
    {body : Bytes} (hb : p.serialize = .ok body) {d : Asn1Data} (hv : d.Valid)
    (hd : d.copy = body) : p.type.deserialize d = .ok p.canon := by
  rw [Pdu.deserialize_raw hp hb hv hd]
  unfold Pdu.FieldsOk at hf
  split at hf
  · rename_i hbulk
    rw [if_pos hbulk, if_neg (by omega), if_neg (by omega)]
  · rename_i hbulk
    rw [if_neg hbulk, if_neg, if_neg]
    · omega
    · simp [isErrorStatus]; omega

theorem Pdu.decode_encode {p : Pdu} (hf : p.FieldsOk) (hp : ∀ v ∈ p.bindings, v.Portable)
    {e rest : Bytes} (he : p.encode = .ok e) {d : Asn1Data} (hv : d.Valid) (hd : d.copy = e ++ rest)
    {leftovers : Bool} (hlo : leftovers = true ∨ rest = []) (copy : Bool) :
    ∃ tail, p.type.decode d leftovers copy = .ok (p.canon, tail) ∧ tail.WF ∧ tail.copy = rest := by
  obtain ⟨b, hb, hbe⟩ := asn1Encode_ok he
  exact asn1Decode_encoded hbe (fun x hx hxb => Pdu.deserialize_serialize hf hp hb hx hxb) hv hd hlo copy

end Snmp
