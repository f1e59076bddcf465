import Verif.Asn1Lemmas
/-!
# Composition lemmas for `decode`

How a decoder for one element combines with the next: round trip along a concatenation, and the
exceptions that can escape.
-/

set_option linter.unusedSimpArgs false

namespace Snmp

/-- The only exception `r` can be is `ParseError`. -/
def ParseOnly {α : Type} (r : Res α) : Prop := ∀ e, r = .error e → e = .parseError

theorem ParseOnly.ok {α : Type} (x : α) : ParseOnly (.ok x : Res α) := by
  intro e h; cases h

theorem ParseOnly.err {α : Type} : ParseOnly (.error .parseError : Res α) := by
  intro e h; injection h with h; exact h.symm

theorem ParseOnly.bind {α β : Type} {r : Res α} {f : α → Res β} (h : ParseOnly r)
    (hf : ∀ x, r = .ok x → ParseOnly (f x)) : ParseOnly (r.bind f) := by
  cases r with
  | error e => rw [h e rfl]; exact ParseOnly.err
  | ok x => exact hf x rfl

theorem ParseOnly.map {α β : Type} {r : Res α} {f : α → β} (h : ParseOnly r) :
    ParseOnly (r.map f) := by
  cases r with
  | error e => rw [h e rfl]; exact ParseOnly.err
  | ok x => exact ParseOnly.ok _

/-- Everything a successful `Ber.decode` on a valid argument gives. -/
theorem Ber.decode_ok {data : Asn1Data} (hv : data.Valid) {expected : Option Tag}
    {leftovers copy : Bool} {tag : Tag} {body : Asn1Data} {tail : Subbytes}
    (h : Ber.decode data expected leftovers copy = .ok (tag, body, tail)) :
    body.Valid ∧ tail.WF ∧ tail.copy.length + 2 + body.copy.length ≤ data.copy.length ∧
    readTLV data.copy = some (tag, body.copy, tail.copy) ∧
    (leftovers = false → tail.copy = []) ∧
    (expected = none ∨ expected = some tag) := by
  rw [Ber.decode_refines hv] at h
  cases hr : readTLV data.toSub.contents with
  | none => rw [hr] at h; cases h
  | some v =>
    obtain ⟨t', b', r'⟩ := v
    rw [hr] at h
    dsimp only at h
    split at h
    · cases h
    rename_i hexp
    split at h
    · cases h
    rename_i hlo
    simp only [Except.ok.injEq, Prod.mk.injEq] at h
    obtain ⟨rfl, rfl, rfl⟩ := h
    obtain ⟨hdr, hs, hl⟩ := readTLV_parts hr
    have htail : (data.toSub.last r'.length).copy = r' := by
      rw [Subbytes.copy_eq_contents, Subbytes.last_suffix hv hs]
    have hin := Subbytes.inner_spec hv hs
    have hbody : (if copy then Asn1Data.bytes b' else .sub (data.toSub.inner b'.length r'.length)).copy
        = b' := by
      cases copy
      · simp only [Bool.false_eq_true, ↓reduceIte, Asn1Data.copy]
        rw [Subbytes.copy_eq_contents]; exact hin.2
      · simp [Asn1Data.copy]
    refine ⟨?_, Subbytes.last_WF hv _, ?_, ?_, ?_, ?_⟩
    · cases copy
      · exact hin.1
      · exact Asn1Data.valid_bytes _
    · rw [htail, hbody, Asn1Data.copy_eq, hs]; simp; omega
    · rw [htail, hbody, Asn1Data.copy_eq, hr]
    · intro hl0
      rw [htail]
      by_cases h0 : r' = []
      · exact h0
      · exact absurd ⟨hl0, h0⟩ hlo
    · by_cases h1 : expected = none
      · exact .inl h1
      · refine .inr ?_
        by_cases h2 : expected = some t'
        · exact h2
        · exact absurd ⟨h1, h2⟩ hexp

theorem Ber.decode_parseOnly {data : Asn1Data} (hv : data.Valid) (expected : Option Tag)
    (leftovers copy : Bool) : ParseOnly (Ber.decode data expected leftovers copy) := by
  rw [Ber.decode_refines hv]
  split
  · exact ParseOnly.err
  · split
    · exact ParseOnly.err
    · split
      · exact ParseOnly.err
      · exact ParseOnly.ok _

/-- Decoding one element in front of others. -/
theorem Ber.decode_encoded {t : Tag} {body e rest : Bytes} (he : Ber.encode t body = .ok e)
    {d : Asn1Data} (hv : d.Valid) (hd : d.copy = e ++ rest) {expected : Option Tag}
    (hexp : expected = none ∨ expected = some t) {leftovers : Bool}
    (hlo : leftovers = true ∨ rest = []) (copy : Bool) :
    ∃ b tail, Ber.decode d expected leftovers copy = .ok (t, b, tail) ∧ b.Valid ∧
      b.copy = body ∧ tail.WF ∧ tail.copy = rest := by
  obtain ⟨-, hr⟩ := Ber.encode_inv he
  have hread := hr rest
  have hd' := hd
  rw [Asn1Data.copy_eq] at hd'
  rw [← hd'] at hread
  have hdec := Ber.decode_refines hv expected leftovers copy
  rw [hread] at hdec
  dsimp only at hdec
  rw [if_neg (by rcases hexp with h | h <;> simp [h]),
    if_neg (by rcases hlo with h | h <;> simp [h])] at hdec
  obtain ⟨h1, h2, -, h4, -, -⟩ := Ber.decode_ok hv hdec
  rw [hd, hr rest] at h4
  simp only [Option.some.injEq, Prod.mk.injEq, true_and] at h4
  exact ⟨_, _, hdec, h1, h4.1.symm, h2, h4.2.symm⟩

theorem Ber.decode_wrongTag {t t' : Tag} {body e rest : Bytes} (he : Ber.encode t body = .ok e)
    {d : Asn1Data} (hv : d.Valid) (hd : d.copy = e ++ rest) (hne : t' ≠ t) (leftovers copy : Bool) :
    Ber.decode d (some t') leftovers copy = .error .parseError := by
  obtain ⟨-, hr⟩ := Ber.encode_inv he
  rw [Asn1Data.copy_eq] at hd
  have hread := hr rest
  rw [← hd] at hread
  rw [Ber.decode_refines hv, hread]
  dsimp only
  rw [if_pos ⟨by simp, by simpa using hne⟩]

/-! ## `asn1Decode` -/

theorem asn1Decode_parseOnly {α : Type} {tag : Tag} {des : Asn1Data → Res α} {data : Asn1Data}
    (hv : data.Valid) (hdes : ∀ b : Asn1Data, b.Valid → b.copy.length < data.copy.length →
      ParseOnly (des b)) (leftovers copy : Bool) :
    ParseOnly (asn1Decode tag des data leftovers copy) := by
  unfold asn1Decode
  apply ParseOnly.bind (Ber.decode_parseOnly hv _ _ _)
  rintro ⟨t, b, tail⟩ h
  obtain ⟨h1, h2, h3, -⟩ := Ber.decode_ok hv h
  exact ParseOnly.bind (hdes b h1 (by omega)) fun x _ => ParseOnly.ok _

theorem asn1Decode_ok {α : Type} {tag : Tag} {des : Asn1Data → Res α} {data : Asn1Data}
    (hv : data.Valid) {leftovers copy : Bool} {obj : α} {tail : Subbytes}
    (h : asn1Decode tag des data leftovers copy = .ok (obj, tail)) :
    ∃ b : Asn1Data, b.Valid ∧ des b = .ok obj ∧ tail.WF ∧
      readTLV data.copy = some (tag, b.copy, tail.copy) ∧
      tail.copy.length + 2 + b.copy.length ≤ data.copy.length ∧
      (leftovers = false → tail.copy = []) := by
  unfold asn1Decode at h
  cases hb : Ber.decode data (some tag) leftovers copy with
  | error e => rw [hb] at h; cases h
  | ok v =>
    obtain ⟨t, b, tl⟩ := v
    obtain ⟨h1, h2, h3, h4, h5, h6⟩ := Ber.decode_ok hv hb
    rw [hb] at h
    simp only [Except.bind] at h
    cases hdes : des b with
    | error e => rw [hdes] at h; cases h
    | ok x =>
      rw [hdes] at h
      simp only [Except.ok.injEq, Prod.mk.injEq] at h
      obtain ⟨rfl, rfl⟩ := h
      rcases h6 with h6 | h6
      · cases h6
      · injection h6 with h6; subst h6
        exact ⟨b, h1, hdes, h2, h4, h3, h5⟩

theorem asn1Decode_encoded {α : Type} {t : Tag} {des : Asn1Data → Res α} {body e rest : Bytes}
    (he : Ber.encode t body = .ok e) {obj : α}
    (hdes : ∀ b : Asn1Data, b.Valid → b.copy = body → des b = .ok obj)
    {d : Asn1Data} (hv : d.Valid) (hd : d.copy = e ++ rest) {leftovers : Bool}
    (hlo : leftovers = true ∨ rest = []) (copy : Bool) :
    ∃ tail, asn1Decode t des d leftovers copy = .ok (obj, tail) ∧ tail.WF ∧ tail.copy = rest := by
  obtain ⟨b, tail, h1, h2, h3, h4, h5⟩ := Ber.decode_encoded he hv hd (.inr rfl) hlo copy
  refine ⟨tail, ?_, h4, h5⟩
  unfold asn1Decode
  rw [h1]
  simp only [Except.bind]
  rw [hdes b h2 h3]

theorem asn1Encode_ok {tag : Tag} {body : Res Bytes} {e : Bytes}
    (h : asn1Encode tag body = .ok e) : ∃ b, body = .ok b ∧ Ber.encode tag b = .ok e := by
  cases body with
  | error x => cases h
  | ok b => exact ⟨b, rfl, h⟩

/-! ## Primitive objects -/

theorem translateErr_valueError {α : Type} {r : Res α} (h : ∀ e, r = .error e → e.isValueError) :
    ParseOnly (translateErr PyErr.isValueError .parseError r) := by
  cases r with
  | ok x => exact ParseOnly.ok x
  | error e => simp only [translateErr, h e rfl, ↓reduceIte]; exact ParseOnly.err

theorem IntType.construct_eq (t : IntType) (v : Int) :
    t.construct v = if t.inRange v then .ok v else .error .parseError := by
  unfold IntType.construct IntType.new
  split <;> rfl

theorem IntType.deserialize_parseOnly (t : IntType) (d : Asn1Data) : ParseOnly (t.deserialize d) := by
  unfold IntType.deserialize
  rw [IntType.construct_eq]
  split
  · exact ParseOnly.ok _
  · exact ParseOnly.err

theorem Oid.new_err {l : List Int} {e : PyErr} (h : Oid.new l = .error e) : e = .valueError := by
  unfold Oid.new ObjId.new at h
  simp only at h
  split at h
  · injection h with h; exact h.symm
  split at h
  · injection h with h; exact h.symm
  split at h
  · injection h with h; exact h.symm
  split at h
  · injection h with h; exact h.symm
  split at h
  · injection h with h; exact h.symm
  · cases h

theorem Oid.construct_parseOnly (l : List Int) : ParseOnly (Oid.construct l) :=
  translateErr_valueError fun e h => by rw [Oid.new_err h]; rfl

theorem Oid.deserialize_parseOnly (d : Asn1Data) : ParseOnly (Oid.deserialize d) := by
  unfold Oid.deserialize
  split
  · exact ParseOnly.err
  · simp only
    split
    · exact ParseOnly.err
    · exact Oid.construct_parseOnly _

theorem octetStringConstruct_eq {d : Asn1Data} (hv : d.Valid) :
    octetStringConstruct d = if d.copy.length > 0xffff then .error .parseError else .ok d := by
  unfold octetStringConstruct octetStringNew
  rw [Asn1Data.len_valid hv]
  simp only [Except.bind]
  split <;> rfl

theorem SmiType.deserialize_parseOnly (t : SmiType) {d : Asn1Data} (hv : d.Valid) :
    ParseOnly (t.deserialize d) := by
  cases t with
  | int t => exact ParseOnly.map (t.deserialize_parseOnly d)
  | octetString =>
    apply ParseOnly.map
    rw [octetStringConstruct_eq hv]
    split
    · exact ParseOnly.err
    · exact ParseOnly.ok _
  | ipAddress =>
    apply ParseOnly.map
    unfold ipAddressConstruct
    split
    · exact ParseOnly.ok _
    · exact ParseOnly.err
  | oid => exact ParseOnly.map (Oid.deserialize_parseOnly d)
  | opaqueData => exact ParseOnly.ok _
  | null => exact ParseOnly.ok _
  | noSuchObject => exact ParseOnly.ok _
  | noSuchInstance => exact ParseOnly.ok _
  | endOfMibView => exact ParseOnly.ok _

/-- The object a constructible object becomes by encoding and decoding with its own class. -/
def Value.wire : Value → Value
  | .oid o => .oid (Oid.wireForm o)
  | v => v

theorem Value.deserialize_serialize {v : Value} (hc : v.Constructible) {body : Bytes}
    (hb : v.serialize = .ok body) {d : Asn1Data} (hv : d.Valid) (hd : d.copy = body) :
    v.type.deserialize d = .ok v.wire := by
  cases v with
  | int t n =>
    obtain ⟨bs, h1, -, h3, -⟩ := intSerialize_spec n
    simp only [Value.serialize] at hb
    rw [h1] at hb; injection hb with hb; subst hb
    simp only [Value.type, SmiType.deserialize, IntType.deserialize, hd, h3, IntType.construct_eq]
    simp only [Value.Constructible] at hc
    rw [if_pos hc]; rfl
  | octets b =>
    simp only [Value.serialize, Except.ok.injEq] at hb; subst hb
    simp only [Value.Constructible] at hc
    simp only [Value.type, SmiType.deserialize, octetStringConstruct_eq hv, hd]
    rw [if_neg (by omega)]
    simp [Except.map, hd, Value.wire]
  | ipAddress b =>
    simp only [Value.serialize, Except.ok.injEq] at hb; subst hb
    simp only [Value.Constructible] at hc
    simp only [Value.type, SmiType.deserialize, ipAddressConstruct, hd]
    rw [if_pos hc]; rfl
  | opaqueData b =>
    simp only [Value.serialize, Except.ok.injEq] at hb; subst hb
    simp only [Value.type, SmiType.deserialize, hd]; rfl
  | oid o =>
    simp only [Value.serialize, Except.ok.injEq] at hb
    simp only [Value.Constructible] at hc
    have hl := ((Oid.new_ofNat_iff o o).1 hc).1
    simp only [Value.type, SmiType.deserialize]
    rw [Oid.deserialize_serialize hl d (by rw [hd, hb])]; rfl
  | null => rfl
  | noSuchObject => rfl
  | noSuchInstance => rfl
  | endOfMibView => rfl

theorem Value.serialize_ok (v : Value) : ∃ b, v.serialize = .ok b := by
  cases v with
  | int t n => obtain ⟨bs, h1, -⟩ := intSerialize_spec n; exact ⟨bs, h1⟩
  | octets b => exact ⟨_, rfl⟩
  | ipAddress b => exact ⟨_, rfl⟩
  | opaqueData b => exact ⟨_, rfl⟩
  | oid o => exact ⟨_, rfl⟩
  | null => exact ⟨_, rfl⟩
  | noSuchObject => exact ⟨_, rfl⟩
  | noSuchInstance => exact ⟨_, rfl⟩
  | endOfMibView => exact ⟨_, rfl⟩

theorem Value.decode_encode {v : Value} (hc : v.Constructible) {e rest : Bytes}
    (he : v.encode = .ok e) {d : Asn1Data} (hv : d.Valid) (hd : d.copy = e ++ rest)
    {leftovers : Bool} (hlo : leftovers = true ∨ rest = []) (copy : Bool) :
    ∃ tail, v.type.decode d leftovers copy = .ok (v.wire, tail) ∧ tail.WF ∧ tail.copy = rest := by
  obtain ⟨b, hb, hbe⟩ := asn1Encode_ok he
  exact asn1Decode_encoded hbe (fun x hx hxb => Value.deserialize_serialize hc hb hx hxb) hv hd hlo copy

end Snmp
