import Verif.Message
import Verif.PduLemmas
/-!
# Lemmas about messages: exceptions, exact round trips, positions
-/

set_option linter.unusedSimpArgs false

namespace Snmp

/-! ## Exceptions -/

/-- Only `IncomingMessageError` subclasses can escape. -/
def IncomingOnly {α : Type} (r : Res α) : Prop := ∀ e, r = .error e → e.isIncoming = true

theorem ParseOnly.incoming {α : Type} {r : Res α} (h : ParseOnly r) : IncomingOnly r := by
  intro e he; rw [h e he]; rfl

theorem IncomingOnly.ok {α : Type} (x : α) : IncomingOnly (.ok x : Res α) := by
  intro e h; cases h

theorem IncomingOnly.err {α : Type} {e : PyErr} (h : e.isIncoming = true) :
    IncomingOnly (.error e : Res α) := by
  intro e' h'; injection h' with h'; rw [← h']; exact h

theorem IncomingOnly.bind {α β : Type} {r : Res α} {f : α → Res β} (h : IncomingOnly r)
    (hf : ∀ x, r = .ok x → IncomingOnly (f x)) : IncomingOnly (r.bind f) := by
  cases r with
  | error e => exact IncomingOnly.err (h e rfl)
  | ok x => exact hf x rfl

theorem orRaise_incoming {α : Type} {e : PyErr} (h : e.isIncoming = true) (o : Option α) :
    IncomingOnly (orRaise e o) := by
  cases o with
  | none => exact IncomingOnly.err h
  | some x => exact IncomingOnly.ok x

theorem asn1Decode_incoming {α : Type} {tag : Tag} {des : Asn1Data → Res α} {data : Asn1Data}
    (hv : data.Valid) (hdes : ∀ b : Asn1Data, b.Valid → IncomingOnly (des b))
    (leftovers copy : Bool) : IncomingOnly (asn1Decode tag des data leftovers copy) := by
  unfold asn1Decode
  apply IncomingOnly.bind (Ber.decode_parseOnly hv _ _ _).incoming
  rintro ⟨t, b, tail⟩ h
  obtain ⟨h1, -⟩ := Ber.decode_ok hv h
  exact IncomingOnly.bind (hdes b h1) fun x _ => IncomingOnly.ok _

theorem asn1Decode_tail {α : Type} {tag : Tag} {des : Asn1Data → Res α} {data : Asn1Data}
    (hv : data.Valid) {leftovers copy : Bool} {obj : α} {tail : Subbytes}
    (h : asn1Decode tag des data leftovers copy = .ok (obj, tail)) :
    (Asn1Data.sub tail).Valid := by
  obtain ⟨-, -, -, w, -⟩ := asn1Decode_ok hv h
  exact w

theorem decodeVersion_incoming {d : Asn1Data} (hv : d.Valid) : IncomingOnly (decodeVersion d) := by
  unfold decodeVersion
  apply IncomingOnly.bind (decodeInteger_parseOnly hv _).incoming
  rintro ⟨v, ptr⟩ h
  exact IncomingOnly.bind (orRaise_incoming rfl _) fun x _ => IncomingOnly.ok _

theorem decodeVersion_tail {d : Asn1Data} (hv : d.Valid) {v : Version} {tail : Subbytes}
    (h : decodeVersion d = .ok (v, tail)) : (Asn1Data.sub tail).Valid := by
  unfold decodeVersion at h
  cases hi : decodeInteger d with
  | error e => rw [hi] at h; cases h
  | ok x =>
    obtain ⟨n, t⟩ := x
    rw [hi] at h
    simp only [Except.bind] at h
    cases ho : orRaise PyErr.badVersion (Version.ofValue n) with
    | error e => rw [ho] at h; cases h
    | ok y =>
      rw [ho] at h
      simp only [Except.ok.injEq, Prod.mk.injEq] at h
      rw [← h.2]; exact asn1Decode_tail hv hi

theorem octetStringDecode_parseOnly {d : Asn1Data} (hv : d.Valid) (l c : Bool) :
    ParseOnly (octetStringDecode d l c) := by
  refine asn1Decode_parseOnly hv (fun b hb _ => ?_) l c
  rw [octetStringConstruct_eq hb]
  split
  · exact ParseOnly.err
  · exact ParseOnly.ok _

theorem decodeOctets_parseOnly {d : Asn1Data} (hv : d.Valid) (l : Bool) :
    ParseOnly (decodeOctets d l) := by
  unfold decodeOctets
  exact ParseOnly.bind (octetStringDecode_parseOnly hv l true) fun x _ => ParseOnly.ok _

theorem decodeOctets_tail {d : Asn1Data} (hv : d.Valid) {l : Bool} {x : Bytes} {tail : Subbytes}
    (h : decodeOctets d l = .ok (x, tail)) : (Asn1Data.sub tail).Valid := by
  unfold decodeOctets at h
  cases hi : octetStringDecode d l true with
  | error e => rw [hi] at h; cases h
  | ok y =>
    obtain ⟨n, t⟩ := y
    rw [hi] at h
    simp only [Except.bind, Except.ok.injEq, Prod.mk.injEq] at h
    rw [← h.2]; exact asn1Decode_tail hv hi

theorem Tag.decode_parseOnly {s : Subbytes} (hs : s.WF) : ParseOnly (Tag.decode s) := by
  rw [Tag.decode_refines hs]
  split
  · exact ParseOnly.err
  · exact ParseOnly.ok _

theorem decodePdu_parseOnly (types : List PduType) {d : Asn1Data} (hv : d.Valid) :
    ParseOnly (decodePdu types d) := by
  unfold decodePdu
  apply ParseOnly.bind (Tag.decode_parseOnly hv)
  rintro ⟨t, -⟩ -
  apply ParseOnly.bind
  · unfold lookupPdu
    cases types.find? fun s => s.tag = t with
    | none => exact ParseOnly.err
    | some x => exact ParseOnly.ok x
  · intro ty _
    exact ParseOnly.bind (ty.decode_parseOnly hv _ _) fun x _ => ParseOnly.ok _

theorem Message.deserialize_incoming (types : List PduType) {d : Asn1Data} (hv : d.Valid) :
    IncomingOnly (Message.deserialize types d) := by
  unfold Message.deserialize
  apply IncomingOnly.bind (decodeVersion_incoming hv)
  rintro ⟨v, ptr⟩ h
  have w := decodeVersion_tail hv h
  dsimp only
  split
  · exact IncomingOnly.err rfl
  · apply IncomingOnly.bind (decodeOctets_parseOnly w _).incoming
    rintro ⟨c, p2⟩ h2
    exact IncomingOnly.bind (decodePdu_parseOnly types (decodeOctets_tail w h2)).incoming
      fun x _ => IncomingOnly.ok _

theorem MessageFlags.construct_incoming (d : Asn1Data) : IncomingOnly (MessageFlags.construct d) := by
  unfold MessageFlags.construct
  split
  · exact IncomingOnly.err rfl
  · apply IncomingOnly.bind
    · unfold SecurityLevel.new
      split
      · exact IncomingOnly.err rfl
      · exact IncomingOnly.ok _
    · intro x _; exact IncomingOnly.ok _

theorem HeaderData.deserialize_incoming {d : Asn1Data} (hv : d.Valid) :
    IncomingOnly (HeaderData.deserialize d) := by
  unfold HeaderData.deserialize
  apply IncomingOnly.bind (decodeInteger_parseOnly hv _).incoming
  rintro ⟨a, p1⟩ h1
  have w1 := asn1Decode_tail hv h1
  apply IncomingOnly.bind (decodeInteger_parseOnly w1 _).incoming
  rintro ⟨b, p2⟩ h2
  have w2 := asn1Decode_tail w1 h2
  apply IncomingOnly.bind (asn1Decode_incoming w2 (fun b _ => MessageFlags.construct_incoming b) _ _)
  rintro ⟨c, p3⟩ h3
  have w3 := asn1Decode_tail w2 h3
  apply IncomingOnly.bind (decodeInteger_parseOnly w3 _).incoming
  rintro ⟨m, p4⟩ h4
  dsimp only
  split
  · exact IncomingOnly.err rfl
  split
  · exact IncomingOnly.err rfl
  split
  · exact IncomingOnly.err rfl
  exact IncomingOnly.bind (orRaise_incoming rfl _) fun x _ => IncomingOnly.ok _

theorem ScopedPDU.deserialize_parseOnly {d : Asn1Data} (hv : d.Valid) :
    ParseOnly (ScopedPDU.deserialize d) := by
  unfold ScopedPDU.deserialize
  apply ParseOnly.bind (decodeOctets_parseOnly hv _)
  rintro ⟨a, p1⟩ h1
  have w1 := decodeOctets_tail hv h1
  apply ParseOnly.bind (decodeOctets_parseOnly w1 _)
  rintro ⟨b, p2⟩ h2
  exact ParseOnly.bind (decodePdu_parseOnly _ (decodeOctets_tail w1 h2)) fun x _ => ParseOnly.ok _

theorem ScopedPDU.decode_parseOnly {d : Asn1Data} (hv : d.Valid) (l : Bool) :
    ParseOnly (ScopedPDU.decode d l) :=
  asn1Decode_parseOnly hv (fun _ hb _ => ScopedPDU.deserialize_parseOnly hb) l true

theorem V3Message.deserialize_incoming {d : Asn1Data} (hv : d.Valid) :
    IncomingOnly (V3Message.deserialize d) := by
  unfold V3Message.deserialize
  apply IncomingOnly.bind (decodeVersion_incoming hv)
  rintro ⟨v, p1⟩ h1
  have w1 := decodeVersion_tail hv h1
  dsimp only
  split
  · exact IncomingOnly.err rfl
  apply IncomingOnly.bind (asn1Decode_incoming w1 (fun b hb => HeaderData.deserialize_incoming hb) _ _)
  rintro ⟨hd, p2⟩ h2
  have w2 := asn1Decode_tail w1 h2
  apply IncomingOnly.bind (octetStringDecode_parseOnly w2 _ _).incoming
  rintro ⟨sp, p3⟩ h3
  have w3 := asn1Decode_tail w2 h3
  dsimp only
  split
  · exact IncomingOnly.bind (decodeOctets_parseOnly w3 _).incoming fun x _ => IncomingOnly.ok _
  · exact IncomingOnly.bind (ScopedPDU.decode_parseOnly w3 _).incoming fun x _ => IncomingOnly.ok _

theorem UsmParams.deserialize_parseOnly {d : Asn1Data} (hv : d.Valid) :
    ParseOnly (UsmParams.deserialize d) := by
  unfold UsmParams.deserialize
  apply ParseOnly.bind (decodeOctets_parseOnly hv _)
  rintro ⟨a, p1⟩ h1
  have w1 := decodeOctets_tail hv h1
  apply ParseOnly.bind (decodeInteger_parseOnly w1 _)
  rintro ⟨b, p2⟩ h2
  have w2 := asn1Decode_tail w1 h2
  apply ParseOnly.bind (decodeInteger_parseOnly w2 _)
  rintro ⟨c, p3⟩ h3
  have w3 := asn1Decode_tail w2 h3
  apply ParseOnly.bind (decodeOctets_parseOnly w3 _)
  rintro ⟨u, p4⟩ h4
  have w4 := decodeOctets_tail w3 h4
  apply ParseOnly.bind (octetStringDecode_parseOnly w4 _ _)
  rintro ⟨s, p5⟩ h5
  have w5 := asn1Decode_tail w4 h5
  exact ParseOnly.bind (decodeOctets_parseOnly w5 _) fun x _ => ParseOnly.ok _

/-! ## Exact results on encodings

`d.toSub.last n` is the view of the last `n` bytes of the argument. -/

theorem last_valid {d : Asn1Data} (hv : d.Valid) (n : Nat) : (Asn1Data.sub (d.toSub.last n)).Valid :=
  Subbytes.last_WF hv n

theorem last_copy {d : Asn1Data} (hv : d.Valid) {a rest : Bytes} (hd : d.copy = a ++ rest) :
    (Asn1Data.sub (d.toSub.last rest.length)).copy = rest := by
  rw [Asn1Data.copy_eq] at hd ⊢
  exact Subbytes.last_suffix hv hd

theorem Ber.decode_exact {t : Tag} {body e rest : Bytes} (he : Ber.encode t body = .ok e)
    {d : Asn1Data} (hv : d.Valid) (hd : d.copy = e ++ rest) {expected : Option Tag}
    (hexp : expected = none ∨ expected = some t) {leftovers : Bool}
    (hlo : leftovers = true ∨ rest = []) (copy : Bool) :
    Ber.decode d expected leftovers copy =
      .ok (t, if copy then .bytes body else .sub (d.toSub.inner body.length rest.length),
        d.toSub.last rest.length) := by
  obtain ⟨-, hr⟩ := Ber.encode_inv he
  have hread := hr rest
  rw [Asn1Data.copy_eq] at hd
  rw [← hd] at hread
  rw [Ber.decode_refines hv, hread]
  dsimp only
  rw [if_neg (by rcases hexp with h | h <;> simp [h]),
    if_neg (by rcases hlo with h | h <;> simp [h])]

/-- The header in front of a body depends on the body's length only. -/
theorem Ber.encode_header {t : Tag} {body e : Bytes} (he : Ber.encode t body = .ok e) :
    ∃ hdr, e = hdr ++ body ∧
      ∀ body', body'.length = body.length → Ber.encode t body' = .ok (hdr ++ body') := by
  unfold Ber.encode at he
  cases hl : encodeLength body.length with
  | error x => rw [hl] at he; cases he
  | ok l =>
    rw [hl] at he
    injection he with he
    refine ⟨t.encode ++ l, he.symm, ?_⟩
    intro body' hb
    unfold Ber.encode
    rw [hb, hl]; rfl

theorem inner_spec' {t : Tag} {body e rest : Bytes} (he : Ber.encode t body = .ok e)
    {d : Asn1Data} (hv : d.Valid) (hd : d.copy = e ++ rest) :
    (Asn1Data.sub (d.toSub.inner body.length rest.length)).Valid ∧
    (Asn1Data.sub (d.toSub.inner body.length rest.length)).copy = body := by
  obtain ⟨hdr, rfl, -⟩ := Ber.encode_header he
  rw [Asn1Data.copy_eq] at hd
  obtain ⟨h1, h2⟩ := Subbytes.inner_spec hv hd
  refine ⟨h1, ?_⟩
  rw [Asn1Data.copy_eq]; exact h2

theorem asn1Decode_exact {α : Type} {t : Tag} {des : Asn1Data → Res α} {body e rest : Bytes}
    (he : Ber.encode t body = .ok e) {obj : α} {d : Asn1Data} (hv : d.Valid)
    (hd : d.copy = e ++ rest) {leftovers : Bool} (hlo : leftovers = true ∨ rest = [])
    {copy : Bool}
    (hdes : des (if copy then .bytes body else .sub (d.toSub.inner body.length rest.length)) = .ok obj) :
    asn1Decode t des d leftovers copy = .ok (obj, d.toSub.last rest.length) := by
  unfold asn1Decode
  rw [Ber.decode_exact he hv hd (.inr rfl) hlo copy]
  simp only [Except.bind]
  rw [hdes]

/-- Same, when the decoder of the body does not care how the body is given. -/
theorem asn1Decode_exact' {α : Type} {t : Tag} {des : Asn1Data → Res α} {body e rest : Bytes}
    (he : Ber.encode t body = .ok e) {obj : α} {d : Asn1Data} (hv : d.Valid)
    (hd : d.copy = e ++ rest) {leftovers : Bool} (hlo : leftovers = true ∨ rest = [])
    (copy : Bool) (hdes : ∀ b : Asn1Data, b.Valid → b.copy = body → des b = .ok obj) :
    asn1Decode t des d leftovers copy = .ok (obj, d.toSub.last rest.length) := by
  apply asn1Decode_exact he hv hd hlo
  cases copy
  · obtain ⟨h1, h2⟩ := inner_spec' he hv hd
    exact hdes _ h1 h2
  · exact hdes _ (Asn1Data.valid_bytes _) rfl

theorem decodeInteger_exact {n : Int} {e rest : Bytes} (he : encodeInteger n = .ok e)
    {d : Asn1Data} (hv : d.Valid) (hd : d.copy = e ++ rest) {leftovers : Bool}
    (hlo : leftovers = true ∨ rest = []) :
    decodeInteger d leftovers = .ok (n, d.toSub.last rest.length) := by
  obtain ⟨hr, he'⟩ := encodeInteger_ok he
  obtain ⟨b, hb, hbe⟩ := asn1Encode_ok he'
  refine asn1Decode_exact' hbe hv hd hlo true (fun x hx hxb => ?_)
  obtain ⟨bs, h1, -, h3, -⟩ := intSerialize_spec n
  simp only [Value.serialize] at hb
  rw [h1] at hb; injection hb with hb
  unfold IntType.deserialize
  rw [hxb, ← hb, h3, IntType.construct_eq, if_pos hr]

theorem encodeOctets_ok {x e : Bytes} (h : encodeOctets x = .ok e) :
    x.length ≤ 0xffff ∧ Ber.encode SmiType.octetString.tag x = .ok e := by
  unfold encodeOctets at h
  unfold octetStringNew at h
  rw [Asn1Data.len_valid (Asn1Data.valid_bytes x)] at h
  simp only [Except.bind] at h
  by_cases hl : x.length > 0xffff
  · rw [if_pos (show (Asn1Data.bytes x).copy.length > 0xffff from hl)] at h; cases h
  · rw [if_neg (show ¬ (Asn1Data.bytes x).copy.length > 0xffff from hl)] at h
    exact ⟨by omega, h⟩

theorem octets_exact {x e rest : Bytes} (hl : x.length ≤ 0xffff)
    (he : Ber.encode SmiType.octetString.tag x = .ok e)
    {d : Asn1Data} (hv : d.Valid) (hd : d.copy = e ++ rest) {leftovers : Bool}
    (hlo : leftovers = true ∨ rest = []) :
    decodeOctets d leftovers = .ok (x, d.toSub.last rest.length) := by
  unfold decodeOctets octetStringDecode
  have := asn1Decode_exact (des := octetStringConstruct) (obj := .bytes x) (copy := true) he hv hd hlo
    (by
      simp only [↓reduceIte]
      rw [octetStringConstruct_eq (Asn1Data.valid_bytes x),
        if_neg (show ¬ (Asn1Data.bytes x).copy.length > 0xffff by simp only [Asn1Data.copy]; omega)])
  rw [this]
  rfl

theorem decodeOctets_exact {x e rest : Bytes} (he : encodeOctets x = .ok e)
    {d : Asn1Data} (hv : d.Valid) (hd : d.copy = e ++ rest) {leftovers : Bool}
    (hlo : leftovers = true ∨ rest = []) :
    decodeOctets d leftovers = .ok (x, d.toSub.last rest.length) :=
  octets_exact (encodeOctets_ok he).1 (encodeOctets_ok he).2 hv hd hlo

/-- Without copying, the string is the view where it stands. -/
theorem octetStringDecode_exact {x e rest : Bytes} (hl : x.length ≤ 0xffff)
    (he : Ber.encode SmiType.octetString.tag x = .ok e)
    {d : Asn1Data} (hv : d.Valid) (hd : d.copy = e ++ rest) {leftovers : Bool}
    (hlo : leftovers = true ∨ rest = []) (copy : Bool) :
    octetStringDecode d leftovers copy =
      .ok (if copy then .bytes x else .sub (d.toSub.inner x.length rest.length),
        d.toSub.last rest.length) := by
  unfold octetStringDecode
  apply asn1Decode_exact (des := octetStringConstruct) he hv hd hlo
  obtain ⟨h1, h2⟩ := inner_spec' he hv hd
  cases copy
  · simp only [Bool.false_eq_true, ↓reduceIte]
    rw [octetStringConstruct_eq h1, h2, if_neg (by omega)]
  · simp only [↓reduceIte]
    rw [octetStringConstruct_eq (Asn1Data.valid_bytes x),
      if_neg (show ¬ (Asn1Data.bytes x).copy.length > 0xffff by simp only [Asn1Data.copy]; omega)]

theorem Version.ofValue_value (v : Version) : Version.ofValue v.value = some v := by
  cases v <;> rfl

theorem decodeVersion_exact {v : Version} {e rest : Bytes} (he : encodeInteger v.value = .ok e)
    {d : Asn1Data} (hv : d.Valid) (hd : d.copy = e ++ rest) :
    decodeVersion d = .ok (v, d.toSub.last rest.length) := by
  unfold decodeVersion
  rw [decodeInteger_exact he hv hd (.inl rfl)]
  simp only [Except.bind, Version.ofValue_value]
  rfl

theorem PduType.tag_injective {a b : PduType} (h : a.tag = b.tag) : a = b := by
  cases a <;> cases b <;> first | rfl | (exact absurd h (by decide))

theorem lookupPdu_mem {types : List PduType} {t : PduType} (h : t ∈ types) :
    lookupPdu types t.tag = .ok t := by
  unfold lookupPdu
  have : types.find? (fun s => decide (s.tag = t.tag)) = some t := by
    induction types with
    | nil => cases h
    | cons a l ih =>
      rw [List.find?_cons]
      by_cases ha : a = t
      · subst ha; simp
      · have : ¬ a.tag = t.tag := fun h' => ha (PduType.tag_injective h')
        simp only [this, decide_false]
        rcases List.mem_cons.1 h with h | h
        · exact absurd h.symm ha
        · exact ih h
  rw [this]; rfl

theorem lookupPdu_not_mem {types : List PduType} {t : PduType} (h : t ∉ types) :
    lookupPdu types t.tag = .error .parseError := by
  unfold lookupPdu
  have : types.find? (fun s => decide (s.tag = t.tag)) = none := by
    rw [List.find?_eq_none]
    intro s hs
    simp only [decide_eq_true_eq]
    intro hst
    rw [PduType.tag_injective hst] at hs
    exact h hs
  rw [this]; rfl

theorem Tag.decode_encoded {t : Tag} {body e rest : Bytes} (he : Ber.encode t body = .ok e)
    {d : Asn1Data} (hv : d.Valid) (hd : d.copy = e ++ rest) :
    ∃ tail, Tag.decode d.toSub = .ok (t, tail) := by
  unfold Ber.encode at he
  cases hl : encodeLength body.length with
  | error x => rw [hl] at he; cases he
  | ok l =>
    rw [hl] at he
    injection he with he
    rw [Asn1Data.copy_eq] at hd
    rw [Tag.decode_refines hv, hd, ← he]
    have : t.encode ++ l ++ body ++ rest = t.encode ++ (l ++ body ++ rest) := by simp
    refine ⟨d.toSub.last (l ++ body ++ rest).length, ?_⟩
    show (match readTag (t.encode ++ l ++ body ++ rest) with
      | none => (Except.error PyErr.parseError : Res (Tag × Subbytes))
      | some (m, r) => Except.ok (m, d.toSub.last r.length)) = _
    rw [this, readTag_encode]

/-- What a received PDU is compared with: sent fields in range and sendable bindings. -/
def Pdu.Good (p : Pdu) : Prop := p.FieldsOk ∧ ∀ v ∈ p.bindings, v.Portable

theorem decodePdu_exact {types : List PduType} {p : Pdu} (hg : p.Good) (ht : p.type ∈ types)
    {e : Bytes} (he : p.encode = .ok e) {d : Asn1Data} (hv : d.Valid) (hd : d.copy = e) :
    decodePdu types d = .ok p.canon := by
  obtain ⟨b, hb, hbe⟩ := asn1Encode_ok he
  obtain ⟨tl, htl⟩ := Tag.decode_encoded hbe hv (rest := []) (by simpa using hd)
  obtain ⟨tail, h1, -⟩ := Pdu.decode_encode hg.1 hg.2 he hv (rest := []) (by simpa using hd)
    (leftovers := false) (.inr rfl) true
  unfold decodePdu
  rw [htl]
  simp only [Except.bind]
  rw [lookupPdu_mem ht]
  simp only
  rw [h1]

theorem decodePdu_refused {types : List PduType} {p : Pdu} (ht : p.type ∉ types)
    {e : Bytes} (he : p.encode = .ok e) {d : Asn1Data} (hv : d.Valid) (hd : d.copy = e) :
    decodePdu types d = .error .parseError := by
  obtain ⟨b, hb, hbe⟩ := asn1Encode_ok he
  obtain ⟨tl, htl⟩ := Tag.decode_encoded hbe hv (rest := []) (by simpa using hd)
  unfold decodePdu
  rw [htl]
  simp only [Except.bind]
  rw [lookupPdu_not_mem ht]

theorem bind_ok {α β : Type} {r : Res α} {f : α → Res β} {y : β} (h : r.bind f = .ok y) :
    ∃ x, r = .ok x ∧ f x = .ok y := by
  cases r with
  | error e => cases h
  | ok x => exact ⟨x, rfl, h⟩

theorem Message.deserialize_exact {types : List PduType} {m : Message} (hver : m.version ≠ .v3)
    {body : Bytes} (hb : m.serialize = .ok body) {d : Asn1Data} (hv : d.Valid) (hd : d.copy = body) :
    ∃ ptr pe, m.pdu.encode = .ok pe ∧ (Asn1Data.sub ptr).Valid ∧ (Asn1Data.sub ptr).copy = pe ∧
      Message.deserialize types d =
        (decodePdu types (.sub ptr)).bind fun pdu => .ok ⟨m.version, m.community, pdu⟩ := by
  unfold Message.serialize at hb
  obtain ⟨a, ha, hb⟩ := bind_ok hb
  obtain ⟨b, hb', hb⟩ := bind_ok hb
  obtain ⟨c, hc, hb⟩ := bind_ok hb
  injection hb with hb
  subst hb
  have d1 := decodeVersion_exact ha hv (rest := b ++ c) (by rw [hd]; simp)
  have v1 := last_valid hv (b ++ c).length
  have c1 := last_copy hv (a := a) (rest := b ++ c) (by rw [hd]; simp)
  have d2 := decodeOctets_exact hb' v1 (rest := c) c1 (leftovers := true) (.inl rfl)
  have v2 := last_valid v1 c.length
  have c2 := last_copy v1 c1
  refine ⟨_, c, hc, v2, c2, ?_⟩
  unfold Message.deserialize
  rw [d1]
  simp only [Except.bind]
  rw [if_neg hver, d2]

theorem Message.decode_exact {types : List PduType} {m : Message} (hver : m.version ≠ .v3)
    (hg : m.pdu.Good) (ht : m.pdu.type ∈ types) {e : Bytes} (he : m.encode = .ok e)
    {d : Asn1Data} (hv : d.Valid) (hd : d.copy = e) :
    ∃ tail, Message.decode types d = .ok ({ m with pdu := m.pdu.canon }, tail) := by
  obtain ⟨body, hb, hbe⟩ := asn1Encode_ok he
  refine ⟨_, asn1Decode_exact' hbe hv (rest := []) (by simpa using hd) (.inr rfl) true
    (fun x hx hxb => ?_)⟩
  obtain ⟨ptr, pe, h1, h2, h3, h4⟩ := Message.deserialize_exact (types := types) hver hb hx hxb
  rw [h4, decodePdu_exact hg ht h1 h2 h3]
  rfl

/-! ## SNMPv3 messages -/

theorem MessageFlags.roundtrip (f : MessageFlags) (hf : f.level.priv = true → f.level.auth = true)
    {d : Asn1Data} (hd : d.copy = [UInt8.ofNat f.byte]) : MessageFlags.construct d = .ok f := by
  obtain ⟨⟨a, p⟩, r⟩ := f
  unfold MessageFlags.construct
  rw [hd]
  simp only at hf
  cases a <;> cases p <;> cases r <;> first | rfl | exact absurd (hf rfl) (by decide)

/-- Header fields a peer accepts. -/
def HeaderData.Good (h : HeaderData) : Prop :=
  0 ≤ h.id ∧ 484 ≤ h.maxSize ∧ (h.flags.level.priv = true → h.flags.level.auth = true)

theorem HeaderData.deserialize_exact {h : HeaderData} (hg : h.Good) {body : Bytes}
    (hb : h.serialize = .ok body) {d : Asn1Data} (hv : d.Valid) (hd : d.copy = body) :
    HeaderData.deserialize d = .ok h := by
  unfold HeaderData.serialize at hb
  obtain ⟨a, ha, hb⟩ := bind_ok hb
  obtain ⟨b, hb', hb⟩ := bind_ok hb
  obtain ⟨c, hc, hb⟩ := bind_ok hb
  obtain ⟨m, hm, hb⟩ := bind_ok hb
  injection hb with hb
  subst hb
  have d1 := decodeInteger_exact ha hv (rest := b ++ c ++ m) (by rw [hd]; simp) (leftovers := true) (.inl rfl)
  have v1 := last_valid hv (b ++ c ++ m).length
  have c1 := last_copy hv (a := a) (rest := b ++ c ++ m) (by rw [hd]; simp)
  have d2 := decodeInteger_exact hb' v1 (rest := c ++ m) (by rw [c1]; simp) (leftovers := true) (.inl rfl)
  have v2 := last_valid v1 (c ++ m).length
  have c2 := last_copy v1 (a := b) (rest := c ++ m) (by rw [c1]; simp)
  obtain ⟨fb, hfb, hfe⟩ := asn1Encode_ok hc
  injection hfb with hfb
  have d3 : MessageFlags.decode _ = .ok _ := asn1Decode_exact' (des := MessageFlags.construct) hfe v2
    (rest := m) c2 (leftovers := true) (.inl rfl) true
    (fun x _ hx => MessageFlags.roundtrip h.flags hg.2.2 (by rw [hx, hfb]))
  have v3 := last_valid v2 m.length
  have c3 := last_copy v2 c2
  have d4 := decodeInteger_exact hm v3 (rest := []) (by rw [c3]; simp) (leftovers := false) (.inr rfl)
  unfold HeaderData.deserialize
  rw [d1]; simp only [Except.bind]
  rw [d2]; simp only
  rw [d3]; simp only
  rw [d4]; simp only
  obtain ⟨g1, g2, -⟩ := hg
  rw [if_neg (by omega), if_neg (by omega), if_neg (by cases h.securityModel; decide)]
  cases h with
  | mk i ms f sm => cases sm; rfl

theorem ScopedPDU.deserialize_exact {s : ScopedPDU} (hg : s.pdu.Good) {body : Bytes}
    (hb : s.serialize = .ok body) {d : Asn1Data} (hv : d.Valid) (hd : d.copy = body) :
    ScopedPDU.deserialize d = .ok { s with pdu := s.pdu.canon } := by
  unfold ScopedPDU.serialize at hb
  obtain ⟨a, ha, hb⟩ := bind_ok hb
  obtain ⟨b, hb', hb⟩ := bind_ok hb
  obtain ⟨c, hc, hb⟩ := bind_ok hb
  injection hb with hb
  subst hb
  have d1 := decodeOctets_exact ha hv (rest := b ++ c) (by rw [hd]; simp) (leftovers := true) (.inl rfl)
  have v1 := last_valid hv (b ++ c).length
  have c1 := last_copy hv (a := a) (rest := b ++ c) (by rw [hd]; simp)
  have d2 := decodeOctets_exact hb' v1 (rest := c) c1 (leftovers := true) (.inl rfl)
  have v2 := last_valid v1 c.length
  have c2 := last_copy v1 c1
  have ht : s.pdu.type ∈ v2Types := by cases s.pdu.type <;> decide
  have d3 := decodePdu_exact hg ht hc v2 c2
  unfold ScopedPDU.deserialize
  rw [d1]; simp only [Except.bind]
  rw [d2]; simp only
  rw [d3]

theorem ScopedPDU.decode_exact {s : ScopedPDU} (hg : s.pdu.Good) {e rest : Bytes}
    (he : s.encode = .ok e) {d : Asn1Data} (hv : d.Valid) (hd : d.copy = e ++ rest)
    {leftovers : Bool} (hlo : leftovers = true ∨ rest = []) :
    ScopedPDU.decode d leftovers =
      .ok ({ s with pdu := s.pdu.canon }, d.toSub.last rest.length) := by
  obtain ⟨body, hb, hbe⟩ := asn1Encode_ok he
  exact asn1Decode_exact' hbe hv hd hlo true (fun x hx hxb => ScopedPDU.deserialize_exact hg hb hx hxb)

/-- The layout of an encoded SNMPv3 message: what precedes and follows the security parameters
does not depend on their contents, and all parsers find them there. -/
structure V3Layout (m : V3Message) (e pre post : Bytes) : Prop where
  encoded : e = pre ++ m.securityParameters.copy ++ post
  replaced : ∀ p' : Asn1Data, p'.copy.length = m.securityParameters.copy.length →
    ({ m with securityParameters := p' } : V3Message).encode = .ok (pre ++ p'.copy ++ post)

theorem view_of_append {e pre p post : Bytes} (he : e = pre ++ p ++ post) :
    (⟨e, pre.length, pre.length + p.length⟩ : Subbytes).WF ∧
    (⟨e, pre.length, pre.length + p.length⟩ : Subbytes).copy = p := by
  constructor
  · refine ⟨by simp, ?_⟩
    simp only; rw [he]; simp
  · rw [Subbytes.copy_eq_contents, Subbytes.contents]
    simp only
    rw [he, show pre.length + p.length = (pre ++ p).length by simp, List.take_left, List.drop_left]

/-- Everything about an encodable message: its pieces and layout. -/
theorem V3Message.encode_parts {m : V3Message} {e : Bytes} (he : m.encode = .ok e) :
    ∃ hdr a b h2 pay, encodeInteger Version.v3.value = .ok a ∧ m.header.encode = .ok b ∧
      Ber.encode SmiType.octetString.tag m.securityParameters.copy =
        .ok (h2 ++ m.securityParameters.copy) ∧
      m.encodePayload = .ok pay ∧
      Ber.encode sequenceTag (a ++ b ++ (h2 ++ m.securityParameters.copy) ++ pay) =
        .ok (hdr ++ (a ++ b ++ (h2 ++ m.securityParameters.copy) ++ pay)) ∧
      e = hdr ++ (a ++ b ++ (h2 ++ m.securityParameters.copy) ++ pay) ∧
      V3Layout m e (hdr ++ a ++ b ++ h2) pay := by
  obtain ⟨body, hb, hbe⟩ := asn1Encode_ok he
  unfold V3Message.serialize at hb
  obtain ⟨a, ha, hb⟩ := bind_ok hb
  obtain ⟨b, hb', hb⟩ := bind_ok hb
  obtain ⟨c, hc, hb⟩ := bind_ok hb
  obtain ⟨pay, hp, hb⟩ := bind_ok hb
  injection hb with hb
  obtain ⟨cb, hcb, hce⟩ := asn1Encode_ok hc
  simp only [Value.serialize, Except.ok.injEq] at hcb
  subst hcb
  obtain ⟨h2, rfl, hh2⟩ := Ber.encode_header hce
  subst hb
  obtain ⟨hdr, rfl, hhdr⟩ := Ber.encode_header hbe
  refine ⟨hdr, a, b, h2, pay, ha, hb', hce, hp, hbe, rfl, ⟨by simp, ?_⟩⟩
  intro p' hp'
  have hc' : (Value.octets p'.copy).encode = .ok (h2 ++ p'.copy) := hh2 p'.copy hp'
  have hser : ({ m with securityParameters := p' } : V3Message).serialize =
      .ok (a ++ b ++ (h2 ++ p'.copy) ++ pay) := by
    unfold V3Message.serialize
    rw [ha]; simp only [Except.bind]
    rw [hb']; simp only
    rw [hc']; simp only
    have : ({ m with securityParameters := p' } : V3Message).encodePayload = .ok pay := hp
    rw [this]
  unfold V3Message.encode asn1Encode
  rw [hser]
  simp only [Except.bind]
  rw [hhdr _ (by simp [hp'])]
  simp

/-- The payload a peer accepts. -/
def V3Message.PayloadGood (m : V3Message) : Prop :=
  if m.header.flags.level.priv then ∃ c, m.encryptedPDU = some c ∧ c.length ≤ 0xffff
  else ∃ s, m.scopedPDU = some s ∧ s.pdu.Good

/-- The message a peer obtains from `m`, with the parameters at `loc`. -/
def V3Message.received (m : V3Message) (loc : Subbytes) : V3Message :=
  { header := m.header
    scopedPDU := if m.header.flags.level.priv then none
      else m.scopedPDU.map fun s => { s with pdu := s.pdu.canon }
    encryptedPDU := if m.header.flags.level.priv then m.encryptedPDU else none
    securityParameters := .sub loc }

theorem V3Message.decode_exact {m : V3Message} (hh : m.header.Good) (hp : m.PayloadGood)
    (hs : m.securityParameters.copy.length ≤ 0xffff) {e : Bytes} (he : m.encode = .ok e) :
    ∃ pre post, V3Layout m e pre post ∧
      V3Message.findSecurityParameters e =
        .ok ⟨e, pre.length, pre.length + m.securityParameters.copy.length⟩ ∧
      V3Message.decode (.bytes e) = .ok (m.received
        ⟨e, pre.length, pre.length + m.securityParameters.copy.length⟩) := by
  obtain ⟨hdr, a, b, h2, pay, ha, hb, hc, hpay, hbe, rfl, hlay⟩ := V3Message.encode_parts he
  refine ⟨_, _, hlay, ?_, ?_⟩
  all_goals
    generalize hpb : m.securityParameters.copy = p at *
    generalize hew : hdr ++ (a ++ b ++ (h2 ++ p) ++ pay) = w at *
    have hvw : (Asn1Data.bytes w).Valid := Asn1Data.valid_bytes w
    have hcw : (Asn1Data.bytes w).copy = w ++ [] := by simp [Asn1Data.copy]
    obtain ⟨vb, cb⟩ := inner_spec' hbe hvw (rest := []) (by simpa [hew] using hcw)
    have hlenw : w.length = hdr.length + (a.length + b.length + (h2.length + p.length) + pay.length) := by
      rw [← hew]; simp; omega
    generalize hbody : a ++ b ++ (h2 ++ p) ++ pay = body at *
    have hbl : body.length = a.length + b.length + (h2.length + p.length) + pay.length := by
      rw [← hbody]; simp; omega
    have hinner : (Asn1Data.bytes w).toSub.inner body.length ([] : Bytes).length =
        ⟨w, w.length - body.length, w.length⟩ := rfl
    rw [hinner] at vb cb
    -- the remaining bytes after each field, as views of the whole message
    have c1 := last_copy vb (a := a) (rest := b ++ ((h2 ++ p) ++ pay)) (by rw [cb, ← hbody]; simp)
    have v1 := last_valid vb (b ++ ((h2 ++ p) ++ pay)).length
    have c2 := last_copy v1 (a := b) (rest := (h2 ++ p) ++ pay) c1
    have v2 := last_valid v1 ((h2 ++ p) ++ pay).length
    have c3 := last_copy v2 (a := h2 ++ p) (rest := pay) c2
    have v3 := last_valid v2 pay.length
    have hloc : (((Asn1Data.sub (⟨w, w.length - body.length, w.length⟩ : Subbytes)).toSub.last
        (b ++ ((h2 ++ p) ++ pay)).length).last ((h2 ++ p) ++ pay).length).inner p.length pay.length =
        ⟨w, (hdr ++ a ++ b ++ h2).length, (hdr ++ a ++ b ++ h2).length + p.length⟩ := by
      show (⟨w, w.length - pay.length - p.length, w.length - pay.length⟩ : Subbytes) = _
      simp only [Subbytes.mk.injEq, true_and, List.length_append]
      omega
  · -- findSecurityParameters
    unfold V3Message.findSecurityParameters
    rw [Ber.decode_exact hbe hvw (rest := []) (by simpa [hew] using hcw) (.inr rfl) (.inr rfl) false]
    simp only [Except.bind, Bool.false_eq_true, ↓reduceIte]
    rw [hinner]
    obtain ⟨-, ha'⟩ := encodeInteger_ok ha
    obtain ⟨ab, -, habe⟩ := asn1Encode_ok ha'
    have habe' : Ber.encode IntType.integer32.tag ab = .ok a := habe
    rw [Ber.decode_exact habe' vb (rest := b ++ ((h2 ++ p) ++ pay)) (by rw [cb, ← hbody]; simp)
      (.inr rfl) (.inl rfl) false]
    simp only
    obtain ⟨bb, -, hbbe⟩ := asn1Encode_ok hb
    rw [Ber.decode_exact hbbe v1 (rest := (h2 ++ p) ++ pay) c1 (.inr rfl) (.inl rfl) false]
    simp only
    rw [Ber.decode_exact hc v2 (rest := pay) c2 (.inr rfl) (.inl rfl) false]
    simp only [Bool.false_eq_true, ↓reduceIte]
    show Except.ok _ = _
    exact congrArg Except.ok hloc
  · -- decode
    unfold V3Message.decode
    have hdes : V3Message.deserialize (.sub ⟨w, w.length - body.length, w.length⟩) =
        .ok (m.received ⟨w, (hdr ++ a ++ b ++ h2).length, (hdr ++ a ++ b ++ h2).length + p.length⟩) := by
      unfold V3Message.deserialize
      rw [decodeVersion_exact ha vb (rest := b ++ ((h2 ++ p) ++ pay)) (by rw [cb, ← hbody]; simp)]
      simp only [Except.bind, ne_eq, not_true_eq_false, ↓reduceIte]
      obtain ⟨bb, hbb, hbbe⟩ := asn1Encode_ok hb
      have dh : HeaderData.decode _ = .ok _ := asn1Decode_exact' (des := HeaderData.deserialize)
        hbbe v1 (rest := (h2 ++ p) ++ pay) c1 (leftovers := true) (.inl rfl) true
        (fun x hx hxb => HeaderData.deserialize_exact hh hbb hx hxb)
      rw [dh]
      simp only
      rw [octetStringDecode_exact hs hc v2 c2 (.inl rfl) false]
      simp only [Bool.false_eq_true, ↓reduceIte]
      unfold V3Message.PayloadGood at hp
      unfold V3Message.encodePayload at hpay
      unfold V3Message.received
      have hloc' := hloc
      by_cases hpriv : m.header.flags.level.priv = true
      · rw [if_pos hpriv] at hp hpay ⊢
        obtain ⟨ct, hct, hctl⟩ := hp
        rw [hct] at hpay
        obtain ⟨x, hx, hxe⟩ := asn1Encode_ok hpay
        simp only [Value.serialize, Except.ok.injEq] at hx
        subst hx
        rw [octets_exact hctl hxe v3 (rest := []) (by rw [c3]; simp) (leftovers := false) (.inr rfl)]
        simp only [hpriv, ↓reduceIte, hct]
        refine congrArg Except.ok ?_
        simp only [V3Message.mk.injEq, and_true, true_and, Asn1Data.sub.injEq]
        exact hloc'
      · rw [if_neg hpriv] at hp hpay ⊢
        obtain ⟨s, hss, hsg⟩ := hp
        rw [hss] at hpay
        rw [ScopedPDU.decode_exact hsg hpay v3 (rest := []) (by rw [c3]; simp) (leftovers := false)
          (.inr rfl)]
        simp only [hpriv, hss, Bool.false_eq_true, ↓reduceIte, Option.map_some]
        refine congrArg Except.ok ?_
        simp only [V3Message.mk.injEq, and_true, true_and, Asn1Data.sub.injEq]
        exact hloc'
    rw [asn1Decode_exact hbe hvw (rest := []) (by simpa [hew] using hcw) (.inr rfl) (copy := false)
      (by simp only [Bool.false_eq_true, ↓reduceIte]; rw [hinner]; exact hdes)]
    rfl

/-! ## USM security parameters -/

/-- The layout of encoded USM parameters around the signature. -/
structure UsmLayout (p : UsmParams) (e pre post : Bytes) : Prop where
  encoded : e = pre ++ p.signature ++ post
  replaced : ∀ s' : Bytes, s'.length = p.signature.length →
    ({ p with signature := s' } : UsmParams).encode = .ok (pre ++ s' ++ post)

theorem encodeOctets_of {x e : Bytes} (hl : x.length ≤ 0xffff)
    (h : Ber.encode SmiType.octetString.tag x = .ok e) : encodeOctets x = .ok e := by
  unfold encodeOctets octetStringNew
  rw [Asn1Data.len_valid (Asn1Data.valid_bytes x)]
  simp only [Except.bind]
  rw [if_neg (show ¬ (Asn1Data.bytes x).copy.length > 0xffff from Nat.not_lt.2 hl)]
  exact h

theorem UsmParams.decode_exact {p : UsmParams} {e : Bytes} (he : p.encode = .ok e) :
    ∃ pre post, UsmLayout p e pre post ∧
      ∀ d : Asn1Data, d.Valid → d.copy = e →
        UsmParams.findSignature d.toSub = .ok ⟨d.toSub.data, d.toSub.start + pre.length,
          d.toSub.start + pre.length + p.signature.length⟩ ∧
        UsmParams.decode d = .ok { p with
          signatureIndex := some (d.toSub.start + pre.length)
          wholeMsg := some d.toSub.data } := by
  obtain ⟨body, hb, hbe⟩ := asn1Encode_ok he
  unfold UsmParams.serialize at hb
  obtain ⟨a, ha, hb⟩ := bind_ok hb
  obtain ⟨b, hb', hb⟩ := bind_ok hb
  obtain ⟨c, hc, hb⟩ := bind_ok hb
  obtain ⟨u, hu, hb⟩ := bind_ok hb
  obtain ⟨s, hs, hb⟩ := bind_ok hb
  obtain ⟨z, hz, hb⟩ := bind_ok hb
  injection hb with hb
  obtain ⟨hsl, hse⟩ := encodeOctets_ok hs
  obtain ⟨h2, rfl, hh2⟩ := Ber.encode_header hse
  obtain ⟨hdr, rfl, hhdr⟩ := Ber.encode_header hbe
  refine ⟨hdr ++ a ++ b ++ c ++ u ++ h2, z, ⟨by rw [← hb]; simp, ?_⟩, ?_⟩
  · intro s' hs'
    have hs2 : encodeOctets s' = .ok (h2 ++ s') := encodeOctets_of (by omega) (hh2 s' hs')
    have hser : ({ p with signature := s' } : UsmParams).serialize =
        .ok (a ++ b ++ c ++ u ++ (h2 ++ s') ++ z) := by
      unfold UsmParams.serialize
      rw [ha]; simp only [Except.bind]
      rw [hb']; simp only
      rw [hc]; simp only
      rw [hu]; simp only
      rw [hs2]; simp only
      rw [hz]
    unfold UsmParams.encode asn1Encode
    rw [hser]
    simp only [Except.bind]
    rw [hhdr _ (by rw [← hb]; simp [hs'])]
    simp
  · intro d hv hd
    have hd0 : d.copy = (hdr ++ body) ++ [] := by simpa using hd
    obtain ⟨vb, cb⟩ := inner_spec' hbe hv (rest := []) hd0
    have hstop : d.toSub.stop = d.toSub.start + (hdr.length + body.length) := by
      have hw : d.toSub.WF := hv
      have := congrArg List.length hd
      rw [Asn1Data.copy_eq, Subbytes.contents] at this
      simp only [List.length_drop, List.length_take, List.length_append] at this
      obtain ⟨w1, w2⟩ := hw
      omega
    have hbl : body.length = a.length + b.length + c.length + u.length + (h2.length + p.signature.length)
        + z.length := by rw [← hb]; simp; omega
    have c0 : (Asn1Data.sub (d.toSub.inner body.length ([] : Bytes).length)).copy =
        a ++ (b ++ (c ++ (u ++ ((h2 ++ p.signature) ++ z)))) := by rw [cb, ← hb]; simp
    have c1 := last_copy vb c0
    have v1 := last_valid vb (b ++ (c ++ (u ++ ((h2 ++ p.signature) ++ z)))).length
    have c2 := last_copy v1 c1
    have v2 := last_valid v1 (c ++ (u ++ ((h2 ++ p.signature) ++ z))).length
    have c3 := last_copy v2 c2
    have v3 := last_valid v2 (u ++ ((h2 ++ p.signature) ++ z)).length
    have c4 := last_copy v3 c3
    have v4 := last_valid v3 ((h2 ++ p.signature) ++ z).length
    have c5 := last_copy v4 c4
    have v5 := last_valid v4 z.length
    obtain ⟨-, hae⟩ := encodeOctets_ok ha
    obtain ⟨-, hue⟩ := encodeOctets_ok hu
    have hint : ∀ {n : Int} {x : Bytes}, encodeInteger n = .ok x →
        ∃ y, Ber.encode IntType.integer32.tag y = .ok x := by
      intro n x hx
      obtain ⟨-, h⟩ := encodeInteger_ok hx
      obtain ⟨y, -, hy⟩ := asn1Encode_ok h
      exact ⟨y, hy⟩
    obtain ⟨bi, hbi⟩ := hint hb'
    obtain ⟨ci, hci⟩ := hint hc
    have hloc : (((((Asn1Data.sub (d.toSub.inner body.length ([] : Bytes).length)).toSub.last
        (b ++ (c ++ (u ++ ((h2 ++ p.signature) ++ z)))).length).last
        (c ++ (u ++ ((h2 ++ p.signature) ++ z))).length).last
        (u ++ ((h2 ++ p.signature) ++ z)).length).last
        ((h2 ++ p.signature) ++ z).length).inner p.signature.length z.length =
        ⟨d.toSub.data, d.toSub.start + (hdr ++ a ++ b ++ c ++ u ++ h2).length,
          d.toSub.start + (hdr ++ a ++ b ++ c ++ u ++ h2).length + p.signature.length⟩ := by
      show (⟨d.toSub.data, d.toSub.stop - z.length - p.signature.length,
        d.toSub.stop - z.length⟩ : Subbytes) = _
      simp only [Subbytes.mk.injEq, true_and, List.length_append]
      omega
    constructor
    · unfold UsmParams.findSignature
      have hd0' : (Asn1Data.sub d.toSub).copy = (hdr ++ body) ++ [] := by
        rw [Asn1Data.copy_eq] at hd0 ⊢; exact hd0
      rw [Ber.decode_exact hbe (d := .sub d.toSub) hv (rest := []) hd0' (.inr rfl) (.inr rfl) false]
      simp only [Except.bind, Bool.false_eq_true, ↓reduceIte]
      show (Ber.decode (.sub (d.toSub.inner body.length ([] : Bytes).length)) _ _ _).bind _ = _
      rw [Ber.decode_exact hae vb c0 (.inr rfl) (.inl rfl) false]
      simp only [Except.bind]
      rw [Ber.decode_exact hbi v1 c1 (.inr rfl) (.inl rfl) false]
      simp only
      rw [Ber.decode_exact hci v2 c2 (.inr rfl) (.inl rfl) false]
      simp only
      rw [Ber.decode_exact hue v3 c3 (.inr rfl) (.inl rfl) false]
      simp only
      rw [Ber.decode_exact hse v4 c4 (.inr rfl) (.inl rfl) false]
      simp only [Bool.false_eq_true, ↓reduceIte]
      exact congrArg Except.ok hloc
    · unfold UsmParams.decode
      have hdes : UsmParams.deserialize (.sub (d.toSub.inner body.length ([] : Bytes).length)) =
          .ok { p with
            signatureIndex := some (d.toSub.start + (hdr ++ a ++ b ++ c ++ u ++ h2).length)
            wholeMsg := some d.toSub.data } := by
        unfold UsmParams.deserialize
        rw [decodeOctets_exact ha vb c0 (leftovers := true) (.inl rfl)]
        simp only [Except.bind]
        rw [decodeInteger_exact hb' v1 c1 (leftovers := true) (.inl rfl)]
        simp only
        rw [decodeInteger_exact hc v2 c2 (leftovers := true) (.inl rfl)]
        simp only
        rw [decodeOctets_exact hu v3 c3 (leftovers := true) (.inl rfl)]
        simp only [Asn1Data.isBytes]
        rw [octetStringDecode_exact hsl hse v4 c4 (leftovers := true) (.inl rfl) false]
        simp only [Bool.false_eq_true, ↓reduceIte]
        rw [decodeOctets_exact hz v5 (rest := []) (by rw [c5]; simp) (leftovers := false) (.inr rfl)]
        simp only
        have hcs := (inner_spec' hse v4 c4).2
        have hloc' : (Asn1Data.sub ((((((Asn1Data.sub (d.toSub.inner body.length ([] : Bytes).length)).toSub.last
          (b ++ (c ++ (u ++ ((h2 ++ p.signature) ++ z)))).length).last
          (c ++ (u ++ ((h2 ++ p.signature) ++ z))).length).last
          (u ++ ((h2 ++ p.signature) ++ z)).length).last
          ((h2 ++ p.signature) ++ z).length))).toSub.inner p.signature.length z.length = _ := hloc
        erw [hloc'] at hcs ⊢
        unfold UsmParams.new
        simp only [Except.ok.injEq, UsmParams.mk.injEq, true_and, and_true]
        exact hcs
      rw [asn1Decode_exact hbe hv hd0 (.inr rfl) (copy := false)
        (by rw [if_neg Bool.false_ne_true]; exact hdes)]
      rfl

/-! ## Encodings exist -/

theorem encodeOctets_exists {x : Bytes} (hl : x.length ≤ 0xffff) :
    ∃ e, encodeOctets x = .ok e ∧ e.length ≤ 65600 := by
  have hlt : x.length < 256 ^ 127 := by
    have : (65536:Nat) < 256 ^ 127 := by norm_num
    omega
  obtain ⟨l, hll, -, -⟩ := encodeLength_ok hlt
  have h2 := encodeLength_length (k := 2) (by omega) (by omega) hll
  refine ⟨SmiType.octetString.tag.encode ++ l ++ x, encodeOctets_of hl ?_, ?_⟩
  · unfold Ber.encode; rw [hll]; rfl
  · have : SmiType.octetString.tag.encode.length = 1 := rfl
    simp only [List.length_append]; omega

theorem encodeOctets_err {x : Bytes} (hl : 0xffff < x.length) :
    encodeOctets x = .error .valueError := by
  unfold encodeOctets octetStringNew
  rw [Asn1Data.len_valid (Asn1Data.valid_bytes x)]
  simp only [Except.bind]
  rw [if_pos (show (Asn1Data.bytes x).copy.length > 0xffff from hl)]

end Snmp
