import Verif.Spec.Received
import Verif.Props.Rfc
/-!
# Property C99: whatever BER encoding arrives is read as the standards read it
-/

namespace Snmp

/-- The list-level reader takes `e` for an element with that tag and contents, whatever follows. -/
def Reads (t : Tag) (c e : Bytes) : Prop := ∀ rest, readTLV (e ++ rest) = some (t, c, rest)

theorem readBase256_unsigned (d rest : Bytes) (v : Nat) :
    readBase256 d.length (d ++ rest) v = some (v * 256 ^ d.length + Spec.unsigned d, rest) := by
  induction d generalizing v with
  | nil => simp [readBase256, Spec.unsigned]
  | cons b d ih =>
    simp only [List.length_cons, List.cons_append, readBase256, ih, Spec.unsigned, Option.some.injEq,
      Prod.mk.injEq, and_true]
    ring

theorem readLength_form {n : Nat} {l : Bytes} (h : Spec.LengthForm n l) (rest : Bytes) :
    readLength (l ++ rest) = some (n, rest) := by
  rcases h with ⟨hn, rfl⟩ | ⟨d, h1, h2, h3, rfl⟩
  · simp only [List.cons_append, List.nil_append, readLength, ofNat_toNat (show n < 256 by omega)]
    rw [if_neg (by omega)]
  · simp only [List.cons_append, readLength, ofNat_toNat (show 128 + d.length < 256 by omega)]
    rw [if_pos (by omega), show (128 + d.length) % 128 = d.length by omega, readBase256_unsigned, h3]
    simp

theorem reads_element {t : Tag} {id : UInt8} {c e : Bytes} (ht : t.encode = [id])
    (h : Spec.Element id c e) : Reads t c e := by
  obtain ⟨l, hl, rfl⟩ := h
  intro rest
  have := readTag_encode t (l ++ c ++ rest)
  rw [ht] at this
  simp only [List.cons_append, List.nil_append] at this
  unfold readTLV
  rw [List.cons_append, this]
  dsimp only
  rw [List.append_assoc, readLength_form hl]
  simp

theorem Ber.decode_reads {t : Tag} {body e rest : Bytes} (hr : Reads t body e)
    {d : Asn1Data} (hv : d.Valid) (hd : d.copy = e ++ rest) {expected : Option Tag}
    (hexp : expected = none ∨ expected = some t) {leftovers : Bool}
    (hlo : leftovers = true ∨ rest = []) (copy : Bool) :
    ∃ b tail, Ber.decode d expected leftovers copy = .ok (t, b, tail) ∧ b.Valid ∧
      b.copy = body ∧ tail.WF ∧ tail.copy = rest := by
  have hread := hr rest
  have hd' := hd
  rw [Asn1Data.copy_eq] at hd'
  rw [← hd'] at hread
  have hdec := Ber.decode_refines hv expected leftovers copy
  rw [hread] at hdec
  dsimp only at hdec
  rw [if_neg (by rcases hexp with h | h <;> simp [h]),
    if_neg (by rcases hlo with h | h <;> simp [h])] at hdec
  obtain ⟨h1, h2, -, h4, -, -⟩ := Ber.decode_ok hv hdec
  rw [hd, hr rest] at h4
  simp only [Option.some.injEq, Prod.mk.injEq, true_and] at h4
  exact ⟨_, _, hdec, h1, h4.1.symm, h2, h4.2.symm⟩

theorem asn1Decode_reads {α : Type} {t : Tag} {des : Asn1Data → Res α} {body e rest : Bytes}
    (he : Reads t body e) {obj : α}
    (hdes : ∀ b : Asn1Data, b.Valid → b.copy = body → des b = .ok obj)
    {d : Asn1Data} (hv : d.Valid) (hd : d.copy = e ++ rest) {leftovers : Bool}
    (hlo : leftovers = true ∨ rest = []) (copy : Bool) :
    ∃ tail, asn1Decode t des d leftovers copy = .ok (obj, tail) ∧ tail.WF ∧ tail.copy = rest := by
  obtain ⟨b, tail, h1, h2, h3, h4, h5⟩ := Ber.decode_reads he hv hd (.inr rfl) hlo copy
  refine ⟨tail, ?_, h4, h5⟩
  unfold asn1Decode
  rw [h1]
  simp only [Except.bind]
  rw [hdes b h2 h3]

theorem sequence_reads {c e : Bytes} (h : Spec.Element 0x30 c e) : Reads sequenceTag c e :=
  reads_element (by decide +kernel) h

theorem octets_reads {c e : Bytes} (h : Spec.Element 0x04 c e) : Reads SmiType.octetString.tag c e :=
  reads_element (by decide +kernel) h

theorem intDeserialize_reads (t : IntType) {n : Int} (hr : t.inRange n = true) {c : Bytes}
    (hc : Spec.twosComplement c = n) {d : Asn1Data} (hd : d.copy = c) : t.deserialize d = .ok n := by
  unfold IntType.deserialize
  rw [hd, ← twos_eq, hc, IntType.construct_eq, if_pos hr]

theorem int32_inRange {n : Int} (h : Spec.Int32 n) : IntType.integer32.inRange n = true :=
  (intRange_iff .integer32 n).2 h

theorem decodeInteger_reads {n : Int} (hn : Spec.Int32 n) {e rest : Bytes}
    (he : Spec.IsInteger 0x02 n e) {d : Asn1Data} (hv : d.Valid) (hd : d.copy = e ++ rest)
    {leftovers : Bool} (hlo : leftovers = true ∨ rest = []) :
    ∃ tail, decodeInteger d leftovers = .ok (n, tail) ∧ tail.WF ∧ tail.copy = rest := by
  obtain ⟨c, -, hc, hel⟩ := he
  exact asn1Decode_reads (t := IntType.integer32.tag) (reads_element (by decide +kernel) hel)
    (fun x _ hx => intDeserialize_reads _ (int32_inRange hn) hc hx) hv hd hlo true

theorem oidReadable_limits {o : List Nat} (h : Spec.OidReadable o) : OidLimits o := by
  obtain ⟨⟨h1, h2, a, b, rest, rfl, h3, h4⟩, h5⟩ := h
  exact ⟨h1, h2, by simpa using h3, h5⟩

theorem oidDeserialize_reads {o : List Nat} (h : Spec.OidReadable o) {d : Asn1Data}
    (hd : d.copy = Spec.oidContents o) : Oid.deserialize d = .ok o := by
  have hl := oidReadable_limits h
  obtain ⟨⟨h1, h2, a, b, rest, rfl, h3, h4⟩, h5⟩ := h
  have hb : b ≤ 39 := h5 b rfl
  have hs : Spec.oidContents (a :: b :: rest) =
      UInt8.ofNat (a * 40 + b) :: rest.flatMap Oid.serializeSub := by
    rw [show Oid.serializeSub = Spec.subidentifier from funext serializeSub_rfc]
    simp only [Spec.oidContents]
    rw [Spec.subidentifier, if_pos (by omega)]
    rfl
  unfold Oid.deserialize
  rw [hd, hs]
  simp only [ofNat_toNat (show a * 40 + b < 256 by omega), Oid.readSubs_flatMap]
  rw [show (a * 40 + b) / 40 = a by omega, show (a * 40 + b) % 40 = b by omega]
  simp only [ne_eq, not_true_eq_false, ↓reduceIte, List.cons_append, List.nil_append]
  exact (Oid.construct_ofNat_iff _ _).2 ⟨hl, rfl⟩

/-- The identifier and contents of a value. -/
theorem value_reads {v : Value} {e : Bytes} (hl : Spec.ValueReadable v) (h : Spec.IsValue v e) :
    ∃ c, Reads v.type.tag c e ∧ VarBind.lookup v.type.tag = .ok v.type ∧
      ∀ d : Asn1Data, d.Valid → d.copy = c → v.type.deserialize d = .ok v := by
  have hint : ∀ (t : IntType) (id : UInt8) (n : Int), t.tag.encode = [id] → t.inRange n = true →
      Spec.IsInteger id n e → ∃ c, Reads t.tag c e ∧
      ∀ d : Asn1Data, d.Valid → d.copy = c → (SmiType.int t).deserialize d = .ok (.int t n) := by
    rintro t id n ht hr ⟨c, -, hc, hel⟩
    refine ⟨c, reads_element ht hel, fun d _ hd => ?_⟩
    simp only [SmiType.deserialize, intDeserialize_reads t hr hc hd]
    rfl
  cases v with
  | int t n =>
    have hr : t ≠ .integer → t.inRange n = true := by
      intro hne
      rw [intRange_iff]
      cases t <;> first | exact absurd rfl hne | exact hl
    cases t with
    | integer => exact absurd h id
    | unsigned32 => exact absurd h id
    | integer32 => obtain ⟨c, h1, h2⟩ := hint _ _ n (by decide +kernel) (hr (by simp)) h; exact ⟨c, h1, rfl, h2⟩
    | counter32 => obtain ⟨c, h1, h2⟩ := hint _ _ n (by decide +kernel) (hr (by simp)) h; exact ⟨c, h1, rfl, h2⟩
    | gauge32 => obtain ⟨c, h1, h2⟩ := hint _ _ n (by decide +kernel) (hr (by simp)) h; exact ⟨c, h1, rfl, h2⟩
    | timeTicks => obtain ⟨c, h1, h2⟩ := hint _ _ n (by decide +kernel) (hr (by simp)) h; exact ⟨c, h1, rfl, h2⟩
    | counter64 => obtain ⟨c, h1, h2⟩ := hint _ _ n (by decide +kernel) (hr (by simp)) h; exact ⟨c, h1, rfl, h2⟩
  | octets b =>
    refine ⟨b, octets_reads h, rfl, fun d hv hd => ?_⟩
    have hb : b.length ≤ 65535 := hl
    simp only [Value.type, SmiType.deserialize, octetStringConstruct_eq hv, hd]
    rw [if_neg (by omega)]
    simp [Except.map, hd]
  | ipAddress b =>
    refine ⟨b, reads_element (t := SmiType.ipAddress.tag) (by decide +kernel) h, rfl, fun d hv hd => ?_⟩
    have hb : b.length = 4 := hl
    simp only [Value.type, SmiType.deserialize, ipAddressConstruct, hd]
    rw [if_pos hb]; rfl
  | opaqueData b =>
    refine ⟨b, reads_element (t := SmiType.opaqueData.tag) (by decide +kernel) h, rfl, fun d hv hd => ?_⟩
    simp only [Value.type, SmiType.deserialize, hd]
  | oid o =>
    refine ⟨_, reads_element (t := SmiType.oid.tag) (by decide +kernel) h.2, rfl, fun d hv hd => ?_⟩
    simp only [Value.type, SmiType.deserialize, oidDeserialize_reads hl hd]
    rfl
  | null => exact ⟨_, reads_element (t := SmiType.null.tag) (by decide +kernel) h, rfl, fun d _ _ => rfl⟩
  | noSuchObject =>
    exact ⟨_, reads_element (t := SmiType.noSuchObject.tag) (by decide +kernel) h, rfl, fun d _ _ => rfl⟩
  | noSuchInstance =>
    exact ⟨_, reads_element (t := SmiType.noSuchInstance.tag) (by decide +kernel) h, rfl, fun d _ _ => rfl⟩
  | endOfMibView =>
    exact ⟨_, reads_element (t := SmiType.endOfMibView.tag) (by decide +kernel) h, rfl, fun d _ _ => rfl⟩

theorem varBind_reads {v : VarBind} (hl : Spec.BindingReadable v) {e rest : Bytes}
    (h : Spec.IsBinding v e) {d : Asn1Data} (hv : d.Valid) (hd : d.copy = e ++ rest)
    {leftovers : Bool} (hlo : leftovers = true ∨ rest = []) (copy : Bool) :
    2 ≤ e.length ∧
    ∃ tail, VarBind.decode d leftovers copy = .ok (v, tail) ∧ tail.WF ∧ tail.copy = rest := by
  obtain ⟨nm, vl, hn, hval, hel⟩ := h
  refine ⟨?_, asn1Decode_reads (sequence_reads hel) (fun x hx hxb => ?_) hv hd hlo copy⟩
  · have := readTLV_parts_len (sequence_reads hel [])
    simp at this; omega
  obtain ⟨tail, h1, h2, h3⟩ := asn1Decode_reads (des := Oid.deserialize) (obj := v.name)
    (reads_element (t := SmiType.oid.tag) (by decide +kernel) hn.2)
    (fun x _ hxb => oidDeserialize_reads hl.1 hxb) hx hxb (leftovers := true) (.inl rfl) true
  unfold VarBind.deserialize
  rw [h1]
  simp only [Except.bind]
  obtain ⟨c, hc, hlk, hdes⟩ := value_reads hl.2 hval
  obtain ⟨bd, tl, h4, h5, h6, h7, h8⟩ := Ber.decode_reads hc (Asn1Data.valid_sub h2)
    (rest := []) (by simpa [Asn1Data.copy] using h3) (.inl rfl) (leftovers := false) (.inr rfl) true
  rw [h4]
  simp only
  rw [hlk]
  simp only
  rw [hdes bd h5 h6]

theorem varBindList_loop_reads {l : List VarBind} (hp : ∀ v ∈ l, Spec.BindingReadable v) {e : Bytes}
    (he : Spec.IsBindings l e) {s : Subbytes} (hs : s.WF) (hd : s.copy = e) :
    VarBindList.deserializeLoop s = .ok l := by
  induction l generalizing s e with
  | nil =>
    have he : e = [] := he
    rw [VarBindList.deserializeLoop, if_neg]
    have := Asn1Data.bool_valid (Asn1Data.valid_sub hs)
    simp only [Asn1Data.bool, Asn1Data.copy] at this
    rw [this, hd, he]; simp
  | cons v l ih =>
    obtain ⟨a, b, ha, hb, rfl⟩ := he
    obtain ⟨hlen, tail, h1, h2, h3⟩ := varBind_reads (hp v (by simp)) ha
      (Asn1Data.valid_sub hs) (rest := b) (by simpa [Asn1Data.copy] using hd)
      (leftovers := true) (.inl rfl) true
    have hrec := ih (fun w hw => hp w (by simp [hw])) hb h2 h3
    have hbool : s.bool = true := by
      have := Asn1Data.bool_valid (Asn1Data.valid_sub hs)
      simp only [Asn1Data.bool, Asn1Data.copy] at this
      rw [this, hd]
      cases a with
      | nil => simp at hlen
      | cons x y => simp
    rw [VarBindList.deserializeLoop, if_pos hbool]
    split
    · rename_i e' he'
      rw [h1] at he'; cases he'
    · rename_i var tl he'
      rw [h1] at he'
      simp only [Except.ok.injEq, Prod.mk.injEq] at he'
      obtain ⟨rfl, rfl⟩ := he'
      rw [hrec]; rfl

theorem pdu_reads {types : List PduType} {p : Pdu} (ht : p.type ∈ types) (hp : Spec.PduReadable p)
    {e : Bytes} (h : Spec.IsPdu p e) {d : Asn1Data} (hv : d.Valid) (hd : d.copy = e) :
    decodePdu types d = .ok p := by
  obtain ⟨r, a, b, c, l, hr, ha, hb, hc, hl, hel⟩ := h
  obtain ⟨h1, h2, h3, h4, h5, h6, h7⟩ := hp
  have hread : Reads p.type.tag (r ++ a ++ b ++ l) e :=
    reads_element (by cases p.type <;> decide +kernel) hel
  have htag : ∃ tl, Tag.decode d.toSub = .ok (p.type.tag, tl) := by
    obtain ⟨ln, hln, rfl⟩ := hel
    have ht1 : p.type.tag.encode = [Spec.pduIdentifier p.type] := by cases p.type <;> decide +kernel
    have := readTag_encode p.type.tag (ln ++ (r ++ a ++ b ++ l))
    rw [ht1] at this
    rw [Asn1Data.copy_eq] at hd
    rw [Tag.decode_refines hv, hd]
    simp only [List.cons_append, List.nil_append] at this
    rw [this]
    exact ⟨_, rfl⟩
  obtain ⟨tl, htl⟩ := htag
  have hdec := asn1Decode_reads (des := p.type.deserialize) (obj := p) hread
    (fun x hx hxb => by
      obtain ⟨t1, e1, w1, c1⟩ := decodeInteger_reads h1 hr hx (rest := a ++ b ++ l)
        (by rw [hxb]; simp) (leftovers := true) (.inl rfl)
      obtain ⟨t2, e2, w2, c2⟩ := decodeInteger_reads h2 ha (Asn1Data.valid_sub w1) (rest := b ++ l)
        (by rw [Asn1Data.copy, c1]; simp) (leftovers := true) (.inl rfl)
      obtain ⟨t3, e3, w3, c3⟩ := decodeInteger_reads h3 hb (Asn1Data.valid_sub w2) (rest := l)
        (by rw [Asn1Data.copy, c2]) (leftovers := true) (.inl rfl)
      obtain ⟨t4, e4, w4, c4⟩ := asn1Decode_reads (des := VarBindList.deserialize) (obj := p.bindings)
        (sequence_reads hl) (fun y hy hyb => varBindList_loop_reads h7 hc hy (by
          rw [← hyb, Asn1Data.copy_eq, Subbytes.copy_eq_contents]))
        (Asn1Data.valid_sub w3) (rest := [])
        (by rw [Asn1Data.copy, c3]; simp) (leftovers := false) (.inr rfl) true
      unfold PduType.deserialize VarBindList.decode
      rw [e1]; simp only [Except.bind]
      rw [e2]; simp only
      rw [e3]; simp only
      rw [e4]; simp only
      split
      · rw [if_neg (by omega), if_neg (by omega)]
      · rename_i hbulk
        rw [isBulk_iff] at hbulk
        have := h6 hbulk
        rw [if_neg, if_neg (by omega)]
        simp [isErrorStatus]; omega)
    hv (rest := []) (by simpa using hd) (leftovers := false) (.inr rfl) true
  obtain ⟨tail, hdec, -⟩ := hdec
  unfold decodePdu
  rw [htl]
  simp only [Except.bind, lookupPdu_mem ht]
  unfold PduType.decode
  rw [hdec]

theorem octetStringDecode_reads {x e rest : Bytes} (hl : x.length ≤ 65535) (he : Spec.Element 0x04 x e)
    {d : Asn1Data} (hv : d.Valid) (hd : d.copy = e ++ rest) {leftovers : Bool}
    (hlo : leftovers = true ∨ rest = []) (copy : Bool) :
    ∃ y tail, octetStringDecode d leftovers copy = .ok (y, tail) ∧ y.Valid ∧ y.copy = x ∧ tail.WF ∧
      tail.copy = rest := by
  obtain ⟨b, tail, h1, h2, h3, h4, h5⟩ :=
    Ber.decode_reads (octets_reads he) hv hd (.inr rfl) hlo copy
  refine ⟨b, tail, ?_, h2, h3, h4, h5⟩
  unfold octetStringDecode asn1Decode
  rw [h1]
  simp only [Except.bind]
  rw [octetStringConstruct_eq h2, if_neg (by rw [h3]; omega)]

theorem decodeOctets_reads {x e rest : Bytes} (hl : x.length ≤ 65535) (he : Spec.Element 0x04 x e)
    {d : Asn1Data} (hv : d.Valid) (hd : d.copy = e ++ rest) {leftovers : Bool}
    (hlo : leftovers = true ∨ rest = []) :
    ∃ tail, decodeOctets d leftovers = .ok (x, tail) ∧ tail.WF ∧ tail.copy = rest := by
  obtain ⟨y, tail, h1, -, h2, h3, h4⟩ := octetStringDecode_reads hl he hv hd hlo true
  refine ⟨tail, ?_, h3, h4⟩
  unfold decodeOctets
  rw [h1]
  simp only [Except.bind, h2]

theorem version_int32 (v : Version) : Spec.Int32 (Spec.versionNumber v) := by
  cases v <;> simp [Spec.Int32, Spec.versionNumber]

theorem decodeVersion_reads {v : Version} {e rest : Bytes}
    (he : Spec.IsInteger 0x02 (Spec.versionNumber v) e) {d : Asn1Data} (hv : d.Valid)
    (hd : d.copy = e ++ rest) :
    ∃ tail, decodeVersion d = .ok (v, tail) ∧ tail.WF ∧ tail.copy = rest := by
  obtain ⟨tail, h1, h2, h3⟩ := decodeInteger_reads (version_int32 v) he hv hd (leftovers := true) (.inl rfl)
  refine ⟨tail, ?_, h2, h3⟩
  unfold decodeVersion
  rw [h1]
  cases v <;> rfl

/-- **C99** for SNMPv1 and SNMPv2c: octets that are, by X.690 and the RFCs, a message of an enabled PDU
class are decoded to exactly that message. -/
theorem C99_message_partial (types : List PduType) (m : Message) (hver : m.version ≠ .v3)
    (ht : m.pdu.type ∈ types) (hc : m.community.length ≤ 65535) (hp : Spec.PduReadable m.pdu)
    (e : Bytes) (h : Spec.IsMessage m e) (d : Asn1Data) (hv : d.Valid) (hd : d.copy = e) :
    ∃ tail, Message.decode types d = .ok (m, tail) := by
  obtain ⟨v, c, p, h1, h2, h3, hel⟩ := h
  obtain ⟨tail, hdec, -⟩ := asn1Decode_reads (des := Message.deserialize types) (obj := m)
    (sequence_reads hel) (fun x hx hxb => by
      obtain ⟨t1, e1, w1, c1⟩ := decodeVersion_reads h1 hx (rest := c ++ p) (by rw [hxb]; simp)
      obtain ⟨t2, e2, w2, c2⟩ := decodeOctets_reads hc h2 (Asn1Data.valid_sub w1) (rest := p)
        (by rw [Asn1Data.copy, c1]) (leftovers := true) (.inl rfl)
      have e3 := pdu_reads ht hp h3 (Asn1Data.valid_sub w2) (by rw [Asn1Data.copy, c2])
      unfold Message.deserialize
      rw [e1]; simp only [Except.bind]
      rw [if_neg hver, e2]; simp only
      rw [e3])
    hv (rest := []) (by simpa using hd) (leftovers := false) (.inr rfl) true
  exact ⟨tail, hdec⟩

theorem flags_reads {f : MessageFlags} (hf : f.level.priv = true → f.level.auth = true) {o : UInt8}
    (h : o.toNat % 8 = (Spec.flagsOctet f).toNat) {d : Asn1Data} (hd : d.copy = [o]) :
    MessageFlags.construct d = .ok f := by
  have key : ∀ x : Fin 256, ∀ a p r : Bool, (p = true → a = true) →
      (UInt8.ofNat x.val).toNat % 8 = (Spec.flagsOctet ⟨⟨a, p⟩, r⟩).toNat →
      MessageFlags.construct (.bytes [UInt8.ofNat x.val]) = .ok ⟨⟨a, p⟩, r⟩ := by decide +kernel
  have hk := key ⟨o.toNat, o.toNat_lt⟩ f.level.auth f.level.priv f.reportable hf
    (by simpa using h)
  have hd' : MessageFlags.construct d = MessageFlags.construct (.bytes [o]) := by
    unfold MessageFlags.construct
    rw [hd]; rfl
  rw [hd']
  simpa using hk

theorem header_reads {h : HeaderData} (hh : Spec.HeaderOk h) (hi : Spec.Int32 h.id)
    (hz : Spec.Int32 h.maxSize) {e rest : Bytes} (he : Spec.IsHeader h e) {d : Asn1Data} (hv : d.Valid)
    (hd : d.copy = e ++ rest) :
    ∃ tail, HeaderData.decode d = .ok (h, tail) ∧ tail.WF ∧ tail.copy = rest := by
  obtain ⟨i, z, f, m, o, h1, h2, h3, ho, h4, hel⟩ := he
  refine asn1Decode_reads (sequence_reads hel) (fun x hx hxb => ?_) hv hd (.inl rfl) true
  obtain ⟨t1, e1, w1, c1⟩ := decodeInteger_reads hi h1 hx (rest := z ++ f ++ m)
    (by rw [hxb]; simp) (leftovers := true) (.inl rfl)
  obtain ⟨t2, e2, w2, c2⟩ := decodeInteger_reads hz h2 (Asn1Data.valid_sub w1) (rest := f ++ m)
    (by rw [Asn1Data.copy, c1]; simp) (leftovers := true) (.inl rfl)
  obtain ⟨t3, e3, w3, c3⟩ := asn1Decode_reads (des := MessageFlags.construct) (obj := h.flags)
    (octets_reads h3) (fun y _ hy => flags_reads hh.level ho hy) (Asn1Data.valid_sub w2) (rest := m)
    (by rw [Asn1Data.copy, c2]) (leftovers := true) (.inl rfl) true
  obtain ⟨t4, e4, w4, c4⟩ := decodeInteger_reads (n := 3) (by simp [Spec.Int32]) h4
    (Asn1Data.valid_sub w3) (rest := [])
    (by rw [Asn1Data.copy, c3]; simp) (leftovers := false) (.inr rfl)
  unfold HeaderData.deserialize MessageFlags.decode
  rw [e1]; simp only [Except.bind]
  rw [e2]; simp only
  rw [e3]; simp only
  rw [e4]; simp only
  have := hh.id
  have := hh.size
  rw [if_neg (by omega), if_neg (by omega), if_neg (by omega)]
  obtain ⟨i', z', f', sm⟩ := h
  cases sm
  rfl

theorem scoped_reads {s : ScopedPDU} (he : s.contextEngineID.length ≤ 65535)
    (hn : s.contextName.length ≤ 65535) (hp : Spec.PduReadable s.pdu) {e rest : Bytes}
    (h : Spec.IsScoped s e) {d : Asn1Data} (hv : d.Valid) (hd : d.copy = e ++ rest) {leftovers : Bool}
    (hlo : leftovers = true ∨ rest = []) :
    ∃ tail, ScopedPDU.decode d leftovers = .ok (s, tail) ∧ tail.WF ∧ tail.copy = rest := by
  obtain ⟨a, b, p, h1, h2, h3, hel⟩ := h
  refine asn1Decode_reads (sequence_reads hel) (fun x hx hxb => ?_) hv hd hlo true
  obtain ⟨t1, e1, w1, c1⟩ := decodeOctets_reads he h1 hx (rest := b ++ p) (by rw [hxb]; simp)
    (leftovers := true) (.inl rfl)
  obtain ⟨t2, e2, w2, c2⟩ := decodeOctets_reads hn h2 (Asn1Data.valid_sub w1) (rest := p)
    (by rw [Asn1Data.copy, c1]) (leftovers := true) (.inl rfl)
  have e3 := pdu_reads (types := v2Types) (by cases s.pdu.type <;> decide) hp h3
    (Asn1Data.valid_sub w2) (by rw [Asn1Data.copy, c2])
  unfold ScopedPDU.deserialize
  rw [e1]; simp only [Except.bind]
  rw [e2]; simp only
  rw [e3]

/-- What is asked of the payload of an SNMPv3 message. -/
def Spec.DataReadable : ScopedPDU ⊕ Bytes → Prop
  | .inl s => s.contextEngineID.length ≤ 65535 ∧ s.contextName.length ≤ 65535 ∧ Spec.PduReadable s.pdu
  | .inr b => b.length ≤ 65535

/-- **C99** for SNMPv3: octets that are, by X.690 and RFC 3412, a message with that header, security
parameters and payload (encrypted iff the privacy flag is set) are decoded to exactly these. -/
theorem C99_v3_partial (h : HeaderData) (params : Bytes) (data : ScopedPDU ⊕ Bytes)
    (hh : Spec.HeaderOk h) (hi : Spec.Int32 h.id) (hz : Spec.Int32 h.maxSize)
    (hparams : params.length ≤ 65535) (hd : Spec.DataReadable data)
    (hpriv : h.flags.level.priv = data.isRight) (e : Bytes) (he : Spec.IsV3 h params data e) :
    ∃ m, V3Message.decode (.bytes e) = .ok m ∧ m.header = h ∧ m.securityParameters.copy = params ∧
      m.scopedPDU = data.getLeft? ∧ m.encryptedPDU = data.getRight? := by
  obtain ⟨v, hb, s, d, h1, h2, h3, h4, hel⟩ := he
  obtain ⟨b, tail, g1, g2, g3, g4, g5⟩ := Ber.decode_reads (sequence_reads hel) (Asn1Data.valid_bytes e)
    (rest := []) (by simp [Asn1Data.copy]) (.inr rfl) (leftovers := false) (.inr rfl) false
  obtain ⟨t1, e1, w1, c1⟩ := decodeVersion_reads (v := .v3) h1 g2 (rest := hb ++ s ++ d)
    (by rw [g3]; simp)
  obtain ⟨t2, e2, w2, c2⟩ := header_reads hh hi hz h2 (Asn1Data.valid_sub w1) (rest := s ++ d)
    (by rw [Asn1Data.copy, c1]; simp)
  obtain ⟨y, t3, e3, -, hy, w3, c3⟩ := octetStringDecode_reads hparams h3 (Asn1Data.valid_sub w2)
    (rest := d) (by rw [Asn1Data.copy, c2]) (leftovers := true) (.inl rfl) false
  unfold V3Message.decode asn1Decode V3Message.deserialize
  rw [g1]; simp only [Except.bind]
  rw [e1]; simp only [ne_eq, not_true_eq_false, ↓reduceIte]
  rw [e2]; simp only
  rw [e3]; simp only
  cases data with
  | inl plain =>
    obtain ⟨q1, q2, q3⟩ := hd
    obtain ⟨t4, e4, -⟩ := scoped_reads q1 q2 q3 h4 (Asn1Data.valid_sub w3) (rest := [])
      (by rw [Asn1Data.copy, c3]; simp) (leftovers := false) (.inr rfl)
    rw [if_neg (by rw [hpriv]; simp), e4]
    exact ⟨_, rfl, rfl, hy, rfl, rfl⟩
  | inr enc =>
    obtain ⟨t4, e4, -⟩ := decodeOctets_reads hd h4 (Asn1Data.valid_sub w3) (rest := [])
      (by rw [Asn1Data.copy, c3]; simp) (leftovers := false) (.inr rfl)
    rw [if_pos (by rw [hpriv]; rfl), e4]
    exact ⟨_, rfl, rfl, hy, rfl, rfl⟩

/-- **C99** for the plaintext of an encrypted scoped PDU, with any padding behind it. -/
theorem C99_plaintext_partial (s : ScopedPDU) (he : s.contextEngineID.length ≤ 65535)
    (hn : s.contextName.length ≤ 65535) (hp : Spec.PduReadable s.pdu) (e padding : Bytes)
    (h : Spec.IsScoped s e) : decodePlaintext (e ++ padding) = .ok s := by
  obtain ⟨tail, h1, -⟩ := scoped_reads he hn hp h (Asn1Data.valid_bytes (e ++ padding)) (rest := padding)
    (by simp [Asn1Data.copy]) (leftovers := true) (.inl rfl)
  unfold decodePlaintext
  rw [h1]; rfl

/-- **C99** for the security parameters of RFC 3414. -/
theorem C99_usm (engineID user signature salt : Bytes) (boots time : Int)
    (h1 : engineID.length ≤ 65535) (h2 : Spec.Int32 boots) (h3 : Spec.Int32 time)
    (h4 : user.length ≤ 65535) (h5 : signature.length ≤ 65535) (h6 : salt.length ≤ 65535) (e : Bytes)
    (h : Spec.IsUsm engineID boots time user signature salt e) (d : Asn1Data) (hv : d.Valid)
    (hd : d.copy = e) :
    ∃ p, UsmParams.decode d = .ok p ∧ p.engineID = engineID ∧ p.engineBoots = boots ∧
      p.engineTime = time ∧ p.userName = user ∧ p.signature = signature ∧ p.salt = salt := by
  obtain ⟨a, b, c, u, f, g, k1, k2, k3, k4, k5, k6, hel⟩ := h
  obtain ⟨x, tail, g1, g2, g3, g4, g5⟩ := Ber.decode_reads (sequence_reads hel) hv
    (rest := []) (by simp [hd]) (.inr rfl) (leftovers := false) (.inr rfl) false
  obtain ⟨t1, e1, w1, c1⟩ := decodeOctets_reads h1 k1 g2 (rest := b ++ c ++ u ++ f ++ g)
    (by rw [g3]; simp) (leftovers := true) (.inl rfl)
  obtain ⟨t2, e2, w2, c2⟩ := decodeInteger_reads h2 k2 (Asn1Data.valid_sub w1) (rest := c ++ u ++ f ++ g)
    (by rw [Asn1Data.copy, c1]; simp) (leftovers := true) (.inl rfl)
  obtain ⟨t3, e3, w3, c3⟩ := decodeInteger_reads h3 k3 (Asn1Data.valid_sub w2) (rest := u ++ f ++ g)
    (by rw [Asn1Data.copy, c2]; simp) (leftovers := true) (.inl rfl)
  obtain ⟨t4, e4, w4, c4⟩ := decodeOctets_reads h4 k4 (Asn1Data.valid_sub w3) (rest := f ++ g)
    (by rw [Asn1Data.copy, c3]; simp) (leftovers := true) (.inl rfl)
  obtain ⟨y, t5, e5, -, hy, w5, c5⟩ := octetStringDecode_reads h5 k5 (Asn1Data.valid_sub w4)
    (rest := g) (by rw [Asn1Data.copy, c4]) (leftovers := true) (.inl rfl) x.isBytes
  obtain ⟨t6, e6, -⟩ := decodeOctets_reads h6 k6 (Asn1Data.valid_sub w5) (rest := [])
    (by rw [Asn1Data.copy, c5]; simp) (leftovers := false) (.inr rfl)
  unfold UsmParams.decode asn1Decode UsmParams.deserialize
  rw [g1]; simp only [Except.bind]
  rw [e1]; simp only
  rw [e2]; simp only
  rw [e3]; simp only
  rw [e4]; simp only
  rw [e5]; simp only
  rw [e6]
  refine ⟨_, rfl, ?_⟩
  cases y <;> exact ⟨rfl, rfl, rfl, rfl, hy, rfl⟩

/-! ## Examples -/

/-- A response to "public" with 1.8.1 = 7 (an identifier that the library could not have sent). -/
def Spec.receivedSample : Message where
  version := .v1
  community := [0x70]
  pdu := ⟨.response, 1, 0, 0, [⟨[1, 8, 1], .int .counter32 7⟩]⟩

/-- Its octets as some agent might send them: long lengths, and the counter in two octets. -/
def Spec.receivedOctets : Bytes :=
  [0x30, 0x82, 0x00, 0x20, 0x02, 0x01, 0x00, 0x04, 0x01, 0x70, 0xa2, 0x81, 0x17,
    0x02, 0x01, 0x01, 0x02, 0x01, 0x00, 0x02, 0x01, 0x00, 0x30, 0x82, 0x00, 0x0a,
    0x30, 0x08, 0x06, 0x02, 0x30, 0x01, 0x41, 0x02, 0x00, 0x07]

theorem Spec.receivedSample_is : Spec.IsMessage Spec.receivedSample Spec.receivedOctets := by
  refine ⟨[2, 1, 0], [4, 1, 0x70], [0xa2, 0x81, 0x17, 2, 1, 1, 2, 1, 0, 2, 1, 0, 0x30, 0x82, 0, 0x0a,
    0x30, 8, 6, 2, 0x30, 1, 0x41, 2, 0, 7], ⟨[0], by simp, rfl, [1], .inl ⟨by decide, rfl⟩, rfl⟩,
    ⟨[1], .inl ⟨by decide, rfl⟩, rfl⟩, ?_, ⟨[0x82, 0, 0x20], .inr ⟨[0, 0x20], by decide⟩, rfl⟩⟩
  refine ⟨[2, 1, 1], [2, 1, 0], [2, 1, 0], [0x30, 8, 6, 2, 0x30, 1, 0x41, 2, 0, 7],
    [0x30, 0x82, 0, 0x0a, 0x30, 8, 6, 2, 0x30, 1, 0x41, 2, 0, 7],
    ⟨[1], by simp, rfl, [1], .inl ⟨by decide, rfl⟩, rfl⟩,
    ⟨[0], by simp, rfl, [1], .inl ⟨by decide, rfl⟩, rfl⟩,
    ⟨[0], by simp, rfl, [1], .inl ⟨by decide, rfl⟩, rfl⟩, ?_,
    ⟨[0x82, 0, 0x0a], .inr ⟨[0, 0x0a], by decide⟩, rfl⟩, ⟨[0x81, 0x17], .inr ⟨[0x17], by decide⟩, rfl⟩⟩
  refine ⟨_, [], ⟨[6, 2, 0x30, 1], [0x41, 2, 0, 7], ⟨by decide, [2], .inl ⟨?_, ?_⟩, ?_⟩,
    ⟨[0, 7], by simp, rfl, [2], .inl ⟨by decide, rfl⟩, rfl⟩, [8], .inl ⟨by decide, rfl⟩, rfl⟩, rfl, rfl⟩
  all_goals simp [Spec.oidContents, Spec.subidentifier]

example : Spec.PduReadable Spec.receivedSample.pdu := by
  refine ⟨⟨by decide, by decide⟩, ⟨by decide, by decide⟩, ⟨by decide, by decide⟩, by decide, by decide,
    fun _ => by decide, ?_⟩
  intro v hv
  simp only [Spec.receivedSample, List.mem_singleton] at hv
  subst hv
  exact ⟨⟨⟨by decide, by decide, 1, 8, [1], rfl, by decide, by decide⟩, by simp⟩, by decide, by decide⟩

/-- C99 is false of the code for the object identifiers 2.40 and above, which are legal: a response
that mentions 2.100.3 is refused. -/
theorem C99_false : ∃ m e, m.version = .v2c ∧ m.pdu.type = .response ∧ Spec.IsMessage m e ∧
    (∀ v ∈ m.pdu.bindings, Spec.OidStandard v.name ∧ Spec.ValueReadable v.value) ∧
    ∀ tail, Message.decode v2Types (.bytes e) ≠ .ok (m, tail) := by
  refine ⟨⟨.v2c, [0x70], ⟨.response, 1, 0, 0, [⟨[2, 100, 3], .null⟩]⟩⟩,
    [0x30, 0x1c, 2, 1, 1, 4, 1, 0x70, 0xa2, 0x14, 2, 1, 1, 2, 1, 0, 2, 1, 0, 0x30, 9,
      0x30, 7, 6, 3, 0x81, 0x34, 3, 5, 0], rfl, rfl, ?_, ?_, ?_⟩
  rotate_left
  · intro v hv
    simp only [List.mem_singleton] at hv
    subst hv
    exact ⟨⟨by decide, by decide, 2, 100, [3], rfl, by decide, by decide⟩, trivial⟩
  · intro tail h
    have : (Message.decode v2Types (.bytes [0x30, 0x1c, 2, 1, 1, 4, 1, 0x70, 0xa2, 0x14, 2, 1, 1, 2, 1,
      0, 2, 1, 0, 0x30, 9, 0x30, 7, 6, 3, 0x81, 0x34, 3, 5, 0])).isOk = false := by decide +kernel
    rw [h] at this
    cases this
  · refine ⟨[2, 1, 1], [4, 1, 0x70], [0xa2, 0x14, 2, 1, 1, 2, 1, 0, 2, 1, 0, 0x30, 9,
      0x30, 7, 6, 3, 0x81, 0x34, 3, 5, 0], ⟨[1], by simp, rfl, [1], .inl ⟨by decide, rfl⟩, rfl⟩,
      ⟨[1], .inl ⟨by decide, rfl⟩, rfl⟩, ?_, [0x1c], .inl ⟨by decide, rfl⟩, rfl⟩
    refine ⟨[2, 1, 1], [2, 1, 0], [2, 1, 0], [0x30, 7, 6, 3, 0x81, 0x34, 3, 5, 0], _,
      ⟨[1], by simp, rfl, [1], .inl ⟨by decide, rfl⟩, rfl⟩,
      ⟨[0], by simp, rfl, [1], .inl ⟨by decide, rfl⟩, rfl⟩,
      ⟨[0], by simp, rfl, [1], .inl ⟨by decide, rfl⟩, rfl⟩, ?_,
      ⟨[9], .inl ⟨by decide, rfl⟩, rfl⟩, ⟨[0x14], .inl ⟨by decide, rfl⟩, rfl⟩⟩
    refine ⟨_, [], ⟨[6, 3, 0x81, 0x34, 3], [5, 0], ⟨by decide, [3], .inl ⟨?_, ?_⟩, ?_⟩,
      ⟨[0], .inl ⟨by decide, rfl⟩, rfl⟩, [7], .inl ⟨by decide, rfl⟩, rfl⟩, rfl, rfl⟩
    all_goals simp [Spec.oidContents, Spec.subidentifier, Spec.continuation]

end Snmp
