import Verif.MessageLemmas
import Verif.Props.Pdu
import Verif.Props.Subbytes
/-!
# Properties C24-C27, C34
-/

set_option linter.unusedSimpArgs false

namespace Snmp

/-! ## Vocabulary -/

/-- A PDU a user can send: fields in range and sendable bindings. -/
def Spec.PduSendable (p : Pdu) : Prop := Spec.FieldsOk p ∧ ∀ v ∈ p.bindings, Spec.Sendable v

/-- Same class, same fields, and equal bindings in order. -/
def Spec.SamePdu (p q : Pdu) : Prop :=
  q.type = p.type ∧ q.requestID = p.requestID ∧ q.first = p.first ∧ q.second = p.second ∧
    Spec.SameBindings p.bindings q.bindings

theorem Spec.PduSendable.good {p : Pdu} (h : Spec.PduSendable p) : p.Good :=
  ⟨(specFields_iff p).1 h.1, fun v hv => (h.2 v hv).portable⟩

theorem Spec.PduSendable.canon {p : Pdu} (h : Spec.PduSendable p) : Spec.SamePdu p p.canon :=
  ⟨rfl, rfl, rfl, rfl, canon_list h.2⟩

/-! ## C24 -/

/-- C24: every v1/v2c message with a PDU of an enabled class decodes from its encoding to the same
version, community and PDU. `types` is the table of enabled classes; `v1Types` and `v2Types` are
those of the two versions. -/
theorem C24_roundtrip (types : List PduType) (m : Message)
    (hver : m.version = .v1 ∨ m.version = .v2c) (hp : Spec.PduSendable m.pdu)
    (ht : m.pdu.type ∈ types) (e : Bytes) (he : m.encode = .ok e)
    (d : Asn1Data) (hv : d.Valid) (hd : d.copy = e) :
    ∃ r tail, Message.decode types d = .ok (r, tail) ∧
      r.version = m.version ∧ r.community = m.community ∧ Spec.SamePdu m.pdu r.pdu := by
  obtain ⟨tail, h⟩ := Message.decode_exact (types := types)
    (by rcases hver with h | h <;> rw [h] <;> decide) hp.good ht he hv hd
  exact ⟨_, tail, h, rfl, rfl, hp.canon⟩

/-- C24: the encoding exists exactly for communities of at most 65535 bytes (given that the PDU
encodes and stays below the BER size limit); otherwise `ValueError`. -/
theorem C24_encodes (m : Message) (p : Bytes) (hp : m.pdu.encode = .ok p)
    (hsmall : p.length < 256 ^ 126) :
    (m.community.length ≤ 65535 → ∃ e, m.encode = .ok e) ∧
    (65535 < m.community.length → m.encode = .error .valueError) := by
  have hvv : ∃ a, encodeInteger m.version.value = .ok a ∧ a.length = 3 := by
    cases m.version
    · exact ⟨[2, 1, 0], by decide +kernel, rfl⟩
    · exact ⟨[2, 1, 1], by decide +kernel, rfl⟩
    · exact ⟨[2, 1, 3], by decide +kernel, rfl⟩
  obtain ⟨a, ha, hal⟩ := hvv
  unfold Message.encode asn1Encode Message.serialize
  rw [ha]
  simp only [Except.bind]
  constructor
  · intro hc
    obtain ⟨b, hb, hbl⟩ := encodeOctets_exists hc
    rw [hb]; simp only
    rw [hp]; simp only
    refine (Ber.encode_ok _ ?_).imp fun _ h => h.1
    simp only [List.length_append]
    have : (256:Nat)^126 + 65700 < 256 ^ 127 := by norm_num
    omega
  · intro hc
    rw [encodeOctets_err hc]

/-- C24: whatever follows it, a version number other than those of SNMPv1 and SNMPv2c is refused. -/
theorem C24_other_version (types : List PduType) (v : Int) (h0 : v ≠ 0) (h1 : v ≠ 1)
    (a rest e : Bytes) (ha : encodeInteger v = .ok a)
    (he : Ber.encode ⟨16, true, .universal⟩ (a ++ rest) = .ok e)
    (d : Asn1Data) (hv : d.Valid) (hd : d.copy = e) :
    Message.decode types d = .error .badVersion := by
  unfold Message.decode asn1Decode
  have he' : Ber.encode sequenceTag (a ++ rest) = .ok e := he
  rw [Ber.decode_exact he' hv (rest := []) (by simpa using hd) (.inr rfl) (.inr rfl) true]
  simp only [Except.bind, ↓reduceIte]
  unfold Message.deserialize decodeVersion
  rw [decodeInteger_exact ha (Asn1Data.valid_bytes _) (rest := rest) rfl (.inl rfl)]
  simp only [Except.bind]
  unfold Version.ofValue
  rw [if_neg h0, if_neg h1]
  by_cases h3 : v = 3
  · rw [if_pos h3]; rfl
  · rw [if_neg h3]; rfl

/-- C24: a message whose third item has a tag that is not one of the enabled PDU classes is
refused, whatever the community and the contents. -/
theorem C24_other_pdu (types : List PduType) (v : Int) (hv01 : v = 0 ∨ v = 1)
    (community : Bytes) (t : Tag) (ht : ∀ x ∈ types, x.tag ≠ t) (body a b c e : Bytes)
    (ha : encodeInteger v = .ok a) (hb : encodeOctets community = .ok b)
    (hc : Ber.encode t body = .ok c)
    (he : Ber.encode ⟨16, true, .universal⟩ (a ++ b ++ c) = .ok e)
    (d : Asn1Data) (hv : d.Valid) (hd : d.copy = e) :
    Message.decode types d = .error .parseError := by
  unfold Message.decode asn1Decode
  have he' : Ber.encode sequenceTag (a ++ b ++ c) = .ok e := he
  rw [Ber.decode_exact he' hv (rest := []) (by simpa using hd) (.inr rfl) (.inr rfl) true]
  simp only [Except.bind, ↓reduceIte]
  unfold Message.deserialize decodeVersion
  have vb := Asn1Data.valid_bytes (a ++ b ++ c)
  have cb : (Asn1Data.bytes (a ++ b ++ c)).copy = a ++ (b ++ c) := by simp [Asn1Data.copy]
  rw [decodeInteger_exact ha vb cb (.inl rfl)]
  have v1 := last_valid vb (b ++ c).length
  have c1 := last_copy vb cb
  have v2 := last_valid v1 c.length
  have c2 := last_copy v1 c1
  have hd2 := decodeOctets_exact hb v1 c1 (leftovers := true) (.inl rfl)
  obtain ⟨tl, htl⟩ := Tag.decode_encoded hc v2 (rest := []) (by rw [c2]; simp)
  have hlk : lookupPdu types t = .error .parseError := by
    unfold lookupPdu
    have : types.find? (fun x => decide (x.tag = t)) = none := by
      rw [List.find?_eq_none]
      intro x hx; simpa using ht x hx
    rw [this]; rfl
  have hver : ∃ w, Version.ofValue v = some w ∧ w ≠ .v3 := by
    rcases hv01 with h | h
    · exact ⟨.v1, by rw [h]; rfl, by decide⟩
    · exact ⟨.v2c, by rw [h]; rfl, by decide⟩
  obtain ⟨w, hw, hw3⟩ := hver
  simp only [Except.bind]
  rw [hw]
  simp only [orRaise]
  rw [if_neg hw3, hd2]
  simp only
  unfold decodePdu
  rw [htl]
  simp only [Except.bind]
  rw [hlk]

example : (⟨.v2c, [112, 117, 98], ⟨.getBulkRequest, 9, 0, 10, []⟩⟩ : Message).encode =
    .ok [0x30, 21, 2, 1, 1, 4, 3, 112, 117, 98, 0xa5, 11, 2, 1, 9, 2, 1, 0, 2, 1, 10, 0x30, 0] := by
  decide +kernel
example : Spec.PduSendable ⟨.getBulkRequest, 9, 0, 10, []⟩ := ⟨by simp [Spec.FieldsOk], by simp⟩
/-- GetBulk is not an SNMPv1 class. -/
example : ∀ x ∈ v1Types, x.tag ≠ PduType.getBulkRequest.tag := by decide
example : encodeInteger 2 = .ok [2, 1, 2] := by decide +kernel

/-! ## C25 -/

/-- An object is returned or an `IncomingMessageError` is raised. -/
def Spec.ObjectOrIncoming {α : Type} (r : Res α) : Prop :=
  (∃ x, r = .ok x) ∨ ∃ e, r = .error e ∧ e.isIncoming = true

theorem IncomingOnly.spec {α : Type} {r : Res α} (h : IncomingOnly r) : Spec.ObjectOrIncoming r := by
  cases r with
  | ok x => exact .inl ⟨x, rfl⟩
  | error e => exact .inr ⟨e, rfl, h e rfl⟩

/-- C25 for v1 and v2c messages, with any table of PDU classes. -/
theorem C25_community (types : List PduType) (b : Bytes) :
    Spec.ObjectOrIncoming (Message.decode types (.bytes b)) :=
  asn1Decode_incoming (Asn1Data.valid_bytes b) (fun _ hx =>
    Message.deserialize_incoming types hx) _ _ |>.spec

/-- C25 for the version probe. -/
theorem C25_version (b : Bytes) (leftovers copy : Bool) :
    Spec.ObjectOrIncoming (VersionOnly.decode (.bytes b) leftovers copy) :=
  asn1Decode_incoming (Asn1Data.valid_bytes b) (fun _ hx =>
    IncomingOnly.bind (decodeVersion_incoming hx) fun _ _ => IncomingOnly.ok _) _ _ |>.spec

/-- C25 for SNMPv3 messages. -/
theorem C25_v3 (b : Bytes) : Spec.ObjectOrIncoming (V3Message.decode (.bytes b)) :=
  (IncomingOnly.bind (asn1Decode_incoming (Asn1Data.valid_bytes b) (fun _ hx =>
    V3Message.deserialize_incoming hx) _ _) fun _ _ => IncomingOnly.ok _).spec

/-- C25 for USM security parameters, read from a byte string or from inside a message. -/
theorem C25_usm (d : Asn1Data) (hv : d.Valid) : Spec.ObjectOrIncoming (UsmParams.decode d) :=
  (IncomingOnly.bind (asn1Decode_incoming hv (fun _ hx =>
    (UsmParams.deserialize_parseOnly hx).incoming) _ _) fun _ _ => IncomingOnly.ok _).spec

/-- C25 for a decrypted scoped PDU. -/
theorem C25_plaintext (b : Bytes) : Spec.ObjectOrIncoming (decodePlaintext b) :=
  (IncomingOnly.bind (ScopedPDU.decode_parseOnly (Asn1Data.valid_bytes b) true).incoming
    fun _ _ => IncomingOnly.ok _).spec

/-! ## C26 -/

/-- A header the peer's parser accepts. -/
structure Spec.HeaderOk (h : HeaderData) : Prop where
  id : 0 ≤ h.id
  size : 484 ≤ h.maxSize
  level : h.flags.level.priv = true → h.flags.level.auth = true

/-- The payload that goes with the privacy flag: an encrypted PDU of at most 65535 bytes, or a
sendable scoped PDU. -/
def Spec.PayloadOk (m : V3Message) : Prop :=
  (m.header.flags.level.priv = true ∧ ∃ c, m.encryptedPDU = some c ∧ c.length ≤ 65535) ∨
  (m.header.flags.level.priv = false ∧ ∃ s, m.scopedPDU = some s ∧ Spec.PduSendable s.pdu)

theorem Spec.PayloadOk.good {m : V3Message} (h : Spec.PayloadOk m) : m.PayloadGood := by
  unfold V3Message.PayloadGood
  rcases h with ⟨h1, h2⟩ | ⟨h1, s, hs, hp⟩
  · rw [if_pos h1]; exact h2
  · rw [if_neg (by simp [h1])]; exact ⟨s, hs, hp.good⟩

/-- C26: an SNMPv3 message decodes from its encoding to the same header (with flags) and payload;
its security parameters are a view of the whole message, with the original contents, at the place
where replacing them by others of the same length gives exactly the encoding of the message with
those other parameters. `findSecurityParameters` finds the same place. -/
theorem C26_roundtrip (m : V3Message) (hh : Spec.HeaderOk m.header) (hp : Spec.PayloadOk m)
    (hs : m.securityParameters.copy.length ≤ 65535) (e : Bytes) (he : m.encode = .ok e) :
    ∃ r view, V3Message.decode (.bytes e) = .ok r ∧ r.header = m.header ∧
      r.securityParameters = .sub view ∧ view.WF ∧ view.data = e ∧
      view.copy = m.securityParameters.copy ∧
      V3Message.findSecurityParameters e = .ok view ∧
      (∀ p : Bytes, p.length = m.securityParameters.copy.length →
        ({ m with securityParameters := .bytes p } : V3Message).encode = .ok (view.replace p)) ∧
      (m.header.flags.level.priv = true → r.encryptedPDU = m.encryptedPDU ∧ r.scopedPDU = none) ∧
      (m.header.flags.level.priv = false → r.encryptedPDU = none ∧
        ∃ s t, m.scopedPDU = some s ∧ r.scopedPDU = some t ∧
          t.contextEngineID = s.contextEngineID ∧ t.contextName = s.contextName ∧
          Spec.SamePdu s.pdu t.pdu) := by
  obtain ⟨pre, post, hl, hf, hd⟩ := V3Message.decode_exact ⟨hh.1, hh.2, hh.3⟩ hp.good hs he
  obtain ⟨hw, hc⟩ := view_of_append hl.encoded
  refine ⟨_, _, hd, rfl, rfl, hw, rfl, hc, hf, ?_, ?_, ?_⟩
  · intro p hpl
    rw [hl.replaced (.bytes p) hpl]
    obtain ⟨before, after, h1, h2, h3⟩ := C02_replace _ hw p
    rw [h3, hc] at *
    simp only at h1 h2
    rw [hl.encoded, List.append_assoc, List.append_assoc] at h1
    obtain ⟨hb, ha⟩ := List.append_inj h1 h2.symm
    rw [List.append_cancel_left ha, ← hb]
    rfl
  · intro hpr
    simp [V3Message.received, hpr]
  · intro hpr
    rcases hp with ⟨h1, -⟩ | ⟨-, s, hs, hsend⟩
    · rw [h1] at hpr; cases hpr
    · refine ⟨by simp [V3Message.received, hpr], s, { s with pdu := s.pdu.canon }, hs, ?_, rfl, rfl,
        hsend.canon⟩
      simp [V3Message.received, hpr, hs]

/-- C26 for the USM parameters inside any buffer: all fields come back, and the signature is known
by its position, where replacing it gives the encoding with another signature of the same length. -/
theorem C26_usm (p : UsmParams) (e : Bytes) (he : p.encode = .ok e) (d : Asn1Data) (hv : d.Valid)
    (hd : d.copy = e) :
    ∃ r sig, UsmParams.decode d = .ok r ∧ r.engineID = p.engineID ∧ r.engineBoots = p.engineBoots ∧
      r.engineTime = p.engineTime ∧ r.userName = p.userName ∧ r.signature = p.signature ∧
      r.salt = p.salt ∧ r.wholeMsg = some d.toSub.data ∧ r.signatureIndex = some sig.start ∧
      UsmParams.findSignature d.toSub = .ok sig ∧ sig.WF ∧ sig.data = d.toSub.data ∧
      d.toSub.start ≤ sig.start ∧ sig.stop ≤ d.toSub.stop ∧ sig.copy = p.signature ∧
      ∀ s : Bytes, s.length = p.signature.length →
        ∃ e', ({ p with signature := s } : UsmParams).encode = .ok e' ∧
          sig.replace s = d.toSub.replace e' := by
  obtain ⟨pre, post, hl, hx⟩ := UsmParams.decode_exact he
  obtain ⟨hf, hdec⟩ := hx d hv hd
  have hw : d.toSub.WF := hv
  obtain ⟨before, after, hb1, hb2, hb3⟩ := C02_replace d.toSub hw e
  have hcopy : d.toSub.copy = e := by rw [Subbytes.copy_eq_contents, ← Asn1Data.copy_eq]; exact hd
  rw [hcopy, hl.encoded] at hb1
  have hdata : d.toSub.data = (before ++ pre) ++ p.signature ++ (post ++ after) := by
    rw [hb1]; simp
  obtain ⟨sw, sc⟩ := view_of_append hdata
  have hstop : d.toSub.stop = d.toSub.start + e.length := by
    have := congrArg List.length hcopy
    rw [Subbytes.copy_eq_contents, Subbytes.contents] at this
    simp only [List.length_drop, List.length_take] at this
    obtain ⟨w1, w2⟩ := hw
    omega
  have hel := congrArg List.length hl.encoded
  simp only [List.length_append] at hel
  have hst : d.toSub.start + pre.length = (before ++ pre).length := by simp; omega
  rw [hst] at hf hdec
  refine ⟨_, _, hdec, rfl, rfl, rfl, rfl, rfl, rfl, rfl, rfl, hf, sw, rfl, ?_, ?_, sc, ?_⟩
  · simp only [List.length_append]; omega
  · simp only [List.length_append]; omega
  · intro s hs
    refine ⟨_, hl.replaced s hs, ?_⟩
    obtain ⟨b2, a2, h1, h2, h3⟩ := C02_replace _ sw s
    rw [h3]
    rw [sc] at h1
    simp only at h1 h2
    rw [hdata, List.append_assoc, List.append_assoc b2] at h1
    obtain ⟨q1, q2⟩ := List.append_inj h1 h2.symm
    rw [← q1, ← List.append_cancel_left q2]
    obtain ⟨b3, a3, k1, k2, k3⟩ := C02_replace d.toSub hw (pre ++ s ++ post)
    rw [k3]
    rw [hcopy, hb1, hl.encoded, List.append_assoc, List.append_assoc b3] at k1
    obtain ⟨r1, r2⟩ := List.append_inj k1 (by rw [hb2, k2])
    rw [← r1, ← List.append_cancel_left r2]
    simp


/-- A non-trivial message: authenticated, with a GetRequest. -/
def Spec.sampleMessage : V3Message :=
  { header := ⟨7, 1472, ⟨authNoPriv, true⟩, .usm⟩
    scopedPDU := some ⟨⟨.getRequest, 1, 0, 0, [⟨[1, 3, 6], .null⟩]⟩, [0x80, 1], []⟩
    securityParameters := .bytes [1, 2, 3] }

example : Spec.HeaderOk Spec.sampleMessage.header := ⟨by decide, by decide, by decide⟩
example : Spec.sampleMessage.encode = .ok [48, 52, 2, 1, 3, 48, 13, 2, 1, 7, 2, 2, 5, 192, 4, 1, 5,
    2, 1, 3, 4, 3, 1, 2, 3, 48, 27, 4, 2, 128, 1, 4, 0, 160, 19, 2, 1, 1, 2, 1, 0, 2, 1, 0, 48, 8, 48,
    6, 6, 2, 43, 6, 5, 0] := by decide +kernel

/-! ## C27 -/

/-- What RFC 3412 asks of the header of an incoming message: the flags octet must not ask for
privacy (bit 1) without authentication (bit 0), the ID is not negative, the size is at least 484, the
security model is positive, and only model 3 (USM) is supported. `none` means acceptable. -/
def Spec.headerVerdict (id maxSize : Int) (flags : UInt8) (model : Int) : Option PyErr :=
  if flags.toNat % 4 = 2 then some .invalidMessage
  else if id < 0 ∨ maxSize < 484 ∨ model < 1 then some .parseError
  else if model ≠ 3 then some .unknownSecurityModel
  else none

/-- C27: every header obtained from the wire is acceptable. -/
theorem C27_accepted (b : Bytes) (m : V3Message) (h : V3Message.decode (.bytes b) = .ok m) :
    0 ≤ m.header.id ∧ m.header.id < 2 ^ 31 ∧ 484 ≤ m.header.maxSize ∧ m.header.maxSize < 2 ^ 31 ∧
      (m.header.flags.level.priv = true → m.header.flags.level.auth = true) ∧
      m.header.securityModel = .usm := by
  unfold V3Message.decode at h
  obtain ⟨⟨m', t⟩, h1, h2⟩ := bind_ok h
  injection h2 with h2; subst h2
  obtain ⟨x, hx, hdes, -⟩ := asn1Decode_ok (Asn1Data.valid_bytes b) h1
  unfold V3Message.deserialize at hdes
  obtain ⟨⟨v, p1⟩, hv, hdes⟩ := bind_ok hdes
  simp only at hdes
  split at hdes
  · cases hdes
  obtain ⟨⟨hd, p2⟩, hh, hdes⟩ := bind_ok hdes
  have w1 := decodeVersion_tail hx hv
  have hhd : m'.header = hd := by
    obtain ⟨⟨pr, p3⟩, -, hdes⟩ := bind_ok hdes
    simp only at hdes
    split at hdes
    · obtain ⟨y, -, hy⟩ := bind_ok hdes
      injection hy with hy; subst hy; rfl
    · obtain ⟨y, -, hy⟩ := bind_ok hdes
      injection hy with hy; subst hy; rfl
  rw [hhd]
  obtain ⟨y, hy, hdes2, -⟩ := asn1Decode_ok w1 hh
  unfold HeaderData.deserialize at hdes2
  obtain ⟨⟨i, q1⟩, hi, hdes2⟩ := bind_ok hdes2
  obtain ⟨⟨sz, q2⟩, hsz, hdes2⟩ := bind_ok hdes2
  obtain ⟨⟨fl, q3⟩, hfl, hdes2⟩ := bind_ok hdes2
  obtain ⟨⟨md, q4⟩, hmd, hdes2⟩ := bind_ok hdes2
  have k1 := asn1Decode_tail hy hi
  have k2 := asn1Decode_tail k1 hsz
  have range : ∀ {d : Asn1Data} {n : Int} {l : Bool} {tl : Subbytes}, d.Valid →
      decodeInteger d l = .ok (n, tl) → n < 2 ^ 31 := by
    intro d n l tl hd hn
    obtain ⟨z, hz, hzd, -⟩ := asn1Decode_ok hd hn
    unfold IntType.deserialize at hzd
    rw [IntType.construct_eq] at hzd
    split at hzd
    · rename_i hr
      injection hzd with hzd
      rw [hzd] at hr
      have := (IntType.inRange_iff .integer32 n).1 hr
      simp [Spec.intRange] at this
      omega
    · cases hzd
  have r1 := range hy hi
  have r2 := range k1 hsz
  simp only at hdes2
  split at hdes2
  · cases hdes2
  split at hdes2
  · cases hdes2
  split at hdes2
  · cases hdes2
  obtain ⟨sm, -, hz⟩ := bind_ok hdes2
  injection hz with hz; subst hz
  refine ⟨by simp only; omega, r1, by simp only; omega, r2, ?_, by cases sm; rfl⟩
  obtain ⟨z, hz, hfd, -⟩ := asn1Decode_ok k2 hfl
  unfold MessageFlags.construct at hfd
  split at hfd
  · cases hfd
  · obtain ⟨lv, hlv, hq⟩ := bind_ok hfd
    injection hq with hq; subst hq
    simp only
    unfold SecurityLevel.new at hlv
    split at hlv
    · simp [translateErr, PyErr.isValueError] at hlv
    · rename_i hn
      simp only [translateErr, Except.ok.injEq] at hlv
      subst hlv
      simp only
      intro hp
      by_contra hna
      exact hn ⟨hp, by simpa using hna⟩

theorem flagBits : ∀ b : UInt8, (b.toNat &&& 1 ≠ 0 ↔ b.toNat % 2 = 1) ∧
    (b.toNat &&& 2 ≠ 0 ↔ b.toNat / 2 % 2 = 1) ∧ (b.toNat &&& 4 ≠ 0 ↔ b.toNat / 4 % 2 = 1) := by
  intro b
  have key : ∀ n < 256, (n &&& 1 ≠ 0 ↔ n % 2 = 1) ∧ (n &&& 2 ≠ 0 ↔ n / 2 % 2 = 1) ∧
    (n &&& 4 ≠ 0 ↔ n / 4 % 2 = 1) := by decide +kernel
  exact key b.toNat b.toNat_lt

/-- C27: a message whose header violates one of the rules is refused with the error named by the
verdict, whatever follows the header. -/
theorem C27_refused (id maxSize model : Int) (f : UInt8) (err : PyErr)
    (hverdict : Spec.headerVerdict id maxSize f model = some err)
    (v i z fl md hdr rest e : Bytes) (hv : encodeInteger 3 = .ok v)
    (hi : encodeInteger id = .ok i) (hz : encodeInteger maxSize = .ok z)
    (hf : encodeOctets [f] = .ok fl) (hm : encodeInteger model = .ok md)
    (hh : Ber.encode ⟨16, true, .universal⟩ (i ++ z ++ fl ++ md) = .ok hdr)
    (he : Ber.encode ⟨16, true, .universal⟩ (v ++ hdr ++ rest) = .ok e) :
    V3Message.decode (.bytes e) = .error err := by
  have he' : Ber.encode sequenceTag (v ++ hdr ++ rest) = .ok e := he
  have hh' : Ber.encode sequenceTag (i ++ z ++ fl ++ md) = .ok hdr := hh
  have hdata : (Asn1Data.bytes e).copy = e ++ [] := by simp [Asn1Data.copy]
  unfold V3Message.decode asn1Decode
  rw [Ber.decode_exact he' (Asn1Data.valid_bytes e) hdata (.inr rfl) (.inr rfl) false]
  simp only [Except.bind, Bool.false_eq_true, ↓reduceIte]
  obtain ⟨vb, cb⟩ := inner_spec' he' (Asn1Data.valid_bytes e) hdata
  generalize (Asn1Data.bytes e).toSub.inner (v ++ hdr ++ rest).length ([] : Bytes).length = s at *
  rw [List.append_assoc] at cb
  unfold V3Message.deserialize
  rw [decodeVersion_exact (v := .v3) hv vb cb]
  simp only [Except.bind, ne_eq, not_true_eq_false, ↓reduceIte]
  have v1 := last_valid vb (hdr ++ rest).length
  have c1 := last_copy vb cb
  have key : HeaderData.decode (.sub ((Asn1Data.sub s).toSub.last (hdr ++ rest).length)) =
      .error err := by
    unfold HeaderData.decode asn1Decode
    rw [Ber.decode_exact hh' v1 c1 (.inr rfl) (.inl rfl) true]
    simp only [Except.bind, ↓reduceIte]
    have b0 := Asn1Data.valid_bytes (i ++ z ++ fl ++ md)
    have e0 : (Asn1Data.bytes (i ++ z ++ fl ++ md)).copy = i ++ (z ++ (fl ++ md)) := by
      simp [Asn1Data.copy]
    have b1 := last_valid b0 (z ++ (fl ++ md)).length
    have e1 := last_copy b0 e0
    have b2 := last_valid b1 (fl ++ md).length
    have e2 := last_copy b1 e1
    have b3 := last_valid b2 md.length
    have e3 := last_copy b2 e2
    obtain ⟨-, hfe⟩ := encodeOctets_ok hf
    unfold HeaderData.deserialize
    rw [decodeInteger_exact hi b0 e0 (.inl rfl)]; simp only [Except.bind]
    rw [decodeInteger_exact hz b1 e1 (.inl rfl)]; simp only
    obtain ⟨f1, f2, f4⟩ := flagBits f
    unfold Spec.headerVerdict at hverdict
    by_cases hbad : f.toNat % 4 = 2
    · rw [if_pos hbad] at hverdict
      have : MessageFlags.decode (.sub ((Asn1Data.sub ((Asn1Data.bytes (i ++ z ++ fl ++ md)).toSub.last
          (z ++ (fl ++ md)).length)).toSub.last (fl ++ md).length)) = .error .invalidMessage := by
        unfold MessageFlags.decode asn1Decode
        rw [Ber.decode_exact hfe b2 e2 (.inr rfl) (.inl rfl) true]
        simp only [Except.bind, ↓reduceIte]
        unfold MessageFlags.construct SecurityLevel.new
        simp only [Asn1Data.copy]
        rw [if_pos (by simp only [decide_eq_true_eq]; rw [f1, f2]; omega)]
        rfl
      injection hverdict with hverdict
      rw [this, hverdict]
    · rw [if_neg hbad] at hverdict
      have hfd : ∃ fg tl, MessageFlags.decode (.sub ((Asn1Data.sub ((Asn1Data.bytes
          (i ++ z ++ fl ++ md)).toSub.last (z ++ (fl ++ md)).length)).toSub.last
          (fl ++ md).length)) = .ok (fg, tl) ∧ tl = (Asn1Data.sub ((Asn1Data.sub ((Asn1Data.bytes
          (i ++ z ++ fl ++ md)).toSub.last (z ++ (fl ++ md)).length)).toSub.last
          (fl ++ md).length)).toSub.last md.length := by
        unfold MessageFlags.decode asn1Decode
        rw [Ber.decode_exact hfe b2 e2 (.inr rfl) (.inl rfl) true]
        simp only [Except.bind, ↓reduceIte]
        unfold MessageFlags.construct SecurityLevel.new
        simp only [Asn1Data.copy]
        rw [if_neg (by simp only [decide_eq_true_eq]; rw [f1, f2]; omega)]
        exact ⟨_, _, rfl, rfl⟩
      obtain ⟨fg, tl, hfd, rfl⟩ := hfd
      rw [hfd]; simp only
      rw [decodeInteger_exact hm b3 (rest := []) (by rw [e3]; simp) (.inr rfl)]
      simp only
      split at hverdict
      · injection hverdict with hverdict
        subst hverdict
        by_cases q1 : id < 0
        · rw [if_pos q1]
        by_cases q2 : maxSize < 484
        · rw [if_neg q1, if_pos q2]
        rw [if_neg q1, if_neg q2, if_pos (by omega)]
      · rename_i hok
        rw [if_neg (by omega), if_neg (by omega), if_neg (by omega)]
        split at hverdict
        · rename_i hm3
          injection hverdict with hverdict
          subst hverdict
          unfold SecurityModel.ofValue
          rw [if_neg hm3]; rfl
        · cases hverdict
  rw [key]

example : Spec.headerVerdict 5 483 1 3 = some .parseError := by decide
example : Spec.headerVerdict 5 484 6 3 = some .invalidMessage := by decide
example : Spec.headerVerdict (-1) 484 7 3 = some .parseError := by decide
example : Spec.headerVerdict 5 484 0xf9 2 = some .unknownSecurityModel := by decide
example : Spec.headerVerdict 0 484 0xff 3 = none := by decide

/-! ## C34 -/

/-- The three levels of RFC 3414. -/
def Spec.IsLevel (l : SecurityLevel) : Prop := l.priv = true → l.auth = true

/-- Their rank. -/
def Spec.rank : SecurityLevel → Nat
  | ⟨false, _⟩ => 0
  | ⟨true, false⟩ => 1
  | ⟨true, true⟩ => 2

/-- C34: privacy without authentication cannot be constructed, every other combination can. -/
theorem C34_construct (auth priv : Bool) :
    ((priv = true ∧ auth = false) → SecurityLevel.new auth priv = .error .valueError) ∧
    (¬ (priv = true ∧ auth = false) → SecurityLevel.new auth priv = .ok ⟨auth, priv⟩ ∧
      Spec.IsLevel ⟨auth, priv⟩) := by
  cases auth <;> cases priv <;> simp [SecurityLevel.new, Spec.IsLevel]

/-- C34: on the levels that can be constructed, `<` and `>=` are the strict and the reversed weak
order by rank, and levels of equal rank are equal. -/
theorem C34_order (a b : SecurityLevel) (ha : Spec.IsLevel a) (hb : Spec.IsLevel b) :
    (a.lt b = true ↔ Spec.rank a < Spec.rank b) ∧ (a.ge b = true ↔ Spec.rank b ≤ Spec.rank a) ∧
    (Spec.rank a = Spec.rank b → a = b) := by
  obtain ⟨x, y⟩ := a
  obtain ⟨z, w⟩ := b
  unfold Spec.IsLevel at ha hb
  cases x <;> cases y <;> cases z <;> cases w <;>
    simp_all [SecurityLevel.lt, SecurityLevel.ge, Spec.rank]

/-- C34: the three constants are the three levels, in this order. -/
theorem C34_constants (l : SecurityLevel) (h : Spec.IsLevel l) :
    (l = noAuthNoPriv ∨ l = authNoPriv ∨ l = authPriv) ∧
    noAuthNoPriv.lt authNoPriv = true ∧ authNoPriv.lt authPriv = true := by
  obtain ⟨x, y⟩ := l
  unfold Spec.IsLevel at h
  cases x <;> cases y <;> simp_all [noAuthNoPriv, authNoPriv, authPriv, SecurityLevel.lt]

/-- C34: a flags octet is read from its three low bits only: bit 0 authentication, bit 1 privacy,
bit 2 reportable. Further octets are ignored. -/
theorem C34_decode (b : UInt8) (more : Bytes) :
    MessageFlags.construct (.bytes (b :: more)) =
      if b.toNat % 4 = 2 then .error .invalidMessage
      else .ok ⟨⟨b.toNat % 2 = 1, b.toNat / 2 % 2 = 1⟩, b.toNat / 4 % 2 = 1⟩ := by
  obtain ⟨f1, f2, f4⟩ := flagBits b
  unfold MessageFlags.construct SecurityLevel.new
  simp only [Asn1Data.copy]
  split
  · rename_i h
    simp only [decide_eq_true_eq] at h
    rw [f1, f2] at h
    rw [if_pos (by omega)]; rfl
  · rename_i h
    simp only [decide_eq_true_eq] at h
    rw [f1, f2] at h
    rw [if_neg (by omega)]
    simp only [translateErr, Except.bind, Except.ok.injEq, MessageFlags.mk.injEq,
      SecurityLevel.mk.injEq, decide_eq_decide]
    exact ⟨⟨f1, f2⟩, f4⟩

/-- C34: level and reportable bit survive the flags octet, so the octet determines them. -/
theorem C34_flags (f : MessageFlags) (hf : Spec.IsLevel f.level) :
    MessageFlags.construct (.bytes [UInt8.ofNat f.byte]) = .ok f ∧
    ∀ g, Spec.IsLevel g.level → g.byte = f.byte → g = f := by
  have h1 := MessageFlags.roundtrip f hf (d := .bytes [UInt8.ofNat f.byte]) rfl
  refine ⟨h1, fun g hg h => ?_⟩
  have h2 := MessageFlags.roundtrip g hg (d := .bytes [UInt8.ofNat g.byte]) rfl
  rw [h, h1] at h2
  injection h2 with h2
  exact h2.symm

end Snmp
