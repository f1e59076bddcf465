import Verif.Spec.Rfc
import Verif.Props.Message
import Mathlib.Tactic.LinearCombination
/-!
# Property C98: the octets on the wire are the ones the standards prescribe
-/

namespace Snmp

theorem encodeLengthLoop_base256 (n : Nat) (h : 0 < n) (arr : Bytes) :
    (encodeLengthLoop n arr).reverse = Spec.base256 n ++ arr.reverse := by
  induction n using Nat.strongRecOn generalizing arr with
  | ind n ih =>
    unfold encodeLengthLoop Spec.base256
    rw [dif_neg (by omega), shr_8, and_ff]
    by_cases hn : n < 256
    · rw [if_pos hn, Nat.div_eq_of_lt hn, Nat.mod_eq_of_lt hn]
      unfold encodeLengthLoop
      simp
    · rw [if_neg hn, ih (n / 256) (by omega) (by omega)]
      simp

theorem encodeLength_rfc {n : Nat} {l : Bytes} (h : encodeLength n = .ok l) :
    l = Spec.lengthOctets n := by
  unfold encodeLength at h
  unfold Spec.lengthOctets
  by_cases hn : n < 128
  · rw [if_pos hn] at h ⊢
    injection h with h; exact h.symm
  · rw [if_neg hn] at h ⊢
    simp only at h
    have key := encodeLengthLoop_base256 n (by omega) []
    have hlen : (encodeLengthLoop n []).length = (Spec.base256 n).length := by
      rw [← List.length_reverse, key]; simp
    split at h
    · cases h
    · rename_i hle
      injection h with h
      rw [← h, List.reverse_append, key, hlen, or_80 _ (by omega)]
      simp

theorem Ber.encode_rfc {t : Tag} {d e : Bytes} {id : UInt8} (ht : t.encode = [id])
    (h : Ber.encode t d = .ok e) : e = Spec.tlv id d := by
  unfold Ber.encode at h
  cases hl : encodeLength d.length with
  | error x => rw [hl] at h; cases h
  | ok l =>
    rw [hl, ht] at h
    injection h with h
    rw [← h, encodeLength_rfc hl]
    simp [Spec.tlv]

theorem natToBytes_succ (n v : Nat) :
    natToBytes (n + 1) v = natToBytes n (v / 256) ++ [UInt8.ofNat (v % 256)] := rfl

theorem bitCount_div (v : Int) (h : 8 ≤ bitCount v) : bitCount v = bitCount (v / 256) + 8 := by
  have key : ∀ k, bitCount (v / 256) ≤ k ↔ bitCount v ≤ k + 8 := by
    intro k
    rw [bitCount_le, bitCount_le, pow_add]
    generalize (2 : Int) ^ k = p
    constructor
    · rintro ⟨h1, h2⟩; constructor <;> omega
    · rintro ⟨h1, h2⟩; constructor <;> omega
  have h1 := (key (bitCount v - 8)).2 (by omega)
  have h2 := (key (bitCount (v / 256))).1 (Nat.le_refl _)
  omega

theorem integer_rfc (n : Nat) (v : Int) (hn : bitCount v / 8 = n) :
    natToBytes (n + 1) (v % (256 ^ (n + 1) : Int)).toNat = Spec.integerContents v := by
  induction n generalizing v with
  | zero =>
    have h7 : bitCount v ≤ 7 := by omega
    rw [bitCount_le] at h7
    unfold Spec.integerContents
    rw [if_pos ⟨by omega, by omega⟩]
    simp only [natToBytes, List.nil_append, zero_add, pow_one, List.cons.injEq, and_true]
    congr 1
    have : (v % 256).toNat < 256 := by omega
    exact Nat.mod_eq_of_lt this
  | succ n ih =>
    have h8 : ¬ bitCount v ≤ 7 := by omega
    have hd := bitCount_div v (by omega)
    rw [bitCount_le] at h8
    unfold Spec.integerContents
    rw [if_neg (fun hc => h8 ⟨by omega, by omega⟩), ← ih (v / 256) (by omega), natToBytes_succ (n + 1)]
    have hp : (0 : Int) < 256 ^ (n + 1) := by positivity
    have hsplit : (v % 256 ^ (n + 1 + 1) : Int) = 256 * ((v / 256) % 256 ^ (n + 1)) + v % 256 := by
      have e1 := Int.emod_add_mul_ediv v 256
      have e2 := Int.emod_add_mul_ediv (v / 256) ((256 : Int) ^ (n + 1))
      have e3 : (0 : Int) ≤ v % 256 ∧ v % 256 < 256 := by omega
      have e4 := Int.emod_lt_of_pos (v / 256) hp
      have e5 : 0 ≤ (v / 256) % (256 : Int) ^ (n + 1) := Int.emod_nonneg _ (by omega)
      have e6 : v = 256 * ((v / 256) % 256 ^ (n + 1)) + v % 256 +
          256 ^ (n + 1 + 1) * ((v / 256) / 256 ^ (n + 1)) := by
        rw [pow_succ (256 : Int) (n + 1)]
        linear_combination -e1 - 256 * e2
      have e7 : (256 : Int) ^ (n + 1 + 1) = 256 * 256 ^ (n + 1) := by rw [pow_succ]; ring
      conv_lhs => rw [e6]
      rw [Int.add_mul_emod_self_left]
      exact Int.emod_eq_of_lt (by omega) (by rw [e7]; omega)
    have hnn : 0 ≤ (v / 256) % (256 : Int) ^ (n + 1) := Int.emod_nonneg _ (by omega)
    rw [hsplit]
    generalize (v / 256) % (256 : Int) ^ (n + 1) = q at hnn
    congr 2
    · omega
    · congr 1; omega

theorem intSerialize_rfc {v : Int} {b : Bytes} (h : intSerialize v = .ok b) :
    b = Spec.integerContents v := by
  unfold intSerialize toBytesSigned at h
  split at h
  · injection h with h
    rw [← h, integer_rfc _ v rfl]
  · cases h

theorem subLoop_continuation (n : Nat) (h : 0 < n) (tmp : Bytes) :
    (Oid.subLoop n 0x80 tmp).reverse = Spec.continuation n ++ tmp.reverse := by
  induction n using Nat.strongRecOn generalizing tmp with
  | ind n ih =>
    unfold Oid.subLoop Spec.continuation
    rw [dif_neg (by omega), shr_7, and_7f, or_80' _ (by omega)]
    by_cases hn : n < 128
    · rw [if_pos hn, Nat.div_eq_of_lt hn, Nat.mod_eq_of_lt hn]
      unfold Oid.subLoop
      simp
    · rw [if_neg hn, ih (n / 128) (by omega) (by omega)]
      simp

theorem serializeSub_rfc (n : Nat) : Oid.serializeSub n = Spec.subidentifier n := by
  unfold Oid.serializeSub Spec.subidentifier
  by_cases hn : n < 128
  · rw [if_pos hn, if_pos hn]
  · rw [if_neg hn, if_neg hn]
    unfold Oid.subLoop
    rw [dif_neg (by omega), shr_7, and_7f, subLoop_continuation _ (by omega)]
    simp

/-- The object identifiers that the library encodes as X.690 says: two numbers or more, and the first
two do not run into each other in `first * 40 | second`. -/
def Spec.OidFaithful (o : List Nat) : Prop :=
  ∃ a b rest, o = a :: b :: rest ∧ a ≤ 2 ∧ b ≤ 39 ∧ Spec.firstPairOk a b

theorem Oid.serialize_rfc {o : List Nat} (h : Spec.OidFaithful o) :
    Oid.serialize o = Spec.oidContents o := by
  obtain ⟨a, b, rest, rfl, ha, hb, hp⟩ := h
  unfold Oid.serialize Spec.oidContents
  have hz := (pairOk_iff a ha b hb).2 hp
  have hor : (a * 40) ||| b = a * 40 + b := by
    have : ∀ x < 3, ∀ y < 40, (x * 40) &&& y = 0 → (x * 40) ||| y = x * 40 + y := by decide +kernel
    exact this a (by omega) b (by omega) hz
  simp only [List.getElem?_cons_zero, Option.getD_some, List.drop_one, List.tail_cons, hor]
  rw [serializeSub_rfc]
  congr 1
  rw [show Oid.serializeSub = Spec.subidentifier from funext serializeSub_rfc]

/-- All object identifiers in a value are encoded as X.690 says. -/
def Spec.ValueFaithful (v : Value) : Prop := ∀ o, v = .oid o → Spec.OidFaithful o

theorem Value.encode_rfc {v : Value} {e : Bytes} (hv : Spec.ValueFaithful v) (h : v.encode = .ok e) :
    e = Spec.valueOctets v := by
  obtain ⟨b, hb, he⟩ := asn1Encode_ok h
  cases v with
  | int t v =>
    have hi := intSerialize_rfc hb
    subst hi
    cases t with
    | integer => exact Ber.encode_rfc (t := IntType.integer.tag) (by decide +kernel) he
    | integer32 => exact Ber.encode_rfc (t := IntType.integer32.tag) (by decide +kernel) he
    | unsigned32 => exact Ber.encode_rfc (t := IntType.unsigned32.tag) (by decide +kernel) he
    | counter32 => exact Ber.encode_rfc (t := IntType.counter32.tag) (by decide +kernel) he
    | gauge32 => exact Ber.encode_rfc (t := IntType.gauge32.tag) (by decide +kernel) he
    | timeTicks => exact Ber.encode_rfc (t := IntType.timeTicks.tag) (by decide +kernel) he
    | counter64 => exact Ber.encode_rfc (t := IntType.counter64.tag) (by decide +kernel) he
  | octets d =>
    injection hb with hb; subst hb
    exact Ber.encode_rfc (t := SmiType.octetString.tag) (by decide +kernel) he
  | ipAddress d =>
    injection hb with hb; subst hb
    exact Ber.encode_rfc (t := SmiType.ipAddress.tag) (by decide +kernel) he
  | opaqueData d =>
    injection hb with hb; subst hb
    exact Ber.encode_rfc (t := SmiType.opaqueData.tag) (by decide +kernel) he
  | oid o =>
    injection hb with hb
    rw [Oid.serialize_rfc (hv o rfl)] at hb
    subst hb
    exact Ber.encode_rfc (t := SmiType.oid.tag) (by decide +kernel) he
  | null =>
    injection hb with hb; subst hb
    rw [Ber.encode_rfc (t := SmiType.null.tag) (id := 0x05) (by decide +kernel) he]; rfl
  | noSuchObject =>
    injection hb with hb; subst hb
    rw [Ber.encode_rfc (t := SmiType.noSuchObject.tag) (id := 0x80) (by decide +kernel) he]; rfl
  | noSuchInstance =>
    injection hb with hb; subst hb
    rw [Ber.encode_rfc (t := SmiType.noSuchInstance.tag) (id := 0x81) (by decide +kernel) he]; rfl
  | endOfMibView =>
    injection hb with hb; subst hb
    rw [Ber.encode_rfc (t := SmiType.endOfMibView.tag) (id := 0x82) (by decide +kernel) he]; rfl

theorem encodeInteger_rfc {n : Int} {e : Bytes} (h : encodeInteger n = .ok e) : e = Spec.integer n := by
  obtain ⟨-, h⟩ := encodeInteger_ok h
  exact Value.encode_rfc (fun _ hh => by cases hh) h

theorem encodeOctets_rfc {d e : Bytes} (h : encodeOctets d = .ok e) : e = Spec.octetString d := by
  unfold encodeOctets at h
  cases hn : octetStringNew (.bytes d) with
  | error x => rw [hn] at h; cases h
  | ok x => rw [hn] at h; exact Value.encode_rfc (fun _ hh => by cases hh) h

theorem sequence_rfc {body : Res Bytes} {e : Bytes} (h : asn1Encode sequenceTag body = .ok e) :
    ∃ b, body = .ok b ∧ e = Spec.sequence b := by
  obtain ⟨b, hb, he⟩ := asn1Encode_ok h
  exact ⟨b, hb, Ber.encode_rfc (by decide +kernel) he⟩

/-- All object identifiers in a binding are encoded as X.690 says. -/
def Spec.BindingFaithful (v : VarBind) : Prop := Spec.OidFaithful v.name ∧ Spec.ValueFaithful v.value

theorem VarBind.encode_rfc {v : VarBind} {e : Bytes} (hv : Spec.BindingFaithful v) (h : v.encode = .ok e) :
    e = Spec.bindingOctets v := by
  obtain ⟨b, hb, rfl⟩ := sequence_rfc h
  obtain ⟨x, h1, hb⟩ := bind_ok hb
  obtain ⟨y, h2, hb⟩ := bind_ok hb
  injection hb with hb
  rw [← hb, Value.encode_rfc hv.2 h2, Value.encode_rfc (v := .oid v.name) (fun o ho => by
    injection ho with ho; exact ho ▸ hv.1) h1]
  rfl

theorem joinEncodings_rfc {l : List VarBind} {e : Bytes} (hl : ∀ v ∈ l, Spec.BindingFaithful v)
    (h : joinEncodings VarBind.encode l = .ok e) : e = l.flatMap Spec.bindingOctets := by
  induction l generalizing e with
  | nil => injection h with h; exact h.symm
  | cons v l ih =>
    obtain ⟨x, h1, h⟩ := bind_ok h
    obtain ⟨y, h2, h⟩ := bind_ok h
    injection h with h
    rw [← h, VarBind.encode_rfc (hl v (by simp)) h1, ih (fun w hw => hl w (by simp [hw])) h2]
    rfl

theorem Pdu.encode_rfc {p : Pdu} {e : Bytes} (hp : ∀ v ∈ p.bindings, Spec.BindingFaithful v)
    (h : p.encode = .ok e) : e = Spec.pduOctets p := by
  obtain ⟨b, hb, he⟩ := asn1Encode_ok h
  obtain ⟨x, h1, hb⟩ := bind_ok hb
  obtain ⟨y, h2, hb⟩ := bind_ok hb
  obtain ⟨z, h3, hb⟩ := bind_ok hb
  obtain ⟨w, h4, hb⟩ := bind_ok hb
  obtain ⟨l, h5, rfl⟩ := sequence_rfc h4
  injection hb with hb
  have ht : p.type.tag.encode = [Spec.pduIdentifier p.type] := by cases p.type <;> decide +kernel
  rw [Ber.encode_rfc ht he, ← hb, encodeInteger_rfc h1, encodeInteger_rfc h2, encodeInteger_rfc h3,
    joinEncodings_rfc hp h5]
  rfl

/-- **C98** for values: whatever a value is encoded to is what X.690 and RFC 2578 prescribe, provided
its object identifier (if it is one) is faithful. -/
theorem C98_value_partial (v : Value) (hv : Spec.ValueFaithful v) (e : Bytes) (h : v.encode = .ok e) :
    e = Spec.valueOctets v := Value.encode_rfc hv h

/-- **C98** for SNMPv1 and SNMPv2c messages: the octets sent are those of RFC 1157, 1901 and 3416. -/
theorem C98_message_partial (m : Message) (hp : ∀ v ∈ m.pdu.bindings, Spec.BindingFaithful v) (e : Bytes)
    (h : m.encode = .ok e) : e = Spec.messageOctets m := by
  obtain ⟨b, hb, rfl⟩ := sequence_rfc h
  obtain ⟨x, h1, hb⟩ := bind_ok hb
  obtain ⟨y, h2, hb⟩ := bind_ok hb
  obtain ⟨z, h3, hb⟩ := bind_ok hb
  injection hb with hb
  have hver : Spec.versionNumber m.version = m.version.value := by cases m.version <;> rfl
  rw [← hb, encodeInteger_rfc h1, encodeOctets_rfc h2, Pdu.encode_rfc hp h3]
  unfold Spec.messageOctets
  rw [hver]

theorem ScopedPDU.encode_rfc {s : ScopedPDU} {e : Bytes}
    (hp : ∀ v ∈ s.pdu.bindings, Spec.BindingFaithful v) (h : s.encode = .ok e) :
    e = Spec.scopedOctets s := by
  obtain ⟨b, hb, rfl⟩ := sequence_rfc h
  obtain ⟨x, h1, hb⟩ := bind_ok hb
  obtain ⟨y, h2, hb⟩ := bind_ok hb
  obtain ⟨z, h3, hb⟩ := bind_ok hb
  injection hb with hb
  rw [← hb, encodeOctets_rfc h1, encodeOctets_rfc h2, Pdu.encode_rfc hp h3]
  rfl

theorem HeaderData.encode_rfc {hd : HeaderData} {e : Bytes} (h : hd.encode = .ok e) :
    e = Spec.headerOctets hd := by
  obtain ⟨b, hb, rfl⟩ := sequence_rfc h
  obtain ⟨x, h1, hb⟩ := bind_ok hb
  obtain ⟨y, h2, hb⟩ := bind_ok hb
  obtain ⟨z, h3, hb⟩ := bind_ok hb
  obtain ⟨w, h4, hb⟩ := bind_ok hb
  injection hb with hb
  obtain ⟨c, hc, hce⟩ := asn1Encode_ok h3
  injection hc with hc
  have hz := Ber.encode_rfc (id := 0x04) (by decide +kernel) hce
  have hf : UInt8.ofNat hd.flags.byte = Spec.flagsOctet hd.flags := by
    obtain ⟨⟨a, p⟩, r⟩ := hd.flags
    cases a <;> cases p <;> cases r <;> decide +kernel
  rw [← hb, encodeInteger_rfc h1, encodeInteger_rfc h2, hz, ← hc, hf, encodeInteger_rfc h4]
  cases hm : hd.securityModel
  simp only [Spec.headerOctets, SecurityModel.value, Spec.octetString]

/-- **C98** for SNMPv3 messages: the octets sent are those of RFC 3412, around the security parameters
and the encrypted scoped PDU if there is one. -/
theorem C98_v3_partial (m : V3Message) (e : Bytes) (h : m.encode = .ok e)
    (hp : ∀ s, m.scopedPDU = some s → ∀ v ∈ s.pdu.bindings, Spec.BindingFaithful v) :
    (m.header.flags.level.priv = true → ∃ d, m.encryptedPDU = some d ∧
      e = Spec.v3Octets m.header m.securityParameters.copy (.inr d)) ∧
    (m.header.flags.level.priv = false → ∃ s, m.scopedPDU = some s ∧
      e = Spec.v3Octets m.header m.securityParameters.copy (.inl s)) := by
  obtain ⟨b, hb, rfl⟩ := sequence_rfc h
  obtain ⟨x, h1, hb⟩ := bind_ok hb
  obtain ⟨y, h2, hb⟩ := bind_ok hb
  obtain ⟨z, h3, hb⟩ := bind_ok hb
  obtain ⟨w, h4, hb⟩ := bind_ok hb
  injection hb with hb
  have e1 := encodeInteger_rfc h1
  have e2 := HeaderData.encode_rfc h2
  have e3 := Value.encode_rfc (fun _ hh => by cases hh) h3
  unfold V3Message.encodePayload at h4
  constructor
  · intro hpriv
    rw [if_pos hpriv] at h4
    cases hd : m.encryptedPDU with
    | none => rw [hd] at h4; cases h4
    | some d =>
      rw [hd] at h4
      have e4 := Value.encode_rfc (fun _ hh => by cases hh) h4
      exact ⟨d, rfl, by rw [← hb, e1, e2, e3, e4]; rfl⟩
  · intro hpriv
    rw [if_neg (by simp [hpriv])] at h4
    cases hd : m.scopedPDU with
    | none => rw [hd] at h4; cases h4
    | some s =>
      rw [hd] at h4
      have e4 := ScopedPDU.encode_rfc (hp s hd) h4
      exact ⟨s, rfl, by rw [← hb, e1, e2, e3, e4]; rfl⟩

/-- **C98** for the security parameters of RFC 3414. -/
theorem C98_usm (p : UsmParams) (e : Bytes) (h : p.encode = .ok e) : e = Spec.usmOctets p := by
  obtain ⟨b, hb, rfl⟩ := sequence_rfc h
  obtain ⟨x1, h1, hb⟩ := bind_ok hb
  obtain ⟨x2, h2, hb⟩ := bind_ok hb
  obtain ⟨x3, h3, hb⟩ := bind_ok hb
  obtain ⟨x4, h4, hb⟩ := bind_ok hb
  obtain ⟨x5, h5, hb⟩ := bind_ok hb
  obtain ⟨x6, h6, hb⟩ := bind_ok hb
  injection hb with hb
  rw [← hb, encodeOctets_rfc h1, encodeInteger_rfc h2, encodeInteger_rfc h3, encodeOctets_rfc h4,
    encodeOctets_rfc h5, encodeOctets_rfc h6]
  rfl

/-- C98 is false of the code without the condition: 1.8 is encoded as `06 01 28`, not `06 01 30`. -/
theorem C98_false : ∃ o e, (Value.oid o).Constructible ∧ 2 ≤ o.length ∧
    (Value.oid o).encode = .ok e ∧ e = [0x06, 0x01, 0x28] ∧
    Spec.valueOctets (.oid o) = [0x06, 0x01, 0x30] := by
  refine ⟨[1, 8], [6, 1, 40], by decide +kernel, by decide, by decide +kernel, rfl, ?_⟩
  simp [Spec.valueOctets, Spec.objectIdentifier, Spec.oidContents, Spec.subidentifier, Spec.tlv,
    Spec.lengthOctets]

/-- A GetRequest for 1.3.6.1.2.1.1.3.0, community "public", request-id 300. -/
def Spec.rfcSample : Message where
  version := .v2c
  community := [0x70, 0x75, 0x62, 0x6c, 0x69, 0x63]
  pdu := ⟨.getRequest, 300, 0, 0, [⟨[1, 3, 6, 1, 2, 1, 1, 3, 0], .null⟩]⟩

example : ∀ v ∈ Spec.rfcSample.pdu.bindings, Spec.BindingFaithful v := by
  intro v hv
  simp only [Spec.rfcSample, List.mem_singleton] at hv
  subst hv
  refine ⟨⟨1, 3, _, rfl, by decide, by decide, by simp [Spec.firstPairOk]⟩, fun o ho => by cases ho⟩
/-- The encoder's octets, computed; `C98_message_partial` says that they are those of the standards. -/
example : Spec.rfcSample.encode = .ok [0x30, 0x27, 0x02, 0x01, 0x01, 0x04, 0x06, 0x70, 0x75, 0x62, 0x6c,
    0x69, 0x63, 0xa0, 0x1a, 0x02, 0x02, 0x01, 0x2c, 0x02, 0x01, 0x00, 0x02, 0x01, 0x00, 0x30, 0x0e,
    0x30, 0x0c, 0x06, 0x08, 0x2b, 0x06, 0x01, 0x02, 0x01, 0x01, 0x03, 0x00, 0x05, 0x00] := by
  decide +kernel
/-- The specification's octets, computed apart from the encoder. -/
example : Spec.valueOctets (.int .counter32 (-129)) = [0x41, 0x02, 0xff, 0x7f] := by
  simp [Spec.valueOctets, Spec.tlv, Spec.lengthOctets, Spec.integerContents]
example : Spec.sequence (List.replicate 300 0) = [0x30, 0x82, 0x01, 0x2c] ++ List.replicate 300 0 := by
  have h : Spec.base256 300 = [0x01, 0x2c] := by
    rw [Spec.base256, if_neg (by decide), Spec.base256, if_pos (by decide)]; rfl
  simp only [Spec.sequence, Spec.tlv, Spec.lengthOctets, List.length_replicate, h]
  rfl
example : Spec.oidContents [2, 5, 840, 113549] = [0x55, 0x86, 0x48, 0x86, 0xf7, 0x0d] := by
  simp [Spec.oidContents, Spec.subidentifier, Spec.continuation]
example : Spec.headerOctets ⟨7, 1472, ⟨⟨true, true⟩, true⟩, .usm⟩ =
    [0x30, 0x0d, 0x02, 0x01, 0x07, 0x02, 0x02, 0x05, 0xc0, 0x04, 0x01, 0x07, 0x02, 0x01, 0x03] := by
  simp [Spec.headerOctets, Spec.sequence, Spec.integer, Spec.octetString, Spec.flagsOctet, Spec.tlv,
    Spec.lengthOctets, Spec.integerContents]

end Snmp
