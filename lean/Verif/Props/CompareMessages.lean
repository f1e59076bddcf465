import Verif.CompareMessages
import Verif.Props.Compare
/-!
# C116: messages are equal exactly if they encode alike
-/

namespace Snmp

/-- A complete BER encoding. -/
def Framed (e : Bytes) : Prop := ∃ t b, Ber.encode t b = .ok e

theorem Framed.append_inj {e f r s : Bytes} (he : Framed e) (hf : Framed f) (h : e ++ r = f ++ s) : e = f ∧ r = s := by
  obtain ⟨t, b, he⟩ := he
  obtain ⟨u, c, hf⟩ := hf
  have h1 := (Ber.encode_inv he).2 r
  have h2 := (Ber.encode_inv hf).2 s
  rw [h, h2] at h1
  simp only [Option.some.injEq, Prod.mk.injEq] at h1
  obtain ⟨rfl, rfl, rfl⟩ := h1
  rw [he] at hf
  exact ⟨Except.ok.inj hf, rfl⟩

/-- The comparison of two items gives what the comparison of their encodings gives. -/
structure Agree (r : Res Bool) (e f : Bytes) : Prop where
  left : Framed e
  right : Framed f
  same : r = .ok (decide (e = f))

theorem zipEq_agree {r : Res Bool} {e f x y : Bytes} (h : Agree r e f) (l : List (Res Bool))
    (hl : zipEq l = .ok (decide (x = y))) : zipEq (r :: l) = .ok (decide (e ++ x = f ++ y)) := by
  rw [zipEq, h.same]
  simp only [Except.bind]
  by_cases he : e = f
  · subst he
    rw [decide_eq_true rfl, if_neg (by simp), hl]
    simp
  · rw [decide_eq_false he, if_pos rfl, decide_eq_false fun hh => he (h.left.append_inj h.right hh).1]

theorem zipEq_last {r : Res Bool} {e f : Bytes} (h : Agree r e f) : zipEq [r] = .ok (decide (e = f)) := by
  have := zipEq_agree h [] (x := []) (y := []) rfl
  simpa using this

/-- Wrapping both bodies in the same tag changes nothing. -/
theorem Agree.wrap {r : Res Bool} {t : Tag} {x y e f : Bytes} (h : r = .ok (decide (x = y)))
    (he : Ber.encode t x = .ok e) (hf : Ber.encode t y = .ok f) : Agree r e f := by
  refine ⟨⟨t, x, he⟩, ⟨t, y, hf⟩, ?_⟩
  rw [h]
  congr 1
  rw [Bool.eq_iff_iff, decide_eq_true_iff, decide_eq_true_iff]
  constructor
  · rintro rfl; rw [he] at hf; exact Except.ok.inj hf
  · rintro rfl; exact (Ber.encode_inj he hf).2

theorem asn1Encode_framed {t : Tag} {b : Res Bytes} {e : Bytes} (h : asn1Encode t b = .ok e) : Framed e := by
  obtain ⟨x, -, hx⟩ := asn1Encode_ok h
  exact ⟨t, x, hx⟩

theorem fieldEq_agree {a b : Int} {e f : Bytes} (he : encodeInteger a = .ok e) (hf : encodeInteger b = .ok f) :
    Agree (Pdu.fieldEq a b) e f := by
  obtain ⟨ha, he⟩ := encodeInteger_ok he
  obtain ⟨hb, hf⟩ := encodeInteger_ok hf
  refine ⟨asn1Encode_framed he, asn1Encode_framed hf, ?_⟩
  rw [Pdu.fieldEq_ok ha hb]
  congr 1
  rw [Bool.eq_iff_iff, decide_eq_true_iff, ← C91_values_partial (.int .integer32 a) (.int .integer32 b)
    ⟨ha, by simp, by simp⟩ ⟨hb, by simp, by simp⟩ e f he hf]
  simp [Value.pyEq]

theorem octets_agree {a b e f : Bytes} (he : Ber.encode SmiType.octetString.tag a = .ok e)
    (hf : Ber.encode SmiType.octetString.tag b = .ok f) : Agree (.ok ((Value.octets a).pyEq (.octets b))) e f := by
  refine .wrap (x := a) (y := b) ?_ he hf
  congr 1
  rw [Bool.eq_iff_iff, decide_eq_true_iff]
  simp [Value.pyEq]

theorem octetsEq_agree {a b e f : Bytes} (he : encodeOctets a = .ok e) (hf : encodeOctets b = .ok f) :
    Agree (octetsEq a b) e f := by
  obtain ⟨ha, he⟩ := encodeOctets_ok he
  obtain ⟨hb, hf⟩ := encodeOctets_ok hf
  have := octets_agree he hf
  have new : ∀ x : Bytes, x.length ≤ 0xffff → octetStringNew (.bytes x) = .ok (.bytes x) := by
    intro x hx
    unfold octetStringNew
    rw [Asn1Data.len_valid (Asn1Data.valid_bytes x)]
    simp only [Except.bind]
    rw [if_neg (by show ¬ x.length > 0xffff; omega)]
  unfold octetsEq
  rw [new a ha, new b hb]
  exact this

theorem pdu_agree {p q : Pdu} (hp : Spec.PduSendable p) (hq : Spec.PduSendable q) {e f : Bytes} (he : p.encode = .ok e)
    (hf : q.encode = .ok f) : Agree (p.pyEq q) e f :=
  ⟨asn1Encode_framed he, asn1Encode_framed hf, C91_pdus_partial p q hp hq e f he hf⟩

theorem flags_agree {a b : MessageFlags} {e f : Bytes} (he : a.encode = .ok e) (hf : b.encode = .ok f) :
    Agree (.ok (a.pyEq b)) e f := octets_agree he hf

theorem Message.agree {m n : Message} (hm : Spec.PduSendable m.pdu) (hn : Spec.PduSendable n.pdu) {e f : Bytes}
    (he : m.encode = .ok e) (hf : n.encode = .ok f) : Agree (m.pyEq n) e f := by
  obtain ⟨x, hx, he⟩ := asn1Encode_ok he
  obtain ⟨y, hy, hf⟩ := asn1Encode_ok hf
  refine .wrap ?_ he hf
  unfold Message.serialize at hx hy
  obtain ⟨a, ha, hx⟩ := bind_ok hx
  obtain ⟨b, hb, hx⟩ := bind_ok hx
  obtain ⟨c, hc, hx⟩ := bind_ok hx
  obtain ⟨a', ha', hy⟩ := bind_ok hy
  obtain ⟨b', hb', hy⟩ := bind_ok hy
  obtain ⟨c', hc', hy⟩ := bind_ok hy
  injection hx with hx; injection hy with hy; subst hx; subst hy
  rw [List.append_assoc, List.append_assoc]
  exact zipEq_agree (fieldEq_agree ha ha') _ (zipEq_agree (octetsEq_agree hb hb') _ (zipEq_last (pdu_agree hm hn hc hc')))

theorem HeaderData.agree {m n : HeaderData} {e f : Bytes} (he : m.encode = .ok e) (hf : n.encode = .ok f) :
    Agree (m.pyEq n) e f := by
  obtain ⟨x, hx, he⟩ := asn1Encode_ok he
  obtain ⟨y, hy, hf⟩ := asn1Encode_ok hf
  refine .wrap ?_ he hf
  unfold HeaderData.serialize at hx hy
  obtain ⟨a, ha, hx⟩ := bind_ok hx
  obtain ⟨b, hb, hx⟩ := bind_ok hx
  obtain ⟨c, hc, hx⟩ := bind_ok hx
  obtain ⟨d, hd, hx⟩ := bind_ok hx
  obtain ⟨a', ha', hy⟩ := bind_ok hy
  obtain ⟨b', hb', hy⟩ := bind_ok hy
  obtain ⟨c', hc', hy⟩ := bind_ok hy
  obtain ⟨d', hd', hy⟩ := bind_ok hy
  injection hx with hx; injection hy with hy; subst hx; subst hy
  simp only [List.append_assoc]
  exact zipEq_agree (fieldEq_agree ha ha') _ (zipEq_agree (fieldEq_agree hb hb') _ (zipEq_agree (flags_agree hc hc') _
    (zipEq_last (fieldEq_agree hd hd'))))

theorem ScopedPDU.agree {m n : ScopedPDU} (hm : Spec.PduSendable m.pdu) (hn : Spec.PduSendable n.pdu) {e f : Bytes}
    (he : m.encode = .ok e) (hf : n.encode = .ok f) : Agree (m.pyEq n) e f := by
  obtain ⟨x, hx, he⟩ := asn1Encode_ok he
  obtain ⟨y, hy, hf⟩ := asn1Encode_ok hf
  refine .wrap ?_ he hf
  unfold ScopedPDU.serialize at hx hy
  obtain ⟨a, ha, hx⟩ := bind_ok hx
  obtain ⟨b, hb, hx⟩ := bind_ok hx
  obtain ⟨c, hc, hx⟩ := bind_ok hx
  obtain ⟨a', ha', hy⟩ := bind_ok hy
  obtain ⟨b', hb', hy⟩ := bind_ok hy
  obtain ⟨c', hc', hy⟩ := bind_ok hy
  injection hx with hx; injection hy with hy; subst hx; subst hy
  simp only [List.append_assoc]
  exact zipEq_agree (octetsEq_agree ha ha') _ (zipEq_agree (octetsEq_agree hb hb') _ (zipEq_last (pdu_agree hm hn hc hc')))

theorem UsmParams.agree {m n : UsmParams} {e f : Bytes} (he : m.encode = .ok e) (hf : n.encode = .ok f) :
    Agree (m.pyEq n) e f := by
  obtain ⟨x, hx, he⟩ := asn1Encode_ok he
  obtain ⟨y, hy, hf⟩ := asn1Encode_ok hf
  refine .wrap ?_ he hf
  unfold UsmParams.serialize at hx hy
  obtain ⟨a, ha, hx⟩ := bind_ok hx
  obtain ⟨b, hb, hx⟩ := bind_ok hx
  obtain ⟨c, hc, hx⟩ := bind_ok hx
  obtain ⟨d, hd, hx⟩ := bind_ok hx
  obtain ⟨g, hg, hx⟩ := bind_ok hx
  obtain ⟨k, hk, hx⟩ := bind_ok hx
  obtain ⟨a', ha', hy⟩ := bind_ok hy
  obtain ⟨b', hb', hy⟩ := bind_ok hy
  obtain ⟨c', hc', hy⟩ := bind_ok hy
  obtain ⟨d', hd', hy⟩ := bind_ok hy
  obtain ⟨g', hg', hy⟩ := bind_ok hy
  obtain ⟨k', hk', hy⟩ := bind_ok hy
  injection hx with hx; injection hy with hy; subst hx; subst hy
  simp only [List.append_assoc]
  exact zipEq_agree (octetsEq_agree ha ha') _ (zipEq_agree (fieldEq_agree hb hb') _ (zipEq_agree (fieldEq_agree hc hc') _
    (zipEq_agree (octetsEq_agree hd hd') _ (zipEq_agree (octetsEq_agree hg hg') _ (zipEq_last (octetsEq_agree hk hk'))))))

/-- The scoped PDU of a message, if it is one that goes on the wire, can be represented. -/
def Spec.V3Sendable (m : V3Message) : Prop :=
  m.header.flags.level.priv = false → ∀ s, m.scopedPDU = some s → Spec.PduSendable s.pdu

theorem V3Message.payload_agree {m n : V3Message} (hm : Spec.V3Sendable m) (hn : Spec.V3Sendable n) {e f : Bytes}
    (he : m.encodePayload = .ok e) (hf : n.encodePayload = .ok f) : Agree (m.payloadEq n) e f := by
  unfold V3Message.encodePayload at he hf
  unfold V3Message.payloadEq
  have other : ∀ {a b : Bytes} {s : ScopedPDU}, (Value.octets a).encode = .ok e → s.encode = .ok b → e ≠ b := by
    rintro a b s h1 h2 rfl
    obtain ⟨x, -, h1⟩ := asn1Encode_ok h1
    obtain ⟨y, -, h2⟩ := asn1Encode_ok h2
    exact absurd (Ber.encode_inj h1 h2).1 (show SmiType.octetString.tag ≠ sequenceTag by decide)
  have other' : ∀ {a b : Bytes} {s : ScopedPDU}, (Value.octets a).encode = .ok f → s.encode = .ok b → b ≠ f := by
    rintro a b s h1 h2 rfl
    obtain ⟨x, -, h1⟩ := asn1Encode_ok h1
    obtain ⟨y, -, h2⟩ := asn1Encode_ok h2
    exact absurd (Ber.encode_inj h1 h2).1 (show SmiType.octetString.tag ≠ sequenceTag by decide)
  cases hp : m.header.flags.level.priv with
  | true =>
    rw [hp] at he
    cases ha : m.encryptedPDU with
    | none => rw [ha] at he; cases he
    | some a =>
      rw [ha] at he
      simp only [↓reduceIte] at he
      cases hq : n.header.flags.level.priv with
      | true =>
        rw [hq] at hf
        cases hb : n.encryptedPDU with
        | none => rw [hb] at hf; cases hf
        | some b =>
          rw [hb] at hf
          simp only [↓reduceIte] at hf
          obtain ⟨x, hx, h1⟩ := asn1Encode_ok he
          obtain ⟨y, hy, h2⟩ := asn1Encode_ok hf
          injection hx with hx; injection hy with hy; subst hx; subst hy
          exact octets_agree h1 h2
      | false =>
        rw [hq] at hf
        cases hb : n.scopedPDU with
        | none => rw [hb] at hf; cases hf
        | some b =>
          rw [hb] at hf
          simp only [Bool.false_eq_true, ↓reduceIte] at hf
          exact ⟨asn1Encode_framed he, asn1Encode_framed hf, by simp [other he hf]⟩
  | false =>
    rw [hp] at he
    cases ha : m.scopedPDU with
    | none => rw [ha] at he; cases he
    | some a =>
      rw [ha] at he
      simp only [Bool.false_eq_true, ↓reduceIte] at he
      cases hq : n.header.flags.level.priv with
      | true =>
        rw [hq] at hf
        cases hb : n.encryptedPDU with
        | none => rw [hb] at hf; cases hf
        | some b =>
          rw [hb] at hf
          simp only [↓reduceIte] at hf
          exact ⟨asn1Encode_framed he, asn1Encode_framed hf, by simp [other' hf he]⟩
      | false =>
        rw [hq] at hf
        cases hb : n.scopedPDU with
        | none => rw [hb] at hf; cases hf
        | some b =>
          rw [hb] at hf
          simp only [Bool.false_eq_true, ↓reduceIte] at hf
          exact ScopedPDU.agree (hm hp a ha) (hn hq b hb) he hf

theorem V3Message.agree {m n : V3Message} (hm : Spec.V3Sendable m) (hn : Spec.V3Sendable n) {e f : Bytes}
    (he : m.encode = .ok e) (hf : n.encode = .ok f) : Agree (m.pyEq n) e f := by
  obtain ⟨x, hx, he⟩ := asn1Encode_ok he
  obtain ⟨y, hy, hf⟩ := asn1Encode_ok hf
  refine .wrap ?_ he hf
  unfold V3Message.serialize at hx hy
  obtain ⟨a, ha, hx⟩ := bind_ok hx
  obtain ⟨b, hb, hx⟩ := bind_ok hx
  obtain ⟨c, hc, hx⟩ := bind_ok hx
  obtain ⟨d, hd, hx⟩ := bind_ok hx
  obtain ⟨a', ha', hy⟩ := bind_ok hy
  obtain ⟨b', hb', hy⟩ := bind_ok hy
  obtain ⟨c', hc', hy⟩ := bind_ok hy
  obtain ⟨d', hd', hy⟩ := bind_ok hy
  injection hx with hx; injection hy with hy; subst hx; subst hy
  obtain ⟨x, hx, h1⟩ := asn1Encode_ok hc
  obtain ⟨y, hy, h2⟩ := asn1Encode_ok hc'
  injection hx with hx; injection hy with hy; subst hx; subst hy
  simp only [List.append_assoc]
  exact zipEq_agree (fieldEq_agree ha ha') _ (zipEq_agree (HeaderData.agree hb hb') _ (zipEq_agree (octets_agree h1 h2) _
    (zipEq_last (payload_agree hm hn hd hd'))))

/-- **C116** (v1/v2c): comparing two messages that can be sent does not raise, and says the same as comparing
their encodings. -/
theorem C116_messages (m n : Message) (hm : Spec.PduSendable m.pdu) (hn : Spec.PduSendable n.pdu) (e f : Bytes)
    (he : m.encode = .ok e) (hf : n.encode = .ok f) : m.pyEq n = .ok (decide (e = f)) := (Message.agree hm hn he hf).same

/-- **C116** (v3), likewise. -/
theorem C116_v3 (m n : V3Message) (hm : Spec.V3Sendable m) (hn : Spec.V3Sendable n) (e f : Bytes)
    (he : m.encode = .ok e) (hf : n.encode = .ok f) : m.pyEq n = .ok (decide (e = f)) := (V3Message.agree hm hn he hf).same

/-- **C116** for the parts of v3 messages. -/
theorem C116_parts :
    (∀ (a b : HeaderData) (e f : Bytes), a.encode = .ok e → b.encode = .ok f → a.pyEq b = .ok (decide (e = f))) ∧
    (∀ (a b : UsmParams) (e f : Bytes), a.encode = .ok e → b.encode = .ok f → a.pyEq b = .ok (decide (e = f))) ∧
    (∀ (a b : ScopedPDU) (e f : Bytes), Spec.PduSendable a.pdu → Spec.PduSendable b.pdu → a.encode = .ok e →
      b.encode = .ok f → a.pyEq b = .ok (decide (e = f))) ∧
    (∀ a b : MessageFlags, a.pyEq b = true ↔ a.level = b.level ∧ a.reportable = b.reportable) := by
  refine ⟨fun a b e f he hf => (HeaderData.agree he hf).same, fun a b e f he hf => (UsmParams.agree he hf).same,
    fun a b e f hp hq he hf => (ScopedPDU.agree hp hq he hf).same, ?_⟩
  rintro ⟨⟨a1, a2⟩, a3⟩ ⟨⟨b1, b2⟩, b3⟩
  cases a1 <;> cases a2 <;> cases a3 <;> cases b1 <;> cases b2 <;> cases b3 <;> decide

/-- Equal headers have the same fields. -/
theorem C116_header (a b : HeaderData) (e f : Bytes) (he : a.encode = .ok e) (hf : b.encode = .ok f)
    (h : a.pyEq b = .ok true) : a = b := by
  obtain ⟨x, hx, -⟩ := asn1Encode_ok he
  obtain ⟨y, hy, -⟩ := asn1Encode_ok hf
  unfold HeaderData.serialize at hx hy
  obtain ⟨i, hi, hx⟩ := bind_ok hx
  obtain ⟨j, hj, -⟩ := bind_ok hx
  obtain ⟨i', hi', hy⟩ := bind_ok hy
  obtain ⟨j', hj', -⟩ := bind_ok hy
  unfold HeaderData.pyEq at h
  rw [Pdu.fieldEq_ok (encodeInteger_ok hi).1 (encodeInteger_ok hi').1,
    Pdu.fieldEq_ok (encodeInteger_ok hj).1 (encodeInteger_ok hj').1] at h
  simp only [zipEq, Except.bind] at h
  have key : a.id = b.id ∧ a.maxSize = b.maxSize ∧ a.flags.pyEq b.flags = true := by
    by_cases h1 : a.id = b.id
    · rw [if_neg (by simp [h1])] at h
      by_cases h2 : a.maxSize = b.maxSize
      · rw [if_neg (by simp [h2])] at h
        by_cases h3 : a.flags.pyEq b.flags = true
        · exact ⟨h1, h2, h3⟩
        · rw [if_pos (by simpa using h3)] at h; cases h
      · rw [if_pos (by simp [h2])] at h; cases h
    · rw [if_pos (by simp [h1])] at h; cases h
  obtain ⟨h1, h2, h3⟩ := key
  obtain ⟨h4, h5⟩ := (C116_parts.2.2.2 a.flags b.flags).1 h3
  obtain ⟨ai, am, ⟨al, ar⟩, as⟩ := a
  obtain ⟨bi, bm, ⟨bl, br⟩, bs⟩ := b
  cases as; cases bs
  simp only at h1 h2 h4 h5
  subst h1; subst h2; subst h4; subst h5; rfl

/-- Non-vacuity: messages of two versions differ, as do messages with two communities; v3 messages whose local fields
differ are equal; an encrypted and a plain message differ. -/
theorem C116_example :
    let p : Pdu := ⟨.getRequest, 7, 0, 0, []⟩
    let m : V3Message := { header := ⟨1, 484, ⟨noAuthNoPriv, true⟩, .usm⟩, scopedPDU := some ⟨p, [1], []⟩ }
    let c : V3Message := { header := ⟨1, 484, ⟨authPriv, true⟩, .usm⟩, encryptedPDU := some [1, 2] }
    Spec.PduSendable p ∧ Spec.V3Sendable m ∧ Spec.V3Sendable c ∧
    (Message.mk .v1 [97] p).pyEq ⟨.v1, [97], p⟩ = .ok true ∧ (Message.mk .v1 [97] p).pyEq ⟨.v2c, [97], p⟩ = .ok false ∧
    (Message.mk .v1 [97] p).pyEq ⟨.v1, [98], p⟩ = .ok false ∧ m.pyEq { m with securityName := some [97] } = .ok true ∧
    m.pyEq c = .ok false ∧ (∃ e, m.encode = .ok e) ∧ (∃ e, c.encode = .ok e) := by
  have hp : Spec.PduSendable ⟨.getRequest, 7, 0, 0, []⟩ := by
    exact ⟨by simp [Spec.FieldsOk], by simp⟩
  refine ⟨hp, ?_, ?_, by decide +kernel, by decide +kernel, by decide +kernel, by decide +kernel, by decide +kernel,
    ⟨_, rfl⟩, ⟨_, rfl⟩⟩
  · rintro - s hs; injection hs with hs; subst hs; exact hp
  · intro h; cases h

end Snmp
