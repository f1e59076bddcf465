import Verif.Props.Peer
import Verif.Props.Rfc
/-!
# The shortest encodings are encodings

`Verif.Spec.Rfc` gives one encoding of each object; `Verif.Spec.Received` says which octets are an encoding of it. The one is among
the others.
-/

namespace Snmp

theorem unsigned_snoc (l : Bytes) (b : UInt8) : Spec.unsigned (l ++ [b]) = Spec.unsigned l * 256 + b.toNat := by
  induction l with
  | nil => simp [Spec.unsigned]
  | cons x l ih =>
    rw [List.cons_append, Spec.unsigned, Spec.unsigned, ih, List.length_append, List.length_singleton, pow_succ]
    ring

theorem twos_snoc (l : Bytes) (hl : l ≠ []) (b : UInt8) :
    Spec.twosComplement (l ++ [b]) = Spec.twosComplement l * 256 + b.toNat := by
  cases l with
  | nil => exact absurd rfl hl
  | cons x l =>
    rw [List.cons_append, Spec.twosComplement, Spec.twosComplement, unsigned_snoc, List.length_append, List.length_singleton,
      pow_succ]
    push_cast
    ring

theorem unsigned_base256 (n : Nat) : Spec.unsigned (Spec.base256 n) = n ∧ 1 ≤ (Spec.base256 n).length ∧
    ((Spec.base256 n).length = 1 ∨ 256 ^ ((Spec.base256 n).length - 1) ≤ n) := by
  induction n using Nat.strong_induction_on with
  | _ n ih =>
    rw [Spec.base256]
    split
    · rename_i h
      refine ⟨?_, by simp, by simp⟩
      simp only [Spec.unsigned, List.length_nil, pow_zero, mul_one, Nat.add_zero]
      rw [UInt8.toNat_ofNat']
      omega
    · rename_i h
      obtain ⟨h1, h2, h3⟩ := ih (n / 256) (by omega)
      refine ⟨?_, by simp, .inr ?_⟩
      · rw [unsigned_snoc, h1, UInt8.toNat_ofNat']; omega
      · rw [List.length_append, List.length_singleton, Nat.add_sub_cancel]
        rcases h3 with h3 | h3
        · rw [h3]; omega
        · obtain ⟨k, hk⟩ : ∃ k, (Spec.base256 (n / 256)).length = k + 1 := ⟨_, (Nat.sub_add_cancel h2).symm⟩
          rw [hk, Nat.add_sub_cancel] at h3
          rw [hk, pow_succ]
          omega

theorem twos_integerContents (v : Int) : Spec.twosComplement (Spec.integerContents v) = v ∧ Spec.integerContents v ≠ [] := by
  induction hn : v.natAbs using Nat.strong_induction_on generalizing v with
  | _ n ih =>
    rw [Spec.integerContents]
    split
    · rename_i h
      refine ⟨?_, by simp⟩
      simp only [Spec.twosComplement, List.length_nil, pow_zero, mul_one, Spec.unsigned, Nat.cast_zero, add_zero]
      rw [UInt8.toNat_ofNat']
      split <;> omega
    · rename_i h
      obtain ⟨h1, h2⟩ := ih (v / 256).natAbs (by omega) (v / 256) rfl
      refine ⟨?_, by simp⟩
      rw [twos_snoc _ h2, h1, UInt8.toNat_ofNat']
      omega

/-- The lengths that the long form can state in at most 126 octets (X.690 8.1.3.5). -/
@[irreducible] def Spec.lengthLimit : Nat := 256 ^ 126

/-- The length octets are a length form. -/
theorem Spec.lengthOctets_is {n : Nat} (h : n < Spec.lengthLimit) : Spec.LengthForm n (Spec.lengthOctets n) := by
  unfold Spec.lengthLimit at h
  unfold Spec.lengthOctets
  split
  · rename_i hn; exact .inl ⟨hn, rfl⟩
  · obtain ⟨h1, h2, h3⟩ := unsigned_base256 n
    refine .inr ⟨Spec.base256 n, h2, ?_, h1, rfl⟩
    rcases h3 with h3 | h3
    · omega
    · by_contra hl
      have : 256 ^ 126 ≤ 256 ^ ((Spec.base256 n).length - 1) := Nat.pow_le_pow_right (by decide) (by omega)
      omega

theorem Spec.tlv_is (id : UInt8) {c : Bytes} (h : (Spec.tlv id c).length < Spec.lengthLimit) : Spec.Element id c (Spec.tlv id c) := by
  refine ⟨_, Spec.lengthOctets_is (lt_of_le_of_lt ?_ h), rfl⟩
  unfold Spec.tlv
  simp only [List.length_cons, List.length_append]
  omega

theorem Spec.tlv_length (id : UInt8) (c : Bytes) : c.length < (Spec.tlv id c).length := by
  unfold Spec.tlv
  simp only [List.length_cons, List.length_append]
  omega

theorem Spec.integer_is (id : UInt8) {v : Int} (h : (Spec.tlv id (Spec.integerContents v)).length < Spec.lengthLimit) :
    Spec.IsInteger id v (Spec.tlv id (Spec.integerContents v)) :=
  ⟨_, (twos_integerContents v).2, (twos_integerContents v).1, Spec.tlv_is id h⟩

theorem Spec.int_is {v : Int} (h : (Spec.integer v).length < Spec.lengthLimit) : Spec.IsInteger 2 v (Spec.integer v) :=
  Spec.integer_is 2 h

theorem Spec.string_is {c : Bytes} (h : (Spec.octetString c).length < Spec.lengthLimit) : Spec.Element 4 c (Spec.octetString c) :=
  Spec.tlv_is 4 h

theorem Spec.value_is {v : Value} (hv : ∀ o, v = .oid o → 2 ≤ o.length) (h : (Spec.valueOctets v).length < Spec.lengthLimit) :
    Spec.IsValue v.canon (Spec.valueOctets v) := by
  cases v with
  | int t n => cases t <;> exact Spec.integer_is _ h
  | oid o => exact ⟨hv o rfl, Spec.tlv_is _ h⟩
  | octets d => exact Spec.tlv_is _ h
  | ipAddress d => exact Spec.tlv_is _ h
  | opaqueData d => exact Spec.tlv_is _ h
  | null => exact ⟨[0], .inl ⟨by decide, rfl⟩, rfl⟩
  | noSuchObject => exact ⟨[0], .inl ⟨by decide, rfl⟩, rfl⟩
  | noSuchInstance => exact ⟨[0], .inl ⟨by decide, rfl⟩, rfl⟩
  | endOfMibView => exact ⟨[0], .inl ⟨by decide, rfl⟩, rfl⟩

/-- An object identifier has an encoding. -/
def Spec.Encodable (v : VarBind) : Prop := 2 ≤ v.name.length ∧ ∀ o, v.value = .oid o → 2 ≤ o.length

theorem Spec.BindingFaithful.encodable {v : VarBind} (h : Spec.BindingFaithful v) : Spec.Encodable v := by
  obtain ⟨⟨a, b, rest, h1, -⟩, h2⟩ := h
  refine ⟨by rw [h1]; simp, fun o ho => ?_⟩
  obtain ⟨a, b, rest, rfl, -⟩ := h2 o ho
  simp

theorem Spec.binding_is {v : VarBind} (hv : Spec.Encodable v) (h : (Spec.bindingOctets v).length < Spec.lengthLimit) :
    Spec.IsBinding v.canon (Spec.bindingOctets v) := by
  have hl := Spec.tlv_length 0x30 (Spec.objectIdentifier v.name ++ Spec.valueOctets v.value)
  have h' : (Spec.tlv 0x30 (Spec.objectIdentifier v.name ++ Spec.valueOctets v.value)).length < Spec.lengthLimit := h
  rw [List.length_append] at hl
  exact ⟨_, _, ⟨hv.1, Spec.tlv_is _ (show (Spec.objectIdentifier v.name).length < _ by omega)⟩, Spec.value_is hv.2 (by omega),
    Spec.tlv_is _ h⟩

theorem Spec.bindings_is {l : List VarBind} (hl : ∀ v ∈ l, Spec.Encodable v)
    (h : (l.flatMap Spec.bindingOctets).length < Spec.lengthLimit) :
    Spec.IsBindings (l.map VarBind.canon) (l.flatMap Spec.bindingOctets) := by
  induction l with
  | nil => rfl
  | cons v l ih =>
    rw [List.flatMap_cons, List.length_append] at h
    exact ⟨_, _, Spec.binding_is (hl v (by simp)) (by omega), ih (fun v hv => hl v (by simp [hv])) (by omega), rfl⟩

theorem Spec.pdu_is {p : Pdu} (hp : ∀ v ∈ p.bindings, Spec.Encodable v) (h : (Spec.pduOctets p).length < Spec.lengthLimit) :
    Spec.IsPdu p.canon (Spec.pduOctets p) := by
  have hl := Spec.tlv_length (Spec.pduIdentifier p.type) (Spec.integer p.requestID ++ Spec.integer p.first ++ Spec.integer p.second ++
    Spec.sequence (p.bindings.flatMap Spec.bindingOctets))
  have hl' : _ < (Spec.sequence _).length := Spec.tlv_length 0x30 (p.bindings.flatMap Spec.bindingOctets)
  have h' : (Spec.tlv (Spec.pduIdentifier p.type) (Spec.integer p.requestID ++ Spec.integer p.first ++ Spec.integer p.second ++
    Spec.sequence (p.bindings.flatMap Spec.bindingOctets))).length < Spec.lengthLimit := h
  simp only [List.length_append] at hl
  exact ⟨_, _, _, _, _, Spec.int_is (v := p.requestID) (by omega), Spec.int_is (v := p.first) (by omega),
    Spec.int_is (v := p.second) (by omega), Spec.bindings_is hp (by omega), Spec.tlv_is 0x30 (show (Spec.sequence _).length < _ by omega), Spec.tlv_is _ h⟩

theorem Spec.message_is {m : Message} (hp : ∀ v ∈ m.pdu.bindings, Spec.Encodable v) (h : (Spec.messageOctets m).length < Spec.lengthLimit) :
    Spec.IsMessage { m with pdu := m.pdu.canon } (Spec.messageOctets m) := by
  have hl := Spec.tlv_length 0x30 (Spec.integer (Spec.versionNumber m.version) ++ Spec.octetString m.community ++ Spec.pduOctets m.pdu)
  have h' : (Spec.tlv 0x30 (Spec.integer (Spec.versionNumber m.version) ++ Spec.octetString m.community ++
    Spec.pduOctets m.pdu)).length < Spec.lengthLimit := h
  simp only [List.length_append] at hl
  exact ⟨_, _, _, Spec.int_is (v := Spec.versionNumber m.version) (by omega), Spec.string_is (c := m.community) (by omega), Spec.pdu_is hp (by omega), Spec.tlv_is _ h⟩

theorem Spec.header_is {hd : HeaderData} (h : (Spec.headerOctets hd).length < Spec.lengthLimit) :
    Spec.IsHeader hd (Spec.headerOctets hd) := by
  have hl := Spec.tlv_length 0x30 (Spec.integer hd.id ++ Spec.integer hd.maxSize ++ Spec.octetString [Spec.flagsOctet hd.flags] ++
    Spec.integer 3)
  have h' : (Spec.tlv 0x30 (Spec.integer hd.id ++ Spec.integer hd.maxSize ++ Spec.octetString [Spec.flagsOctet hd.flags] ++
    Spec.integer 3)).length < Spec.lengthLimit := h
  simp only [List.length_append] at hl
  refine ⟨_, _, _, _, Spec.flagsOctet hd.flags, Spec.int_is (by omega), Spec.int_is (by omega), Spec.string_is (by omega), ?_,
    Spec.int_is (by omega), Spec.tlv_is _ h⟩
  unfold Spec.flagsOctet
  cases hd.flags.level.auth <;> cases hd.flags.level.priv <;> cases hd.flags.reportable <;> rfl

theorem Spec.scoped_is {s : ScopedPDU} (hp : ∀ v ∈ s.pdu.bindings, Spec.Encodable v) (h : (Spec.scopedOctets s).length < Spec.lengthLimit) :
    Spec.IsScoped { s with pdu := s.pdu.canon } (Spec.scopedOctets s) := by
  have hl := Spec.tlv_length 0x30 (Spec.octetString s.contextEngineID ++ Spec.octetString s.contextName ++ Spec.pduOctets s.pdu)
  have h' : (Spec.tlv 0x30 (Spec.octetString s.contextEngineID ++ Spec.octetString s.contextName ++
    Spec.pduOctets s.pdu)).length < Spec.lengthLimit := h
  simp only [List.length_append] at hl
  exact ⟨_, _, _, Spec.string_is (c := s.contextEngineID) (by omega), Spec.string_is (c := s.contextName) (by omega), Spec.pdu_is hp (by omega), Spec.tlv_is _ h⟩

/-- The octets before the contents of the signature field, and those after, in the shortest encoding of a message with these security
parameters and this payload. -/
theorem Spec.secured_is (hd : HeaderData) (engineID : Bytes) (boots time : Int) (user salt : Bytes) (data : ScopedPDU ⊕ Bytes)
    (payload : Bytes) (n : Nat) (hpay : match data with
      | .inl plain => Spec.IsScoped plain payload
      | .inr encrypted => Spec.Element 0x04 encrypted payload) :
    ∃ before after : Bytes, ∀ signature : Bytes, signature.length = n →
      Spec.sequence (Spec.integer 3 ++ Spec.headerOctets hd ++ Spec.octetString
        (Spec.sequence (Spec.octetString engineID ++ Spec.integer boots ++ Spec.integer time ++ Spec.octetString user ++
          Spec.octetString signature ++ Spec.octetString salt)) ++ payload) = before ++ signature ++ after ∧
      ((before ++ signature ++ after).length < Spec.lengthLimit →
        Spec.IsSecured hd engineID boots time user salt data before signature after) := by
  set pre := Spec.octetString engineID ++ Spec.integer boots ++ Spec.integer time ++ Spec.octetString user with hpre
  set n3 := (pre ++ (0x04 :: Spec.lengthOctets n)).length + n + (Spec.octetString salt).length with hn3
  set l3 := Spec.lengthOctets n3 with hl3
  set n2 := 1 + l3.length + n3 with hn2
  set l2 := Spec.lengthOctets n2 with hl2
  set n1 := (Spec.integer 3 ++ Spec.headerOctets hd).length + (1 + l2.length + n2) + payload.length with hn1
  set l1 := Spec.lengthOctets n1 with hl1
  refine ⟨0x30 :: l1 ++ Spec.integer 3 ++ Spec.headerOctets hd ++ (0x04 :: l2) ++ (0x30 :: l3) ++ pre ++ (0x04 :: Spec.lengthOctets n),
    Spec.octetString salt ++ payload, fun signature hs => ?_⟩
  have f3 : (pre ++ Spec.octetString signature ++ Spec.octetString salt).length = n3 := by
    rw [hn3]
    simp only [Spec.octetString, Spec.tlv, List.length_append, List.length_cons, hs]
    omega
  have f2 : (Spec.sequence (pre ++ Spec.octetString signature ++ Spec.octetString salt)).length = n2 := by
    unfold Spec.sequence Spec.tlv
    rw [f3, ← hl3, List.length_cons, List.length_append, f3, hn2]
    omega
  have f1 : (Spec.integer 3 ++ Spec.headerOctets hd ++ Spec.octetString (Spec.sequence (pre ++ Spec.octetString signature ++
      Spec.octetString salt)) ++ payload).length = n1 := by
    have hq : (Spec.octetString (Spec.sequence (pre ++ Spec.octetString signature ++ Spec.octetString salt))).length =
        1 + l2.length + n2 := by
      rw [Spec.octetString, Spec.tlv, List.length_cons, List.length_append, f2, ← hl2]
      omega
    rw [List.length_append, List.length_append, hn1, hq]
  have heq : Spec.sequence (Spec.integer 3 ++ Spec.headerOctets hd ++ Spec.octetString (Spec.sequence (pre ++ Spec.octetString signature ++
      Spec.octetString salt)) ++ payload) = 0x30 :: l1 ++ Spec.integer 3 ++ Spec.headerOctets hd ++ (0x04 :: l2) ++ (0x30 :: l3) ++
        pre ++ (0x04 :: Spec.lengthOctets n) ++ signature ++ (Spec.octetString salt ++ payload) := by
    have g1 : Spec.sequence (Spec.integer 3 ++ Spec.headerOctets hd ++ Spec.octetString (Spec.sequence (pre ++ Spec.octetString signature ++
      Spec.octetString salt)) ++ payload) = 0x30 :: (l1 ++ (Spec.integer 3 ++ Spec.headerOctets hd ++ Spec.octetString (Spec.sequence (pre ++ Spec.octetString signature ++
      Spec.octetString salt)) ++ payload)) := by
      rw [Spec.sequence, Spec.tlv, f1]
    have g2 : Spec.octetString (Spec.sequence (pre ++ Spec.octetString signature ++ Spec.octetString salt)) =
        0x04 :: (l2 ++ Spec.sequence (pre ++ Spec.octetString signature ++ Spec.octetString salt)) := by
      rw [Spec.octetString, Spec.tlv, f2]
    have g3 : Spec.sequence (pre ++ Spec.octetString signature ++ Spec.octetString salt) =
        0x30 :: (l3 ++ (pre ++ Spec.octetString signature ++ Spec.octetString salt)) := by
      rw [Spec.sequence, Spec.tlv, f3]
    have g4 : Spec.octetString signature = 0x04 :: (Spec.lengthOctets n ++ signature) := by
      rw [Spec.octetString, Spec.tlv, hs]
    rw [g1, g2, g3, g4]
    simp
  refine ⟨heq, fun hlen => ?_⟩
  have hlen2 := hlen
  simp only [List.length_append, List.length_cons] at hlen2
  have k1 : n1 < Spec.lengthLimit := by
    rw [← heq] at hlen
    exact lt_trans (by rw [← f1]; exact Spec.tlv_length 0x30 _) hlen
  have k2 : n2 < Spec.lengthLimit := by omega
  have k3 : n3 < Spec.lengthLimit := by omega
  rw [hpre] at hlen2
  simp only [List.length_append] at hlen2
  refine ⟨_, _, _, _, _, _, _, _, payload, l1, l2, l3, Spec.lengthOctets n, Spec.int_is (by omega), Spec.header_is (by omega),
    Spec.string_is (c := engineID) (by omega), Spec.int_is (v := boots) (by omega), Spec.int_is (v := time) (by omega),
    Spec.string_is (c := user) (by omega), by rw [hs]; exact Spec.lengthOctets_is (by omega), rfl,
    Spec.string_is (c := salt) (by omega), by cases data <;> exact hpay, ?_, ?_, ?_, ?_, rfl⟩
  · have : (Spec.octetString engineID ++ Spec.integer boots ++ Spec.integer time ++ Spec.octetString user ++
      (4 :: Spec.lengthOctets n ++ signature) ++ Spec.octetString salt).length = n3 := by
      rw [← f3, hpre]
      simp only [Spec.octetString, Spec.integer, Spec.tlv, hs, List.length_append, List.length_cons]
      omega
    rw [this]
    exact Spec.lengthOctets_is k3
  · have : (0x30 :: l3 ++ (Spec.octetString engineID ++ Spec.integer boots ++ Spec.integer time ++ Spec.octetString user ++
      (4 :: Spec.lengthOctets n ++ signature) ++ Spec.octetString salt)).length = n2 := by
      rw [hn2, ← f3, hpre]
      simp only [Spec.octetString, Spec.integer, Spec.tlv, hs, List.length_append, List.length_cons]
      omega
    rw [this]
    exact Spec.lengthOctets_is k2
  · have : (Spec.integer 3 ++ Spec.headerOctets hd ++ (0x04 :: l2 ++ (0x30 :: l3 ++ (Spec.octetString engineID ++ Spec.integer boots ++ Spec.integer time ++ Spec.octetString user ++
      (4 :: Spec.lengthOctets n ++ signature) ++ Spec.octetString salt))) ++ payload).length = n1 := by
      rw [hn1, hn2, ← f3, hpre]
      simp only [Spec.octetString, Spec.integer, Spec.tlv, hs, List.length_append, List.length_cons]
      omega
    rw [this]
    exact Spec.lengthOctets_is k1
  · rw [hpre]
    simp only [Spec.octetString, Spec.integer, List.append_assoc, List.cons_append]

end Snmp
