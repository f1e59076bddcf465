import Verif.Props.Message
import Verif.Props.Oid
/-!
# Lemmas: what fits in memory is encoded
-/

namespace Snmp

/-- The PDU is of a size that fits in the memory of a computer: fewer than 2^64 bindings, opaque values of fewer than
2^64 octets. -/
def Spec.InMemory (p : Pdu) : Prop :=
  p.bindings.length < 2 ^ 64 ∧ ∀ v ∈ p.bindings, ∀ d, v.value = .opaqueData d → d.length < 2 ^ 64

theorem Ber.encode_size (t : Tag) (ht : t.number < 31) {d : Bytes} (h : d.length < 256 ^ 126) :
    ∃ e, Ber.encode t d = .ok e ∧ e.length ≤ d.length + 128 := by
  have hlt : d.length < 256 ^ 127 := lt_trans h (by norm_num)
  obtain ⟨l, hl, -, -⟩ := encodeLength_ok hlt
  have h2 := encodeLength_length (k := 126) h (by omega) hl
  refine ⟨t.encode ++ l ++ d, by unfold Ber.encode; rw [hl]; rfl, ?_⟩
  have : t.encode.length = 1 := by
    simp [Tag.encode, ht]
  simp only [List.length_append]; omega

theorem Oid.serialize_size (o : List Nat) (hc : (Value.oid o).Constructible) : (Oid.serialize o).length ≤ 1000 := by
  have hl := ((Oid.new_ofNat_iff _ _).1 hc).1
  have hsub : ∀ n, n < 2 ^ 32 → (Oid.serializeSub n).length ≤ 5 := by
    intro n hn
    unfold Oid.serializeSub
    split
    · simp
    · have hz : ∀ tmp f, Oid.subLoop 0 f tmp = tmp := by intro tmp f; unfold Oid.subLoop; simp
      have step : ∀ k m f tmp, m < 128 ^ k → (Oid.subLoop m f tmp).length ≤ tmp.length + k := by
        intro k
        induction k with
        | zero => intro m f tmp hm; rw [show m = 0 by simpa using hm, hz]; omega
        | succ k ih =>
          intro m f tmp hm
          unfold Oid.subLoop
          split
          · omega
          · have := ih (m >>> 7) 0x80 (tmp ++ [UInt8.ofNat ((m &&& 0x7f) ||| f)])
              (by rw [Nat.shiftRight_eq_div_pow]; rw [Nat.pow_succ] at hm; omega)
            simp only [List.length_append, List.length_cons, List.length_nil] at this
            omega
      rw [List.length_reverse]
      have := step 5 n 0 [] (by have : (2:Nat)^32 ≤ 128^5 := by decide
                                omega)
      simpa using this
  have hflat : ∀ l : List Nat, (∀ x ∈ l, x < 2 ^ 32) →
      (l.flatMap Oid.serializeSub).length ≤ 5 * l.length := by
    intro l
    induction l with
    | nil => intro; simp
    | cons x l ih =>
      intro h
      have h1 := ih (fun y hy => h y (by simp [hy]))
      have h2 := hsub x (h x (by simp))
      rw [List.flatMap_cons, List.length_append, List.length_cons]; omega
  cases o with
  | nil => simp [Oid.serialize]
  | cons f rest =>
    simp only [Oid.serialize, List.length_append]
    have hs : (rest[0]?).getD 0 ≤ 39 := by
      cases hx : rest[0]? with
      | none => simp
      | some x => simpa using hl.second x (by simpa using hx)
    have h1 := or_first f (hl.first f rfl) _ hs
    have h2 := hsub ((f * 40) ||| (rest[0]?).getD 0) (by omega)
    have h3 := hflat (rest.drop 1) (fun x hx => hl.range x (List.mem_cons_of_mem _ (List.mem_of_mem_drop hx)))
    have h4 := hl.count
    simp only [List.length_cons, List.length_drop] at h3 h4
    omega

theorem Value.serialize_size (v : Value) (hc : v.Constructible) (hs : ∀ n, v ≠ .int .integer n)
    (ho : ∀ d, v = .opaqueData d → d.length < 2 ^ 64) : ∃ b, v.serialize = .ok b ∧ b.length ≤ 2 ^ 64 := by
  cases v with
  | int t n =>
    obtain ⟨bs, h1, -, -, h4⟩ := intSerialize_spec n
    refine ⟨bs, h1, ?_⟩
    have hr := (IntType.inRange_iff t n).1 hc
    have : bs.length ≤ 9 := h4 9 (by omega) (by
      unfold FitsOctets
      cases t with
      | integer => exact absurd rfl (hs n)
      | _ => simp at hr; constructor <;> norm_num <;> omega)
    have : (9 : Nat) ≤ 2 ^ 64 := by norm_num
    omega
  | octets d =>
    have h : d.length ≤ 0xffff := hc
    have : (0xffff : Nat) ≤ 2 ^ 64 := by norm_num
    exact ⟨d, rfl, by omega⟩
  | ipAddress d =>
    have h : d.length = 4 := hc
    have : (4 : Nat) ≤ 2 ^ 64 := by norm_num
    exact ⟨d, rfl, by omega⟩
  | opaqueData d => exact ⟨d, rfl, le_of_lt (ho d rfl)⟩
  | oid o =>
    have := Oid.serialize_size o hc
    have h9 : (1000 : Nat) ≤ 2 ^ 64 := by norm_num
    exact ⟨_, rfl, by omega⟩
  | _ => exact ⟨[], rfl, by simp⟩

theorem SmiType.tag_small (t : SmiType) : t.tag.number < 31 := by
  cases t with
  | int t => cases t <;> decide
  | _ => decide

theorem VarBind.encode_size (v : VarBind) (hs : Spec.Sendable v)
    (ho : ∀ d, v.value = .opaqueData d → d.length < 2 ^ 64) : ∃ e, v.encode = .ok e ∧ e.length ≤ 2 ^ 65 := by
  have hbig : (2 : Nat) ^ 65 < 256 ^ 126 := by norm_num
  have h65 : (2 : Nat) ^ 64 + 10000 ≤ 2 ^ 65 := by norm_num
  have hn : (Value.oid v.name).Constructible := by
    obtain ⟨o, h1, h2⟩ := (C16_local _).1 hs.nameOk
    have : o = v.name := map_ofNat_inj h2
    subst this
    exact h1
  have h1 := Oid.serialize_size v.name hn
  obtain ⟨a, ha, hal⟩ := Ber.encode_size SmiType.oid.tag (SmiType.tag_small _) (d := Oid.serialize v.name)
    (by omega)
  obtain ⟨b, hb, hbl⟩ := Value.serialize_size v.value hs.valueOk hs.valueSmi ho
  obtain ⟨c, hc, hcl⟩ := Ber.encode_size v.value.type.tag (SmiType.tag_small _) (d := b) (by omega)
  have hab : (a ++ c).length ≤ 2 ^ 64 + 2000 := by rw [List.length_append]; omega
  obtain ⟨e, he, hel⟩ := Ber.encode_size sequenceTag (by decide) (d := a ++ c) (by omega)
  refine ⟨e, ?_, by omega⟩
  have e1 : (Value.oid v.name).encode = .ok a := ha
  have e2 : v.value.encode = .ok c := by
    unfold Value.encode asn1Encode
    rw [hb]; exact hc
  unfold VarBind.encode VarBind.serialize
  rw [e1]
  simp only [Except.bind]
  rw [e2]
  exact he

theorem joinEncodings_size {l : List VarBind} (h : ∀ v ∈ l, ∃ e, v.encode = .ok e ∧ e.length ≤ 2 ^ 65) :
    ∃ e, joinEncodings VarBind.encode l = .ok e ∧ e.length ≤ 2 ^ 65 * l.length := by
  induction l with
  | nil => exact ⟨[], rfl, by simp⟩
  | cons v l ih =>
    obtain ⟨a, ha, hal⟩ := h v (by simp)
    obtain ⟨b, hb, hbl⟩ := ih fun w hw => h w (by simp [hw])
    refine ⟨a ++ b, ?_, ?_⟩
    · unfold joinEncodings
      rw [ha]
      simp only [Except.bind]
      rw [hb]
    · rw [List.length_append, List.length_cons, Nat.mul_succ]; omega

/-- A PDU made of sendable bindings, of a size that fits in memory, and whose integers fit in 32 bits, is encoded. -/
theorem Pdu.encode_size (p : Pdu) (hs : ∀ v ∈ p.bindings, Spec.Sendable v) (hm : Spec.InMemory p)
    (h0 : Spec.intRange .integer32 p.requestID) (h1 : Spec.intRange .integer32 p.first)
    (h2 : Spec.intRange .integer32 p.second) : ∃ e, p.encode = .ok e ∧ e.length < 256 ^ 126 := by
  obtain ⟨b, hb, hbl⟩ := joinEncodings_size (l := p.bindings) fun v hv => (v.encode_size (hs v hv) (hm.2 v hv))
  have hb2 : b.length ≤ 2 ^ 129 := by
    refine hbl.trans ?_
    have := hm.1
    have e1 : (2 : Nat) ^ 129 = 2 ^ 65 * 2 ^ 64 := by norm_num
    rw [e1]
    exact Nat.mul_le_mul_left _ (le_of_lt hm.1)
  have hbig : (2 : Nat) ^ 129 + 10000 < 256 ^ 126 := by norm_num
  obtain ⟨l, hl, hll⟩ := Ber.encode_size sequenceTag (by decide) (d := b) (by omega)
  have hl' : VarBindList.encode p.bindings = .ok l := by
    unfold VarBindList.encode asn1Encode
    rw [hb]; exact hl
  obtain ⟨e, he⟩ := (C21_encodes p l hl' (by omega)).1 ⟨h0, h1, h2⟩
  refine ⟨e, he, ?_⟩
  have enc : ∀ n x, encodeInteger n = .ok x → Spec.intRange .integer32 n → x.length ≤ 200 := by
    intro n x hx hr
    obtain ⟨-, he'⟩ := encodeInteger_ok hx
    obtain ⟨bb, hbb, hbe⟩ := asn1Encode_ok he'
    simp only [Value.serialize] at hbb
    obtain ⟨bs, g1, -, -, g4⟩ := intSerialize_spec n
    rw [g1] at hbb; injection hbb with hbb; subst hbb
    have hr' := (IntType.inRange_iff .integer32 n).1 ((intRange_iff .integer32 n).2 hr)
    have hlen := g4 4 (by omega) ⟨by simpa using hr'.1, by simpa using hr'.2⟩
    obtain ⟨y, hy, hyl⟩ := Ber.encode_size (IntType.integer.tag) (by decide) (d := bs)
      (by have : (4 : Nat) < 256 ^ 126 := by norm_num
          omega)
    simp only [Value.type, SmiType.tag] at hbe
    have : Ber.encode IntType.integer.tag bs = .ok x := hbe
    rw [this] at hy; injection hy with hy; subst hy
    omega
  obtain ⟨body, hbody, hbe⟩ := asn1Encode_ok he
  unfold Pdu.serialize at hbody
  obtain ⟨x1, k1, hbody⟩ := bind_ok hbody
  obtain ⟨x2, k2, hbody⟩ := bind_ok hbody
  obtain ⟨x3, k3, hbody⟩ := bind_ok hbody
  obtain ⟨x4, k4, hbody⟩ := bind_ok hbody
  injection hbody with hbody
  rw [hl'] at k4; injection k4 with k4; subst k4
  have l1 := enc _ _ k1 h0
  have l2 := enc _ _ k2 h1
  have l3 := enc _ _ k3 h2
  have lb : body.length ≤ 2 ^ 129 + 1000 := by
    rw [← hbody]; simp only [List.length_append]; omega
  obtain ⟨y, hy, hyl⟩ := Ber.encode_size p.type.tag (by cases p.type <;> decide) (d := body) (by omega)
  rw [hbe] at hy; injection hy with hy; subst hy
  omega

end Snmp
