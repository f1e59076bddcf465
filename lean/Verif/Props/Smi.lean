import Verif.DecodeLemmas
import Verif.Spec.Wire
/-!
# Properties C10 (primitive types), C11-C16: SMI types

`t.decode d leftovers copy` is `cls.decode(d, leftovers, copy)`; `d.copy` is the byte string `d`
stands for; `d.Valid` says that a view argument lies inside its bytes.
-/

set_option linter.unusedSimpArgs false

namespace Snmp

/-! ## C10 -/

/-- C10: decoding any bytes as any primitive type gives an object or `ParseError`. (Termination is
totality of the model.) -/
theorem C10_smi (t : SmiType) (d : Asn1Data) (hv : d.Valid) (leftovers copy : Bool) :
    (∃ v tail, t.decode d leftovers copy = .ok (v, tail)) ∨
    t.decode d leftovers copy = .error .parseError := by
  have := asn1Decode_parseOnly hv (fun b hb _ => t.deserialize_parseOnly hb) (tag := t.tag)
    leftovers copy
  unfold SmiType.decode
  cases h : asn1Decode t.tag t.deserialize d leftovers copy with
  | ok x => exact .inl ⟨x.1, x.2, rfl⟩
  | error e => rw [this e h]; exact .inr rfl

example : (Asn1Data.bytes [0x40, 5, 1, 2, 3, 4, 5]).Valid := Asn1Data.valid_bytes _

/-! ## C11 -/

theorem unsigned_eq (d : Bytes) : Spec.unsigned d = fromBytesBE d := by
  suffices h : ∀ acc, List.foldl (fun a (b : UInt8) => a * 256 + b.toNat) acc d =
      acc * 256 ^ d.length + Spec.unsigned d by
    have := h 0; unfold fromBytesBE; rw [this]; simp
  induction d with
  | nil => intro acc; simp [Spec.unsigned]
  | cons b d ih =>
    intro acc
    rw [List.foldl_cons, ih, Spec.unsigned, List.length_cons]
    ring

theorem twos_eq (d : Bytes) : Spec.twosComplement d = fromBytesSigned d := by
  unfold fromBytesSigned
  cases d with
  | nil => rfl
  | cons b rest =>
    rw [if_neg (by simp)]
    have hlt := fromBytesBE_lt rest
    rw [← unsigned_eq] at hlt
    rw [← unsigned_eq, Spec.unsigned, Spec.twosComplement, List.length_cons]
    have hb := b.toNat_lt
    have hp : (2 : Nat) ^ (8 * (rest.length + 1) - 1) = 128 * 256 ^ rest.length := by
      rw [show 8 * (rest.length + 1) - 1 = 7 + 8 * rest.length by omega, Nat.pow_add, Nat.pow_mul]
    have hpos : 0 < 256 ^ rest.length := by positivity
    by_cases h : b.toNat < 128
    · rw [if_pos h, if_pos]
      · push_cast; ring
      · rw [hp]; nlinarith
    · rw [if_neg h, if_neg]
      · push_cast
        rw [show 8 * (rest.length + 1) = 8 + 8 * rest.length by ring, Int.pow_add, Int.pow_mul]
        norm_num
        ring
      · rw [hp]; nlinarith

theorem fits_of_fromBytesSigned {d : Bytes} (hne : d ≠ []) : FitsOctets d.length (fromBytesSigned d) := by
  have hlt := fromBytesBE_lt d
  have hl : 1 ≤ d.length := by cases d with
    | nil => exact absurd rfl hne
    | cons a b => simp
  unfold fromBytesSigned FitsOctets
  rw [if_neg hne]
  have hp : (2 : Int) ^ (8 * d.length) = 2 * 2 ^ (8 * d.length - 1) := two_pow_pred (by omega)
  have hlt' : (fromBytesBE d : Int) < 2 ^ (8 * d.length) := by
    rw [← pow256]; exact_mod_cast hlt
  split
  · rename_i h
    have : (fromBytesBE d : Int) < 2 ^ (8 * d.length - 1) := by exact_mod_cast h
    omega
  · rename_i h
    have : ¬ (fromBytesBE d : Int) < 2 ^ (8 * d.length - 1) := by
      intro h'; apply h; exact_mod_cast h'
    omega

/-- C11: the contents of an encoded INTEGER are the shortest non-empty two's-complement octets of
its value, for every Python int. -/
theorem C11_shortest (v : Int) : ∃ bs, intSerialize v = .ok bs ∧ bs ≠ [] ∧
    Spec.twosComplement bs = v ∧
    ∀ bs', bs' ≠ [] → Spec.twosComplement bs' = v → bs.length ≤ bs'.length := by
  obtain ⟨bs, h1, h2, h3, h4⟩ := intSerialize_spec v
  refine ⟨bs, h1, ?_, by rw [twos_eq, h3], ?_⟩
  · intro h; rw [h] at h2; simp at h2
  · intro bs' hne hv
    rw [twos_eq] at hv
    have := fits_of_fromBytesSigned hne
    rw [hv] at this
    exact h4 _ (by cases bs' with
      | nil => exact absurd rfl hne
      | cons a b => simp) this

/-- C11: `INTEGER(v).encode()` succeeds (for contents below the BER limit) and decodes to `v`,
whatever follows. -/
theorem C11_roundtrip (v : Int) (e rest : Bytes) (he : (Value.int .integer v).encode = .ok e)
    (d : Asn1Data) (hv : d.Valid) (hd : d.copy = e ++ rest) (leftovers copy : Bool)
    (hlo : leftovers = true ∨ rest = []) :
    ∃ tail, (SmiType.int .integer).decode d leftovers copy = .ok (.int .integer v, tail) ∧
      tail.copy = rest := by
  obtain ⟨tail, h1, -, h3⟩ := Value.decode_encode (v := .int .integer v)
    (by simp [Value.Constructible, IntType.inRange, IntType.bits]) he hv hd hlo copy
  exact ⟨tail, h1, h3⟩

/-- C11: encoding succeeds for every int of less than 256^127 octets. -/
theorem C11_encodes (v : Int) (n : Nat) (hn : n < 256 ^ 127) (h1 : 1 ≤ n)
    (hf : FitsOctets n v) : ∃ e, (Value.int .integer v).encode = .ok e := by
  obtain ⟨bs, h2, -, -, h5⟩ := intSerialize_spec v
  unfold Value.encode asn1Encode
  simp only [Value.serialize, h2, Except.bind]
  have := h5 n h1 hf
  exact (Ber.encode_ok _ (by omega)).imp fun _ h => h.1

example : intSerialize (-129) = .ok [0xff, 0x7f] := by decide +kernel
example : intSerialize 128 = .ok [0x00, 0x80] := by decide +kernel

/-! ## C12 -/

/-- The documented range of each integer class. -/
def Spec.intRange : IntType → Int → Prop
  | .integer, _ => True
  | .integer32, v => -2147483648 ≤ v ∧ v ≤ 2147483647
  | .unsigned32, v | .counter32, v | .gauge32, v | .timeTicks, v => 0 ≤ v ∧ v ≤ 4294967295
  | .counter64, v => 0 ≤ v ∧ v ≤ 18446744073709551615

theorem intRange_iff (t : IntType) (v : Int) : t.inRange v = true ↔ Spec.intRange t v := by
  rw [IntType.inRange_iff]
  cases t <;> simp only [Spec.intRange] <;> omega

/-- C12: the constructor accepts exactly the range and raises `ValueError` otherwise. -/
theorem C12_local (t : IntType) (v : Int) :
    (Spec.intRange t v → t.new v = .ok v) ∧ (¬ Spec.intRange t v → t.new v = .error .valueError) := by
  rw [← intRange_iff]
  unfold IntType.new
  constructor
  · intro h; rw [if_pos h]
  · intro h; rw [if_neg h]

/-- C12: any wire integer with the right tag is accepted iff its two's-complement value is in range,
and then that value is obtained; otherwise `ParseError`. -/
theorem C12_wire (t : IntType) (body e rest : Bytes) (he : Ber.encode t.tag body = .ok e)
    (d : Asn1Data) (hv : d.Valid) (hd : d.copy = e ++ rest) (leftovers copy : Bool)
    (hlo : leftovers = true ∨ rest = []) :
    (Spec.intRange t (Spec.twosComplement body) →
      ∃ tail, (SmiType.int t).decode d leftovers copy =
        .ok (.int t (Spec.twosComplement body), tail) ∧ tail.copy = rest) ∧
    (¬ Spec.intRange t (Spec.twosComplement body) →
      (SmiType.int t).decode d leftovers copy = .error .parseError) := by
  obtain ⟨b, tail, h1, h2, h3, h4, h5⟩ := Ber.decode_encoded he hv hd (.inr rfl) hlo copy
  have hdes : (SmiType.int t).deserialize b =
      if t.inRange (Spec.twosComplement body) then .ok (.int t (Spec.twosComplement body))
      else .error .parseError := by
    simp only [SmiType.deserialize, IntType.deserialize]
    rw [h3, IntType.construct_eq, twos_eq]
    split <;> rfl
  rw [← intRange_iff]
  unfold SmiType.decode asn1Decode
  simp only [SmiType.tag]
  rw [h1]; simp only [Except.bind]
  rw [hdes]
  constructor
  · intro h; rw [if_pos h]; exact ⟨tail, rfl, h5⟩
  · intro h; rw [if_neg h]

/-- C12: every value of a bounded class can be encoded. -/
theorem C12_encodes (t : IntType) (ht : t ≠ .integer) (v : Int) (hr : Spec.intRange t v) :
    ∃ e, (Value.int t v).encode = .ok e := by
  obtain ⟨bs, h2, -, -, h5⟩ := intSerialize_spec v
  unfold Value.encode asn1Encode
  simp only [Value.serialize, h2, Except.bind]
  have hfit : FitsOctets 9 v := by
    have : -(2:Int)^64 ≤ v ∧ v < 2^64 := by
      cases t <;> simp only [Spec.intRange] at hr <;> first | exact absurd rfl ht | omega
    unfold FitsOctets
    constructor
    · have : (2:Int)^64 ≤ 2^(8*9-1) := by norm_num
      omega
    · have : (2:Int)^64 ≤ 2^(8*9-1) := by norm_num
      omega
  have := h5 9 (by omega) hfit
  have hb : (9:Nat) < 256^127 := by decide
  exact (Ber.encode_ok _ (by omega)).imp fun _ h => h.1

/-- C12: every value of a bounded class encodes and decodes to itself. -/
theorem C12_roundtrip (t : IntType) (v : Int) (hr : Spec.intRange t v) (e rest : Bytes)
    (he : (Value.int t v).encode = .ok e) (d : Asn1Data) (hv : d.Valid) (hd : d.copy = e ++ rest)
    (leftovers copy : Bool) (hlo : leftovers = true ∨ rest = []) :
    ∃ tail, (SmiType.int t).decode d leftovers copy = .ok (.int t v, tail) ∧ tail.copy = rest := by
  obtain ⟨tail, h1, -, h3⟩ := Value.decode_encode (v := .int t v)
    ((intRange_iff t v).2 hr) he hv hd hlo copy
  exact ⟨tail, h1, h3⟩

example : (Value.int .counter64 18446744073709551615).encode =
    .ok [0x46, 9, 0, 255, 255, 255, 255, 255, 255, 255, 255] := by decide +kernel
example : Spec.intRange .counter64 18446744073709551615 := by simp [Spec.intRange]
example : ¬ Spec.intRange .gauge32 (-1) := by simp [Spec.intRange]

/-! ## C13 -/

/-- C13: the constructor accepts exactly strings of at most 65535 bytes. -/
theorem C13_local (d : Asn1Data) (hv : d.Valid) :
    (d.copy.length ≤ 65535 → octetStringNew d = .ok d) ∧
    (65535 < d.copy.length → octetStringNew d = .error .valueError) := by
  unfold octetStringNew
  rw [Asn1Data.len_valid hv]
  simp only [Except.bind]
  constructor
  · intro h; rw [if_neg (by omega)]
  · intro h; rw [if_pos (by omega)]

/-- C13: from the wire, strings of at most 65535 bytes come back, others give `ParseError`. -/
theorem C13_wire (body e rest : Bytes) (he : Ber.encode ⟨4, false, .universal⟩ body = .ok e)
    (d : Asn1Data) (hv : d.Valid) (hd : d.copy = e ++ rest) (leftovers copy : Bool)
    (hlo : leftovers = true ∨ rest = []) :
    (body.length ≤ 65535 → ∃ tail,
      SmiType.octetString.decode d leftovers copy = .ok (.octets body, tail) ∧ tail.copy = rest) ∧
    (65535 < body.length →
      SmiType.octetString.decode d leftovers copy = .error .parseError) := by
  obtain ⟨b, tail, h1, h2, h3, h4, h5⟩ := Ber.decode_encoded he hv hd (.inr rfl) hlo copy
  unfold SmiType.decode asn1Decode
  simp only [SmiType.tag]
  rw [h1]; simp only [Except.bind, SmiType.deserialize]
  rw [octetStringConstruct_eq h2, h3]
  constructor
  · intro h; rw [if_neg (by omega)]; simp only [Except.map, h3]; exact ⟨tail, rfl, h5⟩
  · intro h; rw [if_pos (by omega)]; rfl

/-- C13: with `copy=False` the string kept by the object is a view into the enclosing message, at
exactly the place where its bytes stand. -/
theorem C13_position (body hdr pre post : Bytes) (whole : Bytes)
    (he : Ber.encode ⟨4, false, .universal⟩ body = .ok (hdr ++ body))
    (hw : whole = pre ++ (hdr ++ body) ++ post) (hb : body.length ≤ 65535) :
    octetStringDecode (.sub ⟨whole, pre.length, whole.length⟩) true false =
      .ok (.sub ⟨whole, pre.length + hdr.length, pre.length + hdr.length + body.length⟩,
           ⟨whole, pre.length + hdr.length + body.length, whole.length⟩) := by
  have hlen : whole.length = pre.length + (hdr.length + body.length) + post.length := by
    rw [hw]; simp; omega
  have hwf : (⟨whole, pre.length, whole.length⟩ : Subbytes).WF := ⟨by simp only; omega, by simp⟩
  have hv : (Asn1Data.sub ⟨whole, pre.length, whole.length⟩).Valid := Asn1Data.valid_sub hwf
  have hcont : (⟨whole, pre.length, whole.length⟩ : Subbytes).contents = hdr ++ body ++ post := by
    unfold Subbytes.contents
    simp only [List.take_length]
    rw [hw]; simp [List.append_assoc]
  obtain ⟨-, hr⟩ := Ber.encode_inv he
  have hread := hr post
  have hdec := Ber.decode_refines hv (some ⟨4, false, .universal⟩) true false
  have hto : (Asn1Data.sub ⟨whole, pre.length, whole.length⟩).toSub =
      ⟨whole, pre.length, whole.length⟩ := by
    rfl
  rw [hto] at hdec
  rw [hcont, hread] at hdec
  simp only [ne_eq, not_true_eq_false, and_false, ↓reduceIte, Bool.true_eq_false, false_and,
    Bool.false_eq_true] at hdec
  unfold octetStringDecode asn1Decode
  simp only [SmiType.tag]
  rw [hdec]
  simp only [Except.bind]
  have hin : (⟨whole, pre.length, whole.length⟩ : Subbytes).inner body.length post.length =
      ⟨whole, pre.length + hdr.length, pre.length + hdr.length + body.length⟩ := by
    unfold Subbytes.inner; simp only [Subbytes.mk.injEq, true_and]; omega
  have hlast : (⟨whole, pre.length, whole.length⟩ : Subbytes).last post.length =
      ⟨whole, pre.length + hdr.length + body.length, whole.length⟩ := by
    unfold Subbytes.last; simp only [Subbytes.mk.injEq, true_and, and_true]; omega
  rw [hin, hlast]
  have hv2 : (Asn1Data.sub ⟨whole, pre.length + hdr.length, pre.length + hdr.length + body.length⟩).Valid :=
    Asn1Data.valid_sub ⟨by simp only; omega, by simp only; omega⟩
  rw [octetStringConstruct_eq hv2]
  rw [if_neg]
  have : (Asn1Data.sub ⟨whole, pre.length + hdr.length, pre.length + hdr.length + body.length⟩).copy = body := by
    simp only [Asn1Data.copy]
    rw [Subbytes.copy_eq_contents, Subbytes.contents]
    simp only
    rw [hw, show pre ++ (hdr ++ body) ++ post = (pre ++ hdr ++ body) ++ post by simp,
      show pre.length + hdr.length + body.length = (pre ++ hdr ++ body).length by simp; omega,
      List.take_left, show pre ++ hdr ++ body = (pre ++ hdr) ++ body by simp,
      show pre.length + hdr.length = (pre ++ hdr).length by simp, List.drop_left]
  rw [this]; omega

example : Ber.encode ⟨4, false, .universal⟩ [7, 8] = .ok ([4, 2] ++ [7, 8]) := by
  decide +kernel

/-! ## C14 -/

/-- The OIDs whose first two numbers `first * 40 | second` keeps. -/
def Spec.firstPairOk (f s : Nat) : Prop :=
  f = 0 ∨ (f = 1 ∧ (s < 8 ∨ (16 ≤ s ∧ s < 24))) ∨ (f = 2 ∧ (s < 16 ∨ 32 ≤ s))

theorem pairOk_iff : ∀ f : Nat, f ≤ 2 → ∀ s : Nat, s ≤ 39 →
    ((f * 40) &&& s = 0 ↔ Spec.firstPairOk f s) := by
  have : ∀ f : Nat, f < 3 → ∀ s : Nat, s < 40 →
    ((f * 40) &&& s = 0 ↔
      (f = 0 ∨ (f = 1 ∧ (s < 8 ∨ (16 ≤ s ∧ s < 24))) ∨ (f = 2 ∧ (s < 16 ∨ 32 ≤ s)))) := by
    decide +kernel
  intro f hf s hs
  exact this f (by omega) s (by omega)

/-- C14, as far as it is true: an OID of at least two numbers always decodes from its own encoding
without error, and gives itself exactly when its first pair is one of `Spec.firstPairOk`; otherwise
the first pair is replaced by the quotient and remainder of `first*40 | second` and the rest is
kept. Missing from the full statement: the other first pairs, see `C14_false`. -/
theorem C14_partial (f s : Nat) (rest : List Nat)
    (hc : (Value.oid (f :: s :: rest)).Constructible) (e after : Bytes)
    (he : (Value.oid (f :: s :: rest)).encode = .ok e)
    (d : Asn1Data) (hv : d.Valid) (hd : d.copy = e ++ after) (leftovers copy : Bool)
    (hlo : leftovers = true ∨ after = []) :
    ∃ o tail, SmiType.oid.decode d leftovers copy = .ok (.oid o, tail) ∧ tail.copy = after ∧
      o = ((f * 40) ||| s) / 40 :: ((f * 40) ||| s) % 40 :: rest ∧
      (o = f :: s :: rest ↔ Spec.firstPairOk f s) := by
  have hl := ((Oid.new_ofNat_iff _ _).1 hc).1
  obtain ⟨tail, h1, -, h3⟩ := Value.decode_encode hc he hv hd hlo copy
  refine ⟨_, tail, h1, h3, rfl, ?_⟩
  rw [← pairOk_iff f (hl.first f rfl) s (hl.second s rfl)]
  have := Oid.wireForm_eq_iff hl
  simp only [OidSurvives, List.length_cons, Nat.le_add_left, true_and, List.getElem?_cons_zero,
    Option.getD_some, List.getElem?_cons_succ] at this
  exact this

/-- Encoding an accepted OID never fails. -/
theorem C14_encodes (o : List Nat) (hc : (Value.oid o).Constructible) :
    ∃ e, (Value.oid o).encode = .ok e := by
  have hl := ((Oid.new_ofNat_iff _ _).1 hc).1
  have hsub : ∀ n, n < 2 ^ 32 → (Oid.serializeSub n).length ≤ 5 := by
    intro n hn
    unfold Oid.serializeSub
    split
    · simp
    · have hz : ∀ tmp f, Oid.subLoop 0 f tmp = tmp := by intro tmp f; unfold Oid.subLoop; simp
      have step : ∀ k m f tmp, m < 128 ^ k → (Oid.subLoop m f tmp).length ≤ tmp.length + k := by
        intro k
        induction k with
        | zero => intro m f tmp hm; rw [show m = 0 by simpa using hm, hz]; omega
        | succ k ih =>
          intro m f tmp hm
          unfold Oid.subLoop
          split
          · omega
          · have := ih (m >>> 7) 0x80 (tmp ++ [UInt8.ofNat ((m &&& 0x7f) ||| f)])
              (by rw [Nat.shiftRight_eq_div_pow]; rw [Nat.pow_succ] at hm; omega)
            simp only [List.length_append, List.length_cons, List.length_nil] at this
            omega
      rw [List.length_reverse]
      have := step 5 n 0 [] (by have : (2:Nat)^32 ≤ 128^5 := by decide
                                omega)
      simpa using this
  have hflat : ∀ l : List Nat, (∀ x ∈ l, x < 2 ^ 32) →
      (l.flatMap Oid.serializeSub).length ≤ 5 * l.length := by
    intro l
    induction l with
    | nil => intro; simp
    | cons x l ih =>
      intro h
      have h1 := ih (fun y hy => h y (by simp [hy]))
      have h2 := hsub x (h x (by simp))
      rw [List.flatMap_cons, List.length_append, List.length_cons]; omega
  have hlen : (Oid.serialize o).length < 256 ^ 127 := by
    have hbig : (1000 : Nat) < 256 ^ 127 := by decide
    refine Nat.lt_trans ?_ hbig
    cases o with
    | nil => simp [Oid.serialize]
    | cons f rest =>
      simp only [Oid.serialize, List.length_append]
      have hs : (rest[0]?).getD 0 ≤ 39 := by
        cases hx : rest[0]? with
        | none => simp
        | some x => simpa using hl.second x (by simpa using hx)
      have h1 := or_first f (hl.first f rfl) _ hs
      have h2 := hsub ((f * 40) ||| (rest[0]?).getD 0) (by omega)
      have h3 := hflat (rest.drop 1) (fun x hx => hl.range x (List.mem_cons_of_mem _ (List.mem_of_mem_drop hx)))
      have h4 := hl.count
      simp only [List.length_cons, List.length_drop] at h3 h4
      omega
  unfold Value.encode asn1Encode
  simp only [Value.serialize, Except.bind]
  exact (Ber.encode_ok _ hlen).imp fun _ h => h.1

/-- C14 is false of the code: OID 1.8 is sent as 1.0. -/
theorem C14_false : ∃ o e, (Value.oid o).Constructible ∧ 2 ≤ o.length ∧
    (Value.oid o).encode = .ok e ∧ e = [6, 1, 40] ∧ o = [1, 8] ∧
    ∃ tail, SmiType.oid.decode (.bytes e) = .ok (.oid [1, 0], tail) := by
  refine ⟨[1, 8], [6, 1, 40], by decide +kernel, by decide, by decide +kernel, rfl, rfl, ?_⟩
  obtain ⟨o, tail, h1, -, h3, -⟩ := C14_partial 1 8 [] (by decide +kernel) [6, 1, 40] []
    (by decide +kernel) (.bytes [6, 1, 40]) (Asn1Data.valid_bytes _) rfl false true (.inr rfl)
  rw [h3] at h1
  exact ⟨tail, h1⟩

/-- The OIDs that their own encoding represents. -/
def Spec.Survives (o : List Nat) : Prop :=
  ∃ f s rest, o = f :: s :: rest ∧ Spec.firstPairOk f s

theorem survives_iff {o : List Nat} (hl : OidLimits o) : Spec.Survives o ↔ OidSurvives o := by
  constructor
  · rintro ⟨f, s, rest, rfl, h⟩
    exact ⟨by simp, by simpa using (pairOk_iff f (hl.first f rfl) s (hl.second s rfl)).2 h⟩
  · rintro ⟨h1, h2⟩
    match o, hl, h1, h2 with
    | f :: s :: rest, hl, _, h2 =>
      exact ⟨f, s, rest, rfl, (pairOk_iff f (hl.first f rfl) s (hl.second s rfl)).1 (by simpa using h2)⟩

example : (Value.oid [1, 3, 6, 1, 4, 1, 4294967295]).Constructible := by decide +kernel
example : Spec.firstPairOk 1 3 := by unfold Spec.firstPairOk; omega

/-! ## C15 -/

theorem Oid.readSubs_append (a b : Bytes) (v : Nat) (acc : List Nat) :
    Oid.readSubs (a ++ b) v acc = Oid.readSubs b (Oid.readSubs a v acc).2 (Oid.readSubs a v acc).1 := by
  induction a generalizing v acc with
  | nil => rfl
  | cons x a ih =>
    simp only [List.cons_append, Oid.readSubs]
    split
    · exact ih _ _
    · exact ih _ _

theorem Oid.readSubs_run (run : Bytes) (hrun : ∀ b ∈ run, 128 ≤ b.toNat) (v : Nat) (acc : List Nat) :
    (Oid.readSubs run v acc).1 = acc ∧
    ((v ≠ 0 ∨ ∃ b ∈ run, b.toNat ≠ 128) → (Oid.readSubs run v acc).2 ≠ 0) ∧
    ((v = 0 ∧ ∀ b ∈ run, b.toNat = 128) → (Oid.readSubs run v acc).2 = 0) := by
  induction run generalizing v with
  | nil => simp [Oid.readSubs]
  | cons x run ih =>
    have hx := hrun x (by simp)
    have hlt := x.toNat_lt
    have hne : x.toNat &&& 0x80 ≠ 0 := (and_80_ne _ (by omega)).2 (by omega)
    have h7 := and_7f x.toNat
    simp only [Oid.readSubs, if_pos hne]
    obtain ⟨i1, i2, i3⟩ := ih (fun b hb => hrun b (by simp [hb])) ((v ||| (x.toNat &&& 0x7f)) <<< 7)
    refine ⟨i1, ?_, ?_⟩
    · intro h
      apply i2
      have key : v ≠ 0 ∨ x.toNat % 128 ≠ 0 → (v ||| (x.toNat &&& 0x7f)) <<< 7 ≠ 0 := by
        intro hk h0
        rw [Nat.shiftLeft_eq] at h0
        have h1 : v ||| (x.toNat &&& 0x7f) = 0 := by
          rcases Nat.mul_eq_zero.1 h0 with h | h
          · exact h
          · simp at h
        rw [Nat.or_eq_zero_iff] at h1
        rcases hk with hk | hk
        · exact hk h1.1
        · rw [h7] at h1; exact hk h1.2
      rcases h with h | ⟨b, hb, hbn⟩
      · exact .inl (key (.inl h))
      · rcases List.mem_cons.1 hb with rfl | hb
        · exact .inl (key (.inr (by omega)))
        · exact .inr ⟨b, hb, hbn⟩
    · rintro ⟨h1, h2⟩
      apply i3
      refine ⟨?_, fun b hb => h2 b (by simp [hb])⟩
      rw [h1, h7, h2 x (by simp)]; rfl

/-- C15, as far as it is true: contents ending in continuation octets not all of which are 0x80
are refused with `ParseError`. Missing from the full statement: trailing 0x80 octets, see
`C15_false` and `C15_trailing_zeros`. -/
theorem C15_partial (first : UInt8) (pre run : Bytes) (hrun : ∀ b ∈ run, 128 ≤ b.toNat)
    (hnz : ∃ b ∈ run, b.toNat ≠ 128) (d : Asn1Data) (hd : d.copy = first :: (pre ++ run)) :
    Oid.deserialize d = .error .parseError := by
  unfold Oid.deserialize
  rw [hd]
  simp only
  rw [Oid.readSubs_append]
  have := (Oid.readSubs_run run hrun
    (Oid.readSubs pre 0 [first.toNat / 40, first.toNat % 40]).2
    (Oid.readSubs pre 0 [first.toNat / 40, first.toNat % 40]).1).2.1 (.inr hnz)
  rw [if_pos this]

/-- C15, the single-octet case: an octet with its high bit set is refused. -/
theorem C15_single_partial (first : UInt8) (h : 128 ≤ first.toNat) (d : Asn1Data)
    (hd : d.copy = [first]) : Oid.deserialize d = .error .parseError := by
  unfold Oid.deserialize
  rw [hd]
  simp only [Oid.readSubs, ne_eq, not_true_eq_false, ↓reduceIte]
  have hp := Oid.construct_parseOnly ([first.toNat / 40, first.toNat % 40].map Int.ofNat)
  cases hc : Oid.construct ([first.toNat / 40, first.toNat % 40].map Int.ofNat) with
  | error e => rw [hp e hc]
  | ok r =>
    have := ((Oid.construct_ofNat_iff _ _).1 hc).1.first _ rfl
    omega

/-- C15 is false of the code: contents `2b 80` end inside a sub-identifier and are accepted. -/
theorem C15_false : ∃ d : Asn1Data, d.copy = [0x2b, 0x80] ∧ Oid.deserialize d = .ok [1, 3] :=
  ⟨.bytes [0x2b, 0x80], rfl, by decide +kernel⟩

example : ∃ b ∈ ([0x81, 0x80] : Bytes), b.toNat ≠ 128 := ⟨0x81, by decide, by decide⟩

/-! ## C16 -/

theorem oidOk_ofNat (o : List Nat) : Spec.OidOk (o.map Int.ofNat) ↔ OidLimits o := by
  unfold Spec.OidOk
  constructor
  · rintro ⟨h1, h2, h3, h4⟩
    refine ⟨by simpa using h1, ?_, ?_, ?_⟩
    · intro x hx
      have := (h2 (Int.ofNat x) (List.mem_map.2 ⟨x, hx, rfl⟩)).2
      have h' : ((x : Nat) : Int) < 2 ^ 32 := this
      exact_mod_cast h'
    · intro x hx
      have := h3 (Int.ofNat x) (by simp [hx])
      have h' : ((x : Nat) : Int) ≤ 2 := this
      exact_mod_cast h'
    · intro x hx
      have := h4 (Int.ofNat x) (by simp [hx])
      have h' : ((x : Nat) : Int) ≤ 39 := this
      exact_mod_cast h'
  · intro h
    refine ⟨by simpa using h.count, ?_, ?_, ?_⟩
    · intro x hx
      obtain ⟨n, hn, rfl⟩ := List.mem_map.1 hx
      have := h.range n hn
      refine ⟨by simp, ?_⟩
      have h' : ((n : Nat) : Int) < 2 ^ 32 := by exact_mod_cast this
      exact h'
    · intro x hx
      rw [List.getElem?_map] at hx
      cases ho : o[0]? with
      | none => rw [ho] at hx; cases hx
      | some n =>
        rw [ho] at hx; simp at hx; subst hx
        exact_mod_cast h.first n ho
    · intro x hx
      rw [List.getElem?_map] at hx
      cases ho : o[1]? with
      | none => rw [ho] at hx; cases hx
      | some n =>
        rw [ho] at hx; simp at hx; subst hx
        exact_mod_cast h.second n ho

theorem Oid.new_neg {subs : List Int} {x : Int} (hx : x ∈ subs) (h : x < 0) :
    Oid.new subs = .error .valueError := by
  cases hn : Oid.new subs with
  | error e => rw [Oid.new_err hn]
  | ok r =>
    unfold Oid.new ObjId.new at hn
    simp only at hn
    split at hn
    · cases hn
    split at hn
    · cases hn
    split at hn
    · cases hn
    split at hn
    · cases hn
    split at hn
    · cases hn
    · rename_i h'
      exact absurd (List.any_eq_true.2 ⟨x, hx, by simpa using h⟩) h'

/-- C16: `OID(*subs)` succeeds exactly within the limits, keeps the numbers, and otherwise raises
`ValueError`. -/
theorem C16_local (subs : List Int) :
    (Spec.OidOk subs → ∃ o, Oid.new subs = .ok o ∧ o.map Int.ofNat = subs) ∧
    (¬ Spec.OidOk subs → Oid.new subs = .error .valueError) := by
  by_cases hneg : ∃ x ∈ subs, x < 0
  · obtain ⟨x, hx, hx0⟩ := hneg
    refine ⟨fun h => ?_, fun _ => Oid.new_neg hx hx0⟩
    have := (h.2.1 x hx).1; omega
  · obtain ⟨o, rfl⟩ : ∃ o : List Nat, subs = o.map Int.ofNat := by
      refine ⟨subs.map Int.toNat, ?_⟩
      rw [List.map_map]
      symm
      have hnn : ∀ x ∈ subs, (Int.ofNat ∘ Int.toNat) x = x := by
        intro x hx
        have : 0 ≤ x := by
          by_contra h; exact hneg ⟨x, hx, by omega⟩
        simp only [Function.comp_apply]
        exact Int.toNat_of_nonneg this
      rw [List.map_congr_left hnn]; simp
    rw [oidOk_ofNat]
    refine ⟨fun h => ⟨o, (Oid.new_ofNat_iff o o).2 ⟨h, rfl⟩, rfl⟩, fun h => ?_⟩
    cases hn : Oid.new (o.map Int.ofNat) with
    | error e => rw [Oid.new_err hn]
    | ok r => exact absurd ((Oid.new_ofNat_iff o r).1 hn).1 h

theorem Oid.readSubs_group {g : Bytes} (hg : Spec.IsSubId g) (rest : Bytes) (acc : List Nat) :
    Oid.readSubs (g ++ rest) 0 acc = Oid.readSubs rest 0 (acc ++ [Spec.subIdValue g]) := by
  obtain ⟨init, last, rfl, hi, hl⟩ := hg
  have key : ∀ (init : Bytes) (v : Nat), (∀ b ∈ init, 128 ≤ b.toNat) →
      Oid.readSubs (init ++ [last] ++ rest) (v * 128) acc =
      Oid.readSubs rest 0
        (acc ++ [(init ++ [last]).foldl (fun v (b : UInt8) => v * 128 + b.toNat % 128) v]) := by
    intro init
    induction init with
    | nil =>
      intro v _
      simp only [List.nil_append, List.singleton_append, Oid.readSubs, List.foldl_cons, List.foldl_nil]
      rw [if_neg (fun h => by have := (and_80_ne last.toNat (by omega)).1 h; omega), and_7f]
      have hm : last.toNat % 128 < 128 := Nat.mod_lt _ (by omega)
      have := shl_or_7 v _ hm
      rw [Nat.shiftLeft_eq] at this
      rw [show (2:Nat)^7 = 128 from rfl] at this
      rw [this]
    | cons x init ih =>
      intro v h
      have hx := h x (by simp)
      have hlt := x.toNat_lt
      simp only [List.cons_append, Oid.readSubs, List.foldl_cons]
      rw [if_pos ((and_80_ne _ (by omega)).2 (by omega)), and_7f]
      have hm : x.toNat % 128 < 128 := Nat.mod_lt _ (by omega)
      have := shl_or_7 v _ hm
      rw [Nat.shiftLeft_eq] at this
      rw [show (2:Nat)^7 = 128 from rfl] at this
      rw [this, Nat.shiftLeft_eq]
      exact ih _ (fun b hb => h b (by simp [hb]))
  have := key init 0 hi
  simpa [Spec.subIdValue] using this

theorem Oid.readSubs_groups (groups : List Bytes) (hg : ∀ g ∈ groups, Spec.IsSubId g)
    (acc : List Nat) : Oid.readSubs groups.flatten 0 acc = (acc ++ groups.map Spec.subIdValue, 0) := by
  induction groups generalizing acc with
  | nil => simp [Oid.readSubs]
  | cons g gs ih =>
    rw [List.flatten_cons, Oid.readSubs_group (hg g (by simp)),
      ih (fun x hx => hg x (by simp [hx]))]
    simp

/-- C15, what actually happens with trailing 0x80 octets behind well-formed contents: they are
ignored. -/
theorem C15_trailing_zeros (first : UInt8) (groups : List Bytes)
    (hg : ∀ g ∈ groups, Spec.IsSubId g) (run : Bytes) (hrun : ∀ b ∈ run, b.toNat = 128)
    (d d' : Asn1Data) (hd : d.copy = first :: (groups.flatten ++ run))
    (hd' : d'.copy = first :: groups.flatten) :
    Oid.deserialize d = Oid.deserialize d' := by
  unfold Oid.deserialize
  rw [hd, hd']
  simp only
  have hpre := Oid.readSubs_groups groups hg [first.toNat / 40, first.toNat % 40]
  rw [Oid.readSubs_append, hpre]
  obtain ⟨h1, -, h3⟩ := Oid.readSubs_run run (fun b hb => by rw [hrun b hb]) 0
    ([first.toNat / 40, first.toNat % 40] ++ groups.map Spec.subIdValue)
  rw [h1, h3 ⟨rfl, hrun⟩]

/-- C16: well-formed OID contents are accepted exactly when the numbers they stand for are within
the limits, giving those numbers; otherwise `ParseError`. -/
theorem C16_wire (body : Bytes) (subs : List Nat) (hb : Spec.OidBody body subs) (d : Asn1Data)
    (hd : d.copy = body) :
    (Spec.OidOk (subs.map Int.ofNat) → Oid.deserialize d = .ok subs) ∧
    (¬ Spec.OidOk (subs.map Int.ofNat) → Oid.deserialize d = .error .parseError) := by
  obtain ⟨first, groups, rfl, hg, rfl⟩ := hb
  have hdes : Oid.deserialize d = Oid.construct
      (([first.toNat / 40, first.toNat % 40] ++ groups.map Spec.subIdValue).map Int.ofNat) := by
    unfold Oid.deserialize
    rw [hd]; simp only
    rw [Oid.readSubs_groups groups hg]
    simp
  rw [hdes, oidOk_ofNat]
  constructor
  · intro h; exact (Oid.construct_ofNat_iff _ _).2 ⟨h, rfl⟩
  · intro h
    cases hc : Oid.construct (([first.toNat / 40, first.toNat % 40] ++
        groups.map Spec.subIdValue).map Int.ofNat) with
    | error e => rw [Oid.construct_parseOnly _ e hc]
    | ok r => exact absurd ((Oid.construct_ofNat_iff _ _).1 hc).1 h

/-- C16: any OID obtained from the wire, well-formed or not, is within the limits. -/
theorem C16_wire_limits (d : Asn1Data) (hv : d.Valid) (leftovers copy : Bool) (v : Value)
    (tail : Subbytes) (h : SmiType.oid.decode d leftovers copy = .ok (v, tail)) :
    ∃ o, v = .oid o ∧ Spec.OidOk (o.map Int.ofNat) := by
  obtain ⟨b, -, hdes, -⟩ := asn1Decode_ok hv h
  simp only [SmiType.deserialize] at hdes
  cases ho : Oid.deserialize b with
  | error e => rw [ho] at hdes; cases hdes
  | ok o =>
    rw [ho] at hdes
    simp only [Except.map, Except.ok.injEq] at hdes
    refine ⟨o, hdes.symm, ?_⟩
    rw [oidOk_ofNat]
    unfold Oid.deserialize at ho
    split at ho
    · cases ho
    · simp only at ho
      split at ho
      · cases ho
      · have := (Oid.construct_ofNat_iff _ _).1 ho
        rw [this.2]; exact this.1

example : Spec.OidBody [0x2b, 0x86, 0x48, 0x01] [1, 3, 840, 1] := by
  refine ⟨0x2b, [[0x86, 0x48], [0x01]], rfl, ?_, by decide⟩
  intro g hg
  simp only [List.mem_cons, List.not_mem_nil, or_false] at hg
  rcases hg with rfl | rfl
  · exact ⟨[0x86], 0x48, rfl, by decide, by decide⟩
  · exact ⟨[], 0x01, rfl, by decide, by decide⟩

end Snmp
