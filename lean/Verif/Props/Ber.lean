import Verif.BerRound
/-!
# Properties C05-C09: BER

`d.copy` is the byte string an argument (bytes or `subbytes`) stands for; `d.toSub.WF` says
that a view argument lies inside the bytes it wraps (always so for a bytes argument).
-/

namespace Snmp

/-- C05: `Tag.decode(Tag.encode(t) + rest) = (t, rest)`, on bytes or inside any view. -/
theorem C05_tag_roundtrip (t : Tag) (rest : Bytes) (d : Asn1Data) (hv : d.Valid)
    (hd : d.copy = t.encode ++ rest) :
    ∃ tail, Tag.decode d.toSub = .ok (t, tail) ∧ tail.copy = rest ∧ tail.WF := by
  rw [Asn1Data.copy_eq] at hd
  rw [Tag.decode_refines hv, hd, readTag_encode]
  refine ⟨_, rfl, ?_, Subbytes.last_WF hv _⟩
  rw [Subbytes.copy_eq_contents, Subbytes.last_suffix hv hd]

example : (Asn1Data.bytes ((⟨1000, true, .private_⟩ : Tag).encode ++ [7])).Valid := by
  exact Subbytes.whole_WF _

/-- C06: the length field round-trips below 256^127 and is refused with `EncodeError` above. -/
theorem C06_length_roundtrip (n : Nat) :
    (n < 256 ^ 127 → ∃ l, encodeLength n = .ok l ∧
      ∀ (rest : Bytes) (d : Asn1Data), d.Valid → d.copy = l ++ rest →
        ∃ tail, decodeLength d.toSub = .ok (n, tail) ∧ tail.copy = rest) ∧
    (256 ^ 127 ≤ n → encodeLength n = .error .encodeError) := by
  refine ⟨fun h => ?_, encodeLength_err⟩
  obtain ⟨l, hl, -, hr⟩ := encodeLength_ok h
  refine ⟨l, hl, ?_⟩
  intro rest d hv hd
  rw [Asn1Data.copy_eq] at hd
  rw [decodeLength_refines hv, hd, hr]
  refine ⟨_, rfl, ?_⟩
  rw [Subbytes.copy_eq_contents, Subbytes.last_suffix hv hd]

/-- C06 at the level of `encode`: it raises nothing but `EncodeError`, and exactly for bodies of
256^127 bytes or more. -/
theorem C06_encode_limit (t : Tag) (body : Bytes) :
    (body.length < 256 ^ 127 → ∃ e, Ber.encode t body = .ok e) ∧
    (256 ^ 127 ≤ body.length → Ber.encode t body = .error .encodeError) :=
  ⟨fun h => (Ber.encode_ok t h).imp fun _ h => h.1, Ber.encode_err t⟩

example : encodeLength 300 = .ok [0x82, 0x01, 0x2c] := by
  simp [encodeLength, encodeLengthLoop]

/-- C07: TLV round trip in every decode mode: with leftovers, tag, body and rest come back;
without leftovers it succeeds iff `rest` is empty; an expected tag is accepted iff it is the
encoded one; the body has the same bytes whether copied or not. -/
theorem C07_tlv_roundtrip (t : Tag) (body rest : Bytes) (e : Bytes)
    (he : Ber.encode t body = .ok e) (d : Asn1Data) (hv : d.Valid) (hd : d.copy = e ++ rest)
    (expected : Option Tag) (leftovers copy : Bool) :
    (expected ≠ none ∧ expected ≠ some t →
      Ber.decode d expected leftovers copy = .error .parseError) ∧
    (leftovers = false ∧ rest ≠ [] →
      Ber.decode d expected leftovers copy = .error .parseError) ∧
    ((expected = none ∨ expected = some t) → (leftovers = true ∨ rest = []) →
      ∃ b tail, Ber.decode d expected leftovers copy = .ok (t, b, tail) ∧
        b.copy = body ∧ tail.copy = rest ∧ (copy = true → b = .bytes body)) := by
  obtain ⟨-, hr⟩ := Ber.encode_inv he
  rw [Asn1Data.copy_eq] at hd
  have hread := hr rest
  rw [← hd] at hread
  rw [Ber.decode_refines hv, hread]
  dsimp only
  refine ⟨fun h => if_pos h, fun h => ?_, fun h1 h2 => ?_⟩
  · split
    · rfl
    · simp
  · rw [if_neg (by rcases h1 with h1 | h1 <;> simp [h1]), if_neg (by rcases h2 with h2 | h2 <;> simp [h2])]
    refine ⟨_, _, rfl, ?_, ?_, ?_⟩
    · cases copy
      · simp only [Bool.false_eq_true, ↓reduceIte, Asn1Data.copy]
        rw [Subbytes.copy_eq_contents]
        obtain ⟨hdr, hs, -⟩ := readTLV_parts hread
        exact (Subbytes.inner_spec hv hs).2
      · simp [Asn1Data.copy]
    · obtain ⟨hdr, hs, -⟩ := readTLV_parts hread
      rw [Subbytes.copy_eq_contents, Subbytes.last_suffix hv hs]
    · intro hc; simp [hc]

example : ∃ e, Ber.encode ⟨4, false, .universal⟩ [1, 2, 3] = .ok e ∧
    (Asn1Data.bytes (e ++ [9])).copy = e ++ [9] := by
  simp [Ber.encode, encodeLength, Asn1Data.copy, bind, Except.bind, pure, Except.pure]

/-- C08: a successful decode splits its argument into header, body and tail, in place. -/
theorem C08_contiguous (d : Asn1Data) (hv : d.Valid) (expected : Option Tag)
    (leftovers copy : Bool) (tag : Tag) (body : Asn1Data) (tail : Subbytes)
    (h : Ber.decode d expected leftovers copy = .ok (tag, body, tail)) :
    ∃ hdr, d.copy = hdr ++ body.copy ++ tail.copy ∧ 2 ≤ hdr.length ∧
      (expected = none ∨ expected = some tag) ∧
      (leftovers = false → tail.copy = []) ∧
      -- the returned views are those very slices of the wrapped bytes
      tail.data = d.toSub.data ∧ tail.start = d.toSub.start + hdr.length + body.copy.length ∧
      tail.stop = d.toSub.stop ∧
      (copy = false → body = .sub ⟨d.toSub.data, d.toSub.start + hdr.length, tail.start⟩) ∧
      (copy = true → body = .bytes body.copy) ∧
      -- the header alone determines the tag and the length of the body
      (∀ (d' : Asn1Data) (body' tail' : Bytes), d'.Valid → body'.length = body.copy.length →
        d'.copy = hdr ++ body' ++ tail' →
        ∃ b t, Ber.decode d' expected true copy = .ok (tag, b, t) ∧
          b.copy = body' ∧ t.copy = tail') := by
  have hcopy := Asn1Data.copy_eq d
  rw [Ber.decode_refines hv] at h
  cases hr : readTLV d.toSub.contents with
  | none => rw [hr] at h; cases h
  | some v =>
    obtain ⟨t', b', r'⟩ := v
    rw [hr] at h
    dsimp only at h
    split at h
    · cases h
    rename_i hexp
    split at h
    · cases h
    rename_i hlo
    simp only [Except.ok.injEq, Prod.mk.injEq] at h
    obtain ⟨rfl, rfl, rfl⟩ := h
    obtain ⟨hdr, hs, hl, hloc⟩ := readTLV_local hr
    have htail : (d.toSub.last r'.length).copy = r' := by
      rw [Subbytes.copy_eq_contents, Subbytes.last_suffix hv hs]
    have hin := Subbytes.inner_spec hv hs
    have hbody : (if copy then Asn1Data.bytes b' else .sub (d.toSub.inner b'.length r'.length)).copy
        = b' := by
      cases copy
      · simp only [Bool.false_eq_true, ↓reduceIte, Asn1Data.copy]
        rw [Subbytes.copy_eq_contents]; exact hin.2
      · simp [Asn1Data.copy]
    have hlen := Subbytes.contents_length hv
    rw [hs] at hlen
    simp only [List.length_append] at hlen
    have hord := hv.1
    refine ⟨hdr, ?_, hl, ?_, ?_, rfl, ?_, rfl, ?_, ?_, ?_⟩
    · rw [hbody, htail, hcopy, hs]
    · by_cases h1 : expected = none
      · exact .inl h1
      · refine .inr ?_
        by_cases h2 : expected = some t'
        · exact h2
        · exact absurd ⟨h1, h2⟩ hexp
    · intro hl0
      rw [htail]
      by_cases h0 : r' = []
      · exact h0
      · exact absurd ⟨hl0, h0⟩ hlo
    · rw [hbody]; unfold Subbytes.last; dsimp only; omega
    · intro hc
      simp only [hc, Bool.false_eq_true, ↓reduceIte]
      unfold Subbytes.inner Subbytes.last
      congr 2 <;> omega
    · intro hc; rw [hbody]; simp [hc]
    · intro d' body' tail' hv' hb' hd'
      rw [hbody] at hb'
      have hr' := hloc body' tail' hb'
      rw [Asn1Data.copy_eq] at hd'
      rw [Ber.decode_refines hv', hd', hr']
      dsimp only
      rw [if_neg hexp]
      simp only [Bool.true_eq_false, false_and, ↓reduceIte]
      have hin' := Subbytes.inner_spec hv' hd'
      refine ⟨_, _, rfl, ?_, ?_⟩
      · cases copy
        · simp only [Bool.false_eq_true, ↓reduceIte, Asn1Data.copy]
          rw [Subbytes.copy_eq_contents]; exact hin'.2
        · simp [Asn1Data.copy]
      · rw [Subbytes.copy_eq_contents, Subbytes.last_suffix hv' hd']

/-- C08, appending: extra bytes behind the data only lengthen the tail. -/
theorem C08_append (d d' : Asn1Data) (hv : d.Valid) (hv' : d'.Valid) (x : Bytes)
    (hd' : d'.copy = d.copy ++ x) (expected : Option Tag) (leftovers copy : Bool)
    (tag : Tag) (body : Asn1Data) (tail : Subbytes)
    (h : Ber.decode d expected leftovers copy = .ok (tag, body, tail)) :
    ∃ b t, Ber.decode d' expected true copy = .ok (tag, b, t) ∧
      b.copy = body.copy ∧ t.copy = tail.copy ++ x := by
  obtain ⟨hdr, h1, -, -, -, -, -, -, -, -, h2⟩ :=
    C08_contiguous d hv expected leftovers copy tag body tail h
  exact h2 d' body.copy (tail.copy ++ x) hv' rfl (by rw [hd', h1]; simp)

example : ∃ r, Ber.decode (.bytes [4, 2, 7, 8, 9]) none true true = .ok r := by
  have h : (Asn1Data.bytes [4, 2, 7, 8, 9]).Valid := Subbytes.whole_WF _
  rw [Ber.decode_refines h]
  exact ⟨_, rfl⟩

/-- C09: every proper prefix of an encoding is refused, in every mode. -/
theorem C09_truncation (t : Tag) (body e : Bytes) (he : Ber.encode t body = .ok e)
    (p q : Bytes) (hpq : e = p ++ q) (hq : q ≠ []) (d : Asn1Data) (hv : d.Valid)
    (hd : d.copy = p) (expected : Option Tag) (leftovers copy : Bool) :
    Ber.decode d expected leftovers copy = .error .parseError := by
  obtain ⟨-, hr⟩ := Ber.encode_inv he
  have h0 := hr []
  rw [List.append_nil, hpq] at h0
  have hp := readTLV_prefix h0 hq
  rw [Asn1Data.copy_eq] at hd
  rw [Ber.decode_refines hv, hd, hp]

example : Ber.encode ⟨4, false, .universal⟩ [1, 2] = .ok ([4, 2, 1] ++ [2]) := by
  simp [Ber.encode, encodeLength, bind, Except.bind, pure, Except.pure]; decide

end Snmp
