import Verif.BerLemmas
/-!
# Round-trip lemmas for BER at list level
-/

set_option linter.unusedSimpArgs false

namespace Snmp

theorem ofNat_toNat {n : Nat} (h : n < 256) : (UInt8.ofNat n).toNat = n := by
  simp [UInt8.toNat_ofNat']; omega

theorem readBase128_encodeLoop (n : Nat) (arr rest : Bytes) :
    readBase128 ((Tag.encodeLoop n 0x80 arr).reverse ++ rest) 0 =
      readBase128 (arr.reverse ++ rest) n := by
  induction n using Nat.strongRecOn generalizing arr with
  | ind n ih =>
    unfold Tag.encodeLoop
    split
    · rename_i h; rw [h]
    · rw [shr_7, ih _ (by omega)]
      have hm : n % 128 < 128 := Nat.mod_lt _ (by omega)
      rw [and_7f, or_80 _ hm]
      simp only [List.reverse_append, List.reverse_cons, List.reverse_nil, List.nil_append,
        List.singleton_append, List.cons_append]
      rw [readBase128, ofNat_toNat (by omega), if_pos (by omega)]
      congr 1; omega

theorem readTag_encode (t : Tag) (rest : Bytes) : readTag (t.encode ++ rest) = some (t, rest) := by
  obtain ⟨n, con, cls⟩ := t
  have hbyte : ∃ c : Nat, c < 8 ∧ (if con then ((cls.value <<< 6) &&& 0xc0) ||| 0x20
      else ((cls.value <<< 6) &&& 0xc0)) = c * 32 ∧ decide (c % 2 = 1) = con ∧
      classOfBits (c / 2) = cls := by
    cases con <;> cases cls
    · exact ⟨0, by decide⟩
    · exact ⟨2, by decide⟩
    · exact ⟨4, by decide⟩
    · exact ⟨6, by decide⟩
    · exact ⟨1, by decide⟩
    · exact ⟨3, by decide⟩
    · exact ⟨5, by decide⟩
    · exact ⟨7, by decide⟩
  obtain ⟨c, hc8, hb, hcon, hcls⟩ := hbyte
  have hor : ∀ c : Nat, c < 8 → ∀ k : Nat, k < 32 → (c * 32) ||| k = c * 32 + k := by decide +kernel
  unfold Tag.encode
  simp only [hb]
  by_cases h : n < 31
  · rw [if_pos h, hor c hc8 n (by omega)]
    simp only [List.nil_append, List.reverse_cons, List.reverse_nil, List.singleton_append, readTag]
    rw [ofNat_toNat (by omega)]
    rw [if_neg (by omega), show (c * 32 + n) % 32 = n by omega,
      show (c * 32 + n) / 32 = c by omega, show (c * 32 + n) / 64 = c / 2 by omega, hcon, hcls]
  · rw [if_neg h, hor c hc8 31 (by omega)]
    dsimp only
    have hm : n % 128 < 128 := Nat.mod_lt _ (by omega)
    rw [Tag.encodeLoop, dif_neg (by omega : ¬ n = 0), and_7f, Nat.zero_or, shr_7]
    simp only [List.nil_append, List.reverse_append, List.reverse_cons, List.reverse_nil,
      List.singleton_append, List.cons_append, readTag]
    rw [ofNat_toNat (by omega), if_pos (by omega), readBase128_encodeLoop]
    simp only [List.reverse_cons, List.reverse_nil, List.nil_append, List.singleton_append]
    rw [readBase128, ofNat_toNat (by omega), if_neg (by omega)]
    simp only [Nat.mod_mod]
    rw [show (c * 32 + 31) / 32 = c by omega, show (c * 32 + 31) / 64 = c / 2 by omega, hcon, hcls,
      show n / 128 * 128 + n % 128 = n by omega]

theorem readBase256_encodeLoop (n : Nat) (arr rest : Bytes) :
    readBase256 (encodeLengthLoop n arr).length ((encodeLengthLoop n arr).reverse ++ rest) 0 =
      readBase256 arr.length (arr.reverse ++ rest) n := by
  induction n using Nat.strongRecOn generalizing arr with
  | ind n ih =>
    unfold encodeLengthLoop
    split
    · rename_i h; rw [h]
    · rw [shr_8, ih _ (by omega)]
      have hm : n % 256 < 256 := Nat.mod_lt _ (by omega)
      rw [and_ff]
      simp only [List.reverse_append, List.reverse_cons, List.reverse_nil, List.nil_append,
        List.singleton_append, List.cons_append, List.length_append, List.length_cons,
        List.length_nil, Nat.zero_add]
      rw [readBase256, ofNat_toNat hm]
      congr 1; omega

theorem encodeLengthLoop_length (n k : Nat) (arr : Bytes) :
    (encodeLengthLoop n arr).length ≤ arr.length + k ↔ n < 256 ^ k := by
  induction k generalizing n arr with
  | zero =>
    unfold encodeLengthLoop
    split
    · simp_all
    · rename_i h
      have hge : ∀ m (a : Bytes), a.length ≤ (encodeLengthLoop m a).length := by
        intro m
        induction m using Nat.strongRecOn with
        | ind m ih =>
          intro a
          unfold encodeLengthLoop
          split
          · simp
          · rw [shr_8]
            have := ih (m / 256) (by omega) (a ++ [UInt8.ofNat (m &&& 0xff)])
            simp only [List.length_append, List.length_cons, List.length_nil] at this; omega
      have := hge (n >>> 8) (arr ++ [UInt8.ofNat (n &&& 0xff)])
      simp only [List.length_append, List.length_cons, List.length_nil] at this
      simp only [Nat.add_zero, Nat.pow_zero]
      constructor
      · intro hh; omega
      · intro hh; omega
  | succ k ih =>
    unfold encodeLengthLoop
    split
    · rename_i h; subst h
      simp only [Nat.le_add_right, true_iff]; exact Nat.pow_pos (by omega)
    · have := ih (n >>> 8) (arr ++ [UInt8.ofNat (n &&& 0xff)])
      simp only [List.length_append, List.length_cons, List.length_nil, Nat.zero_add] at this
      rw [show arr.length + (k + 1) = arr.length + 1 + k by omega, this, shr_8, Nat.pow_succ,
        Nat.div_lt_iff_lt_mul (by omega)]

theorem encodeLength_ok {n : Nat} (h : n < 256 ^ 127) :
    ∃ l, encodeLength n = .ok l ∧ 1 ≤ l.length ∧ ∀ rest, readLength (l ++ rest) = some (n, rest) := by
  unfold encodeLength
  by_cases h1 : n < 128
  · rw [if_pos h1]
    refine ⟨_, rfl, by simp, ?_⟩
    intro rest
    simp only [List.singleton_append, readLength]
    rw [ofNat_toNat (by omega), if_neg (by omega)]
  · have hl : (encodeLengthLoop n []).length ≤ 127 := by
      have := (encodeLengthLoop_length n 127 []).2 h
      simpa using this
    rw [if_neg h1]
    dsimp only
    rw [if_neg (by omega)]
    refine ⟨_, rfl, by simp, ?_⟩
    intro rest
    simp only [List.reverse_append, List.reverse_cons, List.reverse_nil, List.nil_append,
      List.singleton_append, List.cons_append, readLength]
    rw [or_80 _ (by omega), ofNat_toNat (by omega), if_pos (by omega),
      show (128 + (encodeLengthLoop n []).length) % 128 = (encodeLengthLoop n []).length by omega,
      readBase256_encodeLoop]
    simp [readBase256]

theorem encodeLength_err {n : Nat} (h : 256 ^ 127 ≤ n) : encodeLength n = .error .encodeError := by
  have hl : ¬ (encodeLengthLoop n []).length ≤ 127 := by
    have := (encodeLengthLoop_length n 127 [])
    simp only [List.length_nil, Nat.zero_add] at this
    rw [this]; omega
  unfold encodeLength
  have : (128 : Nat) ≤ 256 ^ 127 := by decide
  rw [if_neg (by omega)]
  dsimp only
  rw [if_pos (by omega)]

theorem encodeLength_length {n k : Nat} (h : n < 256 ^ k) (hk : k ≤ 127) {l : Bytes}
    (hl : encodeLength n = .ok l) : l.length ≤ k + 1 := by
  unfold encodeLength at hl
  split at hl
  · injection hl with hl; subst hl; simp
  · dsimp only at hl
    have := (encodeLengthLoop_length n k []).2 h
    simp only [List.length_nil, Nat.zero_add] at this
    rw [if_neg (by omega)] at hl
    injection hl with hl; subst hl
    simp; omega

theorem Tag.encode_length_pos (t : Tag) : 1 ≤ t.encode.length := by
  unfold Tag.encode; simp

/-- `encode` succeeds exactly below the length limit, and then the list-level reader inverts it. -/
theorem Ber.encode_ok (t : Tag) {d : Bytes} (h : d.length < 256 ^ 127) :
    ∃ e, Ber.encode t d = .ok e ∧ ∀ rest, readTLV (e ++ rest) = some (t, d, rest) := by
  obtain ⟨l, hl, -, hr⟩ := encodeLength_ok h
  refine ⟨t.encode ++ l ++ d, ?_, ?_⟩
  · unfold Ber.encode; rw [hl]; rfl
  · intro rest
    unfold readTLV
    rw [List.append_assoc, List.append_assoc, readTag_encode]
    dsimp only
    rw [hr]
    simp

theorem Ber.encode_err (t : Tag) {d : Bytes} (h : 256 ^ 127 ≤ d.length) :
    Ber.encode t d = .error .encodeError := by
  unfold Ber.encode; rw [encodeLength_err h]; rfl

theorem Ber.encode_inv {t : Tag} {d e : Bytes} (h : Ber.encode t d = .ok e) :
    d.length < 256 ^ 127 ∧ ∀ rest, readTLV (e ++ rest) = some (t, d, rest) := by
  by_cases hl : d.length < 256 ^ 127
  · obtain ⟨e', he, hr⟩ := Ber.encode_ok t hl
    rw [he] at h; injection h with h; subst h
    exact ⟨hl, hr⟩
  · rw [Ber.encode_err t (by omega)] at h; cases h

/-! ## Locality of the list-level reader -/

theorem readBase128_append {d : Bytes} {n m : Nat} {r : Bytes} (x : Bytes)
    (h : readBase128 d n = some (m, r)) : readBase128 (d ++ x) n = some (m, r ++ x) := by
  induction d generalizing n with
  | nil => simp [readBase128] at h
  | cons b t ih =>
    simp only [readBase128, List.cons_append] at *
    split at h
    · rename_i hb; rw [if_pos hb]; exact ih h
    · rename_i hb; rw [if_neg hb]
      simp only [Option.some.injEq, Prod.mk.injEq] at h
      rw [h.1, h.2]

theorem readTag_append {d : Bytes} {t : Tag} {r : Bytes} (x : Bytes)
    (h : readTag d = some (t, r)) : readTag (d ++ x) = some (t, r ++ x) := by
  cases d with
  | nil => simp [readTag] at h
  | cons b d =>
    simp only [readTag, List.cons_append] at *
    split at h
    · rename_i hb
      rw [if_pos hb]
      split at h
      · cases h
      · rename_i n rest hr
        rw [readBase128_append x hr]
        simp only [Option.some.injEq, Prod.mk.injEq] at h ⊢
        exact ⟨h.1, by rw [h.2]⟩
    · rename_i hb
      rw [if_neg hb]
      simp only [Option.some.injEq, Prod.mk.injEq] at h ⊢
      exact ⟨h.1, by rw [h.2]⟩

theorem readBase256_append {k : Nat} {d : Bytes} {n m : Nat} {r : Bytes} (x : Bytes)
    (h : readBase256 k d n = some (m, r)) : readBase256 k (d ++ x) n = some (m, r ++ x) := by
  induction k generalizing d n with
  | zero =>
    simp only [readBase256, Option.some.injEq, Prod.mk.injEq] at *
    exact ⟨h.1, by rw [h.2]⟩
  | succ k ih =>
    cases d with
    | nil => simp [readBase256] at h
    | cons b t => simp only [readBase256, List.cons_append] at *; exact ih h

theorem readLength_append {d : Bytes} {n : Nat} {r : Bytes} (x : Bytes)
    (h : readLength d = some (n, r)) : readLength (d ++ x) = some (n, r ++ x) := by
  cases d with
  | nil => simp [readLength] at h
  | cons b d =>
    simp only [readLength, List.cons_append] at *
    split at h
    · rename_i hb; rw [if_pos hb]; exact readBase256_append x h
    · rename_i hb; rw [if_neg hb]
      simp only [Option.some.injEq, Prod.mk.injEq] at h ⊢
      exact ⟨h.1, by rw [h.2]⟩

theorem readTLV_append {d : Bytes} {t : Tag} {body tail : Bytes} (x : Bytes)
    (h : readTLV d = some (t, body, tail)) : readTLV (d ++ x) = some (t, body, tail ++ x) := by
  unfold readTLV at *
  split at h
  · cases h
  · rename_i tag d1 h1
    rw [readTag_append x h1]
    dsimp only
    split at h
    · cases h
    · rename_i n d2 h2
      rw [readLength_append x h2]
      dsimp only
      split at h
      · cases h
      · rename_i hn
        simp only [Option.some.injEq, Prod.mk.injEq] at h
        rw [if_neg (by simp; omega), List.take_append_of_le_length (by omega),
          List.drop_append_of_le_length (by omega), h.1, h.2.1, h.2.2]

/-- Truncating a TLV anywhere makes the list-level reader fail. -/
theorem readTLV_prefix {p q : Bytes} {t : Tag} {body : Bytes}
    (h : readTLV (p ++ q) = some (t, body, [])) (hq : q ≠ []) : readTLV p = none := by
  cases hp : readTLV p with
  | none => rfl
  | some v =>
    obtain ⟨t', b', r'⟩ := v
    rw [readTLV_append q hp] at h
    simp only [Option.some.injEq, Prod.mk.injEq, List.append_eq_nil_iff] at h
    exact absurd h.2.2.2 hq

end Snmp

namespace Snmp

/-! ## The header alone determines tag and length -/

theorem readBase128_local {d : Bytes} {n m : Nat} {r : Bytes} (h : readBase128 d n = some (m, r)) :
    ∃ pre, d = pre ++ r ∧ 1 ≤ pre.length ∧ ∀ r', readBase128 (pre ++ r') n = some (m, r') := by
  induction d generalizing n with
  | nil => simp [readBase128] at h
  | cons b t ih =>
    unfold readBase128 at h
    split at h
    · rename_i hb
      obtain ⟨pre, hp, -, hr⟩ := ih h
      refine ⟨b :: pre, by simp [hp], by simp, ?_⟩
      intro r'; rw [List.cons_append, readBase128, if_pos hb]; exact hr r'
    · rename_i hb
      simp only [Option.some.injEq, Prod.mk.injEq] at h
      refine ⟨[b], by simp [h.2], by simp, ?_⟩
      intro r'; rw [List.cons_append, readBase128, if_neg hb, h.1]; rfl

theorem readTag_local {d : Bytes} {t : Tag} {r : Bytes} (h : readTag d = some (t, r)) :
    ∃ pre, d = pre ++ r ∧ 1 ≤ pre.length ∧ ∀ r', readTag (pre ++ r') = some (t, r') := by
  cases d with
  | nil => simp [readTag] at h
  | cons b d =>
    simp only [readTag] at h
    split at h
    · rename_i hb
      split at h
      · cases h
      · rename_i n rest hr
        simp only [Option.some.injEq, Prod.mk.injEq] at h
        obtain ⟨pre, hp, -, hl⟩ := readBase128_local hr
        refine ⟨b :: pre, by simp [hp, h.2], by simp, ?_⟩
        intro r'
        simp only [List.cons_append, readTag, if_pos hb, hl, h.1]
    · rename_i hb
      simp only [Option.some.injEq, Prod.mk.injEq] at h
      refine ⟨[b], by simp [h.2], by simp, ?_⟩
      intro r'
      simp only [List.cons_append, readTag, if_neg hb, h.1, List.nil_append]

theorem readBase256_local {k : Nat} {d : Bytes} {n m : Nat} {r : Bytes}
    (h : readBase256 k d n = some (m, r)) :
    ∃ pre, d = pre ++ r ∧ ∀ r', readBase256 k (pre ++ r') n = some (m, r') := by
  induction k generalizing d n with
  | zero =>
    simp only [readBase256, Option.some.injEq, Prod.mk.injEq] at h
    exact ⟨[], by simp [h.2], by intro r'; simp [readBase256, h.1]⟩
  | succ k ih =>
    cases d with
    | nil => simp [readBase256] at h
    | cons b t =>
      simp only [readBase256] at h
      obtain ⟨pre, hp, hl⟩ := ih h
      exact ⟨b :: pre, by simp [hp], by intro r'; simp only [List.cons_append, readBase256, hl]⟩

theorem readLength_local {d : Bytes} {n : Nat} {r : Bytes} (h : readLength d = some (n, r)) :
    ∃ pre, d = pre ++ r ∧ 1 ≤ pre.length ∧ ∀ r', readLength (pre ++ r') = some (n, r') := by
  cases d with
  | nil => simp [readLength] at h
  | cons b d =>
    simp only [readLength] at h
    split at h
    · rename_i hb
      obtain ⟨pre, hp, hl⟩ := readBase256_local h
      refine ⟨b :: pre, by simp [hp], by simp, ?_⟩
      intro r'; simp only [List.cons_append, readLength, if_pos hb, hl]
    · rename_i hb
      simp only [Option.some.injEq, Prod.mk.injEq] at h
      refine ⟨[b], by simp [h.2], by simp, ?_⟩
      intro r'; simp only [List.cons_append, readLength, if_neg hb, List.nil_append]; rw [h.1]

theorem readTLV_local {d : Bytes} {t : Tag} {body tail : Bytes}
    (h : readTLV d = some (t, body, tail)) :
    ∃ hdr, d = hdr ++ body ++ tail ∧ 2 ≤ hdr.length ∧
      ∀ body' tail' : Bytes, body'.length = body.length →
        readTLV (hdr ++ body' ++ tail') = some (t, body', tail') := by
  unfold readTLV at h
  split at h
  · cases h
  · rename_i tag d1 h1
    split at h
    · cases h
    · rename_i n d2 h2
      split at h
      · cases h
      · rename_i hlen
        simp only [Option.some.injEq, Prod.mk.injEq] at h
        obtain ⟨p1, e1, l1, r1⟩ := readTag_local h1
        obtain ⟨p2, e2, l2, r2⟩ := readLength_local h2
        refine ⟨p1 ++ p2, ?_, by simp; omega, ?_⟩
        · rw [e1, e2, ← h.2.1, ← h.2.2]; simp
        · intro body' tail' hb
          have hn : body'.length = n := by rw [hb, ← h.2.1]; simp; omega
          unfold readTLV
          rw [List.append_assoc, List.append_assoc, r1]
          dsimp only
          rw [r2]
          dsimp only
          rw [if_neg (by simp; omega), h.1, ← hn]
          simp

end Snmp
