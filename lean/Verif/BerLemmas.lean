import Verif.SubLemmas
/-!
# List-level reading of the BER functions, and the refinement to it
-/

namespace Snmp

/-! ## Bit arithmetic -/

theorem and_7f (n : Nat) : n &&& 0x7f = n % 128 := Nat.and_two_pow_sub_one_eq_mod n 7
theorem and_ff (n : Nat) : n &&& 0xff = n % 256 := Nat.and_two_pow_sub_one_eq_mod n 8
theorem and_1f (n : Nat) : n &&& 0x1f = n % 32 := Nat.and_two_pow_sub_one_eq_mod n 5
theorem shr_7 (n : Nat) : n >>> 7 = n / 128 := by rw [Nat.shiftRight_eq_div_pow]
theorem shr_8 (n : Nat) : n >>> 8 = n / 256 := by rw [Nat.shiftRight_eq_div_pow]
theorem shl_or_7 (n b : Nat) (h : b < 128) : (n <<< 7) ||| b = n * 128 + b := by
  rw [← Nat.shiftLeft_add_eq_or_of_lt (by simpa using h : b < 2 ^ 7), Nat.shiftLeft_eq]
theorem shl_or_8 (n b : Nat) (h : b < 256) : (n <<< 8) ||| b = n * 256 + b := by
  rw [← Nat.shiftLeft_add_eq_or_of_lt (by simpa using h : b < 2 ^ 8), Nat.shiftLeft_eq]
theorem or_80 (b : Nat) (h : b < 128) : 0x80 ||| b = 128 + b := by
  have := shl_or_7 1 b h; simpa using this
theorem or_80' (b : Nat) (h : b < 128) : b ||| 0x80 = 128 + b := by
  rw [Nat.or_comm, or_80 b h]

theorem and_80_ne : ∀ b : Nat, b < 256 → ((b &&& 0x80 ≠ 0) ↔ 128 ≤ b) := by decide +kernel
theorem and_20_ne : ∀ b : Nat, b < 256 → ((b &&& 0x20 ≠ 0) ↔ b / 32 % 2 = 1) := by decide +kernel
theorem and_c0 : ∀ b : Nat, b < 256 → (b &&& 0xc0) >>> 6 = b / 64 := by decide +kernel

/-! ## List-level parsers -/

/-- Base-128 continuation digits, most significant first. -/
def readBase128 : Bytes → Nat → Option (Nat × Bytes)
  | [], _ => none
  | b :: t, n =>
    if 128 ≤ b.toNat then readBase128 t (n * 128 + b.toNat % 128)
    else some (n * 128 + b.toNat % 128, t)

/-- The class named by the two top bits. -/
def classOfBits : Nat → TagClass
  | 0 => .universal
  | 1 => .application
  | 2 => .contextSpecific
  | _ => .private_

/-- Tag octets. -/
def readTag : Bytes → Option (Tag × Bytes)
  | [] => none
  | b :: t =>
    let cls := classOfBits (b.toNat / 64)
    let constructed := decide (b.toNat / 32 % 2 = 1)
    if b.toNat % 32 = 31 then
      match readBase128 t 0 with
      | none => none
      | some (n, rest) => some (⟨n, constructed, cls⟩, rest)
    else some (⟨b.toNat % 32, constructed, cls⟩, t)

/-- `n` base-256 digits, most significant first. -/
def readBase256 : Nat → Bytes → Nat → Option (Nat × Bytes)
  | 0, t, v => some (v, t)
  | _ + 1, [], _ => none
  | n + 1, b :: t, v => readBase256 n t (v * 256 + b.toNat)

/-- Length octets. -/
def readLength : Bytes → Option (Nat × Bytes)
  | [] => none
  | b :: t => if 128 ≤ b.toNat then readBase256 (b.toNat % 128) t 0 else some (b.toNat, t)

/-- Tag, length, value: returns tag, contents and remaining bytes. -/
def readTLV (d : Bytes) : Option (Tag × Bytes × Bytes) :=
  match readTag d with
  | none => none
  | some (tag, d) =>
    match readLength d with
    | none => none
    | some (n, d) => if d.length < n then none else some (tag, d.take n, d.drop n)

/-! ## Suffix facts -/

theorem readBase128_suffix {d : Bytes} {n m : Nat} {r : Bytes} (h : readBase128 d n = some (m, r)) :
    ∃ pre, d = pre ++ r ∧ 1 ≤ pre.length := by
  induction d generalizing n with
  | nil => simp [readBase128] at h
  | cons b t ih =>
    unfold readBase128 at h
    split at h
    · obtain ⟨pre, hp, -⟩ := ih h
      exact ⟨b :: pre, by simp [hp], by simp⟩
    · simp only [Option.some.injEq, Prod.mk.injEq] at h
      exact ⟨[b], by simp [h.2], by simp⟩

theorem readTag_suffix {d : Bytes} {t : Tag} {r : Bytes} (h : readTag d = some (t, r)) :
    ∃ pre, d = pre ++ r ∧ 1 ≤ pre.length := by
  cases d with
  | nil => simp [readTag] at h
  | cons b d =>
    simp only [readTag] at h
    split at h
    · split at h
      · cases h
      · rename_i n rest hr
        simp only [Option.some.injEq, Prod.mk.injEq] at h
        obtain ⟨pre, hp, -⟩ := readBase128_suffix hr
        exact ⟨b :: pre, by simp [hp, h.2], by simp⟩
    · simp only [Option.some.injEq, Prod.mk.injEq] at h
      exact ⟨[b], by simp [h.2], by simp⟩

theorem readBase256_suffix {k : Nat} {d : Bytes} {n m : Nat} {r : Bytes}
    (h : readBase256 k d n = some (m, r)) : ∃ pre, d = pre ++ r ∧ pre.length = k := by
  induction k generalizing d n with
  | zero => simp only [readBase256, Option.some.injEq, Prod.mk.injEq] at h; exact ⟨[], by simp [h.2], rfl⟩
  | succ k ih =>
    cases d with
    | nil => simp [readBase256] at h
    | cons b t =>
      simp only [readBase256] at h
      obtain ⟨pre, hp, hl⟩ := ih h
      exact ⟨b :: pre, by simp [hp], by simp [hl]⟩

theorem readLength_suffix {d : Bytes} {n : Nat} {r : Bytes} (h : readLength d = some (n, r)) :
    ∃ pre, d = pre ++ r ∧ 1 ≤ pre.length := by
  cases d with
  | nil => simp [readLength] at h
  | cons b d =>
    simp only [readLength] at h
    split at h
    · obtain ⟨pre, hp, -⟩ := readBase256_suffix h
      exact ⟨b :: pre, by simp [hp], by simp⟩
    · simp only [Option.some.injEq, Prod.mk.injEq] at h
      exact ⟨[b], by simp [h.2], by simp⟩

theorem readTLV_parts {d : Bytes} {t : Tag} {body tail : Bytes}
    (h : readTLV d = some (t, body, tail)) :
    ∃ hdr, d = hdr ++ body ++ tail ∧ 2 ≤ hdr.length := by
  unfold readTLV at h
  split at h
  · cases h
  · rename_i tag d1 h1
    split at h
    · cases h
    · rename_i n d2 h2
      split at h
      · cases h
      · rename_i hlen
        simp only [Option.some.injEq, Prod.mk.injEq] at h
        obtain ⟨p1, e1, l1⟩ := readTag_suffix h1
        obtain ⟨p2, e2, l2⟩ := readLength_suffix h2
        refine ⟨p1 ++ p2, ?_, by simp; omega⟩
        rw [e1, e2, ← h.2.1, ← h.2.2]; simp

theorem readTLV_parts_len {d : Bytes} {t : Tag} {body tail : Bytes}
    (h : readTLV d = some (t, body, tail)) :
    tail.length + 2 ≤ d.length := by
  obtain ⟨hdr, e, l⟩ := readTLV_parts h
  rw [e]; simp; omega

/-! ## Refinement -/

theorem Tag.decodeLoop_refines {s : Subbytes} (hw : s.WF) (n : Nat) :
    Tag.decodeLoop s n = match readBase128 s.contents n with
      | none => .error .parseError
      | some (m, r) => .ok (m, s.last r.length) := by
  generalize hc : s.contents = c
  induction c generalizing s n with
  | nil =>
    unfold Tag.decodeLoop
    split
    · simp [readBase128]
    · rename_i b hb
      rw [Subbytes.dereference_nil hw hc] at hb; cases hb
  | cons b t ih =>
    unfold Tag.decodeLoop
    split
    · rename_i e he
      rw [Subbytes.dereference_cons hw hc] at he; cases he
    · rename_i b' hb
      rw [Subbytes.dereference_cons hw hc] at hb
      injection hb with hb
      subst hb
      obtain ⟨ha, hw', hc'⟩ := Subbytes.advance_last hw hc
      have hlt := b.toNat_lt
      have h7 : b.toNat % 128 < 128 := Nat.mod_lt _ (by omega)
      simp only [and_7f, shl_or_7 _ _ h7, readBase128]
      by_cases hb : 128 ≤ b.toNat
      · rw [if_pos ((and_80_ne _ hlt).2 hb), if_pos hb, ha, ih hw' _ hc']
        split <;> simp [Subbytes.last_last]
      · rw [if_neg (fun h => hb ((and_80_ne _ hlt).1 h)), if_neg hb, ha]

theorem Tag.decode_refines {s : Subbytes} (hw : s.WF) :
    Tag.decode s = match readTag s.contents with
      | none => .error .parseError
      | some (t, r) => .ok (t, s.last r.length) := by
  cases hc : s.contents with
  | nil => unfold Tag.decode; rw [Subbytes.dereference_nil hw hc]; simp [readTag]
  | cons b t =>
    unfold Tag.decode
    rw [Subbytes.dereference_cons hw hc]
    obtain ⟨ha, hw', hc'⟩ := Subbytes.advance_last hw hc
    have hlt := b.toNat_lt
    simp only [and_1f, and_c0 _ hlt, readTag]
    have hcls : ∃ c, TagClass.ofValue (b.toNat / 64) = .ok c ∧
        classOfBits (b.toNat / 64) = c := by
      have : b.toNat / 64 < 4 := by omega
      generalize b.toNat / 64 = k at this
      match k, this with
      | 0, _ => exact ⟨_, rfl, rfl⟩
      | 1, _ => exact ⟨_, rfl, rfl⟩
      | 2, _ => exact ⟨_, rfl, rfl⟩
      | 3, _ => exact ⟨_, rfl, rfl⟩
    obtain ⟨c, hc1, hc2⟩ := hcls
    rw [hc1, hc2]
    have hcon : decide (b.toNat &&& 0x20 ≠ 0) = decide (b.toNat / 32 % 2 = 1) := by
      rw [decide_eq_decide]; exact and_20_ne _ hlt
    rw [hcon]
    by_cases h31 : b.toNat % 32 = 31
    · rw [if_pos h31, if_pos h31, ha, Tag.decodeLoop_refines hw', hc']
      cases readBase128 t 0 with
      | none => rfl
      | some p => simp [bind, Except.bind, pure, Except.pure, Subbytes.last_last]
    · rw [if_neg h31, if_neg h31, ha]
      simp [bind, Except.bind, pure, Except.pure]

theorem decodeLengthLoop_refines {s : Subbytes} (hw : s.WF) (k n : Nat) :
    decodeLengthLoop k s n = match readBase256 k s.contents n with
      | none => .error .parseError
      | some (m, r) => .ok (m, s.last r.length) := by
  induction k generalizing s n with
  | zero => simp [decodeLengthLoop, readBase256, Subbytes.last_self hw]
  | succ k ih =>
    cases hc : s.contents with
    | nil => unfold decodeLengthLoop; rw [Subbytes.dereference_nil hw hc]; simp [readBase256]
    | cons b t =>
      unfold decodeLengthLoop
      rw [Subbytes.dereference_cons hw hc]
      obtain ⟨ha, hw', hc'⟩ := Subbytes.advance_last hw hc
      simp only [readBase256, shl_or_8 _ _ b.toNat_lt]
      rw [ha, ih hw', hc']
      split <;> simp [Subbytes.last_last]

theorem decodeLength_refines {s : Subbytes} (hw : s.WF) :
    decodeLength s = match readLength s.contents with
      | none => .error .parseError
      | some (m, r) => .ok (m, s.last r.length) := by
  cases hc : s.contents with
  | nil => unfold decodeLength; rw [Subbytes.dereference_nil hw hc]; simp [readLength]
  | cons b t =>
    unfold decodeLength
    rw [Subbytes.dereference_cons hw hc]
    obtain ⟨ha, hw', hc'⟩ := Subbytes.advance_last hw hc
    have hlt := b.toNat_lt
    simp only [readLength, and_7f]
    by_cases hb : 128 ≤ b.toNat
    · rw [if_pos ((and_80_ne _ hlt).2 hb), if_pos hb, ha, decodeLengthLoop_refines hw', hc']
      split <;> simp [Subbytes.last_last]
    · rw [if_neg (fun h => hb ((and_80_ne _ hlt).1 h)), if_neg hb, ha]

/-- The view of `s` that starts `n + m` bytes before its end and stops `m` bytes before it. -/
def Subbytes.inner (s : Subbytes) (n m : Nat) : Subbytes := ⟨s.data, s.stop - m - n, s.stop - m⟩

theorem Subbytes.inner_spec {s : Subbytes} (hw : s.WF) {pre body tail : Bytes}
    (h : s.contents = pre ++ body ++ tail) :
    (s.inner body.length tail.length).WF ∧ (s.inner body.length tail.length).contents = body := by
  have hl := contents_length hw
  rw [h] at hl
  obtain ⟨h1, h2⟩ := hw
  simp only [List.length_append] at hl
  refine ⟨⟨by unfold inner; dsimp only; omega, by unfold inner; dsimp only; omega⟩, ?_⟩
  unfold contents at *
  unfold inner; dsimp only
  have e : (s.data.take (s.stop - tail.length)).drop (s.stop - tail.length - body.length) =
      ((s.data.take s.stop).drop s.start |>.take (pre.length + body.length)).drop pre.length := by
    rw [List.take_drop, List.take_take, List.drop_drop]
    congr 1
    · omega
    · congr 1; omega
  rw [e, h]
  rw [← List.length_append, List.take_left']
  · simp
  · simp

theorem Ber.decodeValue_refines {s : Subbytes} (hw : s.WF) {p1 d1 : Bytes}
    (e1 : s.contents = p1 ++ d1) (tag : Tag) (leftovers copy : Bool) :
    Ber.decodeValue tag (s.last d1.length) leftovers copy =
      match (match readLength d1 with
          | none => none
          | some (n, d) => if d.length < n then none else some (tag, d.take n, d.drop n)) with
      | none => .error .parseError
      | some (tag, body, tail) =>
        if leftovers = false ∧ tail ≠ [] then .error .parseError
        else .ok (tag,
          if copy then .bytes body else .sub (s.inner body.length tail.length),
          s.last tail.length) := by
  have hw1 := Subbytes.last_WF hw d1.length
  have hc1 := Subbytes.last_suffix hw e1
  unfold Ber.decodeValue
  rw [decodeLength_refines hw1, hc1]
  cases h2 : readLength d1 with
  | none => rfl
  | some q =>
    obtain ⟨n, d2⟩ := q
    obtain ⟨p2, e2, l2⟩ := readLength_suffix h2
    have hw2 : (s.last d2.length).WF := Subbytes.last_WF hw d2.length
    have hc2 : (s.last d2.length).contents = d2 := by
      apply Subbytes.last_suffix hw (pre := p1 ++ p2); rw [e1, e2]; simp
    have hsp := Subbytes.split_nat hw2 n
    rw [hc2] at hsp
    simp only [Except.bind]
    rw [Subbytes.last_last]
    generalize (s.last d2.length).split (n : Int) = sp at hsp
    subst hsp
    dsimp only
    obtain ⟨hwp, hcp⟩ := Subbytes.prefix_contents hw2 (min n d2.length) (by rw [hc2]; omega)
    rw [Subbytes.len_WF hwp, hcp, hc2]
    simp only [List.length_take, Nat.min_assoc, Nat.min_self]
    by_cases hn : d2.length < n
    · rw [if_pos (by omega), if_pos hn]
    · rw [if_neg (by omega), if_neg hn]
      dsimp only
      rw [Subbytes.last_last]
      have hdrop : (d2.drop n).length = d2.length - n := by simp
      have hwt := Subbytes.last_WF hw (d2.drop n).length
      have hct : (s.last (d2.drop n).length).contents = d2.drop n := by
        apply Subbytes.last_suffix hw (pre := p1 ++ p2 ++ d2.take n); rw [e1, e2]; simp
      rw [← hdrop, Subbytes.bool_WF hwt, hct]
      have hsl : s.contents.length = s.stop - s.start := Subbytes.contents_length hw
      rw [e1, e2] at hsl
      simp only [List.length_append] at hsl
      have hsub : (Subbytes.mk (s.last d2.length).data (s.last d2.length).start
          ((s.last d2.length).start + min n d2.length)) =
          s.inner (d2.take n).length (d2.drop n).length := by
        have := hw.1
        unfold Subbytes.last Subbytes.inner; dsimp only
        simp only [List.length_take, List.length_drop]
        congr 1 <;> omega
      rw [hsub]
      have hbody : (s.inner (d2.take n).length (d2.drop n).length).copy = d2.take n := by
        rw [Subbytes.copy_eq_contents]
        exact (Subbytes.inner_spec hw (pre := p1 ++ p2) (by rw [e1, e2]; simp)).2
      rw [hbody]
      cases leftovers
      · by_cases ht : d2.drop n = []
        · simp [ht]
        · simp [ht]
      · simp

/-- What `Ber.decode` does, in terms of the list-level reading of the view's contents. -/
theorem Ber.decode_refines {data : Asn1Data} (hw : data.toSub.WF) (expected : Option Tag)
    (leftovers copy : Bool) :
    Ber.decode data expected leftovers copy = match readTLV data.toSub.contents with
      | none => .error .parseError
      | some (tag, body, tail) =>
        if expected ≠ none ∧ expected ≠ some tag then .error .parseError
        else if leftovers = false ∧ tail ≠ [] then .error .parseError
        else .ok (tag,
          if copy then .bytes body else .sub (data.toSub.inner body.length tail.length),
          data.toSub.last tail.length) := by
  generalize hs : data.toSub = s at hw
  unfold Ber.decode
  rw [hs, Tag.decode_refines hw]
  unfold readTLV
  cases h1 : readTag s.contents with
  | none => rfl
  | some p =>
    obtain ⟨tag, d1⟩ := p
    obtain ⟨p1, e1, l1⟩ := readTag_suffix h1
    have hw1 := Subbytes.last_WF hw d1.length
    have hc1 := Subbytes.last_suffix hw e1
    simp only [Except.bind]
    have main := Ber.decodeValue_refines hw e1 tag leftovers copy
    by_cases he : expected ≠ none ∧ expected ≠ some tag
    · rw [if_pos he]
      cases readLength d1 with
      | none => rfl
      | some q =>
        dsimp only
        split
        · rfl
        · rename_i hh
          split at hh
          · cases hh
          · simp only [Option.some.injEq, Prod.mk.injEq] at hh
            rw [← hh.1, if_pos he]
    · rw [if_neg he, main]
      cases readLength d1 with
      | none => rfl
      | some q =>
        dsimp only
        split
        · rename_i hh
          split at hh
          · simp_all
          · simp_all
        · rename_i tag' body tail hh
          split at hh
          · cases hh
          · rename_i hlt
            simp only [Option.some.injEq, Prod.mk.injEq] at hh
            obtain ⟨rfl, rfl, rfl⟩ := hh
            simp only [hlt, ↓reduceIte]; rw [if_neg he]

end Snmp
