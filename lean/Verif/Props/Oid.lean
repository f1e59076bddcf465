import Verif.Oid
import Verif.Props.Smi
/-!
# Properties C17-C19: OID text and table indexes
-/

set_option linter.unusedSimpArgs false

namespace Snmp

/-! ## C17 -/

theorem digitChar_toNat {d : Nat} (h : d < 10) : (Char.ofNat ('0'.toNat + d)).toNat = 48 + d := by
  have : ∀ d : Nat, d < 10 → (Char.ofNat ('0'.toNat + d)).toNat = 48 + d := by decide
  exact this d h

theorem digitChar_facts {d : Nat} (h : d < 10) :
    let c := Char.ofNat ('0'.toNat + d)
    digitValue c = some d ∧ c ≠ '_' ∧ c ≠ '.' ∧ c ≠ '+' ∧ c ≠ '-' ∧ isPySpace c = false := by
  have : ∀ d : Nat, d < 10 →
    (let c := Char.ofNat ('0'.toNat + d)
     digitValue c = some d ∧ c ≠ '_' ∧ c ≠ '.' ∧ c ≠ '+' ∧ c ≠ '-' ∧ isPySpace c = false) := by
    decide
  exact this d h

/-- A character that `str(int)` writes. -/
def IsDigit (c : Char) : Prop := ∃ d, d < 10 ∧ c = Char.ofNat ('0'.toNat + d)

theorem decimal_digits (n : Nat) : ∀ c ∈ decimal n, IsDigit c := by
  induction n using Nat.strongRecOn with
  | ind n ih =>
    intro c hc
    unfold decimal at hc
    split at hc
    · rename_i h
      simp only [List.mem_singleton] at hc
      exact ⟨n, h, hc⟩
    · rename_i h
      rcases List.mem_append.1 hc with hc | hc
      · exact ih (n / 10) (by omega) c hc
      · simp only [List.mem_singleton] at hc
        exact ⟨n % 10, by omega, hc⟩

theorem decimal_ne_nil (n : Nat) : decimal n ≠ [] := by
  unfold decimal; split <;> simp

theorem scanDigits_append (a b : Text) (ha : ∀ c ∈ a, IsDigit c) (hne : a ≠ []) (acc : Nat)
    (prev : Bool) : scanDigits (a ++ b) acc prev =
      scanDigits b (a.foldl (fun v c => v * 10 + (digitValue c).getD 0) acc) true := by
  induction a generalizing acc prev with
  | nil => exact absurd rfl hne
  | cons c a ih =>
    obtain ⟨d, hd, rfl⟩ := ha c (by simp)
    obtain ⟨h1, h2, -⟩ := digitChar_facts hd
    simp only [List.cons_append, scanDigits, List.foldl_cons]
    rw [if_neg h2, h1]
    simp only [Option.getD_some]
    by_cases hn : a = []
    · subst hn; rfl
    · exact ih (fun c hc => ha c (by simp [hc])) hn _ _

theorem decimal_value (n : Nat) :
    (decimal n).foldl (fun v c => v * 10 + (digitValue c).getD 0) 0 = n := by
  induction n using Nat.strongRecOn with
  | ind n ih =>
    unfold decimal
    split
    · rename_i h
      simp only [List.foldl_cons, List.foldl_nil]
      rw [(digitChar_facts h).1]
      simp
    · rename_i h
      rw [List.foldl_append, ih (n / 10) (by omega)]
      simp only [List.foldl_cons, List.foldl_nil]
      rw [(digitChar_facts (show n % 10 < 10 by omega)).1]
      simp only [Option.getD_some]
      omega

theorem dropWhile_all_false {α : Type} {p : α → Bool} {l : List α} (h : ∀ x ∈ l, p x = false) :
    l.dropWhile p = l := by
  cases l with
  | nil => rfl
  | cons a l => rw [List.dropWhile_cons_of_neg]; simp [h a (by simp)]

theorem pyInt_decimal (n : Nat) : pyInt (decimal n) = some (n : Int) := by
  have hdig := decimal_digits n
  have hsp : ∀ c ∈ decimal n, isPySpace c = false := by
    intro c hc
    obtain ⟨d, hd, rfl⟩ := hdig c hc
    exact (digitChar_facts hd).2.2.2.2.2
  unfold pyInt
  rw [dropWhile_all_false hsp, dropWhile_all_false (fun c hc => hsp c (List.mem_reverse.1 hc)),
    List.reverse_reverse]
  have hscan : scanDigits (decimal n) 0 false = some n := by
    have := scanDigits_append (decimal n) [] hdig (decimal_ne_nil n) 0 false
    rw [List.append_nil, decimal_value] at this
    rw [this]; rfl
  cases hd : decimal n with
  | nil => exact absurd hd (decimal_ne_nil n)
  | cons c cs =>
    obtain ⟨d, hd', hc⟩ := hdig c (by rw [hd]; simp)
    obtain ⟨-, -, -, hp, hm, -⟩ := digitChar_facts hd'
    rw [← hc] at hp hm
    rw [hd] at hscan
    unfold scanSigned
    split
    · rename_i h; injection h with h _; exact absurd h hp
    · rename_i h; injection h with h _; exact absurd h hm
    · rw [hscan]; rfl

theorem splitDot_noDot (w : Text) (h : ∀ c ∈ w, c ≠ '.') : splitDot w = [w] := by
  induction w with
  | nil => rfl
  | cons c cs ih =>
    rw [splitDot, if_neg (h c (by simp)), ih (fun x hx => h x (by simp [hx]))]

theorem splitDot_append (w rest : Text) (h : ∀ c ∈ w, c ≠ '.') :
    splitDot (w ++ '.' :: rest) = w :: splitDot rest := by
  induction w with
  | nil => simp [splitDot]
  | cons c cs ih =>
    rw [List.cons_append, splitDot, if_neg (h c (by simp)), ih (fun x hx => h x (by simp [hx]))]

theorem splitDot_join (ws : List Text) (hne : ws ≠ []) (h : ∀ w ∈ ws, ∀ c ∈ w, c ≠ '.') :
    splitDot (joinDot ws) = ws := by
  induction ws with
  | nil => exact absurd rfl hne
  | cons w ws ih =>
    cases ws with
    | nil => exact splitDot_noDot w (h w (by simp))
    | cons v vs =>
      rw [joinDot, splitDot_append _ _ (h w (by simp)),
        ih (by simp) (fun x hx => h x (by simp [hx]))]
      simp

theorem allInts_decimal (o : List Nat) : allInts (o.map decimal) = some (o.map Int.ofNat) := by
  induction o with
  | nil => rfl
  | cons n o ih =>
    simp only [List.map_cons, allInts, pyInt_decimal, ih]
    rfl

theorem decimal_noDot (n : Nat) : ∀ c ∈ decimal n, c ≠ '.' := by
  intro c hc
  obtain ⟨d, hd, rfl⟩ := decimal_digits n c hc
  exact (digitChar_facts hd).2.2.1

/-- C17: `OID.parse(str(oid)) == oid` for every OID the class accepts. -/
theorem C17_roundtrip (o : List Nat) (ho : Spec.OidOk (o.map Int.ofNat)) :
    Oid.parse (Oid.str o) = .ok o := by
  have hl := (oidOk_ofNat o).1 ho
  have hnew := (Oid.new_ofNat_iff o o).2 ⟨hl, rfl⟩
  unfold Oid.parse Oid.str
  cases o with
  | nil => decide
  | cons n rest =>
    rw [splitDot_join _ (by simp) (by
      intro w hw
      obtain ⟨m, -, rfl⟩ := List.mem_map.1 hw
      exact decimal_noDot m)]
    simp only [List.map_cons, List.head?_cons, Option.some.injEq, decimal_ne_nil, ↓reduceIte]
    rw [← List.map_cons, allInts_decimal]
    exact hnew

/-- C17: the same with a leading dot, for every non-empty OID. -/
theorem C17_leading_dot (o : List Nat) (hne : o ≠ []) (ho : Spec.OidOk (o.map Int.ofNat)) :
    Oid.parse ('.' :: Oid.str o) = .ok o := by
  have hl := (oidOk_ofNat o).1 ho
  have hnew := (Oid.new_ofNat_iff o o).2 ⟨hl, rfl⟩
  unfold Oid.parse Oid.str
  rw [splitDot, if_pos rfl]
  simp only [List.head?_cons, ↓reduceIte, List.drop_succ_cons, List.drop_zero]
  rw [splitDot_join _ (by simpa using hne) (by
    intro w hw
    obtain ⟨m, -, rfl⟩ := List.mem_map.1 hw
    exact decimal_noDot m), allInts_decimal]
  exact hnew

/-- C17: distinct OIDs have distinct text. -/
theorem C17_injective (o o' : List Nat) (ho : Spec.OidOk (o.map Int.ofNat))
    (ho' : Spec.OidOk (o'.map Int.ofNat)) (h : Oid.str o = Oid.str o') : o = o' := by
  have h1 := C17_roundtrip o ho
  rw [h, C17_roundtrip o' ho'] at h1
  injection h1 with h1; exact h1.symm

/-- The characters `int()` can accept in a numeral. -/
def Spec.NumeralChar (c : Char) : Prop :=
  ('0' ≤ c ∧ c ≤ '9') ∨ isPySpace c = true ∨ c = '+' ∨ c = '-' ∨ c = '_'

theorem scanDigits_chars (w : Text) (acc : Nat) (prev : Bool) (n : Nat)
    (h : scanDigits w acc prev = some n) :
    (∀ c ∈ w, Spec.NumeralChar c) ∧ (prev = false → w ≠ []) := by
  induction w generalizing acc prev with
  | nil =>
    refine ⟨by simp, ?_⟩
    intro hp; rw [hp] at h; simp [scanDigits] at h
  | cons c w ih =>
    refine ⟨?_, by simp⟩
    unfold scanDigits at h
    intro x hx
    split at h
    · rename_i hc
      split at h
      · rcases List.mem_cons.1 hx with rfl | hx
        · exact .inr (.inr (.inr (.inr hc)))
        · exact (ih _ _ h).1 x hx
      · cases h
    · split at h
      · rename_i d hd
        rcases List.mem_cons.1 hx with rfl | hx
        · left
          unfold digitValue at hd
          split at hd
          · assumption
          · cases hd
        · exact (ih _ _ h).1 x hx
      · cases h

theorem scanSigned_chars {w : Text} {v : Int} (h : scanSigned w = some v) :
    w ≠ [] ∧ ∀ c ∈ w, Spec.NumeralChar c := by
  have key : ∀ {cs : Text} {f : Nat → Int}, (scanDigits cs 0 false).map f = some v →
      cs ≠ [] ∧ ∀ c ∈ cs, Spec.NumeralChar c := by
    intro cs f h
    cases hs : scanDigits cs 0 false with
    | none => rw [hs] at h; cases h
    | some n =>
      obtain ⟨h1, h2⟩ := scanDigits_chars cs 0 false n hs
      exact ⟨h2 rfl, h1⟩
  unfold scanSigned at h
  split at h
  · obtain ⟨-, h2⟩ := key h
    refine ⟨by simp, ?_⟩
    intro c hc
    rcases List.mem_cons.1 hc with rfl | hc
    · exact .inr (.inr (.inl rfl))
    · exact h2 c hc
  · obtain ⟨-, h2⟩ := key h
    refine ⟨by simp, ?_⟩
    intro c hc
    rcases List.mem_cons.1 hc with rfl | hc
    · exact .inr (.inr (.inr (.inl rfl)))
    · exact h2 c hc
  · exact key h

theorem pyInt_chars {w : Text} {v : Int} (h : pyInt w = some v) :
    w ≠ [] ∧ ∀ c ∈ w, Spec.NumeralChar c := by
  unfold pyInt at h
  obtain ⟨h1, h2⟩ := scanSigned_chars h
  constructor
  · rintro rfl; exact h1 rfl
  · intro c hc
    by_cases hs : isPySpace c = true
    · exact .inr (.inl hs)
    · apply h2
      rw [List.mem_reverse]
      have step : ∀ {l : Text}, c ∈ l → c ∈ l.dropWhile isPySpace := by
        intro l
        induction l with
        | nil => intro h; exact h
        | cons a l ih =>
          intro hl
          rw [List.dropWhile_cons]
          split
          · rename_i ha
            rcases List.mem_cons.1 hl with rfl | hl
            · exact absurd ha hs
            · exact ih hl
          · exact hl
      exact step (List.mem_reverse.2 (step hc))

theorem allInts_none {ws : List Text} {w : Text} (hw : w ∈ ws) (h : pyInt w = none) :
    allInts ws = none := by
  induction ws with
  | nil => cases hw
  | cons v ws ih =>
    rcases List.mem_cons.1 hw with rfl | hw
    · simp [allInts, h]
    · simp only [allInts, ih hw]
      cases pyInt v <;> rfl

/-- C17: text with a component that is empty or contains a character no numeral has is refused.
Components are what stands between dots, after dropping one leading dot. -/
theorem C17_refused (comps : List Text) (hne : comps ≠ []) (hdot : ∀ w ∈ comps, ∀ c ∈ w, c ≠ '.')
    (w : Text) (hw : w ∈ comps) (hbad : w = [] ∨ ∃ c ∈ w, ¬ Spec.NumeralChar c) :
    Oid.parse ('.' :: joinDot comps) = .error .valueError ∧
    ((∀ u, comps.head? = some u → u ≠ []) → Oid.parse (joinDot comps) = .error .valueError) := by
  have hnone : allInts comps = none := by
    apply allInts_none hw
    cases hp : pyInt w with
    | none => rfl
    | some v =>
      obtain ⟨h1, h2⟩ := pyInt_chars hp
      rcases hbad with hb | ⟨c, hc, hcn⟩
      · exact absurd hb h1
      · exact absurd (h2 c hc) hcn
  constructor
  · unfold Oid.parse
    rw [splitDot, if_pos rfl]
    simp only [List.head?_cons, ↓reduceIte, List.drop_succ_cons, List.drop_zero]
    rw [splitDot_join _ hne hdot, hnone]
  · intro hhead
    unfold Oid.parse
    rw [splitDot_join _ hne hdot]
    have hcond : ¬ comps.head? = some [] := fun h => hhead _ h rfl
    simp only [hcond, ↓reduceIte, hnone]

/-- C17: parsing fails only with `ValueError`, and only OIDs within the limits are produced. -/
theorem C17_total (text : Text) :
    (∃ o, Oid.parse text = .ok o ∧ Spec.OidOk (o.map Int.ofNat)) ∨
    Oid.parse text = .error .valueError := by
  unfold Oid.parse
  simp only
  split
  · exact .inr rfl
  · rename_i ints _
    by_cases h : Spec.OidOk ints
    · obtain ⟨o, h1, h2⟩ := (C16_local ints).1 h
      exact .inl ⟨o, h1, by rw [h2]; exact h⟩
    · exact .inr ((C16_local ints).2 h)

example : Oid.parse "1.3.6.1".toList = .ok [1, 3, 6, 1] := by decide +kernel
example : Oid.parse ".".toList = .error .valueError := by decide +kernel
example : Oid.parse "1..3".toList = .error .valueError := by decide +kernel
example : ¬ Spec.NumeralChar 'x' := by unfold Spec.NumeralChar; decide

/-! ## C18 -/

/-- An index object that the format can carry at its position: anything but `IpAddress`, which may
only be the last and then implied. -/
def Spec.IndexOk (implied : Bool) : List Value → Prop
  | [] => True
  | [v] => v.Constructible ∧ (v.type = .ipAddress → implied = true)
  | v :: vs => v.Constructible ∧ v.type ≠ .ipAddress ∧ Spec.IndexOk implied vs

theorem Oid.new_inv {subs : List Int} {o : List Nat} (h : Oid.new subs = .ok o) :
    o.map Int.ofNat = subs ∧ Spec.OidOk subs := by
  by_cases hk : Spec.OidOk subs
  · obtain ⟨o', h1, h2⟩ := (C16_local subs).1 hk
    rw [h1] at h; injection h with h; subst h; exact ⟨h2, hk⟩
  · rw [(C16_local subs).2 hk] at h; cases h

/-- C16 for `extend`: it appends the numbers if the result is within the limits and raises
`ValueError` otherwise. -/
theorem C16_extend (o : List Nat) (subs : List Int) :
    (Spec.OidOk (o.map Int.ofNat ++ subs) →
      ∃ r, Oid.extend o subs = .ok r ∧ r.map Int.ofNat = o.map Int.ofNat ++ subs) ∧
    (¬ Spec.OidOk (o.map Int.ofNat ++ subs) → Oid.extend o subs = .error .valueError) :=
  C16_local _

theorem map_ofNat_append_inv {o : List Nat} {a : List Nat} {b : List Int}
    (h : o.map Int.ofNat = a.map Int.ofNat ++ b) : ∃ c, o = a ++ c ∧ c.map Int.ofNat = b := by
  refine ⟨o.drop a.length, ?_, ?_⟩
  · have h1 : (o.map Int.ofNat).take a.length = a.map Int.ofNat := by
      rw [h]; simp
    rw [← List.map_take] at h1
    have hinj : Function.Injective Int.ofNat := fun x y h => by injection h
    have := (List.map_inj_right (fun x y h => hinj h)).1 h1
    conv_lhs => rw [← List.take_append_drop a.length o, this]
  · rw [List.map_drop, h]; simp

theorem map_ofNat_inj {a b : List Nat} (h : a.map Int.ofNat = b.map Int.ofNat) : a = b :=
  (List.map_inj_right (fun x y h => by injection h)).1 h

theorem bytesOfInts_map (d : Bytes) : bytesOfInts (d.map UInt8.toNat) = .ok d := by
  unfold bytesOfInts
  rw [if_pos]
  · rw [List.map_map]
    congr 1
    conv_rhs => rw [← List.map_id d]
    apply List.map_congr_left
    intro b _; simp
  · rw [List.all_eq_true]; intro x hx
    obtain ⟨b, -, rfl⟩ := List.mem_map.1 hx
    have := b.toNat_lt
    simpa using this

theorem takeNums_append (a b : List Nat) : takeNums a.length (a ++ b) = some (a, b) := by
  unfold takeNums
  rw [if_pos (by simp)]; simp

/-- One field written by `asOID` is read back by `fromOID`, leaving what follows. -/
theorem fromOID_asOID (v : Value) (hc : v.Constructible) (implied : Bool) (fld rest : List Nat)
    (hf : fld.map Int.ofNat = v.asOID implied) (hr : implied = true → rest = [])
    (hip : v.type = .ipAddress → implied = true) :
    decodeIndexField (fld ++ rest) v.type implied = .ok (v, rest) := by
  have hbytes : ∀ d : Bytes, fld.map Int.ofNat =
      (if implied then [] else [(d.length : Int)]) ++ d.map (fun b => (b.toNat : Int)) →
      octetsFromOID (fld ++ rest) implied = .ok (d, rest) := by
    intro d hd
    unfold octetsFromOID
    cases implied
    · simp only [Bool.false_eq_true, ↓reduceIte, List.singleton_append] at hd ⊢
      have hfld : fld = d.length :: d.map UInt8.toNat := by
        apply map_ofNat_inj
        rw [hd]; simp [Function.comp_def]
      rw [hfld, List.cons_append]
      simp only
      have := takeNums_append (d.map UInt8.toNat) rest
      rw [List.length_map] at this
      rw [this]
      simp only
      rw [bytesOfInts_map]; rfl
    · simp only [↓reduceIte, List.nil_append] at hd ⊢
      rw [hr rfl, List.append_nil]
      have hfld : fld = d.map UInt8.toNat := by
        apply map_ofNat_inj
        rw [hd]; simp [Function.comp_def]
      rw [hfld, bytesOfInts_map]; rfl
  unfold decodeIndexField
  cases v with
  | int t n =>
    simp only [Value.asOID] at hf
    obtain ⟨k, hk, hkn⟩ : ∃ k, fld = [k] ∧ (k : Int) = n := by
      match fld, hf with
      | [k], hf => simp at hf; exact ⟨k, rfl, hf⟩
    subst hk
    simp only [Value.Constructible] at hc
    simp only [Value.type, SmiType.fromOID, List.singleton_append]
    rw [hkn, IntType.construct_eq, if_pos hc]
    rfl
  | octets d =>
    simp only [Value.type, SmiType.fromOID]
    rw [hbytes d hf]
    simp only [Except.bind]
    simp only [Value.Constructible] at hc
    rw [octetStringConstruct_eq (Asn1Data.valid_bytes d),
      if_neg (show ¬ (Asn1Data.bytes d).copy.length > 0xffff by simp only [Asn1Data.copy]; omega)]
    rfl
  | ipAddress d =>
    have himp := hip rfl
    subst himp
    simp only [Value.type, SmiType.fromOID]
    rw [hbytes d (by simpa [Value.asOID] using hf)]
    simp only [Except.bind]
    simp only [Value.Constructible] at hc
    unfold ipAddressConstruct
    rw [if_pos (show (Asn1Data.bytes d).copy.length = 4 from hc)]; rfl
  | opaqueData d =>
    simp only [Value.type, SmiType.fromOID]
    rw [hbytes d hf]; rfl
  | oid o =>
    simp only [Value.type, SmiType.fromOID]
    have hs : subsFromOID (fld ++ rest) implied = .ok (o, rest) := by
      unfold subsFromOID
      simp only [Value.asOID] at hf
      cases implied
      · simp only [Bool.false_eq_true, ↓reduceIte, List.singleton_append] at hf ⊢
        have hfld : fld = o.length :: o := by
          apply map_ofNat_inj
          rw [hf]; simp
        rw [hfld, List.cons_append]
        simp only
        rw [takeNums_append]
      · simp only [↓reduceIte, List.nil_append] at hf ⊢
        rw [hr rfl, List.append_nil, map_ofNat_inj hf]
    rw [hs]
    simp only [Except.bind]
    have : Oid.construct (o.map Int.ofNat) = .ok o := by
      unfold Oid.construct
      simp only [Value.Constructible] at hc
      rw [hc]; rfl
    rw [this]; rfl
  | null =>
    simp only [Value.asOID, List.map_eq_nil_iff] at hf; subst hf; rfl
  | noSuchObject => simp only [Value.asOID, List.map_eq_nil_iff] at hf; subst hf; rfl
  | noSuchInstance => simp only [Value.asOID, List.map_eq_nil_iff] at hf; subst hf; rfl
  | endOfMibView => simp only [Value.asOID, List.map_eq_nil_iff] at hf; subst hf; rfl

theorem withIndex_fields (xs : List Value) (implied : Bool) (o r : List Nat)
    (hok : Spec.IndexOk implied xs) (h : Oid.withIndex o xs implied = .ok r) :
    ∃ suf, r = o ++ suf ∧ decodeIndexFields (xs.map Value.type) suf implied = .ok (xs, []) := by
  induction xs generalizing o with
  | nil =>
    simp only [Oid.withIndex, Except.ok.injEq] at h
    exact ⟨[], by simp [h], rfl⟩
  | cons v vs ih =>
    cases vs with
    | nil =>
      simp only [Oid.withIndex] at h
      obtain ⟨h1, -⟩ := Oid.new_inv h
      obtain ⟨suf, hs1, hs2⟩ := map_ofNat_append_inv h1
      refine ⟨suf, hs1, ?_⟩
      simp only [Spec.IndexOk] at hok
      simp only [List.map_cons, List.map_nil, decodeIndexFields]
      have := fromOID_asOID v hok.1 implied suf [] hs2 (fun _ => rfl) hok.2
      rw [List.append_nil] at this
      rw [this]; rfl
    | cons w ws =>
      simp only [Oid.withIndex] at h
      cases hx : Oid.extend o (v.asOID false) with
      | error e => rw [hx] at h; cases h
      | ok o1 =>
        rw [hx] at h
        simp only [Except.bind] at h
        obtain ⟨h1, -⟩ := Oid.new_inv hx
        obtain ⟨suf1, hs1, hs2⟩ := map_ofNat_append_inv h1
        simp only [Spec.IndexOk] at hok
        obtain ⟨suf2, hs3, hs4⟩ := ih o1 hok.2.2 h
        refine ⟨suf1 ++ suf2, by rw [hs3, hs1, List.append_assoc], ?_⟩
        have := fromOID_asOID v hok.1 false suf1 suf2 hs2 (by simp) (fun h => absurd h hok.2.1)
        simp only [List.map_cons, decodeIndexFields]
        rw [this]
        simp only [Except.bind]
        simp only [List.map_cons] at hs4
        rw [hs4]; rfl

/-- C18, as far as it is true: for every prefix and every list of objects without `IpAddress`
(except as an implied last object). Missing from the full statement: `IpAddress`, see `C18_false`. -/
theorem C18_partial (pfx : List Nat) (xs : List Value) (implied : Bool)
    (hok : Spec.IndexOk implied xs) (oid : List Nat)
    (h : Oid.withIndex pfx xs implied = .ok oid) :
    Oid.decodeIndex oid pfx (xs.map Value.type) implied = .ok xs := by
  obtain ⟨suf, h1, h2⟩ := withIndex_fields xs implied pfx oid hok h
  unfold Oid.decodeIndex Oid.startswith
  subst h1
  simp only [List.take_left, decide_true, Bool.not_true, Bool.false_eq_true, ↓reduceIte,
    List.drop_left]
  rw [h2]; rfl

/-- C18 is false of the code: an `IpAddress` index cannot be read back. -/
theorem C18_false : ∃ oid, Oid.withIndex [1, 3] [.ipAddress [10, 0, 0, 1]] false = .ok oid ∧
    (Value.ipAddress [10, 0, 0, 1]).Constructible ∧
    Oid.decodeIndex oid [1, 3] [.ipAddress] false = .error .indexDecodeError :=
  ⟨[1, 3, 10, 0, 0, 1], by decide +kernel, by decide, by decide +kernel⟩

example : ∃ oid, Oid.withIndex [1, 3, 6] [.int .integer32 5, .octets [65, 66], .oid [1, 3]] true =
    .ok oid := ⟨[1, 3, 6, 5, 2, 65, 66, 1, 3], by decide +kernel⟩
example : Spec.IndexOk true [.int .integer32 5, .octets [65, 66], .oid [1, 3]] := by
  simp only [Spec.IndexOk]; decide +kernel

/-! ## C19 -/

/-- Classes whose index decoder reads octets. -/
def Spec.readsOctets (t : SmiType) : Prop := t = .octetString ∨ t = .ipAddress ∨ t = .opaqueData

/-- How one field can fail. -/
theorem field_errors (t : SmiType) (nums : List Nat) (implied : Bool) :
    (∃ v rest, decodeIndexField nums t implied = .ok (v, rest) ∧ v.type = t ∧
      ∃ pre, nums = pre ++ rest) ∨
    decodeIndexField nums t implied = .error .indexDecodeError ∨
    (decodeIndexField nums t implied = .error .runtimeError ∧ t = .oid ∧ implied = false) ∨
    (decodeIndexField nums t implied = .error .valueError ∧ Spec.readsOctets t ∧
      ∃ n ∈ nums, 256 ≤ n) := by
  have hoct : (∃ d rest, octetsFromOID nums implied = .ok (d, rest) ∧ ∃ pre, nums = pre ++ rest) ∨
      octetsFromOID nums implied = .error .stopIteration ∨
      (octetsFromOID nums implied = .error .valueError ∧ ∃ n ∈ nums, 256 ≤ n) := by
    have hb : ∀ l : List Nat, (∃ d, bytesOfInts l = .ok d) ∨
        (bytesOfInts l = .error .valueError ∧ ∃ n ∈ l, 256 ≤ n) := by
      intro l
      unfold bytesOfInts
      split
      · exact .inl ⟨_, rfl⟩
      · rename_i h
        refine .inr ⟨rfl, ?_⟩
        by_contra hc
        apply h
        rw [List.all_eq_true]
        intro x hx
        have : ¬ 256 ≤ x := fun h' => hc ⟨x, hx, h'⟩
        simpa using this
    unfold octetsFromOID
    cases implied
    · simp only [Bool.false_eq_true, ↓reduceIte]
      cases nums with
      | nil => exact .inr (.inl rfl)
      | cons n nums =>
        simp only
        unfold takeNums
        split
        · exact .inr (.inl rfl)
        · rename_i l rest heq
          split at heq
          · simp only [Option.some.injEq, Prod.mk.injEq] at heq
            obtain ⟨rfl, rfl⟩ := heq
            rcases hb (nums.take n) with ⟨d, hd⟩ | ⟨hd, x, hx, hx2⟩
            · rw [hd]
              exact .inl ⟨d, nums.drop n, rfl, n :: nums.take n, by simp⟩
            · rw [hd]
              exact .inr (.inr ⟨rfl, x, by simp [List.mem_of_mem_take hx], hx2⟩)
          · cases heq
    · simp only [↓reduceIte]
      rcases hb nums with ⟨d, hd⟩ | ⟨hd, x, hx, hx2⟩
      · rw [hd]; exact .inl ⟨d, [], rfl, nums, by simp⟩
      · rw [hd]; exact .inr (.inr ⟨rfl, x, hx, hx2⟩)
  unfold decodeIndexField
  cases t with
  | int t =>
    simp only [SmiType.fromOID]
    cases nums with
    | nil => exact .inr (.inl rfl)
    | cons n rest =>
      simp only
      rw [IntType.construct_eq]
      split
      · exact .inl ⟨_, rest, rfl, rfl, [n], rfl⟩
      · exact .inr (.inl rfl)
  | octetString =>
    simp only [SmiType.fromOID]
    rcases hoct with ⟨d, rest, h, hp⟩ | h | ⟨h, hn⟩
    · rw [h]; simp only [Except.bind]
      rw [octetStringConstruct_eq (Asn1Data.valid_bytes d)]
      split
      · exact .inr (.inl rfl)
      · exact .inl ⟨_, rest, rfl, rfl, hp⟩
    · rw [h]; exact .inr (.inl rfl)
    · rw [h]; exact .inr (.inr (.inr ⟨rfl, .inl rfl, hn⟩))
  | ipAddress =>
    simp only [SmiType.fromOID]
    rcases hoct with ⟨d, rest, h, hp⟩ | h | ⟨h, hn⟩
    · rw [h]; simp only [Except.bind]
      unfold ipAddressConstruct
      split
      · exact .inl ⟨_, rest, rfl, rfl, hp⟩
      · exact .inr (.inl rfl)
    · rw [h]; exact .inr (.inl rfl)
    · rw [h]; exact .inr (.inr (.inr ⟨rfl, .inr (.inl rfl), hn⟩))
  | opaqueData =>
    simp only [SmiType.fromOID]
    rcases hoct with ⟨d, rest, h, hp⟩ | h | ⟨h, hn⟩
    · rw [h]; exact .inl ⟨_, rest, rfl, rfl, hp⟩
    · rw [h]; exact .inr (.inl rfl)
    · rw [h]; exact .inr (.inr (.inr ⟨rfl, .inr (.inr rfl), hn⟩))
  | oid =>
    simp only [SmiType.fromOID]
    have hs : (∃ l rest, subsFromOID nums implied = .ok (l, rest) ∧ ∃ pre, nums = pre ++ rest) ∨
        subsFromOID nums implied = .error .stopIteration ∨
        (subsFromOID nums implied = .error .runtimeError ∧ implied = false) := by
      unfold subsFromOID
      cases implied
      · simp only [Bool.false_eq_true, ↓reduceIte]
        cases nums with
        | nil => exact .inr (.inl rfl)
        | cons n nums =>
          simp only
          unfold takeNums
          split
          · exact .inr (.inr ⟨rfl, trivial⟩)
          · rename_i r heq
            split at heq
            · simp only [Option.some.injEq] at heq
              subst heq
              exact .inl ⟨_, _, rfl, n :: nums.take n, by simp⟩
            · cases heq
      · exact .inl ⟨nums, [], rfl, nums, by simp⟩
    rcases hs with ⟨l, rest, h, hp⟩ | h | ⟨h, hi⟩
    · rw [h]; simp only [Except.bind]
      cases hc : Oid.construct (l.map Int.ofNat) with
      | ok o => exact .inl ⟨_, rest, rfl, rfl, hp⟩
      | error e =>
        rw [Oid.construct_parseOnly _ e hc]
        exact .inr (.inl rfl)
    · rw [h]; exact .inr (.inl rfl)
    · rw [h]; exact .inr (.inr (.inl ⟨rfl, trivial, hi⟩))
  | null => exact .inl ⟨_, nums, rfl, rfl, [], rfl⟩
  | noSuchObject => exact .inl ⟨_, nums, rfl, rfl, [], rfl⟩
  | noSuchInstance => exact .inl ⟨_, nums, rfl, rfl, [], rfl⟩
  | endOfMibView => exact .inl ⟨_, nums, rfl, rfl, [], rfl⟩

theorem fields_errors (types : List SmiType) (nums : List Nat) (implied : Bool) :
    (∃ vs rest, decodeIndexFields types nums implied = .ok (vs, rest) ∧
      vs.map Value.type = types ∧ ∃ pre, nums = pre ++ rest) ∨
    decodeIndexFields types nums implied = .error .indexDecodeError ∨
    (decodeIndexFields types nums implied = .error .runtimeError ∧ SmiType.oid ∈ types) ∨
    (decodeIndexFields types nums implied = .error .valueError ∧ (∃ t ∈ types, Spec.readsOctets t) ∧
      ∃ n ∈ nums, 256 ≤ n) := by
  induction types generalizing nums with
  | nil => exact .inl ⟨[], nums, rfl, rfl, [], rfl⟩
  | cons t ts ih =>
    cases ts with
    | nil =>
      simp only [decodeIndexFields]
      rcases field_errors t nums implied with ⟨v, rest, h, ht, hp⟩ | h | ⟨h, ht, -⟩ | ⟨h, ht, hn⟩
      · rw [h]; exact .inl ⟨_, rest, rfl, by simp [ht], hp⟩
      · rw [h]; exact .inr (.inl rfl)
      · rw [h]; exact .inr (.inr (.inl ⟨rfl, by simp [ht]⟩))
      · rw [h]; exact .inr (.inr (.inr ⟨rfl, ⟨t, by simp, ht⟩, hn⟩))
    | cons u us =>
      simp only [decodeIndexFields]
      rcases field_errors t nums false with ⟨v, rest, h, ht, pre, hp⟩ | h | ⟨h, ht, -⟩ | ⟨h, ht, hn⟩
      · rw [h]; simp only [Except.bind]
        rcases ih rest with ⟨vs, rest', h', ht', pre', hp'⟩ | h' | ⟨h', ht'⟩ | ⟨h', ⟨x, hx, hx2⟩, n, hn, hn2⟩
        · rw [h']; exact .inl ⟨_, rest', rfl, by simp [ht, ht'], pre ++ pre', by rw [hp, hp']; simp⟩
        · rw [h']; exact .inr (.inl rfl)
        · rw [h']; exact .inr (.inr (.inl ⟨rfl, List.mem_cons_of_mem _ ht'⟩))
        · rw [h']
          exact .inr (.inr (.inr ⟨rfl, ⟨x, List.mem_cons_of_mem _ hx, hx2⟩, n, by rw [hp]; simp [hn], hn2⟩))
      · rw [h]; exact .inr (.inl rfl)
      · rw [h]; exact .inr (.inr (.inl ⟨rfl, by simp [ht]⟩))
      · rw [h]; exact .inr (.inr (.inr ⟨rfl, ⟨t, by simp, ht⟩, hn⟩))

/-- C19, as far as it is true: `BadPrefix` is raised exactly for a wrong prefix; otherwise the
result is one object per type or `IndexDecodeError`, or `RuntimeError` if an OID is among the
types, or `ValueError` if an octet type is among them and a number above 255 in the index. The last
two are missing from the full statement, see `C19_false`. -/
theorem C19_partial (oid pfx : List Nat) (types : List SmiType) (implied : Bool) :
    (Oid.decodeIndex oid pfx types implied = .error .badPrefix ↔ ¬ pfx <+: oid) ∧
    (pfx <+: oid →
      (∃ vs, Oid.decodeIndex oid pfx types implied = .ok vs ∧ vs.map Value.type = types) ∨
      Oid.decodeIndex oid pfx types implied = .error .indexDecodeError ∨
      (Oid.decodeIndex oid pfx types implied = .error .runtimeError ∧ SmiType.oid ∈ types) ∨
      (Oid.decodeIndex oid pfx types implied = .error .valueError ∧
        (∃ t ∈ types, Spec.readsOctets t) ∧ ∃ n ∈ oid, 256 ≤ n)) := by
  have hpre : Oid.startswith oid pfx = true ↔ pfx <+: oid := by
    unfold Oid.startswith
    rw [decide_eq_true_iff, List.prefix_iff_eq_take]
    exact eq_comm
  have main : pfx <+: oid →
      (∃ vs, Oid.decodeIndex oid pfx types implied = .ok vs ∧ vs.map Value.type = types) ∨
      Oid.decodeIndex oid pfx types implied = .error .indexDecodeError ∨
      (Oid.decodeIndex oid pfx types implied = .error .runtimeError ∧ SmiType.oid ∈ types) ∨
      (Oid.decodeIndex oid pfx types implied = .error .valueError ∧
        (∃ t ∈ types, Spec.readsOctets t) ∧ ∃ n ∈ oid, 256 ≤ n) := by
    intro hp
    unfold Oid.decodeIndex
    rw [hpre.2 hp]
    simp only [Bool.not_true, Bool.false_eq_true, ↓reduceIte]
    rcases fields_errors types (oid.drop pfx.length) implied with
      ⟨vs, rest, h, ht, -⟩ | h | ⟨h, ht⟩ | ⟨h, ht, n, hn, hn2⟩
    · rw [h]; simp only [Except.bind]
      split
      · exact .inl ⟨vs, rfl, ht⟩
      · exact .inr (.inl rfl)
    · rw [h]; exact .inr (.inl rfl)
    · rw [h]; exact .inr (.inr (.inl ⟨rfl, ht⟩))
    · rw [h]; exact .inr (.inr (.inr ⟨rfl, ht, n, List.mem_of_mem_drop hn, hn2⟩))
  refine ⟨⟨?_, ?_⟩, main⟩
  · intro h hp
    rcases main hp with ⟨vs, h', -⟩ | h' | ⟨h', -⟩ | ⟨h', -⟩ <;> rw [h'] at h <;> cases h
  · intro hp
    unfold Oid.decodeIndex
    have : Oid.startswith oid pfx = false := by
      rw [← Bool.not_eq_true, hpre]; exact hp
    rw [this]; rfl

/-- C19 is false of the code: a nested OID cut short raises `RuntimeError`, and an octet above 255
raises `ValueError`. -/
theorem C19_false :
    Oid.decodeIndex [1, 3, 5, 1] [1, 3] [.oid] false = .error .runtimeError ∧
    Oid.decodeIndex [1, 3, 1, 256] [1, 3] [.octetString] false = .error .valueError := by
  constructor <;> decide +kernel

example : ¬ ([1, 4] : List Nat) <+: [1, 3, 6] := by decide

end Snmp
