import Verif.Props.Oid
/-!
# C17 and C18: exactly which text is an OID, and reading one index
-/

namespace Snmp

/-- The character `c` is the decimal digit `d`. -/
def Spec.Digit (c : Char) (d : Nat) : Prop := d < 10 ∧ c = Char.ofNat (48 + d)

/-- The text is a decimal number: digits, where a single underscore may stand between two digits. -/
inductive Spec.Digits : Text → Nat → Prop
  | one {c d} : Spec.Digit c d → Spec.Digits [c] d
  | next {w n c d} : Spec.Digits w n → Spec.Digit c d → Spec.Digits (w ++ [c]) (10 * n + d)
  | grouped {w n c d} : Spec.Digits w n → Spec.Digit c d → Spec.Digits (w ++ ['_', c]) (10 * n + d)

/-- ASCII white space. -/
def Spec.Blank (w : Text) : Prop := ∀ c ∈ w, c ∈ [' ', '\t', '\n', '\x0b', '\x0c', '\r']

/-- The text is an integer literal as `int()` reads it: blanks, perhaps a sign, a decimal number, blanks. -/
def Spec.Numeral (w : Text) (v : Int) : Prop :=
  ∃ lead sign digits trail n, w = lead ++ sign ++ digits ++ trail ∧ Spec.Blank lead ∧ Spec.Blank trail ∧ Spec.Digits digits n ∧
    (((sign = [] ∨ sign = ['+']) ∧ v = n) ∨ (sign = ['-'] ∧ v = -n))

theorem digitValue_iff (c : Char) (d : Nat) : digitValue c = some d ↔ Spec.Digit c d := by
  constructor
  · intro h
    unfold digitValue at h
    split at h
    · rename_i hc
      injection h with h
      obtain ⟨h1, h2⟩ := hc
      have h1' : 48 ≤ c.toNat := h1
      have h2' : c.toNat ≤ 57 := h2
      have e : '0'.toNat = 48 := rfl
      rw [e] at h
      refine ⟨by omega, ?_⟩
      rw [← h, show 48 + (c.toNat - 48) = c.toNat by omega, Char.ofNat_toNat]
    · cases h
  · rintro ⟨hd, rfl⟩
    exact (digitChar_facts hd).1

theorem Spec.Digit.facts {c : Char} {d : Nat} (h : Spec.Digit c d) : c ≠ '_' ∧ c ≠ '+' ∧ c ≠ '-' ∧ c ≠ '.' ∧ isPySpace c = false := by
  obtain ⟨hd, rfl⟩ := h
  obtain ⟨-, h1, h2, h3, h4, h5⟩ := digitChar_facts hd
  exact ⟨h1, h3, h4, h2, h5⟩

theorem scanDigits_of {w : Text} {n : Nat} (h : Spec.Digits w n) (rest : Text) :
    scanDigits (w ++ rest) 0 false = scanDigits rest n true := by
  induction h generalizing rest with
  | @one c d hd =>
    simp only [List.singleton_append]
    rw [scanDigits, if_neg hd.facts.1, (digitValue_iff c d).2 hd]
    simp
  | @next w n c d _ hd ih =>
    rw [List.append_assoc, ih]
    simp only [List.singleton_append]
    rw [scanDigits, if_neg hd.facts.1, (digitValue_iff c d).2 hd]
    simp only [Nat.mul_comm]
  | @grouped w n c d _ hd ih =>
    rw [List.append_assoc, ih]
    simp only [List.cons_append, List.nil_append]
    rw [scanDigits, if_pos rfl, if_pos rfl, scanDigits, if_neg hd.facts.1, (digitValue_iff c d).2 hd]
    simp only [Nat.mul_comm]

theorem of_scanDigits (rest : Text) : ∀ (u : Text) (acc n : Nat), Spec.Digits u acc →
    (scanDigits rest acc true = some n → Spec.Digits (u ++ rest) n) ∧
    (scanDigits rest acc false = some n → Spec.Digits (u ++ '_' :: rest) n) := by
  induction rest with
  | nil =>
    intro u acc n hu
    refine ⟨fun h => ?_, fun h => ?_⟩
    · simp only [scanDigits, if_true, Option.some.injEq] at h
      rw [List.append_nil, ← h]; exact hu
    · simp [scanDigits] at h
  | cons c cs ih =>
    intro u acc n hu
    refine ⟨fun h => ?_, fun h => ?_⟩
    · rw [scanDigits] at h
      split at h
      · rename_i hc
        subst hc
        rw [if_pos rfl] at h
        exact (ih u acc n hu).2 h
      · split at h
        · rename_i d hd
          have := (ih (u ++ [c]) (10 * acc + d) n (.next hu ((digitValue_iff c d).1 hd))).1 (by rw [Nat.mul_comm]; exact h)
          simpa using this
        · cases h
    · rw [scanDigits] at h
      split at h
      · simp at h
      · split at h
        · rename_i d hd
          have := (ih (u ++ ['_', c]) (10 * acc + d) n (.grouped hu ((digitValue_iff c d).1 hd))).1 (by rw [Nat.mul_comm]; exact h)
          simpa using this
        · cases h

theorem scanDigits_iff (w : Text) (n : Nat) : scanDigits w 0 false = some n ↔ Spec.Digits w n := by
  constructor
  · intro h
    cases w with
    | nil => simp [scanDigits] at h
    | cons c cs =>
      rw [scanDigits] at h
      split at h
      · simp at h
      · split at h
        · rename_i d hd
          exact (of_scanDigits cs [c] d n (.one ((digitValue_iff c d).1 hd))).1 (by simpa using h)
        · cases h
  · intro h
    have := scanDigits_of h []
    rw [List.append_nil] at this
    rw [this]; rfl

theorem Spec.Digits.head {w : Text} {n : Nat} (h : Spec.Digits w n) : ∃ c d cs, w = c :: cs ∧ Spec.Digit c d := by
  induction h with
  | one hd => exact ⟨_, _, [], rfl, hd⟩
  | next _ _ ih => obtain ⟨c, d, cs, rfl, h⟩ := ih; exact ⟨c, d, _, rfl, h⟩
  | grouped _ _ ih => obtain ⟨c, d, cs, rfl, h⟩ := ih; exact ⟨c, d, _, rfl, h⟩

theorem Spec.Digits.last {w : Text} {n : Nat} (h : Spec.Digits w n) : ∃ c d cs, w = cs ++ [c] ∧ Spec.Digit c d := by
  cases h with
  | one hd => exact ⟨_, _, [], rfl, hd⟩
  | next _ hd => exact ⟨_, _, _, rfl, hd⟩
  | @grouped w n c d _ hd => exact ⟨c, d, w ++ ['_'], by simp, hd⟩

theorem scanSigned_iff (w : Text) (v : Int) : scanSigned w = some v ↔
    ∃ sign digits n, w = sign ++ digits ∧ Spec.Digits digits n ∧
      (((sign = [] ∨ sign = ['+']) ∧ v = n) ∨ (sign = ['-'] ∧ v = -n)) := by
  constructor
  · intro h
    unfold scanSigned at h
    split at h
    · rename_i cs
      obtain ⟨n, h1, h2⟩ := Option.map_eq_some_iff.1 h
      exact ⟨['+'], cs, n, rfl, (scanDigits_iff _ _).1 h1, .inl ⟨.inr rfl, h2.symm⟩⟩
    · rename_i cs
      obtain ⟨n, h1, h2⟩ := Option.map_eq_some_iff.1 h
      exact ⟨['-'], cs, n, rfl, (scanDigits_iff _ _).1 h1, .inr ⟨rfl, h2.symm⟩⟩
    · obtain ⟨n, h1, h2⟩ := Option.map_eq_some_iff.1 h
      exact ⟨[], w, n, rfl, (scanDigits_iff _ _).1 h1, .inl ⟨.inl rfl, h2.symm⟩⟩
  · rintro ⟨sign, digits, n, rfl, hd, ⟨rfl | rfl, rfl⟩ | ⟨rfl, rfl⟩⟩
    · obtain ⟨c, d, cs, rfl, hc⟩ := hd.head
      have := (scanDigits_iff _ _).2 hd
      unfold scanSigned
      split
      · rename_i h; injection h with h _; exact absurd h hc.facts.2.1
      · rename_i h; injection h with h _; exact absurd h hc.facts.2.2.1
      · rw [List.nil_append, this]; rfl
    · rw [List.singleton_append, scanSigned, (scanDigits_iff _ _).2 hd]; rfl
    · rw [List.singleton_append, scanSigned, (scanDigits_iff _ _).2 hd]; rfl

theorem isPySpace_iff (c : Char) : isPySpace c = true ↔ c ∈ [' ', '\t', '\n', '\x0b', '\x0c', '\r'] := by
  unfold isPySpace
  simp only [Bool.or_eq_true, beq_iff_eq, List.mem_cons, List.not_mem_nil, or_false]
  tauto

theorem dropWhile_blank {lead w : Text} (hl : Spec.Blank lead) : (lead ++ w).dropWhile isPySpace = w.dropWhile isPySpace := by
  induction lead with
  | nil => rfl
  | cons c cs ih =>
    rw [List.cons_append, List.dropWhile_cons_of_pos ((isPySpace_iff c).2 (hl c (by simp)))]
    exact ih (fun x hx => hl x (by simp [hx]))

theorem blank_takeWhile (w : Text) : Spec.Blank (w.takeWhile isPySpace) := by
  induction w with
  | nil => intro c hc; cases hc
  | cons a w ih =>
    rw [List.takeWhile_cons]
    split
    · rename_i ha
      intro c hc
      rcases List.mem_cons.1 hc with rfl | hc
      · exact (isPySpace_iff _).1 ha
      · exact ih c hc
    · intro c hc; cases hc

/-- `int(text)` succeeds exactly on integer literals, with their value. -/
theorem pyInt_iff (w : Text) (v : Int) : pyInt w = some v ↔ Spec.Numeral w v := by
  unfold pyInt
  constructor
  · intro h
    obtain ⟨sign, digits, n, e, hd, hs⟩ := (scanSigned_iff _ _).1 h
    have e1 : (w.dropWhile isPySpace) = sign ++ digits ++ ((w.dropWhile isPySpace).reverse.takeWhile isPySpace).reverse := by
      rw [← e, ← List.reverse_append, List.takeWhile_append_dropWhile, List.reverse_reverse]
    refine ⟨w.takeWhile isPySpace, sign, digits, ((w.dropWhile isPySpace).reverse.takeWhile isPySpace).reverse, n, ?_, blank_takeWhile _, ?_,
      hd, hs⟩
    · rw [List.append_assoc, List.append_assoc, ← List.append_assoc sign, ← e1, List.takeWhile_append_dropWhile]
    · intro c hc
      exact blank_takeWhile _ c (List.mem_reverse.1 hc)
  · rintro ⟨lead, sign, digits, trail, n, rfl, hl, ht, hd, hs⟩
    refine (scanSigned_iff _ _).2 ⟨sign, digits, n, ?_, hd, hs⟩
    obtain ⟨c, d, cs, rfl, hc⟩ := hd.head
    obtain ⟨x, y, ys, e, hx⟩ := hd.last
    have h1 : (lead ++ sign ++ (c :: cs) ++ trail).dropWhile isPySpace = sign ++ (c :: cs) ++ trail := by
      rw [List.append_assoc, List.append_assoc, dropWhile_blank hl, ← List.append_assoc]
      rcases hs with ⟨rfl | rfl, -⟩ | ⟨rfl, -⟩
      · rw [List.nil_append, List.cons_append, List.dropWhile_cons_of_neg]; rw [hc.facts.2.2.2.2]; decide
      · rfl
      · rfl
    rw [h1, List.reverse_append, dropWhile_blank (fun z hz => ht z (List.mem_reverse.1 hz)), e, ← List.append_assoc, List.reverse_append,
      List.reverse_singleton, List.singleton_append, List.dropWhile_cons_of_neg (by rw [hx.facts.2.2.2.2]; decide)]
    simp

theorem allInts_iff (ws : List Text) (l : List Int) : allInts ws = some l ↔ List.Forall₂ Spec.Numeral ws l := by
  induction ws generalizing l with
  | nil =>
    simp only [allInts, Option.some.injEq]
    constructor
    · rintro rfl; exact .nil
    · intro h; cases h; rfl
  | cons w ws ih =>
    simp only [allInts]
    constructor
    · intro h
      obtain ⟨x, h1, h⟩ := Option.bind_eq_some_iff.1 h
      obtain ⟨xs, h2, rfl⟩ := Option.map_eq_some_iff.1 h
      exact .cons ((pyInt_iff _ _).1 h1) ((ih _).1 h2)
    · rintro (_ | ⟨h1, h2⟩)
      rw [(pyInt_iff _ _).2 h1, (ih _).2 h2]; rfl

/-- C17: exactly which text is an OID. Cut the text at the dots, and leave out the first piece if it is empty: `parse` succeeds with `o` if and
only if the pieces are integer literals (decimal numbers, perhaps with a sign, single underscores between digits, and blanks around)
whose values are the numbers of `o`, and these are within the limits of an OID. -/
theorem C17_parse_iff (comps : List Text) (hne : comps ≠ []) (hdot : ∀ w ∈ comps, ∀ c ∈ w, c ≠ '.') (o : List Nat) :
    Oid.parse (joinDot comps) = .ok o ↔
      List.Forall₂ Spec.Numeral (if comps.head? = some [] then comps.tail else comps) (o.map Int.ofNat) ∧
      Spec.OidOk (o.map Int.ofNat) := by
  unfold Oid.parse
  rw [splitDot_join _ hne hdot]
  simp only [List.drop_one]
  generalize (if comps.head? = some [] then comps.tail else comps) = ws
  constructor
  · intro h
    split at h
    · cases h
    · rename_i ints hi
      obtain ⟨h1, h2⟩ := Oid.new_inv h
      by_cases hok : Spec.OidOk ints
      · rw [h1]
        exact ⟨(allInts_iff _ _).1 hi, hok⟩
      · rw [(C16_local ints).2 hok] at h; cases h
  · rintro ⟨h1, h2⟩
    rw [(allInts_iff _ _).2 h1]
    exact (Oid.new_ofNat_iff o o).2 ⟨(oidOk_ofNat o).1 h2, rfl⟩

/-- Every text is, in one way, a list of pieces joined by dots. -/
theorem C17_pieces (text : Text) : ∃ comps, comps ≠ [] ∧ (∀ w ∈ comps, ∀ c ∈ w, c ≠ '.') ∧ joinDot comps = text := by
  induction text with
  | nil => exact ⟨[[]], by simp, by simp, rfl⟩
  | cons c cs ih =>
    obtain ⟨comps, h1, h2, h3⟩ := ih
    by_cases hc : c = '.'
    · subst hc
      refine ⟨[] :: comps, by simp, ?_, ?_⟩
      · intro w hw
        rcases List.mem_cons.1 hw with rfl | hw
        · simp
        · exact h2 w hw
      · cases comps with
        | nil => exact absurd rfl h1
        | cons w ws => rw [joinDot, h3]; rfl; simp
    · cases comps with
      | nil => exact absurd rfl h1
      | cons w ws =>
        refine ⟨(c :: w) :: ws, by simp, ?_, ?_⟩
        · intro u hu
          rcases List.mem_cons.1 hu with rfl | hu
          · intro x hx
            rcases List.mem_cons.1 hx with rfl | hx
            · exact hc
            · exact h2 w (by simp) x hx
          · exact h2 u (by simp [hu])
        · cases ws with
          | nil => simp only [joinDot] at h3 ⊢; rw [h3]
          | cons v vs =>
            rw [joinDot] at h3 ⊢
            · rw [List.cons_append, h3]
            · simp
            · simp

/-- A negative number is refused. -/
example : Oid.parse "1.3.-6".toList = .error .valueError := by decide +kernel
example : Spec.Numeral " +1_0 ".toList 10 :=
  ⟨[' '], ['+'], ['1', '_', '0'], [' '], 10, rfl, by simp [Spec.Blank], by simp [Spec.Blank],
    .grouped (w := ['1']) (n := 1) (.one ⟨by decide, rfl⟩) (d := 0) ⟨by decide, rfl⟩, .inl ⟨.inr rfl, rfl⟩⟩
example : Oid.parse "1. +1_0 ".toList = .ok [1, 10] := by decide +kernel

/-- C18 for a table with one index: `getIndex` gives back the object, again without `IpAddress` unless implied. -/
theorem C18_getIndex_partial (pfx : List Nat) (x : Value) (implied : Bool) (hok : Spec.IndexOk implied [x]) (oid : List Nat)
    (h : Oid.withIndex pfx [x] implied = .ok oid) : Oid.getIndex oid pfx x.type implied = .ok x := by
  unfold Oid.getIndex
  rw [show Oid.decodeIndex oid pfx [x.type] implied = .ok [x] from C18_partial pfx [x] implied hok oid h]
  rfl

/-- C19 for a table with one index. -/
theorem C19_getIndex_partial (oid pfx : List Nat) (t : SmiType) (implied : Bool) :
    (Oid.getIndex oid pfx t implied = .error .badPrefix ↔ ¬ pfx <+: oid) ∧
    (pfx <+: oid →
      (∃ v, Oid.getIndex oid pfx t implied = .ok v ∧ v.type = t ∧ Oid.decodeIndex oid pfx [t] implied = .ok [v]) ∨
      Oid.getIndex oid pfx t implied = .error .indexDecodeError ∨
      (Oid.getIndex oid pfx t implied = .error .runtimeError ∧ t = .oid) ∨
      (Oid.getIndex oid pfx t implied = .error .valueError ∧ Spec.readsOctets t ∧ ∃ n ∈ oid, 256 ≤ n)) := by
  obtain ⟨h1, h2⟩ := C19_partial oid pfx [t] implied
  have main : pfx <+: oid →
      (∃ v, Oid.getIndex oid pfx t implied = .ok v ∧ v.type = t ∧ Oid.decodeIndex oid pfx [t] implied = .ok [v]) ∨
      Oid.getIndex oid pfx t implied = .error .indexDecodeError ∨
      (Oid.getIndex oid pfx t implied = .error .runtimeError ∧ t = .oid) ∨
      (Oid.getIndex oid pfx t implied = .error .valueError ∧ Spec.readsOctets t ∧ ∃ n ∈ oid, 256 ≤ n) := by
    intro hp
    unfold Oid.getIndex
    rcases h2 hp with ⟨vs, h, ht⟩ | h | ⟨h, ht⟩ | ⟨h, ⟨t', ht, hr⟩, hn⟩
    · obtain ⟨v, rfl, ht'⟩ := List.map_eq_singleton_iff.1 ht
      rw [h]; exact .inl ⟨v, rfl, ht', rfl⟩
    · rw [h]; exact .inr (.inl rfl)
    · rw [h]; exact .inr (.inr (.inl ⟨rfl, (List.mem_singleton.1 ht).symm⟩))
    · rw [h]
      rw [List.mem_singleton] at ht
      subst ht
      exact .inr (.inr (.inr ⟨rfl, hr, hn⟩))
  refine ⟨⟨fun h hp => ?_, fun hp => ?_⟩, main⟩
  · rcases main hp with ⟨v, h', -⟩ | h' | ⟨h', -⟩ | ⟨h', -⟩ <;> rw [h'] at h <;> cases h
  · unfold Oid.getIndex
    rw [h1.2 hp]; rfl

example : Oid.getIndex [1, 3, 6, 65, 66] [1, 3, 6] .octetString true = .ok (.octets [65, 66]) := by decide +kernel
example : Spec.IndexOk true [.octets [65, 66]] := by simp only [Spec.IndexOk]; decide +kernel

end Snmp
