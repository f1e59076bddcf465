import Verif.Asn1
import Verif.BerRound
import Mathlib.Data.List.Induction
import Mathlib.Tactic.Ring
import Mathlib.Tactic.Linarith
/-!
# Lemmas about integers, OIDs and primitive codecs
-/

set_option linter.unusedSimpArgs false

namespace Snmp

/-! ## Integers as bytes -/

theorem bitLength_le (n k : Nat) : bitLength n ≤ k ↔ n < 2 ^ k := by
  unfold bitLength
  split
  · rename_i h; subst h; simp
  · rename_i h
    rw [Nat.succ_le_iff, Nat.log2_lt h]

theorem natToBytes_length (n v : Nat) : (natToBytes n v).length = n := by
  induction n generalizing v with
  | zero => rfl
  | succ n ih => simp [natToBytes, ih]

theorem fromBytesBE_snoc (d : Bytes) (b : UInt8) :
    fromBytesBE (d ++ [b]) = fromBytesBE d * 256 + b.toNat := by
  simp [fromBytesBE]

theorem fromBytesBE_natToBytes (n v : Nat) : fromBytesBE (natToBytes n v) = v % 256 ^ n := by
  induction n generalizing v with
  | zero => simp [natToBytes, fromBytesBE, Nat.mod_one]
  | succ n ih =>
    rw [natToBytes, fromBytesBE_snoc, ih, ofNat_toNat (Nat.mod_lt _ (by omega))]
    rw [Nat.pow_succ', Nat.mod_mul]; ring

theorem fromBytesBE_lt (d : Bytes) : fromBytesBE d < 256 ^ d.length := by
  induction d using List.reverseRecOn with
  | nil => simp [fromBytesBE]
  | append_singleton d b ih =>
    rw [fromBytesBE_snoc]
    simp only [List.length_append, List.length_cons, List.length_nil, Nat.zero_add, Nat.pow_succ]
    have := b.toNat_lt
    omega

theorem natToBytes_fromBytesBE (d : Bytes) : natToBytes d.length (fromBytesBE d) = d := by
  induction d using List.reverseRecOn with
  | nil => rfl
  | append_singleton d b ih =>
    rw [fromBytesBE_snoc]
    simp only [List.length_append, List.length_cons, List.length_nil, Nat.zero_add, natToBytes]
    have hb := b.toNat_lt
    rw [show (fromBytesBE d * 256 + b.toNat) / 256 = fromBytesBE d by omega, ih,
      show (fromBytesBE d * 256 + b.toNat) % 256 = b.toNat by omega]
    simp

/-- `v` fits in `n` octets of two's complement. -/
def FitsOctets (n : Nat) (v : Int) : Prop := -(2 ^ (8 * n - 1) : Int) ≤ v ∧ v < 2 ^ (8 * n - 1)

theorem pow256 (n : Nat) : (256 : Int) ^ n = 2 ^ (8 * n) := by
  rw [Int.pow_mul]; norm_num

theorem two_pow_pred {k : Nat} (hk : 1 ≤ k) : (2 : Int) ^ k = 2 * 2 ^ (k - 1) := by
  obtain ⟨m, rfl⟩ : ∃ m, k = m + 1 := ⟨k - 1, by omega⟩
  simp [Int.pow_succ, mul_comm]

theorem fromBytesSigned_toBytesSigned {n : Nat} (hn : 1 ≤ n) {v : Int} (hv : FitsOctets n v) :
    ∃ bs, toBytesSigned n v = .ok bs ∧ bs.length = n ∧ fromBytesSigned bs = v := by
  obtain ⟨h1, h2⟩ := hv
  refine ⟨natToBytes n (v % (256 ^ n : Int)).toNat, ?_, natToBytes_length _ _, ?_⟩
  · unfold toBytesSigned; rw [if_pos ⟨h1, h2⟩]
  · have hpos : (0 : Int) < 2 ^ (8 * n - 1) := by positivity
    have hp2 : (2 : Int) ^ (8 * n) = 2 * 2 ^ (8 * n - 1) := two_pow_pred (by omega)
    have hne : natToBytes n (v % (256 ^ n : Int)).toNat ≠ [] := by
      intro h
      have := congrArg List.length h
      rw [natToBytes_length] at this; simp at this; omega
    unfold fromBytesSigned
    rw [if_neg hne]
    simp only [natToBytes_length, fromBytesBE_natToBytes]
    have hm0 : 0 ≤ v % (256 ^ n : Int) := Int.emod_nonneg _ (by positivity)
    have hm1 : v % (256 ^ n : Int) < 256 ^ n := Int.emod_lt_of_pos _ (by positivity)
    have hmod : (v % (256 ^ n : Int)).toNat % 256 ^ n = (v % (256 ^ n : Int)).toNat := by
      apply Nat.mod_eq_of_lt
      have : (((v % (256 ^ n : Int)).toNat : Nat) : Int) < ((256 ^ n : Nat) : Int) := by
        rw [Int.toNat_of_nonneg hm0]; push_cast; exact hm1
      exact_mod_cast this
    rw [hmod]
    have hcast : (((v % (256 ^ n : Int)).toNat : Nat) : Int) = v % 256 ^ n := Int.toNat_of_nonneg hm0
    have hcond : (v % (256 ^ n : Int)).toNat < 2 ^ (8 * n - 1) ↔ v % (256 ^ n : Int) < 2 ^ (8 * n - 1) := by
      rw [← hcast]; constructor
      · intro h; exact_mod_cast h
      · intro h; exact_mod_cast h
    rw [hcast]
    by_cases hneg : v < 0
    · have hval : v % (256 ^ n : Int) = v + 2 ^ (8 * n) := by
        rw [pow256]
        rw [← Int.add_emod_right]
        exact Int.emod_eq_of_lt (by omega) (by omega)
      rw [if_neg (by rw [hcond, hval]; omega), hval]; omega
    · have hval : v % (256 ^ n : Int) = v := by
        rw [pow256]; exact Int.emod_eq_of_lt (by omega) (by omega)
      rw [if_pos (by rw [hcond, hval]; exact h2), hval]

theorem bitCount_le (v : Int) (k : Nat) : bitCount v ≤ k ↔ -(2 ^ k : Int) ≤ v ∧ v < 2 ^ k := by
  unfold bitCount
  simp only
  rw [bitLength_le]
  have hk : (0 : Int) < 2 ^ k := by positivity
  have hc : ∀ n : Nat, n < 2 ^ k ↔ (n : Int) < 2 ^ k := by
    intro n; constructor
    · intro h; exact_mod_cast h
    · intro h; exact_mod_cast h
  rw [hc]
  split
  · omega
  · omega

theorem intSerialize_spec (v : Int) :
    ∃ bs, intSerialize v = .ok bs ∧ bs.length = bitCount v / 8 + 1 ∧ fromBytesSigned bs = v ∧
      ∀ n, 1 ≤ n → FitsOctets n v → bs.length ≤ n := by
  have hfit : FitsOctets (bitCount v / 8 + 1) v := by
    have := (bitCount_le v (8 * (bitCount v / 8 + 1) - 1)).1 (by omega)
    exact this
  obtain ⟨bs, h1, h2, h3⟩ := fromBytesSigned_toBytesSigned (by omega) hfit
  refine ⟨bs, h1, h2, h3, ?_⟩
  intro n hn hf
  have := (bitCount_le v (8 * n - 1)).2 hf
  omega

theorem IntType.inRange_iff (t : IntType) (v : Int) : t.inRange v = true ↔
    match t with
    | .integer => True
    | .integer32 => -(2 ^ 31 : Int) ≤ v ∧ v < 2 ^ 31
    | .unsigned32 | .counter32 | .gauge32 | .timeTicks => 0 ≤ v ∧ v < 2 ^ 32
    | .counter64 => 0 ≤ v ∧ v < 2 ^ 64 := by
  cases t <;> unfold IntType.inRange IntType.bits <;> simp only [Bool.false_eq_true, not_false_eq_true,
    and_true, not_true_eq_false, and_false, ↓reduceIte]
  · rw [decide_eq_true_iff, bitCount_le]
  all_goals
    split
    · rename_i h; simp; omega
    · rename_i h; rw [decide_eq_true_iff, bitCount_le]; constructor <;> (rintro ⟨h1, h2⟩; constructor <;> omega)

/-! ## OIDs -/

theorem Oid.readSubs_loop (n : Nat) (tmp rest : Bytes) (acc : List Nat) :
    Oid.readSubs ((Oid.subLoop n 0x80 tmp).reverse ++ rest) 0 acc =
      Oid.readSubs (tmp.reverse ++ rest) (n <<< 7) acc := by
  induction n using Nat.strongRecOn generalizing tmp with
  | ind n ih =>
    unfold Oid.subLoop
    split
    · rename_i h; rw [h]; rfl
    · rw [shr_7, ih _ (by omega)]
      have hm : n % 128 < 128 := Nat.mod_lt _ (by omega)
      rw [and_7f, or_80' _ hm]
      simp only [List.reverse_append, List.reverse_cons, List.reverse_nil, List.nil_append,
        List.singleton_append, List.cons_append]
      rw [Oid.readSubs, ofNat_toNat (by omega)]
      rw [if_pos ((and_80_ne _ (by omega)).2 (by omega)), and_7f,
        show (128 + n % 128) % 128 = n % 128 by omega, shl_or_7 _ _ hm,
        show n / 128 * 128 + n % 128 = n by omega]

theorem Oid.readSubs_sub (n : Nat) (rest : Bytes) (acc : List Nat) :
    Oid.readSubs (Oid.serializeSub n ++ rest) 0 acc = Oid.readSubs rest 0 (acc ++ [n]) := by
  unfold Oid.serializeSub
  split
  · rename_i h
    rw [List.singleton_append, Oid.readSubs, ofNat_toNat (by omega), and_7f, Nat.zero_or]
    rw [if_neg (fun h' => by have := (and_80_ne n (by omega)).1 h'; omega),
      Nat.mod_eq_of_lt (by omega)]
  · rename_i h
    have hm : n % 128 < 128 := Nat.mod_lt _ (by omega)
    rw [Oid.subLoop, dif_neg (by omega), shr_7, Oid.readSubs_loop]
    simp only [List.nil_append, List.reverse_cons, List.reverse_nil, List.singleton_append]
    rw [and_7f, Nat.or_zero, Oid.readSubs, ofNat_toNat (by omega)]
    rw [if_neg (fun h' => by have := (and_80_ne (n % 128) (by omega)).1 h'; omega), and_7f,
      Nat.mod_mod, shl_or_7 _ _ hm, show n / 128 * 128 + n % 128 = n by omega]

theorem Oid.readSubs_flatMap (l : List Nat) (acc : List Nat) :
    Oid.readSubs (l.flatMap Oid.serializeSub) 0 acc = (acc ++ l, 0) := by
  induction l generalizing acc with
  | nil => simp [Oid.readSubs]
  | cons n l ih => rw [List.flatMap_cons, Oid.readSubs_sub, ih]; simp

/-- Limits on sub-identifiers that `OID(...)` enforces. -/
structure OidLimits (o : List Nat) : Prop where
  count : o.length ≤ 128
  range : ∀ x ∈ o, x < 2 ^ 32
  first : ∀ x, o[0]? = some x → x ≤ 2
  second : ∀ x, o[1]? = some x → x ≤ 39

theorem any_neg_map (o : List Nat) : (o.map Int.ofNat).any (· < 0) = false := by
  rw [List.any_eq_false]
  intro x hx
  obtain ⟨n, -, rfl⟩ := List.mem_map.1 hx
  simp

theorem Oid.new_ofNat_iff (o r : List Nat) :
    Oid.new (o.map Int.ofNat) = .ok r ↔ OidLimits o ∧ r = o := by
  have hmap : (o.map Int.ofNat).map Int.toNat = o := by
    rw [List.map_map]; simp [Function.comp_def]
  have hany : (o.map Int.ofNat).any (fun x => bitLength x.natAbs > 32) = true ↔
      ¬ ∀ x ∈ o, x < 2 ^ 32 := by
    rw [List.any_eq_true]
    constructor
    · rintro ⟨x, hx, h⟩ hall
      obtain ⟨n, hn, rfl⟩ := List.mem_map.1 hx
      have := (bitLength_le n 32).2 (hall n hn)
      simp at h; omega
    · intro h
      have : ∃ x ∈ o, ¬ x < 2 ^ 32 := by
        by_contra hc; apply h; intro x hx; by_contra hx2; exact hc ⟨x, hx, hx2⟩
      obtain ⟨x, hx, hx2⟩ := this
      refine ⟨Int.ofNat x, List.mem_map.2 ⟨x, hx, rfl⟩, ?_⟩
      have : ¬ bitLength x ≤ 32 := fun hh => hx2 ((bitLength_le x 32).1 hh)
      simp; omega
  unfold Oid.new ObjId.new
  rw [any_neg_map, hmap]
  simp only [List.length_map, List.getElem?_map, Bool.false_eq_true, ↓reduceIte]
  constructor
  · intro h
    split at h
    · cases h
    rename_i h128
    split at h
    · cases h
    rename_i hr
    rw [hany, not_not] at hr
    split at h
    · cases h
    rename_i h1
    split at h
    · cases h
    rename_i h2
    injection h with h
    refine ⟨⟨by omega, hr, ?_, ?_⟩, h.symm⟩
    · intro x hx; rw [hx] at h1; simp at h1; omega
    · intro x hx; rw [hx] at h2; simp at h2; omega
  · rintro ⟨⟨h1, h2, h3, h4⟩, rfl⟩
    rw [if_neg (by omega), if_neg (by rw [hany, not_not]; exact h2), if_neg, if_neg]
    · cases hx : r[1]? with
      | none => simp
      | some x => have := h4 x hx; simp; omega
    · cases hx : r[0]? with
      | none => simp
      | some x => have := h3 x hx; simp; omega

theorem Oid.construct_ofNat_iff (o r : List Nat) :
    Oid.construct (o.map Int.ofNat) = .ok r ↔ OidLimits o ∧ r = o := by
  rw [← Oid.new_ofNat_iff]
  unfold Oid.construct
  cases Oid.new (o.map Int.ofNat) with
  | ok x => simp [translateErr]
  | error e => simp only [translateErr]; split <;> simp

/-- What an OID's own encoding decodes to. -/
def Oid.wireForm (o : List Nat) : List Nat :=
  let first := (o[0]?).getD 0
  let second := (o[1]?).getD 0
  [((first * 40) ||| second) / 40, ((first * 40) ||| second) % 40] ++ o.drop 2

theorem or_first : ∀ f : Nat, f ≤ 2 → ∀ s : Nat, s ≤ 39 → (f * 40) ||| s < 120 := by
  intro f hf s hs
  have : ∀ f : Nat, f < 3 → ∀ s : Nat, s < 40 → (f * 40) ||| s < 120 := by decide +kernel
  exact this f (by omega) s (by omega)

theorem Oid.wireForm_limits {o : List Nat} (h : OidLimits o) : OidLimits (Oid.wireForm o) := by
  have hf : (o[0]?).getD 0 ≤ 2 := by
    cases hx : o[0]? with
    | none => simp
    | some x => simpa using h.first x hx
  have hs : (o[1]?).getD 0 ≤ 39 := by
    cases hx : o[1]? with
    | none => simp
    | some x => simpa using h.second x hx
  have hlt := or_first _ hf _ hs
  unfold Oid.wireForm
  simp only
  generalize ((o[0]?).getD 0 * 40) ||| (o[1]?).getD 0 = x at *
  refine ⟨?_, ?_, ?_, ?_⟩
  · have := h.count
    simp only [List.length_append, List.length_cons, List.length_nil, List.length_drop]; omega
  · intro y hy
    simp only [List.cons_append, List.nil_append, List.mem_cons] at hy
    rcases hy with rfl | rfl | hy
    · omega
    · omega
    · exact h.range y (List.mem_of_mem_drop hy)
  · intro y hy; simp at hy; omega
  · intro y hy; simp at hy; omega

theorem Oid.deserialize_serialize {o : List Nat} (h : OidLimits o) (d : Asn1Data)
    (hd : d.copy = Oid.serialize o) : Oid.deserialize d = .ok (Oid.wireForm o) := by
  have hwl := Oid.wireForm_limits h
  have hf : (o[0]?).getD 0 ≤ 2 := by
    cases hx : o[0]? with
    | none => simp
    | some x => simpa using h.first x hx
  have hs : (o[1]?).getD 0 ≤ 39 := by
    cases hx : o[1]? with
    | none => simp
    | some x => simpa using h.second x hx
  have hlt := or_first _ hf _ hs
  have hser : Oid.serialize o =
      UInt8.ofNat (((o[0]?).getD 0 * 40) ||| (o[1]?).getD 0) :: (o.drop 2).flatMap Oid.serializeSub := by
    cases o with
    | nil => simp [Oid.serialize]
    | cons f rest =>
      simp only [Oid.serialize, Oid.serializeSub]
      simp only [List.getElem?_cons_zero, Option.getD_some, List.getElem?_cons_succ] at hlt
      rw [if_pos (by omega)]
      simp only [List.getElem?_cons_zero, Option.getD_some, List.getElem?_cons_succ,
        List.singleton_append, List.drop_succ_cons]
  unfold Oid.deserialize
  rw [hd, hser]
  simp only
  rw [ofNat_toNat (by omega), Oid.readSubs_flatMap]
  simp only [ne_eq, not_true_eq_false, ↓reduceIte]
  exact (Oid.construct_ofNat_iff _ _).2 ⟨hwl, rfl⟩

/-- The OIDs that survive encoding. -/
def OidSurvives (o : List Nat) : Prop :=
  2 ≤ o.length ∧ ((o[0]?).getD 0 * 40) &&& (o[1]?).getD 0 = 0

instance (o : List Nat) : Decidable (OidSurvives o) := by unfold OidSurvives; infer_instance

theorem or_eq_add : ∀ f : Nat, f ≤ 2 → ∀ s : Nat, s ≤ 39 →
    ((((f * 40) ||| s) / 40 = f ∧ ((f * 40) ||| s) % 40 = s) ↔ (f * 40) &&& s = 0) := by
  intro f hf s hs
  have : ∀ f : Nat, f < 3 → ∀ s : Nat, s < 40 →
      ((((f * 40) ||| s) / 40 = f ∧ ((f * 40) ||| s) % 40 = s) ↔ (f * 40) &&& s = 0) := by
    decide +kernel
  exact this f (by omega) s (by omega)

theorem Oid.wireForm_eq_iff {o : List Nat} (h : OidLimits o) : Oid.wireForm o = o ↔ OidSurvives o := by
  match o, h with
  | [], _ => simp [OidSurvives, Oid.wireForm]
  | [x], _ => simp [OidSurvives, Oid.wireForm]
  | f :: s :: rest, h =>
    have hf := h.first f rfl
    have hs := h.second s rfl
    have := or_eq_add f hf s hs
    simp only [OidSurvives, Oid.wireForm, List.getElem?_cons_zero, Option.getD_some,
      List.getElem?_cons_succ, List.drop_succ_cons, List.drop_zero, List.cons_append,
      List.nil_append, List.cons.injEq, and_true, List.length_cons, Nat.le_add_left, true_and]
    exact this

end Snmp
