import Verif.Utils
import Mathlib.RingTheory.Coprime.Lemmas
import Mathlib.Tactic.Ring
import Mathlib.Tactic.Linarith
/-!
# Properties C03, C04: `NumberGenerator` and `ComparableWeakRef`
-/

set_option linter.unusedSimpArgs false
set_option linter.unusedTactic false
set_option linter.unreachableTactic false

namespace Snmp

/-- The n-bit integers: two's complement if signed, else unsigned. -/
def NBit (n : Nat) (signed : Bool) (v : Int) : Prop :=
  if signed then -(2 ^ (n - 1) : Int) ≤ v ∧ v < 2 ^ (n - 1) else 0 ≤ v ∧ v < 2 ^ n

theorem pow_split {n : Nat} (hn : 1 ≤ n) : (2 ^ n : Int) = 2 ^ (n - 1) * 2 := by
  obtain ⟨m, rfl⟩ : ∃ m, n = m + 1 := ⟨n - 1, by omega⟩
  simp [Int.pow_succ]

theorem pow_pos' (n : Nat) : (0 : Int) < 2 ^ n := by positivity

/-- Invariant of the generator: constants unchanged, value in range and congruent to `k * step`. -/
theorem NumGen.after_spec {n : Nat} (hn : 1 ≤ n) (signed : Bool) {r : Nat} (hr : 1 ≤ r)
    (hr2 : r ≤ 2 ^ (n - 1)) (k : Nat) :
    NBit n signed ((NumGen.new n signed r).output k) ∧
    (∃ q : Int, (NumGen.new n signed r).output k = k * (2 * (r : Int) - 1) + q * 2 ^ n) ∧
    ((NumGen.new n signed r).after k).range = 2 ^ n ∧
    ((NumGen.new n signed r).after k).step = 2 * (r : Int) - 1 ∧
    ((NumGen.new n signed r).after k).wrap =
      if signed then 2 ^ (n - 1) - 1 else 2 ^ n - 1 := by
  have hp := pow_split hn
  have hpos := pow_pos' (n - 1)
  have hr2' : (r : Int) ≤ 2 ^ (n - 1) := by exact_mod_cast hr2
  induction k with
  | zero =>
    refine ⟨?_, ⟨0, ?_⟩, ?_, ?_, ?_⟩
    · unfold NBit NumGen.output NumGen.after NumGen.new
      cases signed <;> simp <;> omega
    · simp [NumGen.output, NumGen.after, NumGen.new]
    · simp [NumGen.after, NumGen.new, hp]
    · simp [NumGen.after, NumGen.new]
    · simp only [NumGen.after, NumGen.new]
      cases signed <;> simp <;> omega
  | succ k ih =>
    obtain ⟨h1, ⟨q, h2⟩, h3, h4, h5⟩ := ih
    unfold NumGen.output at h1 h2
    have hrng : NBit n signed (((NumGen.new n signed r).after (k + 1)).previous) := by
      simp only [NumGen.after, NumGen.next, h3, h4, h5]
      unfold NBit at *
      cases signed
      · simp only [Bool.false_eq_true, ↓reduceIte] at *
        split <;> omega
      · simp only [↓reduceIte] at *
        split <;> omega
    refine ⟨hrng, ?_, ?_, ?_, ?_⟩
    · simp only [NumGen.output, NumGen.after, NumGen.next, h3, h4, h5]
      generalize (if signed = true then (2 : Int) ^ (n - 1) - 1 else 2 ^ n - 1) = wr
      split
      · exact ⟨q - 1, by rw [h2]; push_cast; ring⟩
      · exact ⟨q, by rw [h2]; push_cast; ring⟩
    · simpa [NumGen.after, NumGen.next] using h3
    · simpa [NumGen.after, NumGen.next] using h4
    · simpa [NumGen.after, NumGen.next] using h5

theorem NBit.unique {n : Nat} (hn : 1 ≤ n) {signed : Bool} {v w : Int} (hv : NBit n signed v)
    (hw : NBit n signed w) (h : ∃ q : Int, v = w + q * 2 ^ n) : v = w := by
  obtain ⟨q, h⟩ := h
  have hp := pow_split hn
  have hpos := pow_pos' (n - 1)
  have hd : -(2 ^ n : Int) < v - w ∧ v - w < 2 ^ n := by
    unfold NBit at *
    cases signed <;> simp only [Bool.false_eq_true, ↓reduceIte] at * <;> omega
  have hpn := pow_pos' n
  have : q = 0 := by
    rcases lt_trichotomy q 0 with hq | hq | hq
    · nlinarith
    · exact hq
    · nlinarith
  subst this; simpa using h

theorem exists_inverse (n r : Nat) : ∃ u w : Int, u * (2 * (r : Int) - 1) + w * 2 ^ n = 1 := by
  have h : IsCoprime (2 * (r : Int) - 1) (2 ^ n) := by
    apply IsCoprime.pow_right
    exact ⟨-1, r, by ring⟩
  exact h

/-- C03: for every bit width, signedness and random draw, the first `2^n` outputs are exactly the
n-bit integers, each once; the last of them, and none before, is 0; then the sequence repeats. -/
theorem C03_enumerates (n : Nat) (hn : 1 ≤ n) (signed : Bool) (r : Nat) (hr : 1 ≤ r)
    (hr2 : r ≤ 2 ^ (n - 1)) :
    (∀ k, NBit n signed ((NumGen.new n signed r).output k)) ∧
    (∀ v, NBit n signed v → ∃ k, (1 ≤ k ∧ k ≤ 2 ^ n ∧ (NumGen.new n signed r).output k = v) ∧
      ∀ j, 1 ≤ j ∧ j ≤ 2 ^ n ∧ (NumGen.new n signed r).output j = v → j = k) ∧
    (NumGen.new n signed r).output (2 ^ n) = 0 ∧
    (∀ k, 1 ≤ k → k < 2 ^ n → (NumGen.new n signed r).output k ≠ 0) ∧
    (∀ k, (NumGen.new n signed r).output (k + 2 ^ n) = (NumGen.new n signed r).output k) := by
  have spec := NumGen.after_spec hn signed hr hr2
  have rng : ∀ k, NBit n signed ((NumGen.new n signed r).output k) := fun k => (spec k).1
  have cong : ∀ k, ∃ q : Int,
      (NumGen.new n signed r).output k = k * (2 * (r : Int) - 1) + q * 2 ^ n :=
    fun k => (spec k).2.1
  obtain ⟨u, w, huw⟩ := exists_inverse n r
  have hpn := pow_pos' n
  have inj : ∀ j k : Nat, 1 ≤ j → j ≤ 2 ^ n → 1 ≤ k → k ≤ 2 ^ n →
      (NumGen.new n signed r).output j = (NumGen.new n signed r).output k → j = k := by
    intro j k hj1 hj2 hk1 hk2 h
    obtain ⟨q1, e1⟩ := cong j
    obtain ⟨q2, e2⟩ := cong k
    rw [e1, e2] at h
    -- multiply by the inverse
    have h3 : (j : Int) - k = ((j : Int) - k) * w * 2 ^ n + u * (q2 - q1) * 2 ^ n := by
      have h4 : ((j : Int) - k) * (2 * r - 1) = (q2 - q1) * 2 ^ n := by linarith
      have h5 : ((j : Int) - k) * 1 = ((j : Int) - k) * (u * (2 * r - 1) + w * 2 ^ n) := by rw [huw]
      have h6 : ((j : Int) - k) * (u * (2 * r - 1)) = u * ((q2 - q1) * 2 ^ n) := by
        rw [← h4]; ring
      calc (j : Int) - k = ((j : Int) - k) * 1 := by ring
        _ = ((j : Int) - k) * (u * (2 * r - 1)) + ((j : Int) - k) * w * 2 ^ n := by rw [h5]; ring
        _ = _ := by rw [h6]; ring
    have h7 : (j : Int) = k + (((j : Int) - k) * w + u * (q2 - q1)) * 2 ^ n := by linarith
    have hj2' : (j : Int) ≤ 2 ^ n := by exact_mod_cast hj2
    have hk2' : (k : Int) ≤ 2 ^ n := by exact_mod_cast hk2
    generalize ((j : Int) - k) * w + u * (q2 - q1) = t at h7
    have ht : t = 0 := by
      have : (1 : Int) ≤ j := by exact_mod_cast hj1
      have : (1 : Int) ≤ k := by exact_mod_cast hk1
      rcases lt_trichotomy t 0 with ht | ht | ht
      · nlinarith
      · exact ht
      · nlinarith
    rw [ht] at h7
    simp only [zero_mul, add_zero] at h7
    exact_mod_cast h7
  have h0 : NBit n signed 0 := by
    have hpos := pow_pos' (n - 1)
    unfold NBit; cases signed <;> simp
  have hlast : (NumGen.new n signed r).output (2 ^ n) = 0 := by
    apply NBit.unique hn (rng _) h0
    obtain ⟨q, e⟩ := cong (2 ^ n)
    exact ⟨(2 * (r : Int) - 1) + q, by rw [e]; push_cast; ring⟩
  refine ⟨rng, ?_, hlast, ?_, ?_⟩
  · intro v hv
    -- the wanted index: v * u reduced into 1 .. 2^n
    let m : Int := (v * u - 1) % 2 ^ n + 1
    have hm0 := Int.emod_nonneg (v * u - 1) (ne_of_gt hpn)
    have hm1 := Int.emod_lt_of_pos (v * u - 1) hpn
    have hmk : ((m.toNat : Nat) : Int) = m := Int.toNat_of_nonneg (by omega)
    have hdvd : v * u - 1 = (v * u - 1) % 2 ^ n + 2 ^ n * ((v * u - 1) / 2 ^ n) := by
      rw [Int.emod_add_mul_ediv]
    have hm2 : m.toNat ≤ 2 ^ n := by
      have : ((m.toNat : Nat) : Int) ≤ ((2 ^ n : Nat) : Int) := by rw [hmk]; push_cast; omega
      exact_mod_cast this
    have hm3 : 1 ≤ m.toNat := by
      have : (1 : Int) ≤ ((m.toNat : Nat) : Int) := by rw [hmk]; omega
      exact_mod_cast this
    have hout : (NumGen.new n signed r).output m.toNat = v := by
      apply NBit.unique hn (rng _) hv
      obtain ⟨q, e⟩ := cong m.toNat
      rw [e, hmk]
      have hm4 : m = v * u - ((v * u - 1) / 2 ^ n) * 2 ^ n := by
        show (v * u - 1) % 2 ^ n + 1 = _
        linarith
      refine ⟨q - v * w - ((v * u - 1) / 2 ^ n) * (2 * r - 1), ?_⟩
      rw [hm4]
      have : v * u * (2 * (r : Int) - 1) = v - v * w * 2 ^ n := by
        have := congrArg (v * ·) huw
        linarith
      linarith
    refine ⟨m.toNat, ⟨hm3, hm2, hout⟩, ?_⟩
    rintro j ⟨hj1, hj2, hj3⟩
    exact inj j m.toNat hj1 hj2 hm3 hm2 (by rw [hj3, hout])
  · intro k hk1 hk2 h
    have := inj k (2 ^ n) hk1 (by omega) Nat.one_le_two_pow (Nat.le_refl _) (by rw [h, hlast])
    omega
  · intro k
    apply NBit.unique hn (rng _) (rng _)
    obtain ⟨q1, e1⟩ := cong (k + 2 ^ n)
    obtain ⟨q2, e2⟩ := cong k
    refine ⟨(2 * (r : Int) - 1) + q1 - q2, ?_⟩
    rw [e1, e2]; push_cast; ring

example : (NumGen.new 32 true 1234567).output 1 ≠ 0 :=
  (C03_enumerates 32 (by decide) true 1234567 (by decide) (by decide)).2.2.2.1 1 (by decide) (by decide)

/-! ## `ComparableWeakRef` -/

/-- What is known about a referent over time: construction key `k0`, then one entry per comparison,
`some k` if the referent was alive with key `k` at that moment, `none` if it had been collected.
`lastSeen` is the most recent key observed. -/
def lastSeen {V : Type} (k0 : V) (history : List (Option V)) : V :=
  history.foldl (fun last o => match o with | some k => k | none => last) k0

/-- Run a sequence of reads of the comparison key, one per history entry. -/
def WeakKey.run {V : Type} (w : WeakKey V) : List (Option V) → WeakKey V
  | [] => w
  | o :: os => (w.value o).2.run os

theorem WeakKey.run_stored {V : Type} (w : WeakKey V) (history : List (Option V)) :
    (w.run history).stored = lastSeen w.stored history := by
  induction history generalizing w with
  | nil => rfl
  | cons o os ih =>
    rw [WeakKey.run, ih]
    cases o <;> rfl

/-- C04: after any history of comparisons, a comparison `a < b` uses each referent's current key if
it is alive, and otherwise the key seen at the latest comparison made while it was alive (the
construction key if there was none); nothing else is ever stored. -/
theorem C04_weakref {V : Type} (ltV : V → V → Bool) (ka kb : V) (ha hb : List (Option V))
    (a b : Option V) :
    (WeakKey.lt ltV ((WeakKey.new ka).run ha) ((WeakKey.new kb).run hb) a b).1 =
      ltV (a.getD (lastSeen ka ha)) (b.getD (lastSeen kb hb)) ∧
    (WeakKey.lt ltV ((WeakKey.new ka).run ha) ((WeakKey.new kb).run hb) a b).2 =
      ((WeakKey.new ka).run (ha ++ [a]), (WeakKey.new kb).run (hb ++ [b])) := by
  have happ : ∀ (w : WeakKey V) (h : List (Option V)) (o : Option V),
      w.run (h ++ [o]) = ((w.run h).value o).2 := by
    intro w h o
    induction h generalizing w with
    | nil => rfl
    | cons x xs ih => exact ih _
  constructor
  · unfold WeakKey.lt
    have e1 := WeakKey.run_stored (WeakKey.new ka) ha
    have e2 := WeakKey.run_stored (WeakKey.new kb) hb
    simp only [WeakKey.new] at e1 e2
    cases a <;> cases b <;> simp [WeakKey.value, WeakKey.new, e1, e2]
  · rw [happ, happ]; rfl

/-- C04, the dead case spelled out: once collected, the key no longer changes, however many
comparisons follow. -/
theorem C04_dead_forever {V : Type} (k0 : V) (history : List (Option V)) (m : Nat) :
    (((WeakKey.new k0).run (history ++ List.replicate m none)).value none).1 = lastSeen k0 history := by
  have : ((WeakKey.new k0).run (history ++ List.replicate m none)).stored = lastSeen k0 history := by
    rw [WeakKey.run_stored]
    simp only [lastSeen, WeakKey.new, List.foldl_append]
    induction m with
    | zero => rfl
    | succ m ih => rw [List.replicate_succ]; exact ih
  simpa [WeakKey.value] using this

example : lastSeen 5 [some 7, some 3, none, none] = 3 := rfl

end Snmp
