import Verif.Native
import Verif.PrivLemmas
import Mathlib.Data.List.Induction
import Mathlib.Tactic.IntervalCases
/-!
# C104: OpenSSL contexts and buffers
-/

namespace Snmp

/-! ## Specification -/

/-- After the calls `h`, the context was made and not freed since. -/
def Spec.LiveContext (h : List NativeCall) (c : Nat) : Prop :=
  ∃ before after, h = before ++ .new (some c) :: after ∧ .free c ∉ after

/-- The context a call is given. -/
def Spec.given : NativeCall → Option Nat
  | .new _ => none
  | .init c _ _ _ => some c
  | .update c _ _ _ => some c
  | .free c => some c

/-- What libcrypto promises: a new context is none that is in use. -/
def Spec.Allocator (h : List NativeCall) : Prop :=
  ∀ before c after, h = before ++ .new (some c) :: after → ¬ Spec.LiveContext before c

/-- No call is given a context that was never made or is already freed; in particular none is freed twice. -/
def Spec.NoDangling (h : List NativeCall) : Prop :=
  ∀ before x after c, h = before ++ x :: after → Spec.given x = some c → Spec.LiveContext before c

/-- The calls of operation `i` in a history of calls of many operations. -/
def Spec.callsOf (h : List (Nat × NativeCall)) (i : Nat) : List NativeCall := (h.filter fun x => x.1 = i).map Prod.snd

/-- The bytes of key and IV that the C library reads, for AES-128 in CFB mode and DES in CBC mode. -/
def Spec.keyBytes : PrivProto → Nat
  | .aesCfb128 => 16
  | .desCbc => 8
def Spec.ivBytes : PrivProto → Nat
  | .aesCfb128 => 16
  | .desCbc => 8

/-- The room that EVP_EncryptUpdate(3) and EVP_DecryptUpdate(3) demand of the output buffer for `inl` bytes of input: one block more than
the input, and no more than the input for a stream mode such as CFB. -/
def Spec.roomNeeded : PrivProto → Nat → Nat
  | .aesCfb128, inl => inl
  | .desCbc, inl => inl + 8

/-- The call reads and writes only inside the buffers it is given. -/
def Spec.Within (p : PrivProto) : NativeCall → Prop
  | .new _ => True
  | .init _ cipher keyLen ivLen => cipher = p ∧ Spec.keyBytes p ≤ keyLen ∧ Spec.ivBytes p ≤ ivLen
  | .update _ room inl dataLen => inl ≤ dataLen ∧ Spec.roomNeeded p inl ≤ room
  | .free _ => True

/-! ## Contexts -/

/-- The shape of the calls of one `process`. -/
theorem process_calls (cipher : PrivProto) (o : Native) (data key iv : Bytes) :
    (o.ctx = none ∧ (envelopeProcess cipher o data key iv).2 = [.new none]) ∨
    ∃ c mid, o.ctx = some c ∧ (envelopeProcess cipher o data key iv).2 = .new (some c) :: mid ++ [.free c] ∧
      ∀ x ∈ mid, Spec.given x = some c ∧ x ≠ .free c := by
  unfold envelopeProcess withContext
  cases hc : o.ctx with
  | none => exact .inl ⟨rfl, rfl⟩
  | some c =>
    refine .inr ⟨c, ?_⟩
    dsimp only
    by_cases h1 : o.init = false
    · rw [if_pos h1]
      exact ⟨_, rfl, rfl, by simp [Spec.given]⟩
    · rw [if_neg h1]
      by_cases h2 : o.alloc = false
      · rw [if_pos h2]
        exact ⟨_, rfl, rfl, by simp [Spec.given]⟩
      · rw [if_neg h2]
        cases o.update with
        | none => exact ⟨_, rfl, rfl, by simp [Spec.given]⟩
        | some w => exact ⟨_, rfl, rfl, by simp [Spec.given]⟩

theorem live_snoc (h : List NativeCall) (x : NativeCall) (c : Nat) :
    Spec.LiveContext (h ++ [x]) c ↔ x = .new (some c) ∨ (Spec.LiveContext h c ∧ x ≠ .free c) := by
  constructor
  · rintro ⟨before, after, e, hf⟩
    rcases List.eq_nil_or_concat after with rfl | ⟨l, y, rfl⟩
    · obtain ⟨-, e2⟩ := List.append_inj' e (by simp)
      exact .inl (List.cons.inj e2).1
    · right
      rw [List.concat_eq_append, ← List.cons_append, ← List.append_assoc] at e
      obtain ⟨e1, e2⟩ := List.append_inj' e rfl
      have e2 := (List.cons.inj e2).1
      subst e2
      simp only [List.concat_eq_append, List.mem_append, List.mem_singleton, not_or] at hf
      exact ⟨⟨before, l, e1, hf.1⟩, fun h => hf.2 h.symm⟩
  · rintro (rfl | ⟨⟨before, after, rfl, hf⟩, hx⟩)
    · exact ⟨h, [], rfl, by simp⟩
    · exact ⟨before, after ++ [x], by simp, by simpa [hf] using fun h => hx h.symm⟩

theorem callsOf_snoc (h : List (Nat × NativeCall)) (i j : Nat) (x : NativeCall) :
    Spec.callsOf (h ++ [(i, x)]) j = if i = j then Spec.callsOf h j ++ [x] else Spec.callsOf h j := by
  unfold Spec.callsOf
  by_cases hij : i = j
  · simp [hij, List.filter_append]
  · simp [hij, List.filter_append]

/-- What the next call of an operation can be. -/
theorem next_call {cipher : PrivProto} {o : Native} {data key iv : Bytes} {l : List NativeCall} {x : NativeCall}
    (h : l ++ [x] <+: (envelopeProcess cipher o data key iv).2) :
    (l = [] ∧ x = .new o.ctx) ∨
    ∃ c rest, o.ctx = some c ∧ l = .new (some c) :: rest ∧ .free c ∉ rest ∧ Spec.given x = some c ∧
      (x = .free c → l ++ [x] = (envelopeProcess cipher o data key iv).2) := by
  obtain ⟨t, ht⟩ := h
  rcases process_calls cipher o data key iv with ⟨h1, h2⟩ | ⟨c, mid, h1, h2, h3⟩
  · rw [h2] at ht
    left
    cases l with
    | nil => simp only [List.nil_append, List.cons_append, List.cons.injEq] at ht; rw [h1]; exact ⟨rfl, ht.1⟩
    | cons a l => simp at ht
  · cases l with
    | nil =>
      left
      rw [h2] at ht
      simp only [List.nil_append, List.cons_append, List.cons.injEq] at ht; rw [h1]; exact ⟨rfl, ht.1⟩
    | cons a rest =>
      right
      have ht' := ht
      rw [h2] at ht
      simp only [List.cons_append, List.cons.injEq, List.append_assoc] at ht
      obtain ⟨rfl, ht⟩ := ht
      refine ⟨c, rest, h1, rfl, ?_, ?_, ?_⟩
      · intro hf
        obtain ⟨a, b, rfl⟩ := List.append_of_mem hf
        rcases List.eq_nil_or_concat t with rfl | ⟨t', y, rfl⟩
        · have e : (a ++ .free c :: b) ++ [x] = mid ++ [.free c] := by simpa using ht
          have := (List.append_inj' e rfl).1
          exact (h3 (.free c) (by rw [← this]; simp)).2 rfl
        · have e : (a ++ .free c :: b ++ x :: t') ++ [y] = mid ++ [.free c] := by simpa using ht
          have := (List.append_inj' e rfl).1
          exact (h3 (.free c) (by rw [← this]; simp)).2 rfl
      · have hm : x ∈ mid ++ [.free c] := by rw [← ht]; simp
        rcases List.mem_append.1 hm with hm | hm
        · exact (h3 x hm).1
        · rw [List.mem_singleton.1 hm]; rfl
      · rintro rfl
        rcases List.eq_nil_or_concat t with rfl | ⟨t', y, rfl⟩
        · simpa using ht'
        · have e : (rest ++ .free c :: t') ++ [y] = mid ++ [.free c] := by simpa using ht
          have := (List.append_inj' e rfl).1
          exact absurd rfl (h3 (.free c) (by rw [← this]; simp)).2

/-- The operation holds the context. -/
def Holds (h : List (Nat × NativeCall)) (i c : Nat) : Prop :=
  ∃ rest, Spec.callsOf h i = .new (some c) :: rest ∧ .free c ∉ rest

theorem contexts_inv (ops : Nat → PrivProto × Native × Bytes × Bytes × Bytes) (h : List (Nat × NativeCall))
    (hop : ∀ i, Spec.callsOf h i <+: (envelopeProcess (ops i).1 (ops i).2.1 (ops i).2.2.1 (ops i).2.2.2.1 (ops i).2.2.2.2).2)
    (hal : Spec.Allocator (h.map Prod.snd)) :
    Spec.NoDangling (h.map Prod.snd) ∧ (∀ c, Spec.LiveContext (h.map Prod.snd) c ↔ ∃ i, Holds h i c) ∧
      ∀ i j c, Holds h i c → Holds h j c → i = j := by
  induction h using List.reverseRecOn with
  | nil =>
    refine ⟨?_, ?_, ?_⟩
    · intro before x after c e; simp at e
    · intro c
      constructor
      · rintro ⟨b, a, e, -⟩; simp at e
      · rintro ⟨i, rest, e, -⟩; simp [Spec.callsOf] at e
    · rintro i j c ⟨rest, e, -⟩; simp [Spec.callsOf] at e
  | append_singleton h ix ih =>
    obtain ⟨i, x⟩ := ix
    have hop' : ∀ j, Spec.callsOf h j <+: (envelopeProcess (ops j).1 (ops j).2.1 (ops j).2.2.1 (ops j).2.2.2.1 (ops j).2.2.2.2).2 := by
      intro j
      refine List.IsPrefix.trans ?_ (hop j)
      rw [callsOf_snoc]
      split
      · exact List.prefix_append _ _
      · exact List.prefix_refl _
    have hal' : Spec.Allocator (h.map Prod.snd) := by
      intro b c a e
      exact hal b c (a ++ [x]) (by rw [List.map_append, e]; simp)
    obtain ⟨i1, i2, i3⟩ := ih hop' hal'
    have hi := hop i
    rw [callsOf_snoc, if_pos rfl] at hi
    have hnext := next_call hi
    have holds_other : ∀ j c, i ≠ j → (Holds (h ++ [(i, x)]) j c ↔ Holds h j c) := by
      intro j c hij
      unfold Holds
      rw [callsOf_snoc, if_neg hij]
    rw [List.map_append, List.map_singleton] at *
    simp only at *
    -- the call is on a context that is held
    have huse : ∀ c, Spec.given x = some c → Holds h i c ∧ Spec.LiveContext (h.map Prod.snd) c := by
      intro c hc
      rcases hnext with ⟨-, rfl⟩ | ⟨c', rest, -, e, hf, hg, -⟩
      · cases hc
      · rw [hc] at hg
        injection hg with hg
        subst hg
        have : Holds h i c := ⟨rest, e, hf⟩
        exact ⟨this, (i2 c).2 ⟨i, this⟩⟩
    refine ⟨?_, ?_, ?_⟩
    · intro before y after c e hy
      rcases List.eq_nil_or_concat after with rfl | ⟨l, z, rfl⟩
      · obtain ⟨e1, e2⟩ := List.append_inj' e rfl
        have e2 := (List.cons.inj e2).1
        subst e2
        rw [← e1]
        exact (huse c hy).2
      · rw [List.concat_eq_append, ← List.cons_append, ← List.append_assoc] at e
        exact i1 before y l c (List.append_inj' e rfl).1 hy
    · intro c
      rw [live_snoc, i2]
      constructor
      · rintro (rfl | ⟨⟨j, hj⟩, hx⟩)
        · rcases hnext with ⟨e, -⟩ | ⟨c', rest, -, e, hf, hg, -⟩
          · exact ⟨i, [], by rw [callsOf_snoc, if_pos rfl, e]; rfl, by simp⟩
          · cases hg
        · by_cases hij : i = j
          · subst hij
            obtain ⟨rest, e, hf⟩ := hj
            exact ⟨i, rest ++ [x], by rw [callsOf_snoc, if_pos rfl, e]; rfl, by simpa [hf] using fun h => hx h.symm⟩
          · exact ⟨j, (holds_other j c hij).2 hj⟩
      · rintro ⟨j, hj⟩
        by_cases hij : i = j
        · subst hij
          obtain ⟨rest, e, hf⟩ := hj
          rw [callsOf_snoc, if_pos rfl] at e
          rcases List.eq_nil_or_concat rest with rfl | ⟨l, z, rfl⟩
          · have : Spec.callsOf h i = [] ∧ x = .new (some c) := by
              cases hc : Spec.callsOf h i with
              | nil => rw [hc] at e; exact ⟨rfl, (List.cons.inj e).1⟩
              | cons a l => rw [hc] at e; simp at e
            exact .inl this.2
          · rw [List.concat_eq_append, ← List.cons_append] at e
            obtain ⟨e1, e2⟩ := List.append_inj' e rfl
            have e2 := (List.cons.inj e2).1
            subst e2
            simp only [List.concat_eq_append, List.mem_append, List.mem_singleton, not_or] at hf
            exact .inr ⟨⟨i, l, e1, hf.1⟩, fun h => hf.2 h.symm⟩
        · have hj2 := (holds_other j c hij).1 hj
          refine .inr ⟨⟨j, hj2⟩, ?_⟩
          rintro rfl
          exact hij (i3 i j c (huse c rfl).1 hj2)
    · -- uniqueness
      have key : ∀ j c, i ≠ j → Holds (h ++ [(i, x)]) i c → Holds h j c → False := by
        intro j c hij hi' hj
        obtain ⟨rest, e, hf⟩ := hi'
        rw [callsOf_snoc, if_pos rfl] at e
        rcases List.eq_nil_or_concat rest with rfl | ⟨l, z, rfl⟩
        · have : x = .new (some c) := by
            cases hc : Spec.callsOf h i with
            | nil => rw [hc] at e; exact (List.cons.inj e).1
            | cons a l => rw [hc] at e; simp at e
          exact hal (h.map Prod.snd) c [] (by rw [this]) ((i2 c).2 ⟨j, hj⟩)
        · rw [List.concat_eq_append, ← List.cons_append] at e
          obtain ⟨e1, -⟩ := List.append_inj' e rfl
          simp only [List.concat_eq_append, List.mem_append, not_or] at hf
          exact hij (i3 i j c ⟨l, e1, hf.1⟩ hj)
      intro a b c ha hb
      by_cases ha' : i = a
      · by_cases hb' : i = b
        · rw [← ha', ← hb']
        · subst ha'
          exact absurd ((holds_other b c hb').1 hb) (fun h => key b c hb' ha h)
      · by_cases hb' : i = b
        · subst hb'
          exact absurd ((holds_other a c ha').1 ha) (fun h => key a c ha' hb h)
        · exact i3 a b c ((holds_other a c ha').1 ha) ((holds_other b c hb').1 hb)

/-- **C104**, contexts. Let any number of encryptions and decryptions run, in any interleaving of their calls into libcrypto, each call
succeeding or failing, any of them not finished yet. No call is given a context that was not made or is already freed, none is freed
twice; and a context that is still there belongs to an operation that has not finished: when all have finished, nothing is leaked. -/
theorem C104_contexts (ops : Nat → PrivProto × Native × Bytes × Bytes × Bytes) (h : List (Nat × NativeCall))
    (hop : ∀ i, Spec.callsOf h i <+: (envelopeProcess (ops i).1 (ops i).2.1 (ops i).2.2.1 (ops i).2.2.2.1 (ops i).2.2.2.2).2)
    (hal : Spec.Allocator (h.map Prod.snd)) :
    Spec.NoDangling (h.map Prod.snd) ∧
    ∀ c, Spec.LiveContext (h.map Prod.snd) c → ∃ i, .new (some c) ∈ Spec.callsOf h i ∧
      Spec.callsOf h i ≠ (envelopeProcess (ops i).1 (ops i).2.1 (ops i).2.2.1 (ops i).2.2.2.1 (ops i).2.2.2.2).2 := by
  obtain ⟨h1, h2, -⟩ := contexts_inv ops h hop hal
  refine ⟨h1, fun c hc => ?_⟩
  obtain ⟨i, rest, e, hf⟩ := (h2 c).1 hc
  refine ⟨i, by rw [e]; simp, fun he => ?_⟩
  rw [e] at he
  rcases process_calls (ops i).1 (ops i).2.1 (ops i).2.2.1 (ops i).2.2.2.1 (ops i).2.2.2.2 with ⟨-, h3⟩ | ⟨c', mid, -, h3, -⟩
  · rw [h3] at he; simp at he
  · rw [h3] at he
    simp only [List.cons_append, List.cons.injEq, NativeCall.new.injEq, Option.some.injEq] at he
    obtain ⟨rfl, rfl⟩ := he
    simp at hf

/-- The calls before an update. -/
theorem process_update {cipher : PrivProto} {o : Native} {data key iv : Bytes} {l : List NativeCall} {c room inl n : Nat}
    (h : l ++ [.update c room inl n] <+: (envelopeProcess cipher o data key iv).2) :
    o.init = true ∧ l = [.new (some c), .init c cipher key.length iv.length] := by
  obtain ⟨t, ht⟩ := h
  unfold envelopeProcess withContext at ht
  cases hc : o.ctx with
  | none =>
    rw [hc] at ht
    rcases l with _ | ⟨a, l⟩ <;> simp at ht
  | some c' =>
    rw [hc] at ht
    dsimp only at ht
    by_cases h1 : o.init = false
    · rw [if_pos h1] at ht
      rcases l with _ | ⟨a, _ | ⟨b, _ | ⟨d, l⟩⟩⟩ <;> simp at ht
    · rw [if_neg h1] at ht
      refine ⟨by simpa using h1, ?_⟩
      by_cases h2 : o.alloc = false
      · rw [if_pos h2] at ht
        rcases l with _ | ⟨a, _ | ⟨b, _ | ⟨d, l⟩⟩⟩ <;> simp at ht
      · rw [if_neg h2] at ht
        cases hu : o.update with
        | none =>
          rw [hu] at ht
          rcases l with _ | ⟨a, _ | ⟨b, _ | ⟨d, _ | ⟨e, l⟩⟩⟩⟩ <;> simp at ht
          obtain ⟨rfl, rfl, ⟨rfl, -⟩, -⟩ := ht
          rfl
        | some w =>
          rw [hu] at ht
          rcases l with _ | ⟨a, _ | ⟨b, _ | ⟨d, _ | ⟨e, l⟩⟩⟩⟩ <;> simp at ht
          obtain ⟨rfl, rfl, ⟨rfl, -⟩, -⟩ := ht
          rfl

theorem callsOf_prefix (before after : List (Nat × NativeCall)) (i : Nat) :
    Spec.callsOf before i <+: Spec.callsOf (before ++ after) i := by
  unfold Spec.callsOf
  rw [List.filter_append, List.map_append]
  exact List.prefix_append _ _

/-- **C104**, contexts: data is only given to a context that the same operation made, initialised with its own cipher, key and IV, the
initialisation having succeeded, and did nothing else with. -/
theorem C104_initialised (ops : Nat → PrivProto × Native × Bytes × Bytes × Bytes) (h : List (Nat × NativeCall))
    (hop : ∀ i, Spec.callsOf h i <+: (envelopeProcess (ops i).1 (ops i).2.1 (ops i).2.2.1 (ops i).2.2.2.1 (ops i).2.2.2.2).2)
    (before after : List (Nat × NativeCall)) (i c room inl n : Nat) (he : h = before ++ (i, .update c room inl n) :: after) :
    (ops i).2.1.init = true ∧
    Spec.callsOf before i = [.new (some c), .init c (ops i).1 (ops i).2.2.2.1.length (ops i).2.2.2.2.length] := by
  refine process_update (room := room) (inl := inl) (n := n) (List.IsPrefix.trans ?_ (hop i))
  have h1 : h = (before ++ [(i, .update c room inl n)]) ++ after := by rw [he]; simp
  rw [h1]
  have := callsOf_prefix (before ++ [(i, .update c room inl n)]) after i
  rwa [callsOf_snoc, if_pos rfl] at this

/-- **C104**, contexts: as long as an operation has a context, no other operation is given it. -/
theorem C104_alone (ops : Nat → PrivProto × Native × Bytes × Bytes × Bytes) (h : List (Nat × NativeCall))
    (hop : ∀ i, Spec.callsOf h i <+: (envelopeProcess (ops i).1 (ops i).2.1 (ops i).2.2.1 (ops i).2.2.2.1 (ops i).2.2.2.2).2)
    (hal : Spec.Allocator (h.map Prod.snd)) (before after : List (Nat × NativeCall)) (i j c : Nat) (x : NativeCall)
    (he : h = before ++ (i, x) :: after) (hx : Spec.given x = some c)
    (hj : Spec.LiveContext (Spec.callsOf before j) c) : i = j := by
  have hop' : ∀ k, Spec.callsOf before k <+:
      (envelopeProcess (ops k).1 (ops k).2.1 (ops k).2.2.1 (ops k).2.2.2.1 (ops k).2.2.2.2).2 := by
    intro k
    refine List.IsPrefix.trans ?_ (hop k)
    rw [he]
    exact callsOf_prefix _ _ _
  have hal' : Spec.Allocator (before.map Prod.snd) := by
    intro b c' a e
    exact hal b c' (a ++ x :: after.map Prod.snd) (by rw [he, List.map_append, e]; simp)
  obtain ⟨-, -, h3⟩ := contexts_inv ops before hop' hal'
  have hi : Spec.callsOf before i ++ [x] <+:
      (envelopeProcess (ops i).1 (ops i).2.1 (ops i).2.2.1 (ops i).2.2.2.1 (ops i).2.2.2.2).2 := by
    refine List.IsPrefix.trans ?_ (hop i)
    have h1 : h = (before ++ [(i, x)]) ++ after := by rw [he]; simp
    rw [h1]
    have := callsOf_prefix (before ++ [(i, x)]) after i
    rwa [callsOf_snoc, if_pos rfl] at this
  have hHi : Holds before i c := by
    rcases next_call hi with ⟨-, rfl⟩ | ⟨c', rest, -, e, hf, hg, -⟩
    · cases hx
    · rw [hx] at hg
      injection hg with hg
      subst hg
      exact ⟨rest, e, hf⟩
  have hHj : Holds before j c := by
    obtain ⟨b, a, e, hf⟩ := hj
    obtain ⟨t, ht⟩ := hop' j
    cases b with
    | nil => exact ⟨a, e, hf⟩
    | cons y b =>
      exfalso
      rw [e] at ht
      rcases process_calls (ops j).1 (ops j).2.1 (ops j).2.2.1 (ops j).2.2.2.1 (ops j).2.2.2.2 with ⟨-, h2⟩ | ⟨c', mid, -, h2, h4⟩
      · rw [h2] at ht; simp at ht
      · rw [h2] at ht
        simp only [List.cons_append, List.cons.injEq, List.append_assoc] at ht
        have hm : NativeCall.new (some c) ∈ mid ++ [.free c'] := by rw [← ht.2]; simp
        rcases List.mem_append.1 hm with hm | hm
        · have := (h4 _ hm).1; cases this
        · simp at hm
  exact h3 i j c hHi hHj

/-! ## Buffers -/

theorem process_within {cipher : PrivProto} {o : Native} {data key iv : Bytes} (hk : Spec.keyBytes cipher ≤ key.length)
    (hi : Spec.ivBytes cipher ≤ iv.length) (hd : cipher = .desCbc → data.length % 8 = 0) :
    ∀ x ∈ (envelopeProcess cipher o data key iv).2, Spec.Within cipher x := by
  have hroom : Spec.roomNeeded cipher data.length ≤ outputLength data.length cipher.blockLen := by
    unfold outputLength
    cases cipher with
    | aesCfb128 => simp only [Spec.roomNeeded, PrivProto.blockLen]; omega
    | desCbc => have := hd rfl; simp only [Spec.roomNeeded, PrivProto.blockLen]; omega
  unfold envelopeProcess withContext
  cases o.ctx with
  | none => simp [Spec.Within]
  | some c =>
    dsimp only
    split
    · simp [Spec.Within, hk, hi]
    · split
      · simp [Spec.Within, hk, hi]
      · split <;> simp [Spec.Within, hk, hi, hroom]

theorem key_lengths {p : PrivProto} {key : Bytes} {seed : Nat} {k : PrivKey} (hk : PrivKey.new p key seed = .ok k) :
    Spec.keyBytes p ≤ k.key.length ∧ (p = .desCbc → k.preIV.length = 8) := by
  unfold PrivKey.new at hk
  split at hk
  · cases hk
  · rename_i hl
    cases p with
    | aesCfb128 =>
      injection hk with hk; subst hk
      simp only [PrivProto.keyLen] at hl
      refine ⟨by simp only [Spec.keyBytes, List.length_take]; omega, nofun⟩
    | desCbc =>
      injection hk with hk; subst hk
      simp only [PrivProto.keyLen] at hl
      refine ⟨by simp only [Spec.keyBytes, List.length_take]; omega, fun _ => by simp only [List.length_drop, List.length_take]; omega⟩

/-- **C104**, buffers, decryption: for every key the class accepts, every input, every salt (8 bytes or more if the protocol is DES) and
whatever the calls answer, the C library reads no byte beyond the key, the IV and the input, and its output fits. Missing: DES
with a shorter salt, see C104_false. -/
theorem C104_decrypt_partial (p : PrivProto) (key : Bytes) (seed : Nat) (k : PrivKey) (hk : PrivKey.new p key seed = .ok k) (o : Native)
    (data : Bytes) (boots time : Int) (salt : Bytes) (hs : p = .desCbc → 8 ≤ salt.length) :
    ∀ x ∈ (k.nativeDecrypt o data boots time salt).2, Spec.Within p x := by
  obtain ⟨hp, -⟩ := PrivKey.new_ok hk
  obtain ⟨h1, h2⟩ := key_lengths hk
  unfold PrivKey.nativeDecrypt
  rw [hp]
  cases p with
  | aesCfb128 =>
    simp only
    split
    · simp
    · rename_i iv hiv
      have : packIV boots time salt = .ok iv := by
        unfold translateErr at hiv
        split at hiv
        · injection hiv with hiv; rw [← hiv]; assumption
        · split at hiv <;> cases hiv
      exact process_within h1 (by rw [(packIV_length this).1]; decide) nofun
  | desCbc =>
    simp only
    split
    · simp
    · rename_i hd
      refine process_within h1 ?_ (fun _ => by simpa using hd)
      unfold PrivKey.computeIV xorBytes
      rw [List.length_zipWith, h2 rfl]
      have := hs rfl
      simp only [Spec.ivBytes]; omega

/-- **C104**, buffers, encryption. -/
theorem C104_encrypt (p : PrivProto) (key : Bytes) (seed : Nat) (k : PrivKey) (hk : PrivKey.new p key seed = .ok k) (o : Native)
    (data : Bytes) (boots time : Int) (salt : Nat) :
    ∀ x ∈ ({ k with salt }.nativeEncrypt o data boots time).2, Spec.Within p x := by
  obtain ⟨hp, -⟩ := PrivKey.new_ok hk
  obtain ⟨h1, h2⟩ := key_lengths hk
  unfold PrivKey.nativeEncrypt
  simp only
  rw [hp]
  cases p with
  | aesCfb128 =>
    simp only
    split
    · simp
    · rename_i iv hiv
      exact process_within h1 (by rw [(packIV_length hiv).1]; decide) nofun
  | desCbc =>
    simp only
    split
    · simp
    · rename_i b hb
      refine process_within h1 ?_ (fun _ => ?_)
      · unfold PrivKey.computeIV xorBytes
        have := toBytesBE_length hb
        rw [List.length_zipWith, h2 rfl, List.length_append, natToBytes_length, this]
        decide
      · unfold desPad
        simp only [List.length_append, List.length_replicate]
        omega

/-- What `EVP_DecryptUpdate` writes by the definition of the modes; with `hb` it keeps the last block of DES to itself. -/
def Spec.plainWritten (c : Crypto) (hb : Bool) (k : PrivKey) (iv data : Bytes) : Bytes :=
  match k.proto with
  | .aesCfb128 => cfbDecrypt (c.aes k.key) (c.readIV 16 iv) data
  | .desCbc =>
    if hb then (cbcDecrypt (c.desDec k.key) (c.readIV 8 iv) data).take (data.length - 8)
    else cbcDecrypt (c.desDec k.key) (c.readIV 8 iv) data

/-- What `EVP_EncryptUpdate` writes by the definition of the modes. -/
def Spec.cipherWritten (c : Crypto) (k : PrivKey) (iv data : Bytes) : Bytes :=
  match k.proto with
  | .aesCfb128 => cfbEncrypt (c.aes k.key) (c.readIV 16 iv) data
  | .desCbc => cbcEncrypt (c.desEnc k.key) (c.readIV 8 iv) (desPad data)

/-- **C104**, results. A failure of any call is an exception: if there is a result, every call succeeded. And if every call succeeds and the
update writes what the mode of operation says, the result is the one of the model of the classes, `PrivKey.decrypt`, of which the other
properties speak. -/
theorem C104_result (k : PrivKey) (data : Bytes) (boots time : Int) (salt : Bytes) :
    (∀ o x, (k.nativeDecrypt o data boots time salt).1 = .ok x →
      (∃ c, o.ctx = some c) ∧ o.init = true ∧ o.alloc = true ∧ ∃ w, o.update = some w) ∧
    ∀ hb (c : Crypto), ∃ iv, ∀ ctx, (k.nativeDecrypt ⟨some ctx, true, true, some (Spec.plainWritten c hb k iv data)⟩ data boots time salt).1 =
      (k.decrypt (.openssl hb) c data boots time salt).mapError .py := by
  constructor
  · intro o x h
    have key : ∀ {cipher key iv}, (liftNative (envelopeProcess cipher o data key iv)).1 = .ok x →
        (∃ c, o.ctx = some c) ∧ o.init = true ∧ o.alloc = true ∧ ∃ w, o.update = some w := by
      intro cipher key iv h
      unfold liftNative envelopeProcess withContext at h
      cases hc : o.ctx with
      | none => rw [hc] at h; cases h
      | some c =>
        rw [hc] at h
        dsimp only at h
        cases h1 : o.init with
        | false => rw [h1] at h; cases h
        | true =>
          cases h2 : o.alloc with
          | false => rw [h1, h2] at h; cases h
          | true =>
            cases h3 : o.update with
            | none => rw [h1, h2, h3] at h; cases h
            | some w => exact ⟨⟨c, rfl⟩, rfl, rfl, w, rfl⟩
    unfold PrivKey.nativeDecrypt at h
    split at h
    · split at h
      · cases h
      · exact key h
    · split at h
      · cases h
      · exact key h
  · intro hb c
    unfold PrivKey.nativeDecrypt PrivKey.decrypt
    unfold Spec.plainWritten
    cases k.proto with
    | aesCfb128 =>
      simp only
      cases translateErr PyErr.isValueError .decryptionError (packIV boots time salt) with
      | error e => exact ⟨[], fun _ => rfl⟩
      | ok iv => exact ⟨iv, fun _ => rfl⟩
    | desCbc =>
      simp only
      refine ⟨k.computeIV salt, fun ctx => ?_⟩
      split
      · rfl
      · rfl

/-- **C104**, results, encryption. -/
theorem C104_result_encrypt (k : PrivKey) (data : Bytes) (boots time : Int) :
    (∀ o x, (k.nativeEncrypt o data boots time).1 = .ok x →
      (∃ c, o.ctx = some c) ∧ o.init = true ∧ o.alloc = true ∧ ∃ w, o.update = some w) ∧
    ∀ hb (c : Crypto), ∃ iv, ∀ ctx, (k.nativeEncrypt ⟨some ctx, true, true, some (Spec.cipherWritten c k iv data)⟩ data boots time).1 =
      (k.encrypt (.openssl hb) c data boots time).1.mapError .py := by
  constructor
  · intro o x h
    have key : ∀ {cipher data key iv salt}, (liftNative (envelopeProcess cipher o data key iv)).1.map (fun ct => (ct, salt)) = .ok x →
        (∃ c, o.ctx = some c) ∧ o.init = true ∧ o.alloc = true ∧ ∃ w, o.update = some w := by
      intro cipher data key iv salt h
      unfold liftNative envelopeProcess withContext at h
      cases hc : o.ctx with
      | none => rw [hc] at h; cases h
      | some c =>
        rw [hc] at h
        dsimp only at h
        cases h1 : o.init with
        | false => rw [h1] at h; cases h
        | true =>
          cases h2 : o.alloc with
          | false => rw [h1, h2] at h; cases h
          | true =>
            cases h3 : o.update with
            | none => rw [h1, h2, h3] at h; cases h
            | some w => exact ⟨⟨c, rfl⟩, rfl, rfl, w, rfl⟩
    unfold PrivKey.nativeEncrypt at h
    simp only at h
    split at h
    · split at h
      · cases h
      · exact key h
    · split at h
      · cases h
      · exact key h
  · intro hb c
    unfold PrivKey.nativeEncrypt PrivKey.encrypt
    unfold Spec.cipherWritten
    simp only
    cases k.proto with
    | aesCfb128 =>
      simp only
      cases packIV boots time (natToBytes 8 ((k.salt + 1) % PrivKey.saltWrap .aesCfb128)) with
      | error e => exact ⟨[], fun _ => rfl⟩
      | ok iv => exact ⟨iv, fun _ => rfl⟩
    | desCbc =>
      simp only
      cases toBytesBE 4 boots with
      | error e => exact ⟨[], fun _ => rfl⟩
      | ok b => exact ⟨_, fun _ => rfl⟩

/-- C104 is false of the code: with an empty salt, which any datagram may carry, the C library is given an IV of no bytes where it reads
eight. -/
theorem C104_false : ∃ k, PrivKey.new .desCbc (List.replicate 16 1) 0 = .ok k ∧
    ¬ ∀ x ∈ (k.nativeDecrypt ⟨some 0, true, true, some []⟩ (List.replicate 8 0) 0 0 []).2, Spec.Within .desCbc x := by
  refine ⟨_, rfl, fun h => ?_⟩
  have := h (.init 0 .desCbc 8 0) (by decide +kernel)
  exact absurd this.2.2 (by decide)

/-- Non-vacuity of C104_contexts: two operations interleaved, one of which fails, the other one unfinished; it then reuses the context
freed by the first. -/
theorem C104_example :
    let a : Native := ⟨some 7, false, true, none⟩
    let b : Native := ⟨some 7, true, true, some [1]⟩
    let ops : Nat → PrivProto × Native × Bytes × Bytes × Bytes := fun i => if i = 0 then (.aesCfb128, a, [1], List.replicate 16 0, List.replicate 16 0)
      else (.desCbc, b, List.replicate 8 0, List.replicate 8 0, List.replicate 8 0)
    let h : List (Nat × NativeCall) := [(0, .new (some 7)), (0, .init 7 .aesCfb128 16 16), (0, .free 7), (1, .new (some 7)), (1, .init 7 .desCbc 8 8)]
    (∀ i, Spec.callsOf h i <+: (envelopeProcess (ops i).1 (ops i).2.1 (ops i).2.2.1 (ops i).2.2.2.1 (ops i).2.2.2.2).2) ∧
    Spec.Allocator (h.map Prod.snd) ∧ Spec.LiveContext (h.map Prod.snd) 7 := by
  refine ⟨?_, ?_, ?_⟩
  · intro i
    by_cases h0 : i = 0
    · subst h0; exact ⟨[], by decide +kernel⟩
    · by_cases h1 : i = 1
      · subst h1; exact ⟨[.update 7 16 8 8, .free 7], by decide +kernel⟩
      · have : Spec.callsOf [(0, .new (some 7)), (0, .init 7 .aesCfb128 16 16), (0, .free 7), (1, .new (some 7)), (1, .init 7 .desCbc 8 8)] i = [] := by
          unfold Spec.callsOf
          simp [Ne.symm h0, Ne.symm h1]
        rw [this]; exact List.nil_prefix
  · intro before c after e
    have hn : before.length < 5 := by
      have := congrArg List.length e
      simp at this; omega
    have hb : before = ([.new (some 7), .init 7 .aesCfb128 16 16, .free 7, .new (some 7), .init 7 .desCbc 8 8] : List NativeCall).take before.length := by
      have := congrArg (List.take before.length) e
      simpa using this.symm
    have hx : ([.new (some 7), .init 7 .aesCfb128 16 16, .free 7, .new (some 7), .init 7 .desCbc 8 8] : List NativeCall)[before.length]? =
        some (.new (some c)) := by
      have := congrArg (fun l => l[before.length]?) e
      simpa using this
    rw [hb]
    generalize before.length = n at hn hx
    interval_cases n
    · rintro ⟨b, a, e', -⟩; simp at e'
    · simp at hx
    · simp at hx
    · simp only [List.getElem?_cons_succ, List.getElem?_cons_zero, Option.some.injEq, NativeCall.new.injEq] at hx
      subst hx
      rw [show List.take 3 ([.new (some 7), .init 7 .aesCfb128 16 16, .free 7, .new (some 7), .init 7 .desCbc 8 8] : List NativeCall) =
        [.new (some 7), .init 7 .aesCfb128 16 16] ++ [.free 7] from rfl, live_snoc]
      simp
    · simp at hx
  · exact ⟨[.new (some 7), .init 7 .aesCfb128 16 16, .free 7], [.init 7 .desCbc 8 8], rfl, by simp⟩

/-- Non-vacuity of C104_initialised and C104_alone: an operation initialises its context and gives it data, while another one has another
context. -/
theorem C104_initialised_example :
    let a : Native := ⟨some 6, true, true, none⟩
    let b : Native := ⟨some 7, true, true, some [1]⟩
    let ops : Nat → PrivProto × Native × Bytes × Bytes × Bytes := fun i => if i = 0 then (.aesCfb128, a, [1], List.replicate 16 0, List.replicate 16 0)
      else (.desCbc, b, List.replicate 8 0, List.replicate 8 0, List.replicate 8 0)
    let before : List (Nat × NativeCall) := [(0, .new (some 6)), (1, .new (some 7)), (0, .init 6 .aesCfb128 16 16), (1, .init 7 .desCbc 8 8)]
    let h := before ++ (1, .update 7 16 8 8) :: []
    (∀ i, Spec.callsOf h i <+: (envelopeProcess (ops i).1 (ops i).2.1 (ops i).2.2.1 (ops i).2.2.2.1 (ops i).2.2.2.2).2) ∧
    Spec.LiveContext (Spec.callsOf before 0) 6 ∧ Spec.LiveContext (Spec.callsOf before 1) 7 := by
  refine ⟨?_, ⟨[], [.init 6 .aesCfb128 16 16], by decide +kernel, by simp⟩, ⟨[], [.init 7 .desCbc 8 8], by decide +kernel, by simp⟩⟩
  intro i
  by_cases h0 : i = 0
  · subst h0; exact ⟨[.update 6 16 1 1, .free 6], by decide +kernel⟩
  · by_cases h1 : i = 1
    · subst h1; exact ⟨[.free 7], by decide +kernel⟩
    · unfold Spec.callsOf
      simp [Ne.symm h0, Ne.symm h1]

end Snmp
