import Verif.ProcessorLemmas
/-!
# Properties C28 and C31: request and message IDs

A history is any interleaving of the atomic steps of any number of threads (`PEvent`): calls of
`cache`, releases by handles, collected handles, and received messages. -/

set_option linter.unusedSimpArgs false

namespace Snmp

variable {E M : Type}

/-! ## C28 and C31: uniqueness and range -/

/-- The random numbers `randint(1, half)` can return for the given width. -/
def Spec.Draw (bits r : Nat) : Prop := 1 ≤ r ∧ r ≤ 2 ^ (bits - 1)

/-- A history whose random numbers are possible ones. -/
def Spec.History (bits : Nat) (h : List (PEvent E M)) : Prop :=
  ∀ c r, PEvent.draw c r ∈ h → Spec.Draw bits r

/-- C28: in every history of the v1/v2c processor, every request ID handed out, and every
outstanding one, is non-zero and fits in a signed 32-bit integer. -/
theorem C28_range (r0 : Nat) (hr : Spec.Draw 32 r0)
    (h : List (PEvent CommunityEntry Message)) (hh : Spec.History 32 h) :
    (∀ c e id, ((PSys.init communityProto r0).run communityProto h).calls c = .returned e id →
      id ≠ 0 ∧ -2147483648 ≤ id ∧ id ≤ 2147483647) ∧
    (∀ id e, ((PSys.init communityProto r0).run communityProto h).cache.outstanding id = some e →
      id ≠ 0 ∧ -2147483648 ≤ id ∧ id ≤ 2147483647) := by
  have hi := (PInv.init communityProto (r := r0) hr).run communityProto (by decide) hh
  have key : ∀ id : Int, NBit 32 true id → -2147483648 ≤ id ∧ id ≤ 2147483647 := by
    intro id h; unfold NBit at h; simp at h; omega
  constructor
  · intro c e id hc
    obtain ⟨h1, h2⟩ := hi.returned c e id hc
    exact ⟨h1, key id h2⟩
  · intro id e ho
    obtain ⟨c, hc⟩ := hi.entry id e ho
    obtain ⟨h1, h2⟩ := hi.returned c e id hc
    exact ⟨h1, key id h2⟩

/-- C31: every message ID handed out for a confirmed SNMPv3 request is in 1..2^31-1. -/
theorem C31_range (r0 : Nat) (hr : Spec.Draw 31 r0)
    (h : List (PEvent V3Entry V3Incoming)) (hh : Spec.History 31 h) :
    (∀ c e id, ((PSys.init v3Proto r0).run v3Proto h).calls c = .returned e id →
      1 ≤ id ∧ id ≤ 2147483647) ∧
    (∀ id e, ((PSys.init v3Proto r0).run v3Proto h).cache.outstanding id = some e →
      1 ≤ id ∧ id ≤ 2147483647) := by
  have hi := (PInv.init v3Proto (r := r0) hr).run v3Proto (by decide) hh
  have key : ∀ id : Int, id ≠ 0 → NBit 31 false id → 1 ≤ id ∧ id ≤ 2147483647 := by
    intro id h0 h; unfold NBit at h; simp at h; omega
  constructor
  · intro c e id hc
    obtain ⟨h1, h2⟩ := hi.returned c e id hc
    exact key id h1 h2
  · intro id e ho
    obtain ⟨c, hc⟩ := hi.entry id e ho
    obtain ⟨h1, h2⟩ := hi.returned c e id hc
    exact key id h1 h2

/-- C28, C31: an ID is handed out only while it is not outstanding; it then becomes outstanding with
the caller's entry, and no other ID is affected. In any state, for any processor. -/
theorem C28_fresh (p : Proto E M) (s : PSys E M) (c r : Nat) (e : E) (n : Nat) (id : Int)
    (hc : s.calls c = .trying e n) (hret : (s.step p (.draw c r)).calls c = .returned e id) :
    s.cache.outstanding id = none ∧ (s.step p (.draw c r)).cache.outstanding id = some e ∧
    ∀ i, i ≠ id → (s.step p (.draw c r)).cache.outstanding i = s.cache.outstanding i := by
  rcases PSys.step_draw p s c r hc with ⟨h0, hs⟩ | ⟨h0, h1, hs⟩ | ⟨h0, h1, hs⟩
  · rw [hs] at hret; simp only [setAt_same] at hret; split at hret <;> cases hret
  · rw [hs] at hret ⊢
    simp only [setAt_same, Call.returned.injEq, true_and] at hret
    subst hret
    exact ⟨h1, by simp, fun i hi => by simp [hi]⟩
  · rw [hs] at hret; simp only [setAt_same] at hret; split at hret <;> cases hret

/-- C28, C31: if two calls obtained the same ID, the first one's was taken out of the table in
between: by a release of that ID, or by a thread that had found its handle dead. -/
theorem C28_unique (p : Proto E M) (s : PSys E M) (h : List (PEvent E M)) (id : Int) (e e' : E)
    (c' : Nat) (hout : s.cache.outstanding id = some e)
    (hold : s.calls c' ≠ .returned e' id) (hnew : (s.run p h).calls c' = .returned e' id) :
    ∃ pre ev post, h = pre ++ ev :: post ∧
      (s.run p pre).cache.outstanding id = some e ∧
      ((s.run p pre).step p ev).cache.outstanding id = none ∧
      (ev = .release id ∨ ∃ t, ev = .uncacheLate t ∧ (s.run p pre).recv t = .late id) := by
  induction h generalizing s with
  | nil => exact absurd hnew hold
  | cons ev h ih =>
    rcases PSys.outstanding_step p s ev id with hk | ⟨hk, hev⟩ | ⟨hk, -⟩
    · by_cases hret : (s.step p ev).calls c' = .returned e' id
      · -- the call returned an outstanding ID: impossible
        exfalso
        cases ev with
        | draw c r =>
          cases hc : s.calls c with
          | trying e0 n =>
            rcases PSys.step_draw p s c r hc with ⟨h0, hs⟩ | ⟨h0, h1, hs⟩ | ⟨h0, h1, hs⟩
            · rw [hs] at hret; simp only at hret
              by_cases hcc : c' = c
              · subst hcc; rw [setAt_same] at hret; split at hret <;> cases hret
              · rw [setAt_other _ _ hcc] at hret; exact hold hret
            · rw [hs] at hret; simp only at hret
              by_cases hcc : c' = c
              · subst hcc
                rw [setAt_same] at hret
                injection hret with _ hid
                rw [hid, hout] at h1; cases h1
              · rw [setAt_other _ _ hcc] at hret; exact hold hret
            · rw [hs] at hret; simp only at hret
              by_cases hcc : c' = c
              · subst hcc; rw [setAt_same] at hret; split at hret <;> cases hret
              · rw [setAt_other _ _ hcc] at hret; exact hold hret
          | _ =>
            rw [PSys.step_draw_idle p s c r (by intro e n; rw [hc]; simp)] at hret
            exact hold hret
        | start c e0 =>
          revert hret
          simp only [PSys.step]
          cases hc : s.calls c with
          | notStarted =>
            simp only
            by_cases hcc : c' = c
            · subst hcc; rw [setAt_same]; intro h; cases h
            · rw [setAt_other _ _ hcc]; exact hold
          | _ => exact hold
        | release i => exact hold hret
        | collect i => exact hold hret
        | lookup t m =>
          revert hret
          simp only [PSys.step]
          cases p.classify m with
          | error x => exact hold
          | ok i => simp only; cases s.cache.retrieve i <;> exact hold
        | resolve t =>
          revert hret
          simp only [PSys.step]
          cases s.recv t with
          | looked i e m => simp only; cases p.resolve s.dead e m <;> exact hold
          | _ => exact hold
        | uncacheLate t =>
          revert hret
          simp only [PSys.step]
          cases s.recv t <;> exact hold
      · obtain ⟨pre, ev', post, h1, h2, h3⟩ := ih (s.step p ev) (hk.trans hout) hret hnew
        exact ⟨ev :: pre, ev', post, by rw [h1]; rfl, h2, h3⟩
    · exact ⟨[], ev, h, rfl, hout, hk, hev⟩
    · rw [hout] at hk; cases hk

/-- Whether the number the generator yields next could be handed out: not zero, not outstanding. -/
def Spec.usable (s : PSys E M) : Bool :=
  s.cache.gen.next.previous != 0 && (s.cache.outstanding s.cache.gen.next.previous).isNone

/-- For each time call `c` went through the critical section in a history from `s`, whether the
number it drew was usable. -/
def Spec.drawsOf (p : Proto E M) (c : Nat) : PSys E M → List (PEvent E M) → List Bool
  | _, [] => []
  | s, ev :: h =>
    (match ev, s.calls c with
      | .draw c' _, .trying _ _ => if c' = c then [Spec.usable s] else []
      | _, _ => []) ++ Spec.drawsOf p c (s.step p ev) h

theorem drawsOf_cons (p : Proto E M) (c : Nat) (s : PSys E M) (ev : PEvent E M)
    (h : List (PEvent E M)) : Spec.drawsOf p c s (ev :: h) =
    (match ev, s.calls c with
      | .draw c' _, .trying _ _ => if c' = c then [Spec.usable s] else []
      | _, _ => []) ++ Spec.drawsOf p c (s.step p ev) h := rfl

theorem PSys.call_step_other (p : Proto E M) (s : PSys E M) (ev : PEvent E M) (c : Nat)
    (h1 : ∀ r, ev ≠ .draw c r) (h2 : ∀ e, ev ≠ .start c e) : (s.step p ev).calls c = s.calls c := by
  cases ev with
  | start c' e =>
    have hne : c ≠ c' := by rintro rfl; exact h2 e rfl
    simp only [PSys.step]
    cases s.calls c' with
    | notStarted => simp only; rw [setAt_other _ _ hne]
    | _ => rfl
  | draw c' r =>
    have hne : c ≠ c' := by rintro rfl; exact h1 r rfl
    cases hc : s.calls c' with
    | trying e' n =>
      rcases PSys.step_draw p s c' r hc with ⟨-, hs⟩ | ⟨-, -, hs⟩ | ⟨-, -, hs⟩ <;>
      · rw [hs]; simp only; rw [setAt_other _ _ hne]
    | _ => rw [PSys.step_draw_idle p s c' r (by intro e n; rw [hc]; simp)]
  | release id => rfl
  | collect h' => rfl
  | lookup t m =>
    simp only [PSys.step]
    cases p.classify m with
    | error x => rfl
    | ok i => simp only; cases s.cache.retrieve i <;> rfl
  | resolve t =>
    simp only [PSys.step]
    cases s.recv t with
    | looked i e m => simp only; cases p.resolve s.dead e m <;> rfl
    | _ => rfl
  | uncacheLate t => simp only [PSys.step]; cases s.recv t <;> rfl

/-- What the record of draws says for each outcome of a call that had made `n` attempts. -/
def Spec.outcome (n : Nat) (draws : List Bool) : Call E → Prop
  | .notStarted => False
  | .trying _ m => n ≤ m ∧ m < 10 ∧ draws = List.replicate (m - n) false
  | .returned _ _ => ∃ k, n + k < 10 ∧ draws = List.replicate k false ++ [true]
  | .failed => draws = List.replicate (10 - n) false

theorem drawsOf_done (p : Proto E M) (c : Nat) (s : PSys E M) (h : List (PEvent E M))
    (hc : (∃ e id, s.calls c = .returned e id) ∨ s.calls c = .failed) :
    Spec.drawsOf p c s h = [] ∧ (s.run p h).calls c = s.calls c := by
  induction h generalizing s with
  | nil => exact ⟨rfl, rfl⟩
  | cons ev h ih =>
    have hsame : (s.step p ev).calls c = s.calls c := by
      by_cases h1 : ∃ r, ev = .draw c r
      · obtain ⟨r, rfl⟩ := h1
        rw [PSys.step_draw_idle p s c r (by
          intro e n; rcases hc with ⟨e', i, hc⟩ | hc <;> rw [hc] <;> simp)]
      · by_cases h2 : ∃ e, ev = .start c e
        · obtain ⟨e, rfl⟩ := h2
          simp only [PSys.step]
          rcases hc with ⟨e', i, hc⟩ | hc <;> simp only [hc]
        · exact PSys.call_step_other p s ev c (fun r hr => h1 ⟨r, hr⟩) (fun e he => h2 ⟨e, he⟩)
    obtain ⟨i1, i2⟩ := ih (s.step p ev) (by rw [hsame]; exact hc)
    refine ⟨?_, by rw [PSys.run_cons, i2, hsame]⟩
    unfold Spec.drawsOf
    rw [i1]
    rcases hc with ⟨e', i, hc⟩ | hc <;> rw [hc] <;> cases ev <;> rfl

theorem drawsOf_trying (p : Proto E M) (c : Nat) (s : PSys E M) (h : List (PEvent E M)) (e : E)
    (n : Nat) (hn : n < 10) (hc : s.calls c = .trying e n) :
    Spec.outcome n (Spec.drawsOf p c s h) ((s.run p h).calls c) := by
  induction h generalizing s n with
  | nil =>
    rw [PSys.run_nil, hc]
    exact ⟨le_refl _, hn, by simp [Spec.drawsOf]⟩
  | cons ev h ih =>
    by_cases h1 : ∃ r, ev = .draw c r
    · obtain ⟨r, rfl⟩ := h1
      have failCase : Spec.usable s = false →
          (s.step p (.draw c r)).calls c = (if n + 1 < 10 then .trying e (n + 1) else .failed) →
          Spec.outcome n (Spec.drawsOf p c s (.draw c r :: h))
            ((s.run p (.draw c r :: h)).calls c) := by
        intro hu hs
        have hd : Spec.drawsOf p c s (.draw c r :: h) =
            false :: Spec.drawsOf p c (s.step p (.draw c r)) h := by
          simp only [Spec.drawsOf, hc, hu, ↓reduceIte, List.singleton_append]
        rw [hd, PSys.run_cons]
        by_cases hlt : n + 1 < 10
        · rw [if_pos hlt] at hs
          have := ih (s.step p (.draw c r)) (n + 1) hlt hs
          revert this
          cases hfin : ((s.step p (.draw c r)).run p h).calls c with
          | notStarted => exact fun h => h
          | trying e' m =>
            rintro ⟨q1, q2, q3⟩
            refine ⟨by omega, q2, ?_⟩
            rw [q3, show m - n = (m - (n + 1)) + 1 by omega, List.replicate_succ]
          | returned e' id =>
            rintro ⟨k, q1, q2⟩
            exact ⟨k + 1, by omega, by rw [q2, List.replicate_succ]; rfl⟩
          | failed =>
            intro q
            show _ = _
            rw [show Spec.drawsOf p c _ h = _ from q, show 10 - n = (10 - (n + 1)) + 1 by omega,
              List.replicate_succ]
        · rw [if_neg hlt] at hs
          obtain ⟨i1, i2⟩ := drawsOf_done p c _ h (.inr hs)
          rw [i1, i2, hs]
          show _ = _
          rw [show 10 - n = 1 by omega]; rfl
      rcases PSys.step_draw p s c r hc with ⟨h0, hs⟩ | ⟨h0, h1, hs⟩ | ⟨h0, h1, hs⟩
      · exact failCase (by simp [Spec.usable, h0]) (by rw [hs]; simp)
      · have hu : Spec.usable s = true := by simp [Spec.usable, h0, h1]
        have hd : Spec.drawsOf p c s (.draw c r :: h) =
            true :: Spec.drawsOf p c (s.step p (.draw c r)) h := by
          simp only [Spec.drawsOf, hc, hu, ↓reduceIte, List.singleton_append]
        have hs' : (s.step p (.draw c r)).calls c = .returned e s.cache.gen.next.previous := by
          rw [hs]; simp
        obtain ⟨i1, i2⟩ := drawsOf_done p c _ h (.inl ⟨_, _, hs'⟩)
        rw [hd, PSys.run_cons, i1, i2, hs']
        exact ⟨0, by omega, rfl⟩
      · refine failCase ?_ (by rw [hs]; simp)
        cases ho : s.cache.outstanding s.cache.gen.next.previous with
        | none => exact absurd ho h1
        | some x => simp [Spec.usable, ho]
    · have hsame : (s.step p ev).calls c = s.calls c := by
        by_cases h2 : ∃ e, ev = .start c e
        · obtain ⟨e', rfl⟩ := h2
          simp only [PSys.step, hc]
        · exact PSys.call_step_other p s ev c (fun r hr => h1 ⟨r, hr⟩) (fun e he => h2 ⟨e, he⟩)
      have hd : Spec.drawsOf p c s (ev :: h) = Spec.drawsOf p c (s.step p ev) h := by
        rw [drawsOf_cons, hc]
        cases ev with
        | draw c' r =>
          have : c' ≠ c := by rintro rfl; exact h1 ⟨r, rfl⟩
          simp [this]
        | _ => simp
      rw [hd, PSys.run_cons]
      exact ih (s.step p ev) n hn (by rw [hsame]; exact hc)

/-- C28, C31: a call of `cache` raises `CacheError` exactly after ten draws none of which was usable,
and returns at its first usable draw, which is at most the tenth; whatever other threads do in
between. -/
theorem C28_attempts (p : Proto E M) (c : Nat) (e : E) (s : PSys E M) (h : List (PEvent E M))
    (hc : s.calls c = .notStarted) :
    (((s.step p (.start c e)).run p h).calls c = .failed →
      Spec.drawsOf p c (s.step p (.start c e)) h = List.replicate 10 false) ∧
    (∀ e' id, ((s.step p (.start c e)).run p h).calls c = .returned e' id →
      ∃ k, k < 10 ∧ Spec.drawsOf p c (s.step p (.start c e)) h = List.replicate k false ++ [true]) := by
  have hs : (s.step p (.start c e)).calls c = .trying e 0 := by simp [PSys.step, hc]
  have := drawsOf_trying p c _ h e 0 (by omega) hs
  constructor
  · intro hf; rw [hf] at this; exact this
  · intro e' id hr
    rw [hr] at this
    obtain ⟨k, h1, h2⟩ := this
    exact ⟨k, by omega, h2⟩

/-- Two requests of two threads, interleaved, with a release: a history as the theorems quantify. -/
def Spec.sampleHistory : List (PEvent CommunityEntry Message) :=
  [.start 0 ⟨10, [1]⟩, .start 1 ⟨11, [2]⟩, .draw 1 1, .draw 0 1, .release 3]

example : Spec.History 32 Spec.sampleHistory := by
  intro c r h
  simp only [Spec.sampleHistory, List.mem_cons, List.not_mem_nil, reduceCtorEq, PEvent.draw.injEq,
    or_false, false_or] at h
  rcases h with h | h <;> rw [h.2] <;> exact ⟨by decide, by decide⟩
/-- The second caller got 3 first, and released it; the first got 6. -/
example : ((PSys.init communityProto 2).run communityProto Spec.sampleHistory).calls 1 =
      .returned ⟨11, [2]⟩ 3 ∧
    ((PSys.init communityProto 2).run communityProto Spec.sampleHistory).calls 0 =
      .returned ⟨10, [1]⟩ 6 ∧
    ((PSys.init communityProto 2).run communityProto Spec.sampleHistory).cache.outstanding 6 =
      some ⟨10, [1]⟩ ∧
    ((PSys.init communityProto 2).run communityProto Spec.sampleHistory).cache.outstanding 3 =
      none := by
  decide +kernel


/-! ## C28: allocation succeeds when few requests are outstanding -/

theorem after_add (g : NumGen) (a b : Nat) : g.after (a + b) = (g.after a).after b := by
  induction b with
  | zero => rfl
  | succ b ih => rw [← Nat.add_assoc]; simp only [NumGen.after]; rw [ih]

theorem NumGen.after_period {n : Nat} (hn : 1 ≤ n) (signed : Bool) {r : Nat} (hr : 1 ≤ r)
    (hr2 : r ≤ 2 ^ (n - 1)) (k : Nat) :
    (NumGen.new n signed r).after (k + 2 ^ n) = (NumGen.new n signed r).after k := by
  obtain ⟨-, -, a1, a2, a3⟩ := NumGen.after_spec hn signed hr hr2 (k + 2 ^ n)
  obtain ⟨-, -, b1, b2, b3⟩ := NumGen.after_spec hn signed hr hr2 k
  have hp := (C03_enumerates n hn signed r hr hr2).2.2.2.2 k
  unfold NumGen.output at hp
  generalize (NumGen.new n signed r).after (k + 2 ^ n) = x at *
  generalize (NumGen.new n signed r).after k = y at *
  cases x; cases y
  simp only at *
  simp only [NumGen.mk.injEq]
  exact ⟨hp, a1.trans b1.symm, a2.trans b2.symm, a3.trans b3.symm⟩

theorem GenOk.bounded {p : Proto E M} (hb : 1 ≤ p.bits) {g : NumGen} (h : GenOk p g) :
    ∃ r k, 1 ≤ r ∧ r ≤ 2 ^ (p.bits - 1) ∧ k < 2 ^ p.bits ∧
      g = (NumGen.new p.bits p.signed r).after k := by
  obtain ⟨r, k, h1, h2, rfl⟩ := h
  have hpos : 0 < 2 ^ p.bits := by positivity
  refine ⟨r, k % 2 ^ p.bits, h1, h2, Nat.mod_lt _ hpos, ?_⟩
  have : ∀ q m, (NumGen.new p.bits p.signed r).after (m + q * 2 ^ p.bits) =
      (NumGen.new p.bits p.signed r).after m := by
    intro q m
    induction q with
    | zero => simp
    | succ q ih =>
      rw [Nat.succ_mul, ← Nat.add_assoc, NumGen.after_period hb p.signed h1 h2, ih]
  have hk := this (k / 2 ^ p.bits) (k % 2 ^ p.bits)
  rw [Nat.mul_comm, Nat.mod_add_div] at hk
  exact hk

/-- Failing attempts while the generator does not reach zero hit distinct outstanding IDs. -/
theorem cacheLoop_run (p : Proto E M) (hb : 1 ≤ p.bits) {r : Nat} (hr : 1 ≤ r)
    (hr2 : r ≤ 2 ^ (p.bits - 1)) (l : List Int) (e : E) (n : Nat) :
    ∀ (j k : Nat) (c : Cache E) (draws : Nat → Nat), k + j < 2 ^ p.bits → j ≤ n →
      c.gen = (NumGen.new p.bits p.signed r).after k →
      (∀ i, c.outstanding i ≠ none → i ∈ l) →
      (∀ id, (Cache.cacheLoop p.bits p.signed n c e draws).1 ≠ .ok id) →
      (∀ i, 1 ≤ i → i ≤ j → (NumGen.new p.bits p.signed r).output (k + i) ∈ l) ∧
      ∃ c' draws', c'.outstanding = c.outstanding ∧
        c'.gen = (NumGen.new p.bits p.signed r).after (k + j) ∧
        (∀ id, (Cache.cacheLoop p.bits p.signed (n - j) c' e draws').1 ≠ .ok id) ∧
        (∀ q, draws' q = draws (q + j)) := by
  obtain ⟨-, -, -, hnz, -⟩ := C03_enumerates p.bits hb p.signed r hr hr2
  intro j
  induction j generalizing n with
  | zero =>
    intro k c draws _ _ hg _ hf
    exact ⟨fun i h1 h2 => by omega, c, draws, rfl, hg, hf, fun q => rfl⟩
  | succ j ih =>
    intro k c draws hk hj hg hl hf
    obtain ⟨n', rfl⟩ : ∃ n', n = n' + 1 := ⟨n - 1, by omega⟩
    have hval : c.gen.next.previous = (NumGen.new p.bits p.signed r).output (k + 1) := by
      rw [hg]; rfl
    have h0 : c.gen.next.previous ≠ 0 := by rw [hval]; exact hnz (k + 1) (by omega) (by omega)
    rcases c.attempt_cases p.bits p.signed e (draws 0) with ⟨h, -⟩ | ⟨-, -, ha⟩ | ⟨-, ho, ha⟩
    · exact absurd h h0
    · exact absurd (by simp only [Cache.cacheLoop, ha]) (hf c.gen.next.previous)
    · have hf' : ∀ id, (Cache.cacheLoop p.bits p.signed n' { c with gen := c.gen.next } e
          fun q => draws (q + 1)).1 ≠ .ok id := by
        intro id
        have := hf id
        simp only [Cache.cacheLoop, ha] at this
        exact this
      have hmem := hl _ ho
      rw [hval] at hmem
      obtain ⟨i1, c', draws', i2, i3, i4, i5⟩ := ih n' (k + 1) { c with gen := c.gen.next }
        (fun q => draws (q + 1)) (by omega) (by omega) (by simp only [hg]; rfl) hl hf'
      refine ⟨?_, c', draws', i2, ?_, ?_, ?_⟩
      · intro i h1 h2
        by_cases hi : i = 1
        · rw [hi]; exact hmem
        · have := i1 (i - 1) (by omega) (by omega)
          rw [show k + 1 + (i - 1) = k + i by omega] at this
          exact this
      · rw [i3, show k + 1 + j = k + (j + 1) by omega]
      · rw [show n' + 1 - (j + 1) = n' - j by omega]; exact i4
      · intro q; rw [i5, show q + (j + 1) = q + j + 1 by omega]

/-- Distinct values inside a list. -/
theorem distinct_le {f : Nat → Int} {l : List Int} {k j : Nat}
    (hinj : ∀ a b, 1 ≤ a → a ≤ j → 1 ≤ b → b ≤ j → f (k + a) = f (k + b) → a = b)
    (hmem : ∀ i, 1 ≤ i → i ≤ j → f (k + i) ∈ l) : j ≤ l.length := by
  have hnd : (((List.range j).map fun i => f (k + (i + 1)))).Nodup := by
    refine List.Nodup.map_on ?_ List.nodup_range
    intro a ha b hb h
    have ha' := List.mem_range.1 ha
    have hb' := List.mem_range.1 hb
    have := hinj (a + 1) (b + 1) (by omega) (by omega) (by omega) (by omega) h
    omega
  have hsub : (((List.range j).map fun i => f (k + (i + 1)))) ⊆ l := by
    intro x hx
    obtain ⟨i, hi, rfl⟩ := List.mem_map.1 hx
    exact hmem (i + 1) (by omega) (by have := List.mem_range.1 hi; omega)
  have := (List.subperm_of_subset hnd hsub).length_le
  simpa using this

theorem output_inj (p : Proto E M) (hb : 1 ≤ p.bits) {r : Nat} (hr : 1 ≤ r)
    (hr2 : r ≤ 2 ^ (p.bits - 1)) {a b : Nat} (ha : 1 ≤ a) (ha2 : a ≤ 2 ^ p.bits) (hb1 : 1 ≤ b)
    (hb2 : b ≤ 2 ^ p.bits)
    (h : (NumGen.new p.bits p.signed r).output a = (NumGen.new p.bits p.signed r).output b) :
    a = b := by
  obtain ⟨h1, h2, -⟩ := C03_enumerates p.bits hb p.signed r hr hr2
  obtain ⟨k, -, hk⟩ := h2 _ (h1 b)
  rw [hk a ⟨ha, ha2, h⟩, hk b ⟨hb1, hb2, rfl⟩]

theorem cache_room (p : Proto E M) (hb : 1 ≤ p.bits) (hlarge : 10 < 2 ^ p.bits) (c : Cache E)
    (hg : GenOk p c.gen) (l : List Int) (hl : ∀ i, c.outstanding i ≠ none → i ∈ l)
    (h4 : l.length ≤ 4) (e : E) (draws : Nat → Nat) (hd : ∀ q, DrawOk p (draws q)) :
    ∃ id c', c.cache p.bits p.signed e draws = (.ok id, c') := by
  by_contra hcon
  have hf : ∀ id, (Cache.cacheLoop p.bits p.signed 10 c e draws).1 ≠ .ok id := by
    intro id hid
    exact hcon ⟨id, _, Prod.ext hid rfl⟩
  obtain ⟨r, k, hr, hr2, hk, hgen⟩ := hg.bounded hb
  have inj := @output_inj E M p hb r hr hr2
  by_cases hz : k + 10 < 2 ^ p.bits
  · obtain ⟨hm, -⟩ := cacheLoop_run p hb hr hr2 l e 10 10 k c draws hz (by omega) hgen hl hf
    have := distinct_le (f := (NumGen.new p.bits p.signed r).output) (l := l) (k := k) (j := 10)
      (fun a b h1 h2 h3 h4 h => by
        have := inj (by omega) (by omega) (by omega) (by omega) h; omega) hm
    omega
  · -- zero is reached at attempt number j + 1
    obtain ⟨j, hj⟩ : ∃ j, k + j + 1 = 2 ^ p.bits := ⟨2 ^ p.bits - k - 1, by omega⟩
    obtain ⟨hm, c1, d1, ho1, hg1, hf1, hdr1⟩ := cacheLoop_run p hb hr hr2 l e 10 j k c draws
      (by omega) (by omega) hgen hl hf
    have b1 := distinct_le (f := (NumGen.new p.bits p.signed r).output) (l := l) (k := k) (j := j)
      (fun a b h1 h2 h3 h4 h => by
        have := inj (by omega) (by omega) (by omega) (by omega) h; omega) hm
    obtain ⟨-, -, hzero, -⟩ := C03_enumerates p.bits hb p.signed r hr hr2
    have hz0 : c1.gen.next.previous = 0 := by
      rw [hg1, ← hzero, ← hj]; rfl
    obtain ⟨n', hn'⟩ : ∃ n', 10 - j = n' + 1 := ⟨9 - j, by omega⟩
    rw [hn'] at hf1
    rcases c1.attempt_cases p.bits p.signed e (d1 0) with ⟨-, ha⟩ | ⟨h, -⟩ | ⟨h, -⟩
    · have hf2 : ∀ id, (Cache.cacheLoop p.bits p.signed n'
          { c1 with gen := NumGen.new p.bits p.signed (d1 0) } e fun q => d1 (q + 1)).1 ≠ .ok id := by
        intro id
        have := hf1 id
        simp only [Cache.cacheLoop, ha] at this
        exact this
      have hd1 := hd (0 + j)
      rw [← hdr1] at hd1
      obtain ⟨hm2, -⟩ := cacheLoop_run p hb hd1.1 hd1.2 l e n' n' 0
        { c1 with gen := NumGen.new p.bits p.signed (d1 0) } (fun q => d1 (q + 1)) (by omega) (le_refl _)
        rfl (by simp only [ho1]; exact hl) hf2
      have inj2 := @output_inj E M p hb (d1 0) hd1.1 hd1.2
      have b2 := distinct_le (f := (NumGen.new p.bits p.signed (d1 0)).output) (l := l) (k := 0)
        (j := n') (fun a b h1 h2 h3 h4 h => by
          have := inj2 (by omega) (by omega) (by omega) (by omega) h; omega) hm2
      omega
    · exact absurd hz0 h
    · exact absurd hz0 h

/-- C28: with at most four requests outstanding, after any history and with any random numbers,
allocating a request ID (with no other thread interfering) succeeds. -/
theorem C28_room (r0 : Nat) (hr : Spec.Draw 32 r0) (h : List (PEvent CommunityEntry Message))
    (hh : Spec.History 32 h) (l : List Int) (h4 : l.length ≤ 4)
    (hl : ∀ i, ((PSys.init communityProto r0).run communityProto h).cache.outstanding i ≠ none → i ∈ l)
    (e : CommunityEntry) (draws : Nat → Nat) (hd : ∀ q, Spec.Draw 32 (draws q)) :
    ∃ id c', ((PSys.init communityProto r0).run communityProto h).cache.cache 32 true e draws =
      (.ok id, c') :=
  cache_room communityProto (by decide) (by norm_num [communityProto]) _
    ((PInv.init communityProto (r := r0) hr).run communityProto (by decide) hh).gen l hl h4 e draws hd

/-- C31: the same for message IDs. -/
theorem C31_room (r0 : Nat) (hr : Spec.Draw 31 r0) (h : List (PEvent V3Entry V3Incoming))
    (hh : Spec.History 31 h) (l : List Int) (h4 : l.length ≤ 4)
    (hl : ∀ i, ((PSys.init v3Proto r0).run v3Proto h).cache.outstanding i ≠ none → i ∈ l)
    (e : V3Entry) (draws : Nat → Nat) (hd : ∀ q, Spec.Draw 31 (draws q)) :
    ∃ id c', ((PSys.init v3Proto r0).run v3Proto h).cache.cache 31 false e draws = (.ok id, c') :=
  cache_room v3Proto (by decide) (by norm_num [v3Proto]) _
    ((PInv.init v3Proto (r := r0) hr).run v3Proto (by decide) hh).gen l hl h4 e draws hd

end Snmp
