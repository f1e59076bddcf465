import Verif.Processor
import Verif.Props.NumGen
/-!
# Invariants of the message processors
-/

set_option linter.unusedSimpArgs false

namespace Snmp

variable {E M : Type}

/-- The generator is one that `newGenerator` can have produced, after some calls of `next`. -/
def GenOk (p : Proto E M) (g : NumGen) : Prop :=
  ∃ r k, 1 ≤ r ∧ r ≤ 2 ^ (p.bits - 1) ∧ g = (NumGen.new p.bits p.signed r).after k

theorem GenOk.next {p : Proto E M} {g : NumGen} (h : GenOk p g) : GenOk p g.next := by
  obtain ⟨r, k, h1, h2, rfl⟩ := h
  exact ⟨r, k + 1, h1, h2, rfl⟩

theorem GenOk.value {p : Proto E M} (hb : 1 ≤ p.bits) {g : NumGen} (h : GenOk p g) :
    NBit p.bits p.signed g.next.previous := by
  obtain ⟨r, k, h1, h2, rfl⟩ := h
  exact (C03_enumerates p.bits hb p.signed r h1 h2).1 (k + 1)

/-- A number `randint(1, half)` can return. -/
def DrawOk (p : Proto E M) (r : Nat) : Prop := 1 ≤ r ∧ r ≤ 2 ^ (p.bits - 1)

/-- All random numbers drawn in a history are possible. -/
def ValidHistory (p : Proto E M) (h : List (PEvent E M)) : Prop :=
  ∀ c r, PEvent.draw c r ∈ h → DrawOk p r

structure PInv (p : Proto E M) (s : PSys E M) : Prop where
  gen : GenOk p s.cache.gen
  entry : ∀ id e, s.cache.outstanding id = some e → ∃ c, s.calls c = .returned e id
  returned : ∀ c e id, s.calls c = .returned e id → id ≠ 0 ∧ NBit p.bits p.signed id
  looked : ∀ t id e m, s.recv t = .looked id e m →
    p.classify m = .ok id ∧ ∃ c, s.calls c = .returned e id

theorem Cache.attempt_cases (bits : Nat) (signed : Bool) (c : Cache E) (e : E) (r : Nat) :
    (c.gen.next.previous = 0 ∧
      c.attempt bits signed e r = ({ c with gen := NumGen.new bits signed r }, none)) ∨
    (c.gen.next.previous ≠ 0 ∧ c.outstanding c.gen.next.previous = none ∧
      c.attempt bits signed e r = (⟨c.gen.next, fun i => if i = c.gen.next.previous then some e
        else c.outstanding i⟩, some c.gen.next.previous)) ∨
    (c.gen.next.previous ≠ 0 ∧ c.outstanding c.gen.next.previous ≠ none ∧
      c.attempt bits signed e r = ({ c with gen := c.gen.next }, none)) := by
  unfold Cache.attempt
  by_cases h0 : c.gen.next.previous = 0
  · exact .inl ⟨h0, by simp only [h0, ↓reduceIte]⟩
  · cases h1 : c.outstanding c.gen.next.previous with
    | none =>
      refine .inr (.inl ⟨h0, rfl, ?_⟩)
      simp only [h0, h1, ↓reduceIte]
    | some x =>
      refine .inr (.inr ⟨h0, by simp, ?_⟩)
      simp only [h0, h1, ↓reduceIte, reduceCtorEq]

@[simp] theorem setAt_same {α : Type} (f : Nat → α) (i : Nat) (x : α) : setAt f i x i = x := by
  simp [setAt]

theorem setAt_other {α : Type} (f : Nat → α) {i j : Nat} (x : α) (h : j ≠ i) : setAt f i x j = f j := by
  simp [setAt, h]

/-- The three ways a critical section of `cache` can go. -/
theorem PSys.step_draw (p : Proto E M) (s : PSys E M) (c r : Nat) {e : E} {n : Nat}
    (h : s.calls c = .trying e n) :
    (s.cache.gen.next.previous = 0 ∧ s.step p (.draw c r) =
      { s with cache := { s.cache with gen := NumGen.new p.bits p.signed r },
               calls := setAt s.calls c (if n + 1 < 10 then .trying e (n + 1) else .failed) }) ∨
    (s.cache.gen.next.previous ≠ 0 ∧ s.cache.outstanding s.cache.gen.next.previous = none ∧
      s.step p (.draw c r) =
      { s with cache := ⟨s.cache.gen.next, fun i => if i = s.cache.gen.next.previous then some e
                  else s.cache.outstanding i⟩,
               calls := setAt s.calls c (.returned e s.cache.gen.next.previous) }) ∨
    (s.cache.gen.next.previous ≠ 0 ∧ s.cache.outstanding s.cache.gen.next.previous ≠ none ∧
      s.step p (.draw c r) =
      { s with cache := { s.cache with gen := s.cache.gen.next },
               calls := setAt s.calls c (if n + 1 < 10 then .trying e (n + 1) else .failed) }) := by
  rcases s.cache.attempt_cases p.bits p.signed e r with ⟨h1, h2⟩ | ⟨h1, h2, h3⟩ | ⟨h1, h2, h3⟩
  · refine .inl ⟨h1, ?_⟩
    simp only [PSys.step, h, h2]
  · refine .inr (.inl ⟨h1, h2, ?_⟩)
    simp only [PSys.step, h, h3]
  · refine .inr (.inr ⟨h1, h2, ?_⟩)
    simp only [PSys.step, h, h3]

theorem PSys.step_draw_idle (p : Proto E M) (s : PSys E M) (c r : Nat)
    (h : ∀ e n, s.calls c ≠ .trying e n) : s.step p (.draw c r) = s := by
  unfold PSys.step
  dsimp only
  split
  · rename_i e n hc; exact absurd hc (h e n)
  · rfl

/-- Calls that returned stay as they are. -/
theorem PSys.returned_stable (p : Proto E M) (s : PSys E M) (ev : PEvent E M) {c : Nat} {e : E}
    {id : Int} (h : s.calls c = .returned e id) : (s.step p ev).calls c = .returned e id := by
  cases ev with
  | start c' e' =>
    simp only [PSys.step]
    cases hc : s.calls c' with
    | notStarted =>
      simp only
      rw [setAt_other _ _ (by rintro rfl; rw [h] at hc; cases hc)]
      exact h
    | _ => exact h
  | draw c' r =>
    by_cases hne : c = c'
    · subst hne
      rw [PSys.step_draw_idle p s c r (by intro e n; rw [h]; simp)]
      exact h
    · cases hc : s.calls c' with
      | trying e' n =>
        rcases PSys.step_draw p s c' r hc with ⟨-, hs⟩ | ⟨-, -, hs⟩ | ⟨-, -, hs⟩ <;>
        · rw [hs]; simp only; rw [setAt_other _ _ hne]; exact h
      | _ =>
        rw [PSys.step_draw_idle p s c' r (by intro e n; rw [hc]; simp)]
        exact h
  | release id => exact h
  | collect h' => exact h
  | lookup t m =>
    simp only [PSys.step]
    cases p.classify m with
    | error x => exact h
    | ok i => simp only; cases s.cache.retrieve i <;> exact h
  | resolve t =>
    simp only [PSys.step]
    cases hr : s.recv t with
    | looked i e m => simp only; cases p.resolve s.dead e m <;> exact h
    | _ => exact h
  | uncacheLate t =>
    simp only [PSys.step]
    cases hr : s.recv t with
    | late i => exact h
    | _ => exact h

theorem PInv.init (p : Proto E M) {r : Nat} (hr : DrawOk p r) : PInv p (PSys.init p r) where
  gen := ⟨r, 0, hr.1, hr.2, rfl⟩
  entry := by intro id e h; simp [PSys.init, Cache.new] at h
  returned := by intro c e id h; simp [PSys.init] at h
  looked := by intro t id e m h; simp [PSys.init] at h

theorem PInv.step (p : Proto E M) (hb : 1 ≤ p.bits) {s : PSys E M} (hi : PInv p s)
    {ev : PEvent E M} (hv : ∀ c r, ev = .draw c r → DrawOk p r) : PInv p (s.step p ev) := by
  have st := fun {c e id} (h : s.calls c = .returned e id) => PSys.returned_stable p s ev h
  -- facts that only need the old entries and the stability of returned calls
  have keepEntry : ∀ s' : PSys E M, s' = s.step p ev →
      (∀ id e, s'.cache.outstanding id = some e → s.cache.outstanding id = some e) →
      ∀ id e, s'.cache.outstanding id = some e → ∃ c, s'.calls c = .returned e id := by
    rintro s' rfl h id e ho
    obtain ⟨c, hc⟩ := hi.entry id e (h id e ho)
    exact ⟨c, st hc⟩
  have keepLooked : ∀ s' : PSys E M, s' = s.step p ev →
      (∀ t id e m, s'.recv t = .looked id e m → s.recv t = .looked id e m) →
      ∀ t id e m, s'.recv t = .looked id e m →
        p.classify m = .ok id ∧ ∃ c, s'.calls c = .returned e id := by
    rintro s' rfl h t id e m hl
    obtain ⟨h1, c, hc⟩ := hi.looked t id e m (h t id e m hl)
    exact ⟨h1, c, st hc⟩
  cases ev with
  | start c e =>
    refine ⟨?_, keepEntry _ rfl ?_, ?_, keepLooked _ rfl ?_⟩
    · simp only [PSys.step]; cases s.calls c <;> exact hi.gen
    · intro id e'; simp only [PSys.step]; cases s.calls c <;> exact fun h => h
    · intro c' e' id
      simp only [PSys.step]
      cases hc : s.calls c with
      | notStarted =>
        simp only
        by_cases hcc : c' = c
        · subst hcc; rw [setAt_same]; intro h; cases h
        · rw [setAt_other _ _ hcc]; exact hi.returned c' e' id
      | _ => exact hi.returned c' e' id
    · intro t id e' m; simp only [PSys.step]; cases s.calls c <;> exact fun h => h
  | draw c r =>
    cases hc : s.calls c with
    | trying e n =>
      rcases PSys.step_draw p s c r hc with ⟨h0, hs⟩ | ⟨h0, h1, hs⟩ | ⟨h0, h1, hs⟩
      · have hd := hv c r rfl
        refine ⟨?_, keepEntry _ rfl ?_, ?_, keepLooked _ rfl ?_⟩
        · rw [hs]; exact ⟨r, 0, hd.1, hd.2, rfl⟩
        · rw [hs]; exact fun id e h => h
        · rw [hs]; intro c' e' id; simp only
          by_cases hcc : c' = c
          · subst hcc; rw [setAt_same]; split <;> (intro h; cases h)
          · rw [setAt_other _ _ hcc]; exact hi.returned c' e' id
        · rw [hs]; exact fun t id e m h => h
      · refine ⟨?_, ?_, ?_, keepLooked _ rfl ?_⟩
        · rw [hs]; exact hi.gen.next
        · intro id e'
          rw [hs]; simp only
          split
          · rename_i hid
            intro h; injection h with h
            refine ⟨c, ?_⟩
            rw [setAt_same, hid, h]
          · intro h
            obtain ⟨c', hc'⟩ := hi.entry id e' h
            refine ⟨c', ?_⟩
            rw [setAt_other _ _ (by rintro rfl; rw [hc] at hc'; cases hc')]
            exact hc'
        · rw [hs]; intro c' e' id; simp only
          by_cases hcc : c' = c
          · subst hcc; rw [setAt_same]
            intro h
            injection h with _ h
            subst h
            exact ⟨h0, hi.gen.value hb⟩
          · rw [setAt_other _ _ hcc]; exact hi.returned c' e' id
        · rw [hs]; exact fun t id e m h => h
      · refine ⟨?_, keepEntry _ rfl ?_, ?_, keepLooked _ rfl ?_⟩
        · rw [hs]; exact hi.gen.next
        · rw [hs]; exact fun id e h => h
        · rw [hs]; intro c' e' id; simp only
          by_cases hcc : c' = c
          · subst hcc; rw [setAt_same]; split <;> (intro h; cases h)
          · rw [setAt_other _ _ hcc]; exact hi.returned c' e' id
        · rw [hs]; exact fun t id e m h => h
    | _ =>
      rw [PSys.step_draw_idle p s c r (by intro e n; rw [hc]; simp)]
      exact hi
  | release i =>
    refine ⟨hi.gen, keepEntry _ rfl ?_, hi.returned, keepLooked _ rfl (fun _ _ _ _ h => h)⟩
    intro id e
    simp only [PSys.step, Cache.uncache]
    split
    · intro h; cases h
    · exact fun h => h
  | collect h => exact ⟨hi.gen, hi.entry, hi.returned, hi.looked⟩
  | lookup t m =>
    simp only [PSys.step]
    cases hcl : p.classify m with
    | error x =>
      refine ⟨hi.gen, hi.entry, hi.returned, ?_⟩
      intro t' id e m'
      simp only
      by_cases htt : t' = t
      · subst htt; rw [setAt_same]; intro h; cases h
      · rw [setAt_other _ _ htt]; exact hi.looked t' id e m'
    | ok i =>
      simp only [Cache.retrieve]
      cases ho : s.cache.outstanding i with
      | none =>
        refine ⟨hi.gen, hi.entry, hi.returned, ?_⟩
        intro t' id e m'
        simp only
        by_cases htt : t' = t
        · subst htt; rw [setAt_same]; intro h; cases h
        · rw [setAt_other _ _ htt]; exact hi.looked t' id e m'
      | some e0 =>
        refine ⟨hi.gen, hi.entry, hi.returned, ?_⟩
        intro t' id e m'
        simp only
        by_cases htt : t' = t
        · subst htt; rw [setAt_same]
          intro h
          injection h with h1 h2 h3
          subst h1 h2 h3
          exact ⟨hcl, hi.entry _ _ ho⟩
        · rw [setAt_other _ _ htt]; exact hi.looked t' id e m'
  | resolve t =>
    simp only [PSys.step]
    cases hr : s.recv t with
    | looked i e0 m0 =>
      simp only
      cases hres : p.resolve s.dead e0 m0 with
      | ok h =>
        refine ⟨hi.gen, hi.entry, hi.returned, ?_⟩
        intro t' id e m'
        simp only
        by_cases htt : t' = t
        · subst htt; rw [setAt_same]; intro h; cases h
        · rw [setAt_other _ _ htt]; exact hi.looked t' id e m'
      | error x =>
        refine ⟨hi.gen, hi.entry, hi.returned, ?_⟩
        intro t' id e m'
        simp only
        by_cases htt : t' = t
        · subst htt; rw [setAt_same]; split <;> (intro h; cases h)
        · rw [setAt_other _ _ htt]; exact hi.looked t' id e m'
    | _ => exact hi
  | uncacheLate t =>
    simp only [PSys.step]
    cases hr : s.recv t with
    | late i =>
      refine ⟨hi.gen, ?_, hi.returned, ?_⟩
      · intro id e
        simp only [Cache.uncache]
        split
        · intro h; cases h
        · exact hi.entry id e
      · intro t' id e m'
        simp only
        by_cases htt : t' = t
        · subst htt; rw [setAt_same]; intro h; cases h
        · rw [setAt_other _ _ htt]; exact hi.looked t' id e m'
    | _ => exact hi

theorem PSys.run_append (p : Proto E M) (s : PSys E M) (h1 h2 : List (PEvent E M)) :
    s.run p (h1 ++ h2) = (s.run p h1).run p h2 := by simp [PSys.run, List.foldl_append]

@[simp] theorem PSys.run_nil (p : Proto E M) (s : PSys E M) : s.run p [] = s := rfl
@[simp] theorem PSys.run_cons (p : Proto E M) (s : PSys E M) (ev : PEvent E M) (h : List (PEvent E M)) :
    s.run p (ev :: h) = (s.step p ev).run p h := rfl

theorem PInv.run (p : Proto E M) (hb : 1 ≤ p.bits) {h : List (PEvent E M)} (hv : ValidHistory p h)
    {s : PSys E M} (hi : PInv p s) : PInv p (s.run p h) := by
  induction h generalizing s with
  | nil => exact hi
  | cons ev h ih =>
    exact ih (fun c r hm => hv c r (by simp [hm]))
      (hi.step p hb (fun c r he => hv c r (by simp [he])))

theorem PSys.returned_run (p : Proto E M) (s : PSys E M) (h : List (PEvent E M)) {c : Nat} {e : E}
    {id : Int} (hc : s.calls c = .returned e id) : (s.run p h).calls c = .returned e id := by
  induction h generalizing s with
  | nil => exact hc
  | cons ev h ih => exact ih _ (PSys.returned_stable p s ev hc)

/-- How the dictionary can change in one step. -/
theorem PSys.outstanding_step (p : Proto E M) (s : PSys E M) (ev : PEvent E M) (id : Int) :
    (s.step p ev).cache.outstanding id = s.cache.outstanding id ∨
    ((s.step p ev).cache.outstanding id = none ∧
      (ev = .release id ∨ ∃ t, ev = .uncacheLate t ∧ s.recv t = .late id)) ∨
    (s.cache.outstanding id = none ∧ ∃ c r e n, ev = .draw c r ∧ s.calls c = .trying e n ∧
      (s.step p ev).calls c = .returned e id ∧ (s.step p ev).cache.outstanding id = some e) := by
  cases ev with
  | start c e => left; simp only [PSys.step]; cases s.calls c <;> rfl
  | draw c r =>
    cases hc : s.calls c with
    | trying e n =>
      rcases PSys.step_draw p s c r hc with ⟨h0, hs⟩ | ⟨h0, h1, hs⟩ | ⟨h0, h1, hs⟩
      · left; rw [hs]
      · by_cases hid : id = s.cache.gen.next.previous
        · right; right
          refine ⟨by rw [hid]; exact h1, c, r, e, n, rfl, hc, ?_, ?_⟩
          · rw [hs]; simp only; rw [setAt_same, hid]
          · rw [hs]; simp only; rw [if_pos hid]
        · left; rw [hs]; simp only; rw [if_neg hid]
      · left; rw [hs]
    | _ => left; rw [PSys.step_draw_idle p s c r (by intro e n; rw [hc]; simp)]
  | release i =>
    by_cases hid : id = i
    · right; left
      subst hid
      exact ⟨by simp [PSys.step, Cache.uncache], .inl rfl⟩
    · left; simp [PSys.step, Cache.uncache, hid]
  | collect h => left; rfl
  | lookup t m =>
    left
    simp only [PSys.step]
    cases p.classify m with
    | error x => rfl
    | ok i => simp only; cases s.cache.retrieve i <;> rfl
  | resolve t =>
    left
    simp only [PSys.step]
    cases s.recv t with
    | looked i e m => simp only; cases p.resolve s.dead e m <;> rfl
    | _ => rfl
  | uncacheLate t =>
    cases hr : s.recv t with
    | late i =>
      by_cases hid : id = i
      · right; left
        subst hid
        exact ⟨by simp [PSys.step, hr, Cache.uncache], .inr ⟨t, rfl, hr⟩⟩
      · left; simp [PSys.step, hr, Cache.uncache, hid]
    | _ => left; simp [PSys.step, hr]


/-- A thread that holds an entry retrieved it in an earlier step, when it was outstanding. -/
theorem PSys.looked_history (p : Proto E M) (s0 : PSys E M) (h0 : ∀ t, s0.recv t = .idle)
    (h : List (PEvent E M)) (t : Nat) (id : Int) (e : E) (m : M)
    (hl : (s0.run p h).recv t = .looked id e m) :
    ∃ pre mid, h = pre ++ .lookup t m :: mid ∧ p.classify m = .ok id ∧
      (s0.run p pre).cache.outstanding id = some e := by
  induction h using List.reverseRecOn generalizing id e m with
  | nil => rw [PSys.run_nil, h0] at hl; cases hl
  | append_singleton h ev ih =>
    rw [PSys.run_append] at hl
    simp only [PSys.run_cons, PSys.run_nil] at hl
    have old : (s0.run p h).recv t = .looked id e m →
        ∃ pre mid, h ++ [ev] = pre ++ .lookup t m :: mid ∧ p.classify m = .ok id ∧
          (s0.run p pre).cache.outstanding id = some e := by
      intro ho
      obtain ⟨pre, mid, h1, h2, h3⟩ := ih id e m ho
      exact ⟨pre, mid ++ [ev], by rw [h1]; simp, h2, h3⟩
    generalize hs : s0.run p h = s at *
    cases ev with
    | start c e' => apply old; revert hl; simp only [PSys.step]; cases s.calls c <;> exact fun h => h
    | draw c r =>
      apply old; revert hl
      cases hc : s.calls c with
      | trying e' n =>
        rcases PSys.step_draw p s c r hc with ⟨-, hs⟩ | ⟨-, -, hs⟩ | ⟨-, -, hs⟩ <;>
          (rw [hs]; exact fun h => h)
      | _ =>
        rw [PSys.step_draw_idle p s c r (by intro e n; rw [hc]; simp)]
        exact fun h => h
    | release i => exact old hl
    | collect i => exact old hl
    | lookup t' m' =>
      revert hl
      simp only [PSys.step]
      cases hcl : p.classify m' with
      | error x =>
        simp only
        by_cases htt : t = t'
        · subst htt; rw [setAt_same]; intro h; cases h
        · rw [setAt_other _ _ htt]; exact old
      | ok i =>
        simp only [Cache.retrieve]
        cases ho : s.cache.outstanding i with
        | none =>
          simp only
          by_cases htt : t = t'
          · subst htt; rw [setAt_same]; intro h; cases h
          · rw [setAt_other _ _ htt]; exact old
        | some e' =>
          simp only
          by_cases htt : t = t'
          · subst htt; rw [setAt_same]
            intro hh
            injection hh with k1 k2 k3
            subst k1 k2 k3
            exact ⟨h, [], rfl, hcl, by rw [hs]; exact ho⟩
          · rw [setAt_other _ _ htt]; exact old
    | resolve t' =>
      revert hl
      simp only [PSys.step]
      cases hr : s.recv t' with
      | looked i e' m' =>
        simp only
        cases p.resolve s.dead e' m' with
        | ok x =>
          simp only
          by_cases htt : t = t'
          · subst htt; rw [setAt_same]; intro h; cases h
          · rw [setAt_other _ _ htt]; exact old
        | error x =>
          simp only
          by_cases htt : t = t'
          · subst htt; rw [setAt_same]; split <;> (intro h; cases h)
          · rw [setAt_other _ _ htt]; exact old
      | _ => exact old
    | uncacheLate t' =>
      revert hl
      simp only [PSys.step]
      cases hr : s.recv t' with
      | late i =>
        simp only
        by_cases htt : t = t'
        · subst htt; rw [setAt_same]; intro h; cases h
        · rw [setAt_other _ _ htt]; exact old
      | _ => exact old

/-- The list of deliveries grows in `resolve` steps only. -/
theorem PSys.delivered_step (p : Proto E M) (s : PSys E M) (ev : PEvent E M) :
    (s.step p ev).delivered = s.delivered ∨
    ∃ t id e m, ev = .resolve t ∧ s.recv t = .looked id e m ∧ s.dead (p.handle e) = false ∧
      p.check e m = .ok () ∧ (s.step p ev).delivered = (p.handle e, m) :: s.delivered := by
  cases ev with
  | start c e => left; simp only [PSys.step]; cases s.calls c <;> rfl
  | draw c r =>
    left
    cases hc : s.calls c with
    | trying e n =>
      rcases PSys.step_draw p s c r hc with ⟨-, hs⟩ | ⟨-, -, hs⟩ | ⟨-, -, hs⟩ <;> rw [hs]
    | _ => rw [PSys.step_draw_idle p s c r (by intro e n; rw [hc]; simp)]
  | release i => left; rfl
  | collect i => left; rfl
  | lookup t m =>
    left
    simp only [PSys.step]
    cases p.classify m with
    | error x => rfl
    | ok i => simp only; cases s.cache.retrieve i <;> rfl
  | resolve t =>
    simp only [PSys.step]
    cases hr : s.recv t with
    | looked i e m =>
      simp only
      cases hres : p.resolve s.dead e m with
      | error x => left; rfl
      | ok x =>
        right
        unfold Proto.resolve at hres
        split at hres
        · cases hres
        · rename_i hd
          cases hck : p.check e m with
          | error y => rw [hck] at hres; cases hres
          | ok u =>
            rw [hck] at hres
            injection hres with hres
            exact ⟨t, i, e, m, rfl, hr, by simpa using hd, hck, by rw [← hres]⟩
    | _ => left; rfl
  | uncacheLate t =>
    left
    simp only [PSys.step]
    cases s.recv t <;> rfl

theorem PSys.delivered_history (p : Proto E M) (s0 : PSys E M) (h0 : ∀ t, s0.recv t = .idle)
    (hd0 : s0.delivered = []) (h : List (PEvent E M)) (hd : Nat) (m : M)
    (hm : (hd, m) ∈ (s0.run p h).delivered) :
    ∃ pre mid post t id e, h = pre ++ .lookup t m :: mid ++ .resolve t :: post ∧
      p.classify m = .ok id ∧ (s0.run p pre).cache.outstanding id = some e ∧
      p.handle e = hd ∧ p.check e m = .ok () ∧
      (s0.run p (pre ++ .lookup t m :: mid)).dead hd = false := by
  induction h using List.reverseRecOn with
  | nil => rw [PSys.run_nil, hd0] at hm; cases hm
  | append_singleton h ev ih =>
    have old : (hd, m) ∈ (s0.run p h).delivered → _ := ih
    rw [PSys.run_append] at hm
    simp only [PSys.run_cons, PSys.run_nil] at hm
    have extend : (∃ pre mid post t id e, h = pre ++ .lookup t m :: mid ++ .resolve t :: post ∧
      p.classify m = .ok id ∧ (s0.run p pre).cache.outstanding id = some e ∧
      p.handle e = hd ∧ p.check e m = .ok () ∧
      (s0.run p (pre ++ .lookup t m :: mid)).dead hd = false) →
      ∃ pre mid post t id e, h ++ [ev] = pre ++ .lookup t m :: mid ++ .resolve t :: post ∧
      p.classify m = .ok id ∧ (s0.run p pre).cache.outstanding id = some e ∧
      p.handle e = hd ∧ p.check e m = .ok () ∧
      (s0.run p (pre ++ .lookup t m :: mid)).dead hd = false := by
      rintro ⟨pre, mid, post, t, id, e, k1, k2⟩
      exact ⟨pre, mid, post ++ [ev], t, id, e, by rw [k1]; simp, k2⟩
    rcases PSys.delivered_step p (s0.run p h) ev with hs | ⟨t, id, e, m', hev, hr, hdead, hck, hs⟩
    · rw [hs] at hm; exact extend (ih hm)
    · rw [hs] at hm
      rcases List.mem_cons.1 hm with heq | hm
      · injection heq with q1 q2
        subst q2
        obtain ⟨pre, mid, k1, k2, k3⟩ := PSys.looked_history p s0 h0 h t id e m hr
        refine ⟨pre, mid, [], t, id, e, ?_, k2, k3, q1.symm, hck, ?_⟩
        · rw [k1, hev]
        · rw [← k1, q1]; exact hdead
      · exact extend (ih hm)

end Snmp
