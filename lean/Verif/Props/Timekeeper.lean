import Verif.Timekeeper
import Mathlib.Tactic.Linarith
import Mathlib.Tactic.NormNum
import Mathlib.Data.List.Induction
import Mathlib.Algebra.Order.Field.Rat
/-!
# Properties C35 and C36: the time window
-/

namespace Snmp

/-! ## Histories -/

/-- A message that reached the time keeper: unauthenticated (`hint`) or authenticated (`auth`), with
the engine it is about, its boots and time, and the local clock. -/
inductive Spec.TimeEvent
  | hint (engineID : Bytes) (boots time : Int) (timestamp : ℚ)
  | auth (engineID : Bytes) (boots time : Int) (timestamp : ℚ)
  deriving DecidableEq

/-- The local clock of an event. -/
def Spec.TimeEvent.timestamp : Spec.TimeEvent → ℚ
  | .hint _ _ _ ts => ts
  | .auth _ _ _ ts => ts

/-- The engine of an event. -/
def Spec.TimeEvent.engine : Spec.TimeEvent → Bytes
  | .hint i _ _ _ => i
  | .auth i _ _ _ => i

/-- What the library does with it (snmp/security/usm/implementation.py:186-196, 233-240). -/
def TimeKeeper.apply (k : TimeKeeper) : Spec.TimeEvent → TimeKeeper
  | .hint i b t ts => k.hint i b t ts
  | .auth i b t ts => (k.updateAndVerify i b t ts).2

/-- The time keeper after a history. -/
def TimeKeeper.after (h : List Spec.TimeEvent) : TimeKeeper := h.foldl TimeKeeper.apply .new

/-- An authenticated message from the engine occurs in the history. -/
def Spec.Authenticated (engineID : Bytes) (h : List Spec.TimeEvent) : Prop :=
  ∃ b t ts, Spec.TimeEvent.auth engineID b t ts ∈ h

/-! ## Lemmas -/

theorem pyTrunc_int (n : Int) : pyTrunc (n : ℚ) = n := by
  unfold pyTrunc; split <;> simp

theorem pyTrunc_mono {x y : ℚ} (h : x ≤ y) : pyTrunc x ≤ pyTrunc y := by
  unfold pyTrunc
  by_cases hx : 0 ≤ x
  · rw [if_pos hx, if_pos (hx.trans h)]; exact Int.floor_le_floor h
  · rw [if_neg hx]
    by_cases hy : 0 ≤ y
    · rw [if_pos hy]
      have h1 : ⌈x⌉ ≤ 0 := by
        rw [Int.ceil_le]; push_cast; exact le_of_not_ge hx
      have h2 : (0 : Int) ≤ ⌊y⌋ := Int.floor_nonneg.2 hy
      omega
    · rw [if_neg hy]; exact Int.ceil_le_ceil h

theorem lt_of_pyTrunc_lt {x : ℚ} {n : Int} (h : pyTrunc x < n) : x < n := by
  unfold pyTrunc at h
  split at h
  · exact Int.floor_lt.1 h
  · have h1 : ⌈x⌉ ≤ n - 1 := by omega
    have := Int.ceil_le.1 h1
    push_cast at this
    linarith

theorem le_of_le_pyTrunc {x : ℚ} {n : Int} (hx : 0 ≤ x) (h : n ≤ pyTrunc x) : (n : ℚ) ≤ x := by
  unfold pyTrunc at h
  rw [if_pos hx] at h
  exact Int.le_floor.1 h

theorem setEngineTime_now (e : EngineTime) (t : Int) (ts : ℚ) :
    (e.setEngineTime t ts).snmpEngineTime ts = t := by
  simp only [EngineTime.snmpEngineTime, EngineTime.setEngineTime, sub_sub_cancel]
  exact pyTrunc_int t

theorem TimeKeeper.after_snoc (h : List Spec.TimeEvent) (ev : Spec.TimeEvent) :
    TimeKeeper.after (h ++ [ev]) = (TimeKeeper.after h).apply ev := by
  simp [TimeKeeper.after]

theorem TimeKeeper.apply_other (k : TimeKeeper) (ev : Spec.TimeEvent) {i : Bytes}
    (h : ev.engine ≠ i) : (k.apply ev).table i = k.table i := by
  have h' : ¬ i = ev.engine := fun hh => h hh.symm
  cases ev <;> simp only [Spec.TimeEvent.engine] at h' <;>
    simp [TimeKeeper.apply, TimeKeeper.hint, TimeKeeper.updateAndVerify, TimeKeeper.set, h']

theorem TimeKeeper.apply_hint (k : TimeKeeper) (i : Bytes) (b t : Int) (ts : ℚ) :
    (k.apply (.hint i b t ts)).table i =
      some ((k.assertEntry i b t ts false).hint b t ts) := by
  simp [TimeKeeper.apply, TimeKeeper.hint, TimeKeeper.set]

theorem TimeKeeper.apply_auth (k : TimeKeeper) (i : Bytes) (b t : Int) (ts : ℚ) :
    (k.apply (.auth i b t ts)).table i =
      some ((k.assertEntry i b t ts true).update b t ts) := by
  simp [TimeKeeper.apply, TimeKeeper.updateAndVerify, TimeKeeper.set]

theorem update_auth (e : EngineTime) (b t : Int) (ts : ℚ) :
    (e.update b t ts).authenticated = true := by
  unfold EngineTime.update
  split
  · rename_i h
    split
    · split <;> simp [EngineTime.setEngineTime, h]
    · split <;> simp [EngineTime.setEngineTime, EngineTime.setBoots, h]
  · rfl

theorem hint_auth (e : EngineTime) (b t : Int) (ts : ℚ) (h : e.authenticated = true) :
    e.hint b t ts = e := by
  simp [EngineTime.hint, h]

theorem boots_le (e : EngineTime) (b t : Int) (ts : ℚ) (h : e.boots ≤ maxEngineBoots) :
    (e.update b t ts).boots ≤ maxEngineBoots ∧ (e.hint b t ts).boots ≤ maxEngineBoots := by
  unfold EngineTime.update EngineTime.hint
  constructor
  · split
    · split
      · split <;> simpa [EngineTime.setEngineTime] using h
      · split
        · simp [EngineTime.setEngineTime, EngineTime.setBoots]
        · exact h
    · simp [EngineTime.setEngineTime, EngineTime.setBoots]
  · split
    · simp [EngineTime.setEngineTime, EngineTime.setBoots]
    · exact h

/-- What every reachable table satisfies. -/
structure TableOk (h : List Spec.TimeEvent) (k : TimeKeeper) : Prop where
  auth : ∀ i e, k.table i = some e → (e.authenticated = true ↔ Spec.Authenticated i h)
  none : ∀ i, k.table i = none → ¬ Spec.Authenticated i h
  boots : ∀ i e, k.table i = some e → e.boots ≤ maxEngineBoots

theorem Authenticated_snoc (i : Bytes) (h : List Spec.TimeEvent) (ev : Spec.TimeEvent) :
    Spec.Authenticated i (h ++ [ev]) ↔
      Spec.Authenticated i h ∨ ∃ b t ts, ev = .auth i b t ts := by
  unfold Spec.Authenticated
  constructor
  · rintro ⟨b, t, ts, hm⟩
    rcases List.mem_append.1 hm with hm | hm
    · exact .inl ⟨b, t, ts, hm⟩
    · exact .inr ⟨b, t, ts, (List.mem_singleton.1 hm).symm⟩
  · rintro (⟨b, t, ts, hm⟩ | ⟨b, t, ts, rfl⟩)
    · exact ⟨b, t, ts, List.mem_append_left _ hm⟩
    · exact ⟨b, t, ts, by simp⟩

theorem new_boots (b t : Int) (ts : ℚ) (a : Bool) :
    (EngineTime.new b t ts a).boots ≤ maxEngineBoots := by
  simp [EngineTime.new, EngineTime.setBoots, EngineTime.setEngineTime]

theorem tableOk (h : List Spec.TimeEvent) : TableOk h (TimeKeeper.after h) := by
  induction h using List.reverseRecOn with
  | nil =>
    refine ⟨fun i e he => ?_, fun i _ => ?_, fun i e he => ?_⟩
    · cases he
    · rintro ⟨b, t, ts, hm⟩; cases hm
    · cases he
  | append_singleton h ev ih =>
    rw [TimeKeeper.after_snoc]
    generalize TimeKeeper.after h = k at ih ⊢
    refine ⟨fun i e he => ?_, fun i hn => ?_, fun i e he => ?_⟩
    · rw [Authenticated_snoc]
      by_cases hi : ev.engine = i
      · cases ev with
        | hint j b t ts =>
          simp only [Spec.TimeEvent.engine] at hi
          subst hi
          rw [TimeKeeper.apply_hint] at he
          injection he with he
          have h2 : ¬ ∃ b' t' ts', Spec.TimeEvent.hint j b t ts = .auth j b' t' ts' := by
            rintro ⟨_, _, _, hh⟩; cases hh
          simp only [h2, or_false]
          cases hk : k.table j with
          | none =>
            simp only [TimeKeeper.assertEntry, hk] at he
            have := ih.none j hk
            rw [← he]
            simp [EngineTime.hint, EngineTime.new, EngineTime.setBoots, EngineTime.setEngineTime, this]
          | some e0 =>
            simp only [TimeKeeper.assertEntry, hk] at he
            rw [← ih.auth j e0 hk, ← he]
            unfold EngineTime.hint
            split <;> simp [EngineTime.setBoots, EngineTime.setEngineTime]
        | auth j b t ts =>
          simp only [Spec.TimeEvent.engine] at hi
          subst hi
          rw [TimeKeeper.apply_auth] at he
          injection he with he
          rw [← he, update_auth]
          simp
      · rw [TimeKeeper.apply_other k ev hi] at he
        rw [ih.auth i e he]
        constructor
        · exact .inl
        · rintro (h1 | ⟨b, t, ts, rfl⟩)
          · exact h1
          · exact absurd rfl hi
    · rw [Authenticated_snoc]
      by_cases hi : ev.engine = i
      · subst hi
        cases ev with
        | hint j b t ts =>
          simp only [Spec.TimeEvent.engine] at hn
          rw [TimeKeeper.apply_hint] at hn
          cases hn
        | auth j b t ts =>
          simp only [Spec.TimeEvent.engine] at hn
          rw [TimeKeeper.apply_auth] at hn
          cases hn
      · rw [TimeKeeper.apply_other k ev hi] at hn
        rintro (h1 | ⟨b, t, ts, rfl⟩)
        · exact ih.none i hn h1
        · exact hi rfl
    · by_cases hi : ev.engine = i
      · have entry : ∀ b t ts a, (k.assertEntry i b t ts a).boots ≤ maxEngineBoots := by
          intro b t ts a
          unfold TimeKeeper.assertEntry
          cases hk : k.table i with
          | none => exact new_boots _ _ _ _
          | some e0 => exact ih.boots i e0 hk
        cases ev with
        | hint j b t ts =>
          simp only [Spec.TimeEvent.engine] at hi
          subst hi
          rw [TimeKeeper.apply_hint] at he
          injection he with he
          rw [← he]; exact (boots_le _ _ _ _ (entry _ _ _ _)).2
        | auth j b t ts =>
          simp only [Spec.TimeEvent.engine] at hi
          subst hi
          rw [TimeKeeper.apply_auth] at he
          injection he with he
          rw [← he]; exact (boots_le _ _ _ _ (entry _ _ _ _)).1
      · rw [TimeKeeper.apply_other k ev hi] at he
        exact ih.boots i e he

/-! ## C35 -/

/-- C35: after any history, an authenticated message with `(boots, time)` is accepted exactly if
`boots < 2^31 - 1` and it is the first authenticated message of that engine, or `boots` is greater than
the local estimate `B`, or equal to it with `T - time ≤ 150`; `(B, T)` is what `getEngineTime` says. -/
theorem C35_window (h : List Spec.TimeEvent) (engineID : Bytes) (boots time : Int) (timestamp : ℚ) :
    ((TimeKeeper.after h).updateAndVerify engineID boots time timestamp).1 = true ↔
      boots < 2147483647 ∧ (¬ Spec.Authenticated engineID h ∨
        ((TimeKeeper.after h).getEngineTime engineID timestamp).1 < boots ∨
        (boots = ((TimeKeeper.after h).getEngineTime engineID timestamp).1 ∧
          ((TimeKeeper.after h).getEngineTime engineID timestamp).2 - time ≤ 150)) := by
  have ok := tableOk h
  have hmax : maxEngineBoots = 2147483647 := by decide
  generalize TimeKeeper.after h = k at ok ⊢
  simp only [TimeKeeper.updateAndVerify, Bool.and_eq_true, decide_eq_true_eq, and_assoc,
    EngineTime.valid]
  simp only [TimeKeeper.timeWindowSize, EngineTime.computeAge]
  cases hk : k.table engineID with
  | none =>
    have hn := ok.none engineID hk
    simp only [hn, not_false_eq_true, true_or, and_true]
    have he : ((k.assertEntry engineID boots time timestamp true).update boots time timestamp).boots =
        min boots maxEngineBoots ∧ ((k.assertEntry engineID boots time timestamp true).update boots
          time timestamp).snmpEngineTime timestamp = time := by
      simp only [TimeKeeper.assertEntry, hk]
      have hnow : (EngineTime.new boots time timestamp true).snmpEngineTime timestamp = time :=
        setEngineTime_now _ _ _
      have hauth : (EngineTime.new boots time timestamp true).authenticated = true := rfl
      have hb : (EngineTime.new boots time timestamp true).boots = min boots maxEngineBoots := rfl
      unfold EngineTime.update
      rw [if_pos hauth]
      split
      · split
        · exact ⟨hb, setEngineTime_now _ _ _⟩
        · exact ⟨hb, hnow⟩
      · split
        · exact ⟨rfl, setEngineTime_now _ _ _⟩
        · exact ⟨hb, hnow⟩
    rw [he.1, he.2, hmax]
    omega
  | some e =>
    have ha := ok.auth engineID e hk
    have hb := ok.boots engineID e hk
    simp only [TimeKeeper.assertEntry, hk, TimeKeeper.getEngineTime]
    rw [← ha]
    cases hauth : e.authenticated with
    | false =>
      have hb' : (e.update boots time timestamp).boots = min boots maxEngineBoots := by
        simp [EngineTime.update, hauth, EngineTime.setEngineTime, EngineTime.setBoots]
      have ht' : (e.update boots time timestamp).snmpEngineTime timestamp = time := by
        have : (e.update boots time timestamp).latestBootTime = timestamp - time := by
          simp [EngineTime.update, hauth, EngineTime.setEngineTime]
        simp only [EngineTime.snmpEngineTime, this, sub_sub_cancel]
        exact pyTrunc_int time
      rw [hb', ht', hmax]
      simp only [Bool.false_eq_true, not_false_eq_true, true_or, and_true]
      omega
    | true =>
      simp only [not_true_eq_false, false_or]
      unfold EngineTime.update
      rw [if_pos hauth]
      by_cases h1 : boots = e.boots
      · rw [if_pos h1]
        by_cases h2 : time > e.snmpEngineTime timestamp
        · rw [if_pos h2, setEngineTime_now]
          have : (e.setEngineTime time timestamp).boots = e.boots := rfl
          rw [this, hmax]
          omega
        · rw [if_neg h2, hmax]; omega
      · rw [if_neg h1]
        by_cases h2 : boots > e.boots
        · rw [if_pos h2, setEngineTime_now]
          have : ((e.setBoots boots).setEngineTime time timestamp).boots =
            min boots maxEngineBoots := rfl
          rw [this, hmax]
          omega
        · rw [if_neg h2, hmax]; omega

/-- The conditions of C35 in a history with a hint and an authenticated message: 150 seconds late is
accepted, 151 is not. -/
example :
    ((TimeKeeper.after [.hint [1] 5 7 0, .auth [1] 6 1000 1]).updateAndVerify [1] 6 851 2).1 = true ∧
    ((TimeKeeper.after [.hint [1] 5 7 0, .auth [1] 6 1000 1]).updateAndVerify [1] 6 850 2).1 =
      false := by
  decide +kernel

/-- C35: what the estimate is. If the local clock does not go back and the authenticated messages
carry possible values, then the estimate of `boots` is the greatest one authenticated, and the
estimated time is counted from the earliest boot time that any authenticated message with this `boots`
implies. -/
theorem C35_estimate (h : List Spec.TimeEvent) (engineID : Bytes)
    (hclock : h.Pairwise fun a b => a.timestamp ≤ b.timestamp)
    (hval : ∀ b t ts, Spec.TimeEvent.auth engineID b t ts ∈ h → b ≤ 2147483647 ∧ 0 ≤ t)
    (hauth : Spec.Authenticated engineID h) :
    ∃ B boot, (∀ now, (TimeKeeper.after h).getEngineTime engineID now = (B, pyTrunc (now - boot))) ∧
      (∃ t ts, Spec.TimeEvent.auth engineID B t ts ∈ h ∧ boot = ts - t) ∧
      (∀ b t ts, Spec.TimeEvent.auth engineID b t ts ∈ h → b ≤ B ∧ (b = B → boot ≤ ts - t)) := by
  have key : ∀ h : List Spec.TimeEvent, (h.Pairwise fun a b => a.timestamp ≤ b.timestamp) →
      (∀ b t ts, Spec.TimeEvent.auth engineID b t ts ∈ h → b ≤ 2147483647 ∧ 0 ≤ t) →
      Spec.Authenticated engineID h → ∃ e, (TimeKeeper.after h).table engineID = some e ∧
      (∃ t ts, Spec.TimeEvent.auth engineID e.boots t ts ∈ h ∧ e.latestBootTime = ts - t) ∧
      (∀ b t ts, Spec.TimeEvent.auth engineID b t ts ∈ h →
        b ≤ e.boots ∧ (b = e.boots → e.latestBootTime ≤ ts - t)) := by
    intro h
    induction h using List.reverseRecOn with
    | nil => rintro - - ⟨b, t, ts, hm⟩; cases hm
    | append_singleton h ev ih =>
      intro hclock hval hauth
      have hmax : maxEngineBoots = 2147483647 := by decide
      have hclock' := (List.pairwise_append.1 hclock).1
      have hlast := (List.pairwise_append.1 hclock).2.2
      have hval' : ∀ b t ts, Spec.TimeEvent.auth engineID b t ts ∈ h → b ≤ 2147483647 ∧ 0 ≤ t :=
        fun b t ts hm => hval b t ts (List.mem_append_left _ hm)
      have ok := tableOk h
      rw [TimeKeeper.after_snoc]
      by_cases hi : ev.engine = engineID
      · cases ev with
        | hint j b t ts =>
          simp only [Spec.TimeEvent.engine] at hi
          subst hi
          have ha : Spec.Authenticated j h := by
            rcases (Authenticated_snoc _ _ _).1 hauth with h1 | ⟨_, _, _, h1⟩
            · exact h1
            · cases h1
          obtain ⟨e, h1, h2, h3⟩ := ih hclock' hval' ha
          refine ⟨e, ?_, ?_, ?_⟩
          · rw [TimeKeeper.apply_hint]
            simp only [TimeKeeper.assertEntry, h1]
            rw [hint_auth _ _ _ _ ((ok.auth j e h1).2 ha)]
          · obtain ⟨t', ts', h4, h5⟩ := h2
            exact ⟨t', ts', List.mem_append_left _ h4, h5⟩
          · intro b' t' ts' hm
            rcases List.mem_append.1 hm with hm | hm
            · exact h3 b' t' ts' hm
            · cases List.mem_singleton.1 hm
        | auth j b t ts =>
          simp only [Spec.TimeEvent.engine] at hi
          subst hi
          obtain ⟨hb1, ht1⟩ := hval b t ts (by simp)
          have hmin : min b maxEngineBoots = b := by rw [hmax]; omega
          rw [TimeKeeper.apply_auth]
          by_cases ha : Spec.Authenticated j h
          · obtain ⟨e, h1, ⟨t0, ts0, h2, h2'⟩, h3⟩ := ih hclock' hval' ha
            have hea := (ok.auth j e h1).2 ha
            have hpos : 0 ≤ ts - e.latestBootTime := by
              have := hlast _ h2 (.auth j b t ts) (by simp)
              simp only [Spec.TimeEvent.timestamp] at this
              have h0 : (0 : ℚ) ≤ t0 := by exact_mod_cast (hval' _ _ _ h2).2
              rw [h2']; linarith
            simp only [TimeKeeper.assertEntry, h1]
            unfold EngineTime.update
            rw [if_pos hea]
            refine ⟨_, rfl, ?_⟩
            by_cases hb : b = e.boots
            · rw [if_pos hb]
              by_cases ht : t > e.snmpEngineTime ts
              · rw [if_pos ht]
                have hlt := lt_of_pyTrunc_lt ht
                refine ⟨⟨t, ts, by simp [EngineTime.setEngineTime, hb], rfl⟩, ?_⟩
                intro b' t' ts' hm
                rcases List.mem_append.1 hm with hm | hm
                · obtain ⟨q1, q2⟩ := h3 b' t' ts' hm
                  refine ⟨q1, fun hh => ?_⟩
                  have := q2 hh
                  simp only [EngineTime.setEngineTime]
                  linarith
                · cases List.mem_singleton.1 hm
                  exact ⟨le_of_eq hb, fun _ => le_refl _⟩
              · rw [if_neg ht]
                have hle := le_of_le_pyTrunc hpos (Int.not_lt.1 ht)
                refine ⟨⟨t0, ts0, List.mem_append_left _ h2, h2'⟩, ?_⟩
                intro b' t' ts' hm
                rcases List.mem_append.1 hm with hm | hm
                · exact h3 b' t' ts' hm
                · cases List.mem_singleton.1 hm
                  exact ⟨le_of_eq hb, fun _ => by linarith⟩
            · rw [if_neg hb]
              by_cases hg : b > e.boots
              · rw [if_pos hg]
                refine ⟨⟨t, ts, ?_, rfl⟩, ?_⟩
                · simp [EngineTime.setEngineTime, EngineTime.setBoots, hmin]
                · intro b' t' ts' hm
                  simp only [EngineTime.setEngineTime, EngineTime.setBoots, hmin]
                  rcases List.mem_append.1 hm with hm | hm
                  · have := (h3 b' t' ts' hm).1
                    exact ⟨by omega, fun hh => by omega⟩
                  · cases List.mem_singleton.1 hm
                    exact ⟨le_refl _, fun _ => le_refl _⟩
              · rw [if_neg hg]
                refine ⟨⟨t0, ts0, List.mem_append_left _ h2, h2'⟩, ?_⟩
                intro b' t' ts' hm
                rcases List.mem_append.1 hm with hm | hm
                · exact h3 b' t' ts' hm
                · cases List.mem_singleton.1 hm
                  exact ⟨by omega, fun hh => absurd hh hb⟩
          · -- the first authenticated message
            have hfirst : ∀ b' t' ts', Spec.TimeEvent.auth j b' t' ts' ∈ h ++ [.auth j b t ts] →
                b' = b ∧ t' = t ∧ ts' = ts := by
              intro b' t' ts' hm
              rcases List.mem_append.1 hm with hm | hm
              · exact absurd ⟨_, _, _, hm⟩ ha
              · cases List.mem_singleton.1 hm; exact ⟨rfl, rfl, rfl⟩
            have hres : ((TimeKeeper.after h).assertEntry j b t ts true).update b t ts =
                ⟨true, b, ts - t⟩ := by
              unfold TimeKeeper.assertEntry
              cases hk : (TimeKeeper.after h).table j with
              | none =>
                simp only
                have hnew : EngineTime.new b t ts true = ⟨true, b, ts - t⟩ := by
                  simp [EngineTime.new, EngineTime.setBoots, EngineTime.setEngineTime, hmin]
                rw [hnew]
                unfold EngineTime.update
                rw [if_pos rfl, if_pos rfl]
                split <;> rfl
              | some e =>
                have : e.authenticated = false := by
                  cases hc : e.authenticated with
                  | false => rfl
                  | true => exact absurd ((ok.auth j e hk).1 hc) ha
                simp [EngineTime.update, this, EngineTime.setBoots, EngineTime.setEngineTime, hmin]
            refine ⟨_, rfl, ?_⟩
            rw [hres]
            refine ⟨⟨t, ts, by simp, rfl⟩, ?_⟩
            intro b' t' ts' hm
            obtain ⟨rfl, rfl, rfl⟩ := hfirst b' t' ts' hm
            exact ⟨le_refl _, fun _ => le_refl _⟩
      · have ha : Spec.Authenticated engineID h := by
          rcases (Authenticated_snoc _ _ _).1 hauth with h1 | ⟨_, _, _, rfl⟩
          · exact h1
          · exact absurd rfl hi
        obtain ⟨e, h1, ⟨t', ts', h4, h5⟩, h3⟩ := ih hclock' hval' ha
        refine ⟨e, by rw [TimeKeeper.apply_other _ _ hi, h1],
          ⟨t', ts', List.mem_append_left _ h4, h5⟩, ?_⟩
        intro b' t' ts' hm
        rcases List.mem_append.1 hm with hm | hm
        · exact h3 b' t' ts' hm
        · have := (List.mem_singleton.1 hm).symm
          subst this
          exact absurd rfl hi
  obtain ⟨e, h1, h2, h3⟩ := key h hclock hval hauth
  exact ⟨e.boots, e.latestBootTime, fun now => by simp only [TimeKeeper.getEngineTime, h1]; rfl, h2, h3⟩

/-- A history that meets the hypotheses. -/
example : let h : List Spec.TimeEvent := [.hint [1] 5 7 0, .auth [1] 6 1000 1, .auth [1] 6 1010 5]
    (h.Pairwise fun a b => a.timestamp ≤ b.timestamp) ∧
    (∀ b t ts, Spec.TimeEvent.auth [1] b t ts ∈ h → b ≤ 2147483647 ∧ 0 ≤ t) ∧
    Spec.Authenticated [1] h := by
  refine ⟨by decide, ?_, 6, 1000, 1, by simp⟩
  intro b t ts hm
  simp only [List.mem_cons, reduceCtorEq, Spec.TimeEvent.auth.injEq, List.not_mem_nil, or_false,
    false_or] at hm
  omega

/-! ## C36 -/

theorem update_mono (e : EngineTime) (b t : Int) (ts : ℚ) (ha : e.authenticated = true)
    (hb : b ≤ maxEngineBoots) :
    e.boots ≤ (e.update b t ts).boots ∧
    ((e.update b t ts).boots = e.boots → (e.update b t ts).latestBootTime ≤ e.latestBootTime) := by
  unfold EngineTime.update
  rw [if_pos ha]
  by_cases h1 : b = e.boots
  · rw [if_pos h1]
    by_cases h2 : t > e.snmpEngineTime ts
    · rw [if_pos h2]
      have := lt_of_pyTrunc_lt h2
      exact ⟨le_refl _, fun _ => by simp only [EngineTime.setEngineTime]; linarith⟩
    · rw [if_neg h2]; exact ⟨le_refl _, fun _ => le_refl _⟩
  · rw [if_neg h1]
    by_cases h2 : b > e.boots
    · rw [if_pos h2]
      simp only [EngineTime.setEngineTime, EngineTime.setBoots]
      exact ⟨by omega, fun hh => by omega⟩
    · rw [if_neg h2]; exact ⟨le_refl _, fun _ => le_refl _⟩

/-- C36: once an engine has been authenticated, whatever follows: its boots estimate does not
decrease, and while it stays the same the projected time does not decrease, at any clock value.
`boots` of a decoded message is at most `2^31 - 1`. -/
theorem C36_monotone (h h' : List Spec.TimeEvent) (engineID : Bytes)
    (hauth : Spec.Authenticated engineID h)
    (hval : ∀ b t ts, Spec.TimeEvent.auth engineID b t ts ∈ h' → b ≤ 2147483647) (now : ℚ) :
    let old := (TimeKeeper.after h).getEngineTime engineID now
    let new := (TimeKeeper.after (h ++ h')).getEngineTime engineID now
    old.1 ≤ new.1 ∧ (new.1 = old.1 → old.2 ≤ new.2) := by
  have key : ∃ e e', (TimeKeeper.after h).table engineID = some e ∧
      (TimeKeeper.after (h ++ h')).table engineID = some e' ∧ e.boots ≤ e'.boots ∧
      (e'.boots = e.boots → e'.latestBootTime ≤ e.latestBootTime) := by
    have ok := tableOk h
    obtain ⟨e, he⟩ : ∃ e, (TimeKeeper.after h).table engineID = some e := by
      cases hk : (TimeKeeper.after h).table engineID with
      | none => exact absurd hauth (ok.none _ hk)
      | some e => exact ⟨e, rfl⟩
    refine ⟨e, ?_⟩
    induction h' using List.reverseRecOn with
    | nil => exact ⟨e, he, by rw [List.append_nil]; exact he, le_refl _, fun _ => le_refl _⟩
    | append_singleton h' ev ih =>
      obtain ⟨e', -, h1, h2, h3⟩ := ih fun b t ts hm => hval b t ts (List.mem_append_left _ hm)
      rw [← List.append_assoc, TimeKeeper.after_snoc]
      have hauth' : Spec.Authenticated engineID (h ++ h') := by
        obtain ⟨b, t, ts, hm⟩ := hauth
        exact ⟨b, t, ts, List.mem_append_left _ hm⟩
      have hea := ((tableOk (h ++ h')).auth _ _ h1).2 hauth'
      by_cases hi : ev.engine = engineID
      · cases ev with
        | hint j b t ts =>
          simp only [Spec.TimeEvent.engine] at hi
          subst hi
          refine ⟨e', he, ?_, h2, h3⟩
          rw [TimeKeeper.apply_hint]
          simp only [TimeKeeper.assertEntry, h1]
          rw [hint_auth _ _ _ _ hea]
        | auth j b t ts =>
          simp only [Spec.TimeEvent.engine] at hi
          subst hi
          have hb : b ≤ maxEngineBoots := hval b t ts (by simp)
          obtain ⟨m1, m2⟩ := update_mono e' b t ts hea hb
          refine ⟨e'.update b t ts, he, ?_, h2.trans m1, fun hh => ?_⟩
          · rw [TimeKeeper.apply_auth]
            simp only [TimeKeeper.assertEntry, h1]
          · exact (m2 (by omega)).trans (h3 (by omega))
      · exact ⟨e', he, by rw [TimeKeeper.apply_other _ _ hi, h1], h2, h3⟩
  obtain ⟨e, e', h1, h2, h3, h4⟩ := key
  simp only [TimeKeeper.getEngineTime, h1, h2]
  exact ⟨h3, fun hh => pyTrunc_mono (by have := h4 hh; linarith)⟩

/-- C36: once an engine has been authenticated, unauthenticated messages change nothing: neither the
estimate nor any later verdict. -/
theorem C36_hint (h : List Spec.TimeEvent) (engineID : Bytes) (hauth : Spec.Authenticated engineID h)
    (b t : Int) (ts : ℚ) : TimeKeeper.after (h ++ [.hint engineID b t ts]) = TimeKeeper.after h := by
  have ok := tableOk h
  rw [TimeKeeper.after_snoc]
  generalize TimeKeeper.after h = k at ok ⊢
  have : ∀ i, (k.apply (.hint engineID b t ts)).table i = k.table i := by
    intro i
    by_cases hi : engineID = i
    · subst hi
      rw [TimeKeeper.apply_hint]
      cases hk : k.table engineID with
      | none => exact absurd hauth (ok.none _ hk)
      | some e =>
        simp only [TimeKeeper.assertEntry, hk]
        rw [hint_auth _ _ _ _ ((ok.auth _ _ hk).2 hauth)]
    · exact TimeKeeper.apply_other _ _ hi
  cases hx : k.apply (.hint engineID b t ts) with
  | mk f =>
    rw [hx] at this
    cases k
    simp only at this
    simp only [TimeKeeper.mk.injEq]
    exact funext this

/-- C36: messages about other engines change neither the estimate of an engine nor the verdict on any
message of it. -/
theorem C36_isolated (h h' : List Spec.TimeEvent) (engineID : Bytes)
    (hother : ∀ ev ∈ h', ev.engine ≠ engineID) :
    (∀ now, (TimeKeeper.after (h ++ h')).getEngineTime engineID now =
      (TimeKeeper.after h).getEngineTime engineID now) ∧
    (∀ b t ts, ((TimeKeeper.after (h ++ h')).updateAndVerify engineID b t ts).1 =
      ((TimeKeeper.after h).updateAndVerify engineID b t ts).1) := by
  have key : (TimeKeeper.after (h ++ h')).table engineID = (TimeKeeper.after h).table engineID := by
    induction h' using List.reverseRecOn with
    | nil => rw [List.append_nil]
    | append_singleton h' ev ih =>
      rw [← List.append_assoc, TimeKeeper.after_snoc,
        TimeKeeper.apply_other _ _ (hother ev (by simp)),
        ih fun ev hm => hother ev (List.mem_append_left _ hm)]
  constructor
  · intro now; simp only [TimeKeeper.getEngineTime, key]
  · intro b t ts
    have hentry : (TimeKeeper.after (h ++ h')).assertEntry engineID b t ts true =
        (TimeKeeper.after h).assertEntry engineID b t ts true := by
      simp only [TimeKeeper.assertEntry, key]
    unfold TimeKeeper.updateAndVerify
    rw [hentry]

/-- The hypotheses of C36 in a history: the hint after the authenticated message has no effect, and
the one before it is overridden. -/
example :
    (TimeKeeper.after [.hint [1] 9 7 0, .auth [1] 6 1000 1, .hint [1] 8 0 2]).getEngineTime [1] 3 =
      (6, 1002) ∧
    (TimeKeeper.after ([.auth [1] 6 1000 1] ++ [.auth [1] 6 990 2, .auth [2] 8 0 3])).getEngineTime
      [1] 3 = (6, 1002) := by
  decide +kernel

end Snmp
