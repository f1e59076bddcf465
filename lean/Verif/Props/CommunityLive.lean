import Verif.Props.CommunityEnd
import Mathlib.Algebra.BigOperators.Group.Finset.Basic
/-!
# C93 for v1 and v2c: `wait` ends, or sleeps without a timeout
-/

namespace Snmp

/-! ## Specification -/

/-- The step is a call of `sendRequest` or `wait`. -/
def Spec.isCallC : CEvent → Bool
  | .send .. => true
  | .wait .. => true
  | _ => false

/-- The clock reading of a step of a thread inside `wait`. -/
def Spec.clockC : CEvent → Option ℚ
  | .step _ now _ _ => some now
  | _ => none

/-- In this round every thread that is inside `wait` in the state `s` gets a turn. -/
def Spec.FairC (s : CSys) (round : List CEvent) : Prop :=
  ∀ t, (s.threads t).Inside → ∃ now draws chan, .step t now draws chan ∈ round

/-- The thread is asleep without a timeout, until a response arrives. -/
def Pc.Stranded (p : Pc) : Prop := ∃ r since, p = .sleep r none since

/-! ## Proofs -/

namespace CSys

/-- How far the thread is from the end of `wait`. -/
def phase : Pc → Nat
  | .test _ => 1
  | .body _ => 1
  | .loop _ => 2
  | .sleep _ (some _) _ => 2
  | _ => 0

theorem phase_zero {p : Pc} (h : phase p = 0) : ¬ p.Inside ∨ p.Stranded := by
  cases p with
  | idle => exact .inl id
  | done r o => exact .inl id
  | test r => cases h
  | loop r => cases h
  | body r => cases h
  | sleep r d since =>
    cases d with
    | none => exact .inr ⟨r, since, rfl⟩
    | some d => cases h

/-- How much is on the heaps of the managers below `N`. -/
def load (N : Nat) (s : CMgr) : Nat := ∑ k ∈ Finset.range N, (s.heaps k).length

/-- It decreases with every step of a thread. -/
def potential (N : Nat) (s : CSys) : Nat := 2 * load N s.mgr + ∑ t ∈ Finset.range N, phase (s.threads t)

theorem sum_at {N : Nat} {f f' : Nat → Nat} {t : Nat} (hN : t < N) (ht : ∀ t', t' ≠ t → f' t' = f t') :
    ∑ x ∈ Finset.range N, f' x + f t = ∑ x ∈ Finset.range N, f x + f' t := by
  have hm : t ∈ Finset.range N := Finset.mem_range.2 hN
  rw [← Finset.add_sum_erase _ _ hm, ← Finset.add_sum_erase (a := t) (s := Finset.range N) _ hm]
  have : ∑ x ∈ (Finset.range N).erase t, f' x = ∑ x ∈ (Finset.range N).erase t, f x :=
    Finset.sum_congr rfl fun x hx => ht x (Finset.ne_of_mem_erase hx)
  rw [this]
  omega

theorem sum_set {N : Nat} {s s' : CSys} {t : Nat} (hN : t < N) (ht : ∀ t', t' ≠ t → s'.threads t' = s.threads t') :
    ∑ x ∈ Finset.range N, phase (s'.threads x) + phase (s.threads t) =
      ∑ x ∈ Finset.range N, phase (s.threads x) + phase (s'.threads t) :=
  sum_at (f := fun x => phase (s.threads x)) (f' := fun x => phase (s'.threads x)) hN fun x hx => by
    simp only [ht x hx]

theorem load_same {N : Nat} {s s' : CMgr} (h : s'.heaps = s.heaps) : load N s' = load N s := by
  unfold load; rw [h]

/-- No thread from `N` on is inside `wait`, and no manager from `N` on has a request. -/
structure Few (N : Nat) (s : CSys) : Prop where
  threads : ∀ t, N ≤ t → s.threads t = .idle
  heaps : ∀ k, N ≤ k → s.mgr.heaps k = []

/-- What is known when a thread `t` makes a step at clock reading `now`. -/
structure LateFor (s : CSys) (t : Nat) (now : ℚ) : Prop where
  reqs : ∀ r q, s.mgr.reqs r = some q → q.expiration ≤ now ∧ q.nextRefresh ≤ q.expiration
  test : ∀ r, s.threads t = .test r → ∃ q, s.mgr.reqs r = some q
  sleep : ∀ r d since, s.threads t = .sleep r d since → ∃ q, s.mgr.reqs r = some q
  wake : ∀ r d since, s.threads t = .sleep r (some d) since → since + d ≤ now

theorem refreshBody_late (v : Version) (s : CMgr) (k : Nat) (now : ℚ) (draws : Nat → Nat) (chan : Option PyErr)
    (hl : ∀ r q, s.reqs r = some q → q.expiration ≤ now ∧ q.nextRefresh ≤ q.expiration) :
    ((s.refreshBody v k now draws chan).1 = .error .indexError ∧ (s.refreshBody v k now draws chan).2 = s) ∨
    ((s.refreshBody v k now draws chan).1 = .ok .again ∧
      ((s.refreshBody v k now draws chan).2.heaps k).length + 1 = (s.heaps k).length ∧
      ∀ j, j ≠ k → (s.refreshBody v k now draws chan).2.heaps j = s.heaps j) := by
  unfold CMgr.refreshBody
  cases hh : s.heaps k with
  | nil => exact .inl ⟨rfl, rfl⟩
  | cons ref rest =>
    have hlen : (Heap.pop s.env (ref :: rest)).length = rest.length := (Heap.pop_moved s.env ref rest).length
    right
    simp only
    cases hd : s.deref ref.id with
    | none =>
      refine ⟨rfl, ?_, fun j hj => setAt_other _ _ hj⟩
      simp only [setAt_same, List.length_cons]; omega
    | some q =>
      have hq : s.reqs ref.id = some q := by
        unfold CMgr.deref at hd
        split at hd
        · cases hd
        · exact hd
      obtain ⟨h1, h2⟩ := hl _ q hq
      have : s.refreshRequest v ref.id q now draws chan = (.ok none, s) := by
        unfold CMgr.refreshRequest
        split
        · rfl
        · simp only
          have h3 : q.nextRefresh - now ≤ 0 := by linarith
          simp only [if_pos h3]
      simp only [this]
      refine ⟨trivial, ?_, fun j hj => setAt_other _ _ hj⟩
      rw [hh]; simp only [setAt_same, List.length_cons]; omega

theorem close_heap (s : CMgr) (r : Nat) (q : CReq) : (s.close r q).2.heaps = s.heaps := by
  unfold CMgr.close
  split <;> rfl

theorem finish_phase (s : CSys) (t r : Nat) (q : CReq) (p : Option Pdu) :
    (s.finish t r q p).mgr.heaps = s.mgr.heaps ∧ phase ((s.finish t r q p).threads t) = 0 := by
  obtain ⟨-, h2, h3⟩ := finish_cases s t r q p
  refine ⟨by rw [h2]; exact close_heap _ _ _, ?_⟩
  rcases h3 with ⟨-, k⟩ | ⟨-, k⟩ <;> rw [k, setAt_same] <;> rfl

/-- A step of a thread does not increase the potential, and decreases it unless the thread is not inside `wait` or
asleep without a timeout. -/
theorem advance_late (v : Version) (s : CSys) (t : Nat) (now : ℚ) (draws : Nat → Nat) (chan : Option PyErr)
    {N : Nat} (hN : ∀ k, N ≤ k → s.mgr.heaps k = []) (hl : LateFor s t now) :
    2 * load N (s.advance v t now draws chan).mgr + phase ((s.advance v t now draws chan).threads t) ≤
      2 * load N s.mgr + phase (s.threads t) ∧
    (phase (s.threads t) ≠ 0 →
      2 * load N (s.advance v t now draws chan).mgr + phase ((s.advance v t now draws chan).threads t) <
        2 * load N s.mgr + phase (s.threads t)) := by
  have fin : ∀ r q p, phase (s.threads t) ≤ 2 →
      2 * load N (s.finish t r q p).mgr + phase ((s.finish t r q p).threads t) ≤
        2 * load N s.mgr + phase (s.threads t) ∧
      (phase (s.threads t) ≠ 0 →
        2 * load N (s.finish t r q p).mgr + phase ((s.finish t r q p).threads t) <
          2 * load N s.mgr + phase (s.threads t)) := by
    intro r q p _
    obtain ⟨h1, h2⟩ := finish_phase s t r q p
    rw [load_same h1, h2]
    omega
  unfold advance
  cases ht : s.threads t with
  | idle => simp only; rw [ht]; simp [phase]
  | done r o => simp only; rw [ht]; simp [phase]
  | test r =>
    obtain ⟨q, hq⟩ := hl.test r ht
    simp only [hq]
    rw [if_pos (hl.reqs r q hq).1]
    have := fin r q none (by rw [ht]; simp [phase])
    rw [ht] at this
    exact this
  | loop r =>
    simp only
    split <;> simp [setAt_same, phase]
  | body r =>
    simp only
    generalize s.mgr.managerOf r = k
    rcases refreshBody_late v s.mgr k now draws chan hl.reqs with ⟨h1, h2⟩ | ⟨h1, h2, h3⟩
    · generalize s.mgr.refreshBody v k now draws chan = y at *
      obtain ⟨a, b⟩ := y
      simp only at h1 h2
      subst h1 h2
      simp [setAt_same, phase]
    · generalize s.mgr.refreshBody v k now draws chan = y at *
      obtain ⟨a, b⟩ := y
      simp only at h1 h2 h3
      subst h1
      simp only [setAt_same, phase]
      have hkN : k < N := by
        by_contra hk
        rw [hN k (by omega)] at h2
        simp at h2
      have := sum_at (f := fun j => (s.mgr.heaps j).length) (f' := fun j => (b.heaps j).length) hkN
        (fun j hj => by simp only [h3 j hj])
      unfold load
      omega
  | sleep r d since =>
    obtain ⟨q, hq⟩ := hl.sleep r d since ht
    simp only [hq]
    split
    · split
      · simp only [setAt_same, phase]
        constructor
        · omega
        · intro h
          cases d with
          | none => exact absurd rfl h
          | some d => simp
      · have := fin r q (some ‹Message›.pdu) (by rw [ht]; cases d <;> simp [phase])
        rw [ht] at this
        exact this
    · cases d with
      | none => simp only; rw [ht]; simp [phase]
      | some d =>
        simp only
        rw [if_pos (hl.wake r d since ht)]
        simp [setAt_same, phase]

/-- A step that is neither a call nor a step of a thread changes nothing that matters here. -/
theorem step_other (v : Version) (s : CSys) (e : CEvent) (hc : Spec.isCallC e = false)
    (hs : ∀ t now draws chan, e ≠ .step t now draws chan) :
    (s.step v e).threads = s.threads ∧ (s.step v e).mgr.heaps = s.mgr.heaps := by
  cases e with
  | send => cases hc
  | wait => cases hc
  | step t now draws chan => exact absurd rfl (hs t now draws chan)
  | hear w =>
    unfold step
    simp only
    split
    · exact ⟨rfl, rfl⟩
    · refine ⟨rfl, ?_⟩
      simp only
      unfold CMgr.hear
      split
      · rfl
      · split
        · rfl
        · split
          · rfl
          · split <;> rfl
  | push =>
    unfold step
    simp only
    split
    · exact ⟨rfl, rfl⟩
    · split <;> exact ⟨rfl, rfl⟩
  | collect r =>
    refine ⟨rfl, ?_⟩
    unfold step CMgr.collect
    simp only
    split
    · rfl
    · simp only
      split
      · exact close_heap _ _ _
      · rfl

/-- Only `sendRequest` creates a request. -/
theorem step_born (v : Version) (s : CSys) (e : CEvent) (hc : Spec.isCallC e = false) (r : Nat) (q' : CReq)
    (hq' : (s.step v e).mgr.reqs r = some q') : ∃ q, s.mgr.reqs r = some q := by
  cases hq : s.mgr.reqs r with
  | some q => exact ⟨q, rfl⟩
  | none =>
    exfalso
    have hset : ∀ r0 (q0 : CReq) q1, s.mgr.reqs r0 = some q0 → setAt s.mgr.reqs r0 q1 r = none := by
      intro r0 q0 q1 h0
      rw [setAt_other, hq]; rintro rfl; rw [hq] at h0; cases h0
    have hderef : ∀ r0 q0, s.mgr.deref r0 = some q0 → s.mgr.reqs r0 = some q0 := by
      intro r0 q0 h0
      unfold CMgr.deref at h0
      split at h0
      · cases h0
      · exact h0
    have hm := step_chg v s e
    generalize s.step v e = s' at *
    cases hm
    case same h => rw [h, hq] at hq'; cases hq'
    case created => cases hc
    case closed t now draws chan r0 q0 o h0 hcb ho h ht =>
      rw [h] at hq'
      have : setAt s.mgr.reqs r0 (some { q0 with callback := false }) r = some q' := hq'
      rw [hset r0 q0 _ h0] at this; cases this
    case popped h => rw [h] at hq'; simp only [hq] at hq'; cases hq'
    case resent t now draws chan k ref rest q0 m' hb hh hd h1 h2 h3 h4 hs h =>
      obtain ⟨id, cb, cache, sent, hr, -⟩ := CMgr.reallySend_spec v s.mgr ref.id (CMgr.resent q0 now) draws chan
      rw [hs] at hr
      simp only at hr
      rw [h, hr] at hq'
      simp only at hq'
      rw [hset ref.id q0 _ (hderef _ _ hd)] at hq'; cases hq'
    case failed t now draws chan k ref rest q0 m' err hb hh hd h1 h2 h3 h4 hs h =>
      obtain ⟨id, cb, cache, sent, hr, -⟩ := CMgr.reallySend_spec v s.mgr ref.id (CMgr.resent q0 now) draws chan
      rw [hs] at hr
      simp only at hr
      rw [h, hr] at hq'
      simp only at hq'
      rw [hset ref.id q0 _ (hderef _ _ hd)] at hq'; cases hq'
    case heard w hr =>
      rw [show _ = _ from (CMgr.hear_frame v s.mgr w).1] at hq'
      rw [hq] at hq'; cases hq'
    case pushed r0 m q0 hr h0 =>
      have : setAt s.mgr.reqs r0 (some (q0.push m)) r = some q' := hq'
      rw [hset r0 q0 _ h0] at this; cases this
    case collected r0 =>
      have hq2 : (s.mgr.collect r0).reqs r = some q' := hq'
      unfold CMgr.collect at hq2
      split at hq2
      · rw [hq] at hq2; cases hq2
      · rename_i q0 hd
        simp only at hq2
        split at hq2
        · rename_i hcb
          have : setAt s.mgr.reqs r0 (some { q0 with callback := false }) r = some q' := by
            unfold CMgr.close at hq2
            rw [if_pos hcb] at hq2
            exact hq2
          rw [hset r0 q0 _ (hderef _ _ hd)] at this; cases this
        · rw [hq] at hq2; cases hq2

variable {v : Version} {g : Nat}

/-- Without calls, no request appears, and the expirations stay. -/
theorem no_births (h h' : List CEvent) (hn : ∀ e ∈ h', Spec.isCallC e = false) (r : Nat) (q' : CReq)
    (hq' : (after v g (h ++ h')).mgr.reqs r = some q') :
    ∃ q, (after v g h).mgr.reqs r = some q ∧ q'.expiration = q.expiration := by
  induction h' using List.reverseRecOn generalizing q' with
  | nil => rw [List.append_nil] at hq'; exact ⟨q', hq', rfl⟩
  | append_singleton h' e ih =>
    rw [← List.append_assoc, after_snoc] at hq'
    obtain ⟨q1, h1⟩ := step_born v _ e (hn e (by simp)) r q' hq'
    obtain ⟨q, h2, h3⟩ := ih (fun e he => hn e (List.mem_append_left _ he)) q1 h1
    obtain ⟨q2, h4, h5, -⟩ := step_keep v (after v g (h ++ h')) e r q1 h1
    rw [hq'] at h4
    cases h4
    exact ⟨q, h2, h5.trans h3⟩

/-- What is known of a thread. -/
def ThreadOk (s : CSys) : Pc → Prop
  | .idle | .done _ _ => True
  | .test r | .loop r | .body r => ∃ q, s.mgr.reqs r = some q
  | .sleep r d since => (∃ q, s.mgr.reqs r = some q) ∧
      ∀ x, d = some x → ∃ r' q', s.mgr.reqs r' = some q' ∧ since + x ≤ q'.expiration

theorem thread_ok (h : List CEvent) (t : Nat) : ThreadOk (after v g h) ((after v g h).threads t) := by
  induction h using List.reverseRecOn with
  | nil => trivial
  | append_singleton h e ih =>
    have keep : ∀ r, (∃ q, (after v g h).mgr.reqs r = some q) → ∃ q, (after v g (h ++ [e])).mgr.reqs r = some q := by
      intro r ⟨q, hq⟩
      obtain ⟨q', hq', -⟩ := step_keep v (after v g h) e r q hq
      exact ⟨q', by rw [after_snoc]; exact hq'⟩
    have keep' : ∀ y, (∃ r' q', (after v g h).mgr.reqs r' = some q' ∧ y ≤ q'.expiration) →
        ∃ r' q', (after v g (h ++ [e])).mgr.reqs r' = some q' ∧ y ≤ q'.expiration := by
      intro y ⟨r', q', hq', hy⟩
      obtain ⟨q2, hq2, h3, -⟩ := step_keep v (after v g h) e r' q' hq'
      exact ⟨r', q2, by rw [after_snoc]; exact hq2, by rw [h3]; exact hy⟩
    have stay : ∀ p, ThreadOk (after v g h) p → ThreadOk (after v g (h ++ [e])) p := by
      intro p hp
      cases p with
      | idle => trivial
      | done r o => trivial
      | test r => exact keep r hp
      | loop r => exact keep r hp
      | body r => exact keep r hp
      | sleep r d since => exact ⟨keep r hp.1, fun x hx => keep' _ (hp.2 x hx)⟩
    by_cases hsame : (after v g (h ++ [e])).threads t = (after v g h).threads t
    · rw [hsame]; exact stay _ ih
    · have hsl := fun r d since => C50_partial v g h e t r d since
      have hth : (after v g (h ++ [e])).threads t = ((after v g h).step v e).threads t := by rw [after_snoc]
      rcases step_threads v (after v g h) e t with hg | ⟨r, he, -, hg⟩ | ⟨now, draws, chan, he, hs⟩
      · exact absurd (hth.trans hg) hsame
      · rw [hth, hg]
        subst he
        have hg0 := hg
        unfold step at hg
        simp only at hg
        split at hg
        · rename_i hd
          exact keep r ⟨_, (CMgr.deref_some hd).1⟩
        · rename_i hd
          exact keep r ⟨_, (CMgr.deref_some hd).1⟩
        · exact absurd ((hth.trans hg0).trans hg.symm) hsame
      · have hm := (advance_threads v (after v g h) t now draws chan).2
        rw [← hs, ← hth] at hm
        cases ht : (after v g h).threads t with
        | idle => rw [ht] at hm; exact absurd (hm.trans ht.symm) hsame
        | done r o => rw [ht] at hm; exact absurd (hm.trans ht.symm) hsame
        | test r =>
          rw [ht] at hm ih
          rcases hm with ⟨-, hm⟩ | ⟨q, hq, ⟨-, hm | hm⟩ | ⟨-, hm⟩⟩ <;> rw [hm]
          · exact keep r ih
          · trivial
          · trivial
          · exact keep r ih
        | loop r =>
          rw [ht] at hm ih
          rcases hm with ⟨-, hm⟩ | ⟨-, hm⟩ <;> rw [hm]
          · exact ⟨keep r ih, fun x hx => by cases hx⟩
          · exact keep r ih
        | body r =>
          rw [ht] at hm ih
          rcases hm with ⟨x, -, hm⟩ | hm | ⟨d, -, hm⟩
          · rw [hm]; trivial
          · rw [hm]; exact keep r ih
          · obtain ⟨-, -, r', q, h1, -, -, h2, h3⟩ := hsl r d now (by rw [ht]; nofun) hm
            rw [hm]
            refine ⟨keep r ih, fun x hx => ?_⟩
            cases hx
            exact keep' _ ⟨r', q, h1, by rw [h2]; exact h3⟩
        | sleep r d since =>
          rw [ht] at hm ih
          rcases hm with ⟨-, hm⟩ | ⟨q, hq, ⟨-, hm⟩ | ⟨-, hm⟩ | ⟨-, -, hm⟩ | ⟨m, -, -, ⟨-, hm⟩ | ⟨-, hm⟩⟩⟩
          · exact absurd (hm.trans ht.symm) hsame
          · exact absurd (hm.trans ht.symm) hsame
          · rw [hm]; exact keep r ih.1
          · rw [hm]; trivial
          · rw [hm]; trivial
          · rw [hm]; trivial

/-- All threads with larger numbers than some have never been used. -/
theorem few_threads (h : List CEvent) : ∃ N, ∀ t, N ≤ t → (after v g h).threads t = .idle := by
  induction h using List.reverseRecOn with
  | nil => exact ⟨0, fun _ _ => rfl⟩
  | append_singleton h e ih =>
    obtain ⟨N, hN⟩ := ih
    obtain ⟨t0, ht0⟩ : ∃ t0, ∀ t, t ≠ t0 → (after v g (h ++ [e])).threads t = (after v g h).threads t := by
      rw [after_snoc]
      by_cases hw : ∃ t r, e = .wait t r
      · obtain ⟨t0, r, rfl⟩ := hw
        refine ⟨t0, fun t ht => ?_⟩
        rcases step_threads v (after v g h) (.wait t0 r) t with hg | ⟨r', he, -⟩ | ⟨now, draws, chan, he, -⟩
        · exact hg
        · injection he with he; exact absurd he.symm ht
        · cases he
      · by_cases hs : ∃ t now draws chan, e = .step t now draws chan
        · obtain ⟨t0, now, draws, chan, rfl⟩ := hs
          exact ⟨t0, fun t ht => (advance_threads v (after v g h) t0 now draws chan).1 t ht⟩
        · refine ⟨0, fun t _ => ?_⟩
          rcases step_threads v (after v g h) e t with hg | ⟨r', he, -⟩ | ⟨now, draws, chan, he, -⟩
          · exact hg
          · exact absurd ⟨t, r', he⟩ hw
          · exact absurd ⟨t, now, draws, chan, he⟩ hs
    refine ⟨max N (t0 + 1), fun t ht => ?_⟩
    rw [ht0 t (by omega)]
    exact hN t (by omega)

/-- The calls of `sendRequest` in a history are made on finitely many managers. -/
theorem few_managers (h : List CEvent) : ∃ N, ∀ k r pdu community timeout period t0 t1 draws chan,
    .send k r pdu community timeout period t0 t1 draws chan ∈ h → k < N := by
  induction h with
  | nil => exact ⟨0, by simp⟩
  | cons e h ih =>
    obtain ⟨N, hN⟩ := ih
    by_cases he : ∃ k r pdu community timeout period t0 t1 draws chan,
        e = .send k r pdu community timeout period t0 t1 draws chan
    · obtain ⟨k0, _, _, _, _, _, _, _, _, _, rfl⟩ := he
      refine ⟨max N (k0 + 1), fun k r pdu community timeout period t0 t1 draws chan hm => ?_⟩
      rcases List.mem_cons.1 hm with hm | hm
      · cases hm; omega
      · have := hN k r pdu community timeout period t0 t1 draws chan hm
        omega
    · refine ⟨N, fun k r pdu community timeout period t0 t1 draws chan hm => ?_⟩
      rcases List.mem_cons.1 hm with hm | hm
      · exact absurd ⟨k, r, pdu, community, timeout, period, t0, t1, draws, chan, hm.symm⟩ he
      · exact hN k r pdu community timeout period t0 t1 draws chan hm

theorem few (h : List CEvent) : ∃ N, Few N (after v g h) := by
  obtain ⟨N, hN⟩ := few_threads (v := v) (g := g) h
  obtain ⟨M, hM⟩ := few_managers h
  refine ⟨max N M, fun t ht => hN t (by omega), fun k hk => ?_⟩
  rw [List.eq_nil_iff_forall_not_mem]
  intro x hx
  obtain ⟨q, hq, hqk⟩ := owned v g h k x hx
  obtain ⟨_, _, _, _, _, _, hs, -⟩ := (Inv.after v g h).mgr.born x.id q hq
  have := hM _ _ _ _ _ _ _ _ _ _ hs
  omega

/-- The steps `h'` made after `h` are as the property demands. -/
structure Good (v : Version) (g : Nat) (h h' : List CEvent) : Prop where
  calls : ∀ e ∈ h', Spec.isCallC e = false
  late : ∀ now ∈ h'.filterMap Spec.clockC, ∀ r q, (after v g h).mgr.reqs r = some q → q.expiration ≤ now

theorem Good.head {h a b : List CEvent} (hg : Good v g h (a ++ b)) : Good v g h a := by
  refine ⟨fun e he => hg.calls e (List.mem_append_left _ he), fun now hn => hg.late now ?_⟩
  rw [List.filterMap_append]; exact List.mem_append_left _ hn

/-- Without calls, a thread that is not inside `wait` stays where it is. -/
theorem no_waits (h : List CEvent) (e : CEvent) (hn : Spec.isCallC e = false) (t : Nat)
    (ht : ¬ ((after v g h).threads t).Inside) : (after v g (h ++ [e])).threads t = (after v g h).threads t := by
  rw [after_snoc]
  rcases step_threads v (after v g h) e t with hg | ⟨r, he, -⟩ | ⟨now, draws, chan, he, hs⟩
  · exact hg
  · rw [he] at hn; cases hn
  · rw [hs]
    have := (advance_threads v (after v g h) t now draws chan).2
    cases hp : (after v g h).threads t with
    | idle => rw [hp] at this; exact this
    | done r o => rw [hp] at this; exact this
    | test r => rw [hp] at ht; exact absurd trivial ht
    | loop r => rw [hp] at ht; exact absurd trivial ht
    | body r => rw [hp] at ht; exact absurd trivial ht
    | sleep r d since => rw [hp] at ht; exact absurd trivial ht

variable {N : Nat}

theorem late_for {h h' : List CEvent} {t : Nat} {now : ℚ} {draws : Nat → Nat} {chan : Option PyErr}
    (hg : Good v g h (h' ++ [.step t now draws chan])) : LateFor (after v g (h ++ h')) t now := by
  have hreq : ∀ r q, (after v g (h ++ h')).mgr.reqs r = some q → q.expiration ≤ now := by
    intro r q hq
    obtain ⟨q0, h0, h1⟩ := no_births h h' (fun e he => hg.calls e (List.mem_append_left _ he)) r q hq
    rw [h1]
    exact hg.late now (by rw [List.filterMap_append]; simp [Spec.clockC]) r q0 h0
  have hok := thread_ok (v := v) (g := g) (h ++ h') t
  refine ⟨fun r q hq => ⟨hreq r q hq, ?_⟩, fun r ht => ?_, fun r d since ht => ?_, fun r d since ht => ?_⟩
  · obtain ⟨_, _, _, _, _, _, _, _, _, _, hle, _⟩ := (Inv.after v g (h ++ h')).mgr.born r q hq
    exact hle
  · rw [ht] at hok; exact hok
  · rw [ht] at hok; exact hok.1
  · rw [ht] at hok
    obtain ⟨r', q', hq', hle⟩ := hok.2 d rfl
    exact hle.trans (hreq r' q' hq')

/-- One step: nothing gets worse; a thread that has something to do gets things better. -/
theorem one {h h' : List CEvent} {e : CEvent} (hg : Good v g h (h' ++ [e])) (hf : Few N (after v g (h ++ h'))) :
    Few N (after v g (h ++ (h' ++ [e]))) ∧
    (potential N (after v g (h ++ (h' ++ [e]))) < potential N (after v g (h ++ h')) ∨
      (potential N (after v g (h ++ (h' ++ [e]))) ≤ potential N (after v g (h ++ h')) ∧
        (∀ t, phase ((after v g (h ++ h')).threads t) ≠ 0 →
          (after v g (h ++ (h' ++ [e]))).threads t = (after v g (h ++ h')).threads t) ∧
        ∀ t now draws chan, e = .step t now draws chan → phase ((after v g (h ++ h')).threads t) = 0)) := by
  have hcall : Spec.isCallC e = false := hg.calls e (by simp)
  have hfew : Few N (after v g (h ++ (h' ++ [e]))) := by
    rw [← List.append_assoc]
    refine ⟨fun t ht => ?_, fun k hk => ?_⟩
    · rw [no_waits (h ++ h') e hcall t (by rw [hf.threads t ht]; exact id)]
      exact hf.threads t ht
    · rw [List.eq_nil_iff_forall_not_mem]
      intro x hx
      rw [after_snoc] at hx
      rcases step_heaps v _ e k x hx with ⟨y, hy, -⟩ | ⟨hn, q, hq, -⟩
      · rw [hf.heaps k hk] at hy; cases hy
      · obtain ⟨q0, hq0⟩ := step_born v _ e hcall _ q hq
        rw [hn] at hq0; cases hq0
  refine ⟨hfew, ?_⟩
  have hst : after v g (h ++ (h' ++ [e])) = (after v g (h ++ h')).step v e := by
    rw [← List.append_assoc, after_snoc]
  rw [hst]
  by_cases hs : ∃ t now draws chan, e = .step t now draws chan
  · obtain ⟨t, now, draws, chan, rfl⟩ := hs
    have hadv : (after v g (h ++ h')).step v (.step t now draws chan) = (after v g (h ++ h')).advance v t now draws chan := rfl
    rw [hadv]
    obtain ⟨h1, h2⟩ := advance_late v (after v g (h ++ h')) t now draws chan hf.heaps (late_for hg)
    have hth := (advance_threads v (after v g (h ++ h')) t now draws chan).1
    by_cases htN : t < N
    · have hsum := sum_set htN hth
      by_cases hz : phase ((after v g (h ++ h')).threads t) = 0
      · right
        refine ⟨by unfold potential; omega, fun t' ht' => hth t' (by rintro rfl; exact ht' hz), ?_⟩
        intro t' now' draws' chan' he
        cases he
        exact hz
      · left
        have := h2 hz
        unfold potential
        omega
    · right
      have hid := hf.threads t (by omega)
      have hsame : (after v g (h ++ h')).advance v t now draws chan = after v g (h ++ h') := by
        unfold advance; rw [hid]
      rw [hsame]
      refine ⟨le_refl _, fun _ _ => rfl, ?_⟩
      intro t' now' draws' chan' he
      cases he
      rw [hid]; rfl
  · obtain ⟨h1, h2⟩ := step_other v (after v g (h ++ h')) e hcall (fun t now draws chan he => hs ⟨t, now, draws, chan, he⟩)
    right
    refine ⟨?_, fun t _ => by rw [h1], fun t now draws chan he => absurd ⟨t, now, draws, chan, he⟩ hs⟩
    unfold potential
    rw [h1, load_same h2]

theorem several {h h' l : List CEvent} (hg : Good v g h (h' ++ l)) (hf : Few N (after v g (h ++ h'))) :
    Few N (after v g (h ++ (h' ++ l))) ∧
    potential N (after v g (h ++ (h' ++ l))) ≤ potential N (after v g (h ++ h')) := by
  induction l generalizing h' with
  | nil => simp only [List.append_nil]; exact ⟨hf, le_refl _⟩
  | cons e l ih =>
    rw [show h' ++ e :: l = h' ++ [e] ++ l by simp] at hg ⊢
    obtain ⟨h1, h2⟩ := one hg.head hf
    obtain ⟨h3, h4⟩ := ih hg h1
    refine ⟨h3, ?_⟩
    rcases h2 with h2 | ⟨h2, -⟩ <;> omega

theorem turn {h h' l : List CEvent} (hg : Good v g h (h' ++ l)) (hf : Few N (after v g (h ++ h'))) {t : Nat}
    (ht : phase ((after v g (h ++ h')).threads t) ≠ 0) (hl : ∃ now draws chan, .step t now draws chan ∈ l) :
    potential N (after v g (h ++ (h' ++ l))) < potential N (after v g (h ++ h')) := by
  induction l generalizing h' with
  | nil => simp at hl
  | cons e l ih =>
    rw [show h' ++ e :: l = h' ++ [e] ++ l by simp] at hg ⊢
    obtain ⟨h1, h2⟩ := one hg.head hf
    rcases h2 with h2 | ⟨h2, h3, h4⟩
    · have := (several hg h1).2
      omega
    · obtain ⟨now, draws, chan, hm⟩ := hl
      rcases List.mem_cons.1 hm with he | hm
      · exact absurd (h4 t now draws chan he.symm) ht
      · have := ih hg h1 (by rw [h3 t ht]; exact ht) ⟨now, draws, chan, hm⟩
        omega

/-- A thread inside `wait` was inside `wait` before. -/
theorem waited {h h' l : List CEvent} (hg : Good v g h (h' ++ l)) {t : Nat}
    (ht : ((after v g (h ++ (h' ++ l))).threads t).Inside) : ((after v g (h ++ h')).threads t).Inside := by
  induction l using List.reverseRecOn with
  | nil => rwa [List.append_nil] at ht
  | append_singleton l e ih =>
    rw [← List.append_assoc h' l] at hg ht
    refine ih hg.head ?_
    by_contra hw
    have := no_waits (h ++ (h' ++ l)) e (hg.calls e (by simp)) t hw
    rw [List.append_assoc] at this
    rw [this] at ht
    exact hw ht

theorem inside_of_phase {p : Pc} (h : phase p ≠ 0) : p.Inside := by
  cases p with
  | idle => exact absurd rfl h
  | done r o => exact absurd rfl h
  | test r => trivial
  | loop r => trivial
  | body r => trivial
  | sleep r d since => trivial

/-- Once every thread has nothing to do any more, it stays so. -/
theorem settled {h h' l : List CEvent} (hg : Good v g h (h' ++ l))
    (hz : ∀ t, phase ((after v g (h ++ h')).threads t) = 0) (t : Nat) :
    phase ((after v g (h ++ (h' ++ l))).threads t) = 0 := by
  induction l using List.reverseRecOn generalizing t with
  | nil => rw [List.append_nil]; exact hz t
  | append_singleton l e ih =>
    rw [← List.append_assoc h' l] at hg ⊢
    have ih := ih hg.head t
    rw [← List.append_assoc, after_snoc]
    have hcall : Spec.isCallC e = false := hg.calls e (by simp)
    rcases step_threads v (after v g (h ++ (h' ++ l))) e t with h1 | ⟨r, he, -⟩ | ⟨now, draws, chan, he, hs⟩
    · rw [h1]; exact ih
    · rw [he] at hcall; cases hcall
    · rw [hs]
      subst he
      have := (advance_threads v (after v g (h ++ (h' ++ l))) t now draws chan).2
      rcases hp : (after v g (h ++ (h' ++ l))).threads t with _ | r | r | r | ⟨r, d, since⟩ | ⟨r, o⟩ <;> rw [hp] at this ih
      · rw [this]; rfl
      · cases ih
      · cases ih
      · cases ih
      · cases d with
        | some d => cases ih
        | none =>
          unfold advance
          rw [hp]
          simp only
          split
          · rw [hp]; rfl
          · split
            · split
              · simp only [setAt_same]; rfl
              · exact (finish_phase _ t r _ _).2
            · rw [hp]; rfl
      · rw [this]; rfl

theorem rounds {h h' : List CEvent} {l : List (List CEvent)} (hg : Good v g h (h' ++ l.flatten))
    (hr : ∀ round ∈ l, Spec.FairC (after v g h) round) (hf : Few N (after v g (h ++ h'))) :
    (∀ t, phase ((after v g (h ++ (h' ++ l.flatten))).threads t) = 0) ∨
    potential N (after v g (h ++ (h' ++ l.flatten))) + l.length ≤ potential N (after v g (h ++ h')) := by
  induction l generalizing h' with
  | nil => right; simp
  | cons round l ih =>
    rw [show h' ++ (round :: l).flatten = h' ++ round ++ l.flatten by simp] at hg ⊢
    have hg' := hg.head
    obtain ⟨h1, -⟩ := several hg' hf
    rcases ih hg (fun r hm => hr r (List.mem_cons_of_mem _ hm)) h1 with h2 | h2
    · exact .inl h2
    · by_cases hz : ∀ t, phase ((after v g (h ++ h')).threads t) = 0
      · left
        exact settled hg (settled hg' hz)
      · right
        push Not at hz
        obtain ⟨t, ht⟩ := hz
        have hin := waited (h' := []) (v := v) (g := g) (t := t) (by simpa using hg'.head) (by simpa using inside_of_phase ht)
        have := turn hg' hf ht (hr round List.mem_cons_self t (by simpa using hin))
        rw [List.length_cons]
        omega

end CSys

/-- **C93, v1 and v2c.** After any history there is a number `N` such that, however the history continues: if no
further calls are made, the clock has passed the expiration of every request, and the continuation consists of
rounds in each of which every thread inside `wait` gets a turn, then after `N` rounds no thread is inside `wait` any
more, except threads that sleep without a timeout.

Missing: that there are no such threads; it is false, see `C93_community_false`. -/
theorem C93_community_partial (v : Version) (g : Nat) (h : List CEvent) :
    ∃ N, ∀ rounds : List (List CEvent),
      (∀ round ∈ rounds, Spec.FairC (CSys.after v g h) round) →
      (∀ e ∈ rounds.flatten, Spec.isCallC e = false) →
      (∀ now ∈ rounds.flatten.filterMap Spec.clockC,
        ∀ r q, (CSys.after v g h).mgr.reqs r = some q → q.expiration ≤ now) →
      N ≤ rounds.length →
      ∀ t, ¬ ((CSys.after v g (h ++ rounds.flatten)).threads t).Inside ∨
        ((CSys.after v g (h ++ rounds.flatten)).threads t).Stranded := by
  obtain ⟨N, hN⟩ := CSys.few (v := v) (g := g) h
  refine ⟨CSys.potential N (CSys.after v g h) + 1, fun rounds h1 h2 h3 h4 t => CSys.phase_zero ?_⟩
  have := CSys.rounds (h' := []) (N := N) ⟨by simpa using h2, by simpa using h3⟩ h1 (by simpa using hN)
  simp only [List.append_nil, List.nil_append] at this
  rcases this with h5 | h5
  · exact h5 t
  · omega

/-- One request and one thread: the hypotheses of `C93_community_partial` are met. -/
theorem one_waiter (v : Version) (h : List CEvent)
    (hh : ∀ e ∈ h, e = Spec.issue 0 10 1 ∨ e = .wait 0 0 ∨ ∃ x, e = Spec.tick 0 x) (n : Nat) :
    (∀ round ∈ List.replicate n [Spec.tick 0 11], Spec.FairC (CSys.after v 1 h) round) ∧
    (∀ e ∈ (List.replicate n [Spec.tick 0 11]).flatten, Spec.isCallC e = false) ∧
    (∀ now ∈ (List.replicate n [Spec.tick 0 11]).flatten.filterMap Spec.clockC,
      ∀ r q, (CSys.after v 1 h).mgr.reqs r = some q → q.expiration ≤ now) := by
  have others : ∀ t, t ≠ 0 → (CSys.after v 1 h).threads t = .idle := by
    intro t ht
    have key : ∀ l : List CEvent, (∀ r, .wait t r ∉ l) → (CSys.after v 1 l).threads t = .idle := by
      intro l hn
      induction l using List.reverseRecOn with
      | nil => rfl
      | append_singleton l e ih =>
        have ih := ih fun r hr => hn r (List.mem_append_left _ hr)
        rw [CSys.after_snoc]
        rcases CSys.step_threads v (CSys.after v 1 l) e t with hg | ⟨r, he, -⟩ | ⟨now, draws, chan, -, hs⟩
        · rw [hg, ih]
        · exact absurd (by rw [he]; simp) (hn r)
        · rw [hs]
          have := (CSys.advance_threads v (CSys.after v 1 l) t now draws chan).2
          rw [ih] at this
          exact this
    refine key h fun r hr => ?_
    rcases hh _ hr with h1 | h1 | ⟨x, h1⟩
    · cases h1
    · injection h1 with h1; exact ht h1
    · cases h1
  have hmem : ∀ e ∈ (List.replicate n [Spec.tick 0 11]).flatten, e = Spec.tick 0 11 := by
    intro e he
    obtain ⟨l, hl, he⟩ := List.mem_flatten.1 he
    obtain ⟨-, rfl⟩ := List.mem_replicate.1 hl
    simpa using he
  refine ⟨fun round hr t ht => ?_, fun e he => by rw [hmem e he]; rfl, fun now hn r q hq => ?_⟩
  · by_cases h0 : t = 0
    · subst h0
      obtain ⟨-, rfl⟩ := List.mem_replicate.1 hr
      exact ⟨11, _, _, List.mem_singleton.2 rfl⟩
    · rw [others t h0] at ht
      exact absurd ht id
  · obtain ⟨e, he, hx⟩ := List.mem_filterMap.1 hn
    rw [hmem e he] at hx
    have hnow : now = 11 := by simpa [Spec.tick, Spec.clockC] using hx.symm
    obtain ⟨pdu, timeout, t0, t1, draws, chan, hs, he, -⟩ := (CSys.Inv.after v 1 h).mgr.born r q hq
    rcases hh _ hs with h1 | h1 | ⟨x, h1⟩
    · simp [Spec.issue] at h1
      obtain ⟨-, -, -, -, rfl, -, rfl, -⟩ := h1
      rw [he, hnow]; norm_num
    · cases h1
    · cases h1

/-- **C93** is false of v1 and v2c: here the only thread inside `wait` gets a turn in every round, the clock is past
the expiration of the only request, and yet `wait` does not end after any number of rounds. -/
theorem C93_community_false (v : Version) (hv : v = .v1 ∨ v = .v2c) (n : Nat) :
    let h := [Spec.issue 0 10 1, .wait 0 0, Spec.tick 0 9, Spec.tick 0 9, Spec.tick 0 10, Spec.tick 0 10]
    let rounds := List.replicate n [Spec.tick 0 11]
    (∀ round ∈ rounds, Spec.FairC (CSys.after v 1 h) round) ∧
    (∀ e ∈ rounds.flatten, Spec.isCallC e = false) ∧
    (∀ now ∈ rounds.flatten.filterMap Spec.clockC,
      ∀ r q, (CSys.after v 1 h).mgr.reqs r = some q → q.expiration ≤ now) ∧
    ((CSys.after v 1 (h ++ rounds.flatten)).threads 0).Inside := by
  intro h rounds
  obtain ⟨h1, h2, h3⟩ := one_waiter v h (by simp [h]) n
  refine ⟨h1, h2, h3, ?_⟩
  have hflat : rounds.flatten = (List.replicate n (11 : ℚ)).map (Spec.tick 0) := by
    simp only [rounds]
    clear h1 h2 h3 rounds
    induction n with
    | zero => rfl
    | succ n ih => rw [List.replicate_succ, List.replicate_succ, List.flatten_cons, List.map_cons, ih]; rfl
  rw [hflat, C50_false v hv (List.replicate n 11)]
  trivial

/-- The hypotheses of `C93_community_partial` are met by a thread that is asleep until its next refresh; three
rounds after the expiration its `wait` has ended. -/
theorem C93_community_example (v : Version) (hv : v = .v1 ∨ v = .v2c) :
    let h := [Spec.issue 0 10 1, .wait 0 0, Spec.tick 0 0, Spec.tick 0 0, Spec.tick 0 0]
    let rounds := List.replicate 3 [Spec.tick 0 11]
    ((∀ round ∈ rounds, Spec.FairC (CSys.after v 1 h) round) ∧
    (∀ e ∈ rounds.flatten, Spec.isCallC e = false) ∧
    (∀ now ∈ rounds.flatten.filterMap Spec.clockC,
      ∀ r q, (CSys.after v 1 h).mgr.reqs r = some q → q.expiration ≤ now)) ∧
    (CSys.after v 1 h).threads 0 = .sleep 0 (some 1) 0 ∧
    (CSys.after v 1 (h ++ rounds.flatten)).threads 0 = .done 0 .timeout := by
  refine ⟨one_waiter v _ (by simp) 3, ?_⟩
  rcases hv with rfl | rfl <;> decide +kernel

end Snmp
