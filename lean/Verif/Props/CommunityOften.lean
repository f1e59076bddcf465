import Verif.Props.ManagerCommunity
/-!
# C110 for the v1 and v2c managers: how often a request is put on the wire
-/

namespace Snmp

/-- How many datagrams were handed to the channel for request `r`. -/
def Spec.transmissions (s : CSys) (r : Nat) : Nat := s.mgr.sent.countP fun x => x.1 = r

/-- How many steps of the history `h`, begun in `s`, put request `r` on the wire at the very instant at which it was due:
the clock reading is equal to its refresh time. -/
def Spec.onTheDot (v : Version) (r : Nat) : CSys → List CEvent → Nat
  | _, [] => 0
  | s, e :: h =>
    (match e, s.mgr.reqs r with
      | .step _ now _ _, some q =>
        if now = q.nextRefresh ∧ Spec.transmissions (s.step v e) r ≠ Spec.transmissions s r then 1 else 0
      | _, _ => 0) + Spec.onTheDot v r (s.step v e) h

/-- A refresh that is late moves the refresh time on by at least one period, unless that passes the expiration. -/
theorem CMgr.resent_moves {q : CReq} {now : ℚ} (hp : 0 < q.period) (h : q.nextRefresh < now) :
    min q.expiration (q.nextRefresh + q.period) ≤ (CMgr.resent q now).nextRefresh := by
  show _ ≤ min q.expiration (q.nextRefresh + (⌈-(q.nextRefresh - now) / q.period⌉ : ℤ) * q.period)
  have hk : (1 : ℤ) ≤ ⌈-(q.nextRefresh - now) / q.period⌉ := by
    have : (0 : ℚ) < -(q.nextRefresh - now) / q.period := div_pos (by linarith) hp
    have := Int.lt_ceil.2 (by exact_mod_cast this : ((0 : ℤ) : ℚ) < -(q.nextRefresh - now) / q.period)
    omega
  have hk' : (1 : ℚ) ≤ (⌈-(q.nextRefresh - now) / q.period⌉ : ℤ) := by exact_mod_cast hk
  refine min_le_min le_rfl ?_
  nlinarith

theorem CMgr.resent_dot {q : CReq} (h : q.nextRefresh ≤ q.expiration) :
    (CMgr.resent q q.nextRefresh).nextRefresh = q.nextRefresh := by
  show min q.expiration (q.nextRefresh + (⌈-(q.nextRefresh - q.nextRefresh) / q.period⌉ : ℤ) * q.period) = _
  simp [h]

theorem CSys.reallySend_sent (v : Version) (m : CMgr) (r r' : Nat) (q : CReq) (draws : Nat → Nat) (chan : Option PyErr) :
    ((m.reallySend v r' q draws chan).2.sent.countP fun x => x.1 = r) ≤
      (m.sent.countP fun x => x.1 = r) + if r' = r then 1 else 0 := by
  obtain ⟨id, cb, cache, sent, hr, -, -, -, ⟨-, w, -, hk⟩ | ⟨-, hk⟩⟩ := CMgr.reallySend_spec v m r' q draws chan
  · rw [hr]; simp only [hk, List.countP_cons]
    by_cases h : r' = r <;> simp [h]
  · rw [hr]; simp only [hk]; omega

/-- What one step does to the refresh time of `r` and to the number of its transmissions. -/
theorem CSys.step_often (v : Version) (s : CSys) (e : CEvent) (r : Nat) (q : CReq) (hq : s.mgr.reqs r = some q) :
    ∃ q', (s.step v e).mgr.reqs r = some q' ∧ q'.expiration = q.expiration ∧ q'.period = q.period ∧
      ((Spec.transmissions (s.step v e) r = Spec.transmissions s r ∧ q'.nextRefresh = q.nextRefresh) ∨
        ∃ t now draws chan, e = .step t now draws chan ∧ q.nextRefresh ≤ now ∧ now < q.expiration ∧
          q'.nextRefresh = (CMgr.resent q now).nextRefresh ∧
          Spec.transmissions (s.step v e) r ≤ Spec.transmissions s r + 1) := by
  obtain ⟨q', hq', -, -, h1, h2, -, -⟩ := (CSys.step_evolves v s e).keep r q hq
  refine ⟨q', hq', h1, h2, ?_⟩
  rcases CSys.step_effect v s e with
    ⟨k, r0, pdu, community, timeout, period, t0, t1, draws, chan, he, hn, hs⟩ |
    ⟨t, now, draws, chan, r0, q0, heap, he, hq0, -, -, h3, h4, hs⟩ | ⟨hs, hk⟩
  · left
    have hrne : r ≠ r0 := by rintro rfl; rw [hn] at hq; cases hq
    unfold CMgr.sendRequest at hs; simp only at hs
    generalize hm : ({ s.mgr.setReq r0 (CReq.new k pdu community timeout period t0) with
          heaps := setAt (s.mgr.setReq r0 (CReq.new k pdu community timeout period t0)).heaps k
            (Heap.push (s.mgr.setReq r0 (CReq.new k pdu community timeout period t0)).env
            ((s.mgr.setReq r0 (CReq.new k pdu community timeout period t0)).heaps k)
            ⟨r0, WeakKey.new (CReq.new k pdu community timeout period t0).nextRefresh⟩) } : CMgr) = m at hs
    have hmr : m.reqs r = some q := by rw [← hm]; simp only [CMgr.setReq]; rw [setAt_other _ _ hrne]; exact hq
    have hms : m.sent = s.mgr.sent := by rw [← hm]; rfl
    obtain ⟨id, cb, cache, sent, hr, -, -, -, hk⟩ := CMgr.reallySend_spec v m r0
        ((CReq.new k pdu community timeout period t0).setNextRefresh
          (t1 + (CReq.new k pdu community timeout period t0).period)) draws chan
    rw [hs] at hq'
    have hr' : (m.reallySend v r0 ((CReq.new k pdu community timeout period t0).setNextRefresh
          (t1 + (CReq.new k pdu community timeout period t0).period)) draws chan).2.reqs r = some q := by
      rw [hr]; simp only; rw [setAt_other _ _ hrne]; exact hmr
    rw [hr'] at hq'
    injection hq' with hq'
    subst hq'
    refine ⟨?_, rfl⟩
    unfold Spec.transmissions
    rw [hs, hr]
    rcases hk with ⟨-, w, -, hk⟩ | ⟨-, hk⟩
    · simp only [hk, List.countP_cons, hms]
      simp [Ne.symm hrne]
    · simp only [hk, hms]
  · by_cases hrr : r = r0
    · subst hrr
      rw [hq] at hq0; injection hq0 with hq0; subst hq0
      right
      refine ⟨t, now, draws, chan, he, h3, h4, ?_, ?_⟩
      · obtain ⟨id, cb, cache, sent, hr, -⟩ := CMgr.reallySend_spec v s.mgr r (CMgr.resent q now) draws chan
        rw [hs, hr] at hq'
        simp only [setAt_same] at hq'
        injection hq' with hq'
        rw [← hq']
      · have := CSys.reallySend_sent v s.mgr r r (CMgr.resent q now) draws chan
        unfold Spec.transmissions
        rw [hs]
        simpa using this
    · left
      obtain ⟨id, cb, cache, sent, hr, -, -, -, hk⟩ := CMgr.reallySend_spec v s.mgr r0 (CMgr.resent q0 now) draws chan
      have hr' : (s.step v e).mgr.reqs r = some q := by
        rw [hs, hr]; simp only; rw [setAt_other _ _ hrr]; exact hq
      rw [hr'] at hq'
      injection hq' with hq'
      subst hq'
      refine ⟨?_, rfl⟩
      unfold Spec.transmissions
      rw [hs, hr]
      rcases hk with ⟨-, w, -, hk⟩ | ⟨-, hk⟩
      · simp only [hk, List.countP_cons]
        simp [Ne.symm hrr]
      · simp only [hk]
  · left
    obtain ⟨q1, h3, h4⟩ := hk r q hq
    rw [hq'] at h3; injection h3 with h3; subst h3
    exact ⟨by unfold Spec.transmissions; rw [hs], h4⟩

/-- From a state in which `r` is next due after `n` periods, and at most `M` transmissions fit into its lifetime. -/
theorem CSys.often (v : Version) (r : Nat) (t0 : ℚ) (M : Nat) : ∀ (h : List CEvent) (s : CSys) (q : CReq) (n : Nat),
    s.mgr.reqs r = some q → 0 < q.period → q.nextRefresh ≤ q.expiration →
    (∀ k : Nat, t0 + k * q.period < q.expiration → k + 1 ≤ M) →
    min q.expiration (t0 + n * q.period) ≤ q.nextRefresh → n ≤ M →
    Spec.transmissions (s.run v h) r + n ≤ Spec.transmissions s r + M + Spec.onTheDot v r s h := by
  intro h
  induction h with
  | nil => intro s q n _ _ _ _ _ hn; simp only [CSys.run, List.foldl_nil, Spec.onTheDot]; omega
  | cons e h ih =>
    intro s q n hq hp hle hM hn hnM
    obtain ⟨q', hq', h1, h2, ⟨h3, h4⟩ | ⟨t, now, draws, chan, he, h3, h4, h5, h6⟩⟩ := CSys.step_often v s e r q hq
    · have := ih (s.step v e) q' n hq' (by rw [h2]; exact hp) (by rw [h1, h4]; exact hle) (by rw [h1, h2]; exact hM)
        (by rw [h1, h2, h4]; exact hn) hnM
      simp only [Spec.onTheDot]
      rw [h3] at this
      simp only [CSys.run, List.foldl_cons] at this ⊢
      omega
    · have hrun : s.run v (e :: h) = (s.step v e).run v h := rfl
      rw [hrun]
      have hle' : q'.nextRefresh ≤ q'.expiration := by rw [h5, h1]; exact min_le_left _ _
      by_cases hnow : now = q.nextRefresh
      · have hnr : q'.nextRefresh = q.nextRefresh := by rw [h5, hnow]; exact CMgr.resent_dot hle
        have := ih (s.step v e) q' n hq' (by rw [h2]; exact hp) hle' (by rw [h1, h2]; exact hM)
          (by rw [h1, h2, hnr]; exact hn) hnM
        simp only [Spec.onTheDot]
        rw [he, hq] at *
        simp only [hnow, true_and]
        by_cases hd : Spec.transmissions (s.step v (.step t now draws chan)) r = Spec.transmissions s r
        · rw [hnow] at hd this; rw [if_neg (by rw [hd]; simp)]; omega
        · rw [hnow] at hd this h6; rw [if_pos hd]; omega
      · have hlt : q.nextRefresh < now := lt_of_le_of_ne h3 (Ne.symm hnow)
        have hlow : t0 + n * q.period < q.expiration := by
          rcases min_le_iff.1 hn with hn | hn
          · linarith
          · linarith
        have hM1 := hM n hlow
        have hnext : min q.expiration (t0 + (n + 1 : Nat) * q.period) ≤ q'.nextRefresh := by
          rw [h5]
          refine le_trans ?_ (CMgr.resent_moves hp hlt)
          refine le_min (min_le_left _ _) ?_
          rcases min_le_iff.1 hn with hn | hn
          · exact le_trans (min_le_left _ _) (by linarith)
          · refine le_trans (min_le_right _ _) ?_
            push_cast
            linarith
        have := ih (s.step v e) q' (n + 1) hq' (by rw [h2]; exact hp) hle' (by rw [h1, h2]; exact hM)
          (by rw [h1, h2]; exact hnext) hM1
        simp only [Spec.onTheDot]
        omega

/-- The number of transmissions that fit into the lifetime of a request: one for every period begun before its timeout,
and one in any case. -/
def Spec.allowed (timeout period : ℚ) : Nat := max 1 ⌈timeout / period⌉.toNat

theorem Spec.allowed_fits {timeout period t0 : ℚ} (hp : 0 < period) (k : Nat) (h : t0 + k * period < t0 + timeout) :
    k + 1 ≤ Spec.allowed timeout period := by
  have h1 : (k : ℚ) < timeout / period := by rw [lt_div_iff₀ hp]; linarith
  have h2 : (k : ℤ) < ⌈timeout / period⌉ := Int.lt_ceil.2 (by exact_mod_cast h1)
  have : k + 1 ≤ ⌈timeout / period⌉.toNat := by omega
  exact le_trans this (le_max_right _ _)

/-- **C110** (v1, v2c), except for retransmissions at the very instant the request is due. Whatever happens, a request with
a positive refresh period is put on the wire at most once for every period begun before its timeout, and once in any
case. -/
theorem C110_community_partial (v : Version) (g : Nat) (h1 h2 : List CEvent) (k r : Nat) (pdu : Pdu) (community : Bytes)
    (timeout period t0 t1 : ℚ) (draws : Nat → Nat) (chan : Option PyErr)
    (hn : (CSys.after v g h1).mgr.reqs r = none) (hp : 0 < period) (ht : t0 ≤ t1) :
    let create := CEvent.send k r pdu community timeout period t0 t1 draws chan
    Spec.transmissions (CSys.after v g (h1 ++ create :: h2)) r ≤
      Spec.allowed timeout period + Spec.onTheDot v r (CSys.after v g (h1 ++ [create])) h2 := by
  intro create
  have hrun : CSys.after v g (h1 ++ create :: h2) = (CSys.after v g (h1 ++ [create])).run v h2 := by
    unfold CSys.after CSys.run
    rw [show h1 ++ create :: h2 = (h1 ++ [create]) ++ h2 by simp, List.foldl_append]
  have h0 : Spec.transmissions (CSys.after v g h1) r = 0 := by
    unfold Spec.transmissions
    rw [List.countP_eq_zero]
    rintro ⟨r', w⟩ hx hr
    simp only [decide_eq_true_eq] at hr
    obtain ⟨q, hq, -⟩ := (CSys.Inv.after v g h1).mgr.sent r' w hx
    rw [hr, hn] at hq
    cases hq
  have hstep : (CSys.after v g (h1 ++ [create])).mgr =
      ((CSys.after v g h1).mgr.sendRequest v k r pdu community timeout period t0 t1 draws chan).2 := by
    rw [CSys.after_snoc]
    show (if ((CSys.after v g h1).mgr.reqs r).isSome then _ else _ : CSys).mgr = _
    rw [hn]; rfl
  unfold CMgr.sendRequest at hstep; simp only at hstep
  generalize hm : ({ (CSys.after v g h1).mgr.setReq r (CReq.new k pdu community timeout period t0) with
        heaps := setAt ((CSys.after v g h1).mgr.setReq r (CReq.new k pdu community timeout period t0)).heaps k
          (Heap.push ((CSys.after v g h1).mgr.setReq r (CReq.new k pdu community timeout period t0)).env
          (((CSys.after v g h1).mgr.setReq r (CReq.new k pdu community timeout period t0)).heaps k)
          ⟨r, WeakKey.new (CReq.new k pdu community timeout period t0).nextRefresh⟩) } : CMgr) = m at hstep
  have hms : m.sent = (CSys.after v g h1).mgr.sent := by rw [← hm]; rfl
  have h1' : Spec.transmissions (CSys.after v g (h1 ++ [create])) r ≤ 1 := by
    have := CSys.reallySend_sent v m r r ((CReq.new k pdu community timeout period t0).setNextRefresh
          (t1 + (CReq.new k pdu community timeout period t0).period)) draws chan
    unfold Spec.transmissions at h0 ⊢
    rw [hstep]
    rw [hms, h0] at this
    simpa using this
  obtain ⟨id, cb, cache, sent, hr, -⟩ := CMgr.reallySend_spec v m r ((CReq.new k pdu community timeout period t0).setNextRefresh
          (t1 + (CReq.new k pdu community timeout period t0).period)) draws chan
  have hq : ∃ q, (CSys.after v g (h1 ++ [create])).mgr.reqs r = some q ∧ q.period = period ∧
      q.expiration = t0 + timeout ∧ q.nextRefresh = min (t0 + timeout) (t1 + period) := by
    refine ⟨_, by rw [hstep, hr]; exact setAt_same _ _ _, rfl, rfl, rfl⟩
  obtain ⟨q, hq, e1, e2, e3⟩ := hq
  have := CSys.often v r t0 (Spec.allowed timeout period) h2 (CSys.after v g (h1 ++ [create])) q 1 hq (by rw [e1]; exact hp)
    (by rw [e2, e3]; exact min_le_left _ _) (by rw [e1, e2]; exact Spec.allowed_fits hp)
    (by rw [e1, e2, e3]; exact min_le_min le_rfl (by push_cast; linarith)) (le_max_left _ _)
  rw [hrun]
  omega

/-- **C110** is false of the code without that exception: if a request is looked at the very instant it is due, its refresh
time stays where it is, and it is put on the wire again and again until the clock moves on. Here, five times with a timeout
of two periods. -/
theorem C110_community_false : ¬ ∀ (v : Version) (g : Nat) (h1 h2 : List CEvent) (k r : Nat) (pdu : Pdu) (community : Bytes)
    (timeout period t0 t1 : ℚ) (draws : Nat → Nat) (chan : Option PyErr),
    (CSys.after v g h1).mgr.reqs r = none → 0 < period → t0 ≤ t1 →
    Spec.transmissions (CSys.after v g (h1 ++ CEvent.send k r pdu community timeout period t0 t1 draws chan :: h2)) r ≤
      Spec.allowed timeout period := by
  intro h
  have := h .v1 1 [] ([.wait 0 0, Spec.tick 0 1, Spec.tick 0 1, Spec.tick 0 1, Spec.tick 0 1, Spec.tick 0 1, Spec.tick 0 1,
    Spec.tick 0 1, Spec.tick 0 1, Spec.tick 0 1]) 0 0 Spec.emptyGet [] 2 1 0 0 (fun _ => 1) none rfl (by decide) (by decide)
  revert this
  decide +kernel

/-- Non-vacuity of C110: with a timeout of 5/2 and a period of 1, a request is put on the wire three times, which is what is
allowed, and never on the dot. -/
theorem C110_community_example :
    let h := [CEvent.wait 0 0, Spec.tick 0 0, Spec.tick 0 0, Spec.tick 0 (11/10), Spec.tick 0 (11/10), Spec.tick 0 (11/10),
      Spec.tick 0 (21/10), Spec.tick 0 (21/10), Spec.tick 0 (21/10), Spec.tick 0 (22/10), Spec.tick 0 (22/10),
      Spec.tick 0 (22/10), Spec.tick 0 (24/10), Spec.tick 0 (24/10), Spec.tick 0 (24/10), Spec.tick 0 (25/10),
      Spec.tick 0 (26/10), Spec.tick 0 (26/10), Spec.tick 0 (26/10)]
    Spec.transmissions (CSys.after .v1 1 (Spec.issue 0 (5/2) 1 :: h)) 0 = 3 ∧ Spec.allowed (5/2) 1 = 3 ∧
    Spec.onTheDot .v1 0 (CSys.after .v1 1 [Spec.issue 0 (5/2) 1]) h = 0 := by
  decide +kernel

end Snmp
