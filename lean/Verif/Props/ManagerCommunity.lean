import Verif.ManagerCommunityLemmas
/-!
# C48–C51, C63–C65 for the v1 and v2c managers

Histories: any number of requests and threads, any clock readings (not even assumed monotonic), any
datagrams, any failures of `channel.send`, any interleaving of the atomic steps.
-/

namespace Snmp

/-- The system after the history `h`; `g` seeds the ID generator. -/
abbrev CSys.after (v : Version) (g : Nat) (h : List CEvent) : CSys := (CSys.init g).run v h

theorem CSys.after_snoc (v : Version) (g : Nat) (h : List CEvent) (e : CEvent) :
    CSys.after v g (h ++ [e]) = (CSys.after v g h).step v e := by
  unfold CSys.after CSys.run
  rw [List.foldl_append]; rfl

/-- What holds of the system after the history `h`. -/
structure CSys.Inv (v : Version) (h : List CEvent) (s : CSys) : Prop where
  mgr : CInv v h s.mgr
  recv : ∀ r m, s.recv = some (r, m) → ∃ q, s.mgr.reqs r = some q ∧ Spec.Answers v h q m

namespace CSys

theorem recv_mono {v : Version} {h : List CEvent} {s : CMgr} {s' : CMgr} {x : Option (Nat × Message)}
    {e : CEvent} (hv : s.Evolves s')
    (hr : ∀ r m, x = some (r, m) → ∃ q, s.reqs r = some q ∧ Spec.Answers v h q m) :
    ∀ r m, x = some (r, m) → ∃ q, s'.reqs r = some q ∧ Spec.Answers v (h ++ [e]) q m := by
  intro r m hx
  obtain ⟨q, hq, ha⟩ := hr r m hx
  obtain ⟨q', hq', -, h1, -, -, h2, -⟩ := hv.keep r q hq
  exact ⟨q', hq', ha.mono (by rw [h2 ha.assigned]) h1⟩

/-- The end of `wait`. -/
theorem finish_cases (s : CSys) (t r : Nat) (q : CReq) (p : Option Pdu) :
    (s.finish t r q p).recv = s.recv ∧ (s.finish t r q p).mgr = (s.mgr.close r q).2 ∧
    ((q.callback = false ∧ (s.finish t r q p).threads =
        setAt s.threads t (.done r (.raised .assertionError))) ∨
      (q.callback = true ∧ (s.finish t r q p).threads = setAt s.threads t (.done r (match p with
        | none => .timeout
        | some p => if p.first ≠ 0 then .errorResponse p.first p.second q.pdu else .bindings p.bindings)))) := by
  unfold finish
  rcases CMgr.close_cases s.mgr r q with ⟨h, hc⟩ | ⟨hc, h⟩
  · rw [h]; exact ⟨rfl, rfl, .inl ⟨hc, rfl⟩⟩
  · rw [h]; exact ⟨rfl, rfl, .inr ⟨hc, rfl⟩⟩

/-- What a thread's step does to the shared state. -/
theorem advance_mgr (v : Version) (s : CSys) (t : Nat) (now : ℚ) (draws : Nat → Nat) (chan : Option PyErr) :
    (s.advance v t now draws chan).recv = s.recv ∧
    ((s.advance v t now draws chan).mgr = s.mgr ∨
      (∃ r q, s.mgr.reqs r = some q ∧ (s.advance v t now draws chan).mgr = (s.mgr.close r q).2) ∨
      ∃ r, s.threads t = .body r ∧
        (s.advance v t now draws chan).mgr = (s.mgr.refreshBody v (s.mgr.managerOf r) now draws chan).2) := by
  unfold advance
  split
  · exact ⟨rfl, .inl rfl⟩
  · exact ⟨rfl, .inl rfl⟩
  · split
    · exact ⟨rfl, .inl rfl⟩
    · rename_i r _ _ q hq
      split
      · obtain ⟨h1, h2, -⟩ := finish_cases s t r q none
        exact ⟨h1, .inr (.inl ⟨r, q, hq, h2⟩)⟩
      · exact ⟨rfl, .inl rfl⟩
  · split
    · exact ⟨rfl, .inl rfl⟩
    · exact ⟨rfl, .inl rfl⟩
  · split
    · rename_i h; exact ⟨rfl, .inr (.inr ⟨_, by assumption, by rw [h]⟩)⟩
    · rename_i h; exact ⟨rfl, .inr (.inr ⟨_, by assumption, by rw [h]⟩)⟩
    · rename_i h; exact ⟨rfl, .inr (.inr ⟨_, by assumption, by rw [h]⟩)⟩
  · split
    · exact ⟨rfl, .inl rfl⟩
    · rename_i r _ _ _ _ q hq
      split
      · split
        · exact ⟨rfl, .inl rfl⟩
        · rename_i m _
          obtain ⟨h1, h2, -⟩ := finish_cases s t r q (some m.pdu)
          exact ⟨h1, .inr (.inl ⟨r, q, hq, h2⟩)⟩
      · split
        · exact ⟨rfl, .inl rfl⟩
        · split
          · exact ⟨rfl, .inl rfl⟩
          · exact ⟨rfl, .inl rfl⟩

/-- The invariant is kept by every step. -/
theorem Inv.step {v : Version} {h : List CEvent} {s : CSys} (hi : Inv v h s) (e : CEvent) :
    Inv v (h ++ [e]) (s.step v e) := by
  have hm := hi.mgr.mono (e := e)
  have hrefl := recv_mono (e := e) (CMgr.Evolves.refl s.mgr) hi.recv
  cases e with
  | send k r pdu community timeout period t0 t1 draws chan =>
    unfold CSys.step
    simp only
    by_cases hs : (s.mgr.reqs r).isSome
    · rw [if_pos hs]; exact ⟨hm, hrefl⟩
    · rw [if_neg hs]
      have hn : s.mgr.reqs r = none := by simpa using hs
      refine ⟨hi.mgr.sendRequest hn k pdu community timeout period t0 t1 draws chan, ?_⟩
      intro r' m hx
      obtain ⟨q, hq, ha⟩ := hi.recv r' m hx
      have hne : r' ≠ r := by rintro rfl; rw [hn] at hq; cases hq
      obtain ⟨id, cb, cache, sent, hs, -⟩ := CMgr.reallySend_spec v
        { s.mgr.setReq r (CReq.new k pdu community timeout period t0) with
          heaps := setAt (s.mgr.setReq r (CReq.new k pdu community timeout period t0)).heaps k (Heap.push (s.mgr.setReq r (CReq.new k pdu community timeout period t0)).env
            ((s.mgr.setReq r (CReq.new k pdu community timeout period t0)).heaps k)
            ⟨r, WeakKey.new (CReq.new k pdu community timeout period t0).nextRefresh⟩) } r
        ((CReq.new k pdu community timeout period t0).setNextRefresh
          (t1 + (CReq.new k pdu community timeout period t0).period)) draws chan
      refine ⟨q, ?_, ha.mono rfl rfl⟩
      simp only
      unfold CMgr.sendRequest
      simp only
      rw [hs]
      simp only [CMgr.setReq]
      rw [setAt_other _ _ hne, setAt_other _ _ hne]
      exact hq
  | wait t r =>
    unfold CSys.step
    simp only
    split
    · exact ⟨hm, hrefl⟩
    · exact ⟨hm, hrefl⟩
    · exact ⟨hm, hrefl⟩
  | step t now draws chan =>
    unfold CSys.step
    simp only
    obtain ⟨h1, h2 | ⟨r, q, hq, h2⟩ | ⟨r, -, h2⟩⟩ := advance_mgr v s t now draws chan
    · exact ⟨by rw [h2]; exact hm, by rw [h1, h2]; exact hrefl⟩
    · exact ⟨by rw [h2]; exact hm.close hq, by
        rw [h1, h2]; exact recv_mono (CMgr.Evolves.close hq) hi.recv⟩
    · exact ⟨by rw [h2]; exact hm.refreshBody _ now draws chan, by
        rw [h1, h2]; exact recv_mono (CMgr.Evolves.refreshBody v s.mgr _ now draws chan) hi.recv⟩
  | hear w =>
    unfold CSys.step
    simp only
    split
    · exact ⟨hm, hrefl⟩
    · refine ⟨hm.hear w, ?_⟩
      intro r m hx
      obtain ⟨⟨tail, h1⟩, h2, h3, -, h4⟩ := CMgr.hear_some hx
      obtain ⟨hz, q, hq, hid, hc⟩ := hi.mgr.cached _ _ h4
      refine ⟨q, ?_, ⟨⟨w, tail, by simp, h1⟩, h2, h3, by rw [hid]; exact hz, hid.symm, hc.symm⟩⟩
      rw [(CMgr.hear_frame v s.mgr w).1]; exact hq
  | push =>
    unfold CSys.step
    simp only
    split
    · exact ⟨hm, hrefl⟩
    · rename_i r m hr
      obtain ⟨q, hq, ha⟩ := hi.recv r m hr
      rw [hq]
      refine ⟨hm.setReq (q := q) (q' := q.push m) hq rfl rfl rfl rfl ?_ rfl rfl rfl, fun _ _ h => by cases h⟩
      intro m' hm'
      injection hm' with hm'; subst hm'
      exact ha.mono rfl rfl
  | collect r =>
    exact ⟨hm.collect r, recv_mono (CMgr.Evolves.collect s.mgr r) hi.recv⟩

theorem Inv.after (v : Version) (g : Nat) (h : List CEvent) : Inv v h (CSys.after v g h) := by
  induction h using List.reverseRecOn with
  | nil =>
    refine ⟨⟨?_, ?_, ?_, ?_, ?_⟩, ?_⟩
    · intro _ _ h; cases h
    · intro _ _ h; cases h
    · intro _ _ _ h; cases h
    · intro _ _ h; cases h
    · intro _ _ h; cases h
    · intro _ _ h; cases h
  | append_singleton h e ih =>
    rw [after_snoc]; exact ih.step e

end CSys
end Snmp

namespace Snmp
namespace CSys

/-- A step is a `sendRequest`, a retransmission, or sends nothing and moves no refresh time. -/
theorem step_effect (v : Version) (s : CSys) (e : CEvent) :
    (∃ k r pdu community timeout period t0 t1 draws chan,
      e = .send k r pdu community timeout period t0 t1 draws chan ∧ s.mgr.reqs r = none ∧
      (s.step v e).mgr = (s.mgr.sendRequest v k r pdu community timeout period t0 t1 draws chan).2) ∨
    (∃ t now draws chan r q heaps, e = .step t now draws chan ∧ s.mgr.reqs r = some q ∧ s.mgr.dead r = false ∧
      q.event = false ∧ q.nextRefresh ≤ now ∧ now < q.expiration ∧
      (s.step v e).mgr = { (s.mgr.reallySend v r (CMgr.resent q now) draws chan).2 with heaps }) ∨
    ((s.step v e).mgr.sent = s.mgr.sent ∧ ∀ r q, s.mgr.reqs r = some q →
      ∃ q', (s.step v e).mgr.reqs r = some q' ∧ q'.nextRefresh = q.nextRefresh) := by
  have same : ∀ m : CMgr, m = s.mgr → m.sent = s.mgr.sent ∧ ∀ r q, s.mgr.reqs r = some q →
      ∃ q', m.reqs r = some q' ∧ q'.nextRefresh = q.nextRefresh := by
    rintro m rfl; exact ⟨rfl, fun r q h => ⟨q, h, rfl⟩⟩
  have hset : ∀ (c : Cache CommunityEntry) r (q0 q1 : CReq), s.mgr.reqs r = some q0 →
      q1.nextRefresh = q0.nextRefresh → ∀ r' q, s.mgr.reqs r' = some q →
      ∃ q', (({ s.mgr with cache := c } : CMgr).setReq r q1).reqs r' = some q' ∧
        q'.nextRefresh = q.nextRefresh := by
    intro c r q0 q1 h0 h1 r' q hq
    unfold CMgr.setReq
    simp only [setAt_get]
    split
    · rename_i he; subst he
      rw [h0] at hq; injection hq with hq; subst hq
      exact ⟨q1, rfl, h1⟩
    · exact ⟨q, hq, rfl⟩
  have hclose : ∀ r q0, s.mgr.reqs r = some q0 → (s.mgr.close r q0).2.sent = s.mgr.sent ∧
      ∀ r' q, s.mgr.reqs r' = some q →
      ∃ q', (s.mgr.close r q0).2.reqs r' = some q' ∧ q'.nextRefresh = q.nextRefresh := by
    intro r q0 h0
    rcases CMgr.close_cases s.mgr r q0 with ⟨h, -⟩ | ⟨-, h⟩
    · rw [h]; exact same _ rfl
    · rw [h]; exact ⟨rfl, hset _ r q0 { q0 with callback := false } h0 rfl⟩
  cases e with
  | send k r pdu community timeout period t0 t1 draws chan =>
    unfold CSys.step
    simp only
    by_cases hs : (s.mgr.reqs r).isSome
    · rw [if_pos hs]; exact .inr (.inr (same _ rfl))
    · rw [if_neg hs]
      exact .inl ⟨k, r, pdu, community, timeout, period, t0, t1, draws, chan, rfl, by simpa using hs, rfl⟩
  | wait t r =>
    right; right
    apply same
    unfold CSys.step
    simp only
    split <;> rfl
  | step t now draws chan =>
    right
    unfold CSys.step
    simp only
    obtain ⟨h1, h2 | ⟨r, q, hq, h2⟩ | ⟨r, -, h2⟩⟩ := advance_mgr v s t now draws chan
    · exact .inr (same _ h2)
    · rw [h2]; exact .inr (hclose r q hq)
    · rw [h2]
      obtain ⟨s1, heap, h, hs | ⟨ref, rest, q, -, hd, h3, h4, h5, -, hs⟩, -⟩ :=
        CMgr.refreshBody_cases v s.mgr (s.mgr.managerOf r) now draws chan
      · right; rw [h, hs]; exact ⟨rfl, fun r q h => ⟨q, h, rfl⟩⟩
      · left
        exact ⟨t, now, draws, chan, ref.id, q, _, rfl, (CMgr.deref_some hd).1, (CMgr.deref_some hd).2,
          h3, h4, h5, by rw [h, hs]⟩
  | hear w =>
    right; right
    unfold CSys.step
    simp only
    split
    · exact same _ rfl
    · obtain ⟨h1, h2, -⟩ := CMgr.hear_frame v s.mgr w
      exact ⟨h2, fun r q h => ⟨q, by rw [h1]; exact h, rfl⟩⟩
  | push =>
    right; right
    unfold CSys.step
    simp only
    split
    · exact same _ rfl
    · rename_i r m hr
      split
      · exact same _ rfl
      · rename_i q hq
        exact ⟨rfl, hset s.mgr.cache r q (q.push m) hq rfl⟩
  | collect r =>
    right; right
    unfold CSys.step CMgr.collect
    simp only
    cases hd : s.mgr.deref r with
    | none => exact same _ rfl
    | some q =>
      simp only
      split
      · exact hclose r q (CMgr.deref_some hd).1
      · exact ⟨rfl, fun r q h => ⟨q, h, rfl⟩⟩

end CSys

/-- The retransmission rules for the request `r` at clock reading `now`: `q` and `q'` are its attributes
before and after. -/
structure Spec.Resend (h : List CEvent) (r : Nat) (now : ℚ) (q q' : CReq) : Prop where
  unanswered : q.event = false
  due : q.nextRefresh ≤ now
  unexpired : now < q.expiration
  expiration : q'.expiration = q.expiration
  period : q'.period = q.period
  future : 0 < q.period → now ≤ q'.nextRefresh ∧ q'.nextRefresh < now + q.period
  bounded : q'.nextRefresh ≤ q.expiration
  grid : Spec.Born h r q'

/-- **C48** (v1/v2c). Each step hands at most one datagram to the channel; it does so when it creates the
request, or when the request is due, unanswered and unexpired; the new refresh time then obeys the
rules. -/
theorem C48_community (v : Version) (g : Nat) (h : List CEvent) (e : CEvent) :
    (CSys.after v g (h ++ [e])).mgr.sent = (CSys.after v g h).mgr.sent ∨
    ∃ r w, (CSys.after v g (h ++ [e])).mgr.sent = (r, w) :: (CSys.after v g h).mgr.sent ∧
      ((∃ k pdu community timeout period t0 t1 draws chan,
          e = .send k r pdu community timeout period t0 t1 draws chan ∧
          (CSys.after v g h).mgr.reqs r = none) ∨
        ∃ t now draws chan q q', e = .step t now draws chan ∧ (CSys.after v g h).mgr.reqs r = some q ∧
          (CSys.after v g (h ++ [e])).mgr.reqs r = some q' ∧ Spec.Resend (h ++ [e]) r now q q') := by
  have hb := (CSys.Inv.after v g (h ++ [e])).mgr.born
  rw [CSys.after_snoc] at hb ⊢
  rcases CSys.step_effect v (CSys.after v g h) e with
    ⟨k, r, pdu, community, timeout, period, t0, t1, draws, chan, he, hn, hs⟩ |
    ⟨t, now, draws, chan, r, q, heap, he, hq, -, h1, h2, h3, hs⟩ | ⟨hs, -⟩
  · unfold CMgr.sendRequest at hs
    obtain ⟨id, cb, cache, sent, hr, -, -, -, ⟨-, w, -, hk⟩ | ⟨-, hk⟩⟩ := CMgr.reallySend_spec v
        { (CSys.after v g h).mgr.setReq r (CReq.new k pdu community timeout period t0) with
          heaps := setAt ((CSys.after v g h).mgr.setReq r (CReq.new k pdu community timeout period t0)).heaps k (Heap.push ((CSys.after v g h).mgr.setReq r (CReq.new k pdu community timeout period t0)).env
            (((CSys.after v g h).mgr.setReq r (CReq.new k pdu community timeout period t0)).heaps k)
            ⟨r, WeakKey.new (CReq.new k pdu community timeout period t0).nextRefresh⟩) } r
        ((CReq.new k pdu community timeout period t0).setNextRefresh
          (t1 + (CReq.new k pdu community timeout period t0).period)) draws chan
    · right
      refine ⟨r, w, ?_, .inl ⟨k, pdu, community, timeout, period, t0, t1, draws, chan, he, hn⟩⟩
      rw [hs, hr, hk]; rfl
    · left; rw [hs, hr, hk]; rfl
  · obtain ⟨id, cb, cache, sent, hr, -, -, -, ⟨-, w, -, hk⟩ | ⟨-, hk⟩⟩ := CMgr.reallySend_spec v
        (CSys.after v g h).mgr r (CMgr.resent q now) draws chan
    · right
      have hq' : ((CSys.after v g h).step v e).mgr.reqs r = some { CMgr.resent q now with
          pdu := { (CMgr.resent q now).pdu with requestID := id }, callback := cb } := by
        rw [hs, hr]; exact setAt_same _ _ _
      refine ⟨r, w, by rw [hs, hr]; exact hk,
        .inr ⟨t, now, draws, chan, q, _, he, hq, hq', h1, h2, h3, rfl, rfl, ?_, ?_, hb _ _ hq'⟩⟩
      · intro hp
        exact ⟨(CMgr.resent_time hp h3).1, (CMgr.resent_time hp h3).2.1⟩
      · exact min_le_left _ _
    · left; rw [hs, hr]; exact hk
  · exact .inl hs

/-- **C48** (v1/v2c), schedule. The refresh time of an existing request moves only in such a step, also if
the channel then fails to send. -/
theorem C48_community_schedule (v : Version) (g : Nat) (h : List CEvent) (e : CEvent) (r : Nat) (q q' : CReq)
    (hq : (CSys.after v g h).mgr.reqs r = some q) (hq' : (CSys.after v g (h ++ [e])).mgr.reqs r = some q')
    (hne : q'.nextRefresh ≠ q.nextRefresh) :
    ∃ t now draws chan, e = .step t now draws chan ∧ Spec.Resend (h ++ [e]) r now q q' := by
  have hb := (CSys.Inv.after v g (h ++ [e])).mgr.born r q' hq'
  rw [CSys.after_snoc] at hq'
  rcases CSys.step_effect v (CSys.after v g h) e with
    ⟨k, r0, pdu, community, timeout, period, t0, t1, draws, chan, he, hn, hs⟩ |
    ⟨t, now, draws, chan, r0, q0, heap, he, hq0, -, h1, h2, h3, hs⟩ | ⟨-, hs⟩
  · exfalso
    have hrne : r ≠ r0 := by rintro rfl; rw [hn] at hq; cases hq
    unfold CMgr.sendRequest at hs
    obtain ⟨id, cb, cache, sent, hr, -⟩ := CMgr.reallySend_spec v
        { (CSys.after v g h).mgr.setReq r0 (CReq.new k pdu community timeout period t0) with
          heaps := setAt ((CSys.after v g h).mgr.setReq r0 (CReq.new k pdu community timeout period t0)).heaps k (Heap.push ((CSys.after v g h).mgr.setReq r0 (CReq.new k pdu community timeout period t0)).env
            (((CSys.after v g h).mgr.setReq r0 (CReq.new k pdu community timeout period t0)).heaps k)
            ⟨r0, WeakKey.new (CReq.new k pdu community timeout period t0).nextRefresh⟩) } r0
        ((CReq.new k pdu community timeout period t0).setNextRefresh
          (t1 + (CReq.new k pdu community timeout period t0).period)) draws chan
    rw [hs, hr] at hq'
    simp only [CMgr.setReq] at hq'
    rw [setAt_other _ _ hrne, setAt_other _ _ hrne, hq] at hq'
    injection hq' with hq'
    exact hne (by rw [hq'])
  · obtain ⟨id, cb, cache, sent, hr, -⟩ := CMgr.reallySend_spec v
        (CSys.after v g h).mgr r0 (CMgr.resent q0 now) draws chan
    rw [hs, hr] at hq'
    simp only at hq'
    by_cases hrr : r = r0
    · subst hrr
      rw [hq] at hq0; injection hq0 with hq0; subst hq0
      rw [setAt_same] at hq'
      injection hq' with hq'
      subst hq'
      refine ⟨t, now, draws, chan, he, h1, h2, h3, rfl, rfl, ?_, min_le_left _ _, hb⟩
      intro hp
      exact ⟨(CMgr.resent_time hp h3).1, (CMgr.resent_time hp h3).2.1⟩
    · rw [setAt_other _ _ hrr, hq] at hq'
      injection hq' with hq'
      exact absurd (by rw [hq']) hne
  · obtain ⟨q1, h1, h2⟩ := hs r q hq
    rw [hq'] at h1; injection h1 with h1; subst h1
    exact absurd h2 hne

/-- **C63**. All datagrams sent for one request are identical, and are the encoding of the request's PDU
(with a non-zero ID) under the request's community and the manager's version. -/
theorem C63_identical (v : Version) (g : Nat) (h : List CEvent) (r : Nat) (w : Bytes)
    (hw : (r, w) ∈ (CSys.after v g h).mgr.sent) :
    (∃ q, (CSys.after v g h).mgr.reqs r = some q ∧ q.pdu.requestID ≠ 0 ∧
      (Message.mk v q.community q.pdu).encode = .ok w) ∧
    ∀ w', (r, w') ∈ (CSys.after v g h).mgr.sent → w' = w := by
  have hi := (CSys.Inv.after v g h).mgr.sent
  obtain ⟨q, hq, hz, he⟩ := hi r w hw
  refine ⟨⟨q, hq, hz, he⟩, fun w' hw' => ?_⟩
  obtain ⟨q', hq', -, he'⟩ := hi r w' hw'
  rw [hq] at hq'; injection hq' with hq'; subst hq'
  rw [he] at he'; injection he' with he'; exact he'.symm

end Snmp

namespace Snmp
namespace CSys

/-- How the state of a thread changes in its own step, from `p` to `p'`. -/
def Moves (v : Version) (s : CSys) (now : ℚ) (draws : Nat → Nat) (chan : Option PyErr) (p p' : Pc) : Prop :=
  match p with
  | .idle => p' = .idle
  | .done r o => p' = .done r o
  | .test r => (s.mgr.reqs r = none ∧ p' = .test r) ∨
      ∃ q, s.mgr.reqs r = some q ∧
        ((q.expiration ≤ now ∧ (p' = .done r .timeout ∨ p' = .done r (.raised .assertionError))) ∨
          (now < q.expiration ∧ p' = .loop r))
  | .loop r => (s.mgr.heaps (s.mgr.managerOf r) = [] ∧ p' = .sleep r none now) ∨
      (s.mgr.heaps (s.mgr.managerOf r) ≠ [] ∧ p' = .body r)
  | .body r =>
      (∃ e, (s.mgr.refreshBody v (s.mgr.managerOf r) now draws chan).1 = .error e ∧ p' = .done r (.raised e)) ∨
      p' = .loop r ∨
      (∃ d, (s.mgr.refreshBody v (s.mgr.managerOf r) now draws chan).1 = .ok (.finished d) ∧ p' = .sleep r (some d) now)
  | .sleep r timeout since =>
      (s.mgr.reqs r = none ∧ p' = .sleep r timeout since) ∨
      ∃ q, s.mgr.reqs r = some q ∧
        ((q.event = false ∧ p' = .sleep r timeout since) ∨
          (q.event = false ∧ p' = .test r) ∨
          (q.event = true ∧ q.response = none ∧ p' = .done r (.raised .assertionError)) ∨
          (∃ m, q.event = true ∧ q.response = some m ∧
            ((q.callback = false ∧ p' = .done r (.raised .assertionError)) ∨
              (q.callback = true ∧ p' = .done r
                (if m.pdu.first ≠ 0 then .errorResponse m.pdu.first m.pdu.second q.pdu
                  else .bindings m.pdu.bindings)))))

theorem advance_threads (v : Version) (s : CSys) (t : Nat) (now : ℚ) (draws : Nat → Nat) (chan : Option PyErr) :
    (∀ t', t' ≠ t → (s.advance v t now draws chan).threads t' = s.threads t') ∧
    Moves v s now draws chan (s.threads t) ((s.advance v t now draws chan).threads t) := by
  unfold advance
  split
  · rename_i ht; rw [ht]; exact ⟨fun _ _ => rfl, rfl⟩
  · rename_i ht; rw [ht]; exact ⟨fun _ _ => rfl, rfl⟩
  · rename_i r ht
    split
    · rename_i hq
      rw [ht]
      exact ⟨fun _ _ => rfl, .inl ⟨hq, rfl⟩⟩
    · rename_i q hq
      rw [ht]
      split
      · rename_i hx
        obtain ⟨-, -, ⟨-, h⟩ | ⟨-, h⟩⟩ := finish_cases s t r q none
        · rw [h]
          exact ⟨fun _ hne => setAt_other _ _ hne, .inr ⟨q, hq, .inl ⟨hx, .inr (setAt_same _ _ _)⟩⟩⟩
        · rw [h]
          exact ⟨fun _ hne => setAt_other _ _ hne, .inr ⟨q, hq, .inl ⟨hx, .inl (setAt_same _ _ _)⟩⟩⟩
      · rename_i hx
        exact ⟨fun _ hne => setAt_other _ _ hne, .inr ⟨q, hq, .inr ⟨not_le.1 hx, setAt_same _ _ _⟩⟩⟩
  · rename_i r ht
    rw [ht]
    split
    · rename_i hh
      exact ⟨fun _ hne => setAt_other _ _ hne, .inl ⟨hh, setAt_same _ _ _⟩⟩
    · rename_i hh
      exact ⟨fun _ hne => setAt_other _ _ hne, .inr ⟨hh, setAt_same _ _ _⟩⟩
  · rename_i r ht
    rw [ht]
    split
    · rename_i e _ hb
      exact ⟨fun _ hne => setAt_other _ _ hne, .inl ⟨e, by rw [hb], setAt_same _ _ _⟩⟩
    · exact ⟨fun _ hne => setAt_other _ _ hne, .inr (.inl (setAt_same _ _ _))⟩
    · rename_i d _ hb
      exact ⟨fun _ hne => setAt_other _ _ hne, .inr (.inr ⟨d, by rw [hb], setAt_same _ _ _⟩)⟩
  · rename_i r timeout since ht
    split
    · rename_i hq
      rw [ht]
      exact ⟨fun _ _ => rfl, .inl ⟨hq, rfl⟩⟩
    · rename_i q hq
      rw [ht]
      split
      · rename_i he
        split
        · rename_i hr
          exact ⟨fun _ hne => setAt_other _ _ hne,
            .inr ⟨q, hq, .inr (.inr (.inl ⟨he, hr, setAt_same _ _ _⟩))⟩⟩
        · rename_i m hr
          obtain ⟨-, -, ⟨hc, h⟩ | ⟨hc, h⟩⟩ := finish_cases s t r q (some m.pdu)
          · rw [h]
            exact ⟨fun _ hne => setAt_other _ _ hne,
              .inr ⟨q, hq, .inr (.inr (.inr ⟨m, he, hr, .inl ⟨hc, setAt_same _ _ _⟩⟩))⟩⟩
          · rw [h]
            exact ⟨fun _ hne => setAt_other _ _ hne,
              .inr ⟨q, hq, .inr (.inr (.inr ⟨m, he, hr, .inr ⟨hc, setAt_same _ _ _⟩⟩))⟩⟩
      · rename_i he
        have he' : q.event = false := by simpa using he
        split
        · exact ⟨fun _ _ => rfl, .inr ⟨q, hq, .inl ⟨he', ht⟩⟩⟩
        · split
          · exact ⟨fun _ hne => setAt_other _ _ hne, .inr ⟨q, hq, .inr (.inl ⟨he', setAt_same _ _ _⟩)⟩⟩
          · exact ⟨fun _ _ => rfl, .inr ⟨q, hq, .inl ⟨he', ht⟩⟩⟩

/-- Only its own step and `wait` change the state of a thread. -/
theorem step_threads (v : Version) (s : CSys) (e : CEvent) (t : Nat) :
    (s.step v e).threads t = s.threads t ∨
    (∃ r, e = .wait t r ∧ (s.threads t = .idle ∨ ∃ r' o, s.threads t = .done r' o) ∧
      (s.step v e).threads t = .test r) ∨
    ∃ now draws chan, e = .step t now draws chan ∧ s.step v e = s.advance v t now draws chan := by
  cases e with
  | send k r pdu community timeout period t0 t1 draws chan =>
    left; unfold CSys.step; simp only; split <;> rfl
  | wait t' r =>
    unfold CSys.step
    simp only
    by_cases htt : t = t'
    · subst htt
      split
      · rename_i h _; exact .inr (.inl ⟨r, rfl, .inl h, setAt_same _ _ _⟩)
      · rename_i h _; exact .inr (.inl ⟨r, rfl, .inr ⟨_, _, h⟩, setAt_same _ _ _⟩)
      · exact .inl rfl
    · left
      split
      · exact setAt_other _ _ htt
      · exact setAt_other _ _ htt
      · rfl
  | step t' now draws chan =>
    by_cases htt : t = t'
    · subst htt; exact .inr (.inr ⟨now, draws, chan, rfl, rfl⟩)
    · exact .inl ((advance_threads v s t' now draws chan).1 t htt)
  | hear w => left; unfold CSys.step; simp only; split <;> rfl
  | push =>
    left; unfold CSys.step; simp only
    split
    · rfl
    · split <;> rfl
  | collect r => exact .inl rfl

end CSys

/-- What `wait()` on the request `r`, ending at clock reading `now` with outcome `o`, may report after the
history `h`, in which the request has the attributes `q`. -/
def Spec.Faithful (v : Version) (h : List CEvent) (q : CReq) (now : ℚ) : Outcome → Prop
  | .timeout => q.expiration ≤ now
  | .bindings l => ∃ m, Spec.Answers v h q m ∧ m.pdu.first = 0 ∧ l = m.pdu.bindings
  | .errorResponse status index request =>
      ∃ m, Spec.Answers v h q m ∧ m.pdu.first ≠ 0 ∧ status = m.pdu.first ∧ index = m.pdu.second ∧ request = q.pdu
  | .raised _ => True

/-- **C49** (v1/v2c), safety. Bindings and error responses come from a datagram that answers the request;
`Timeout` is raised only after a clock reading at or past the expiration. -/
theorem C49_partial (v : Version) (g : Nat) (h : List CEvent) (e : CEvent) (t r : Nat) (o : Outcome)
    (h0 : (CSys.after v g h).threads t ≠ .done r o)
    (h1 : (CSys.after v g (h ++ [e])).threads t = .done r o) :
    ∃ now draws chan, e = .step t now draws chan ∧
      ((∃ x, o = .raised x) ∨
        ∃ q, (CSys.after v g h).mgr.reqs r = some q ∧ Spec.Faithful v h q now o) := by
  have hi := (CSys.Inv.after v g h).mgr
  rw [CSys.after_snoc] at h1
  rcases CSys.step_threads v (CSys.after v g h) e t with hs | ⟨r', -, -, hs⟩ | ⟨now, draws, chan, he, hs⟩
  · rw [hs] at h1; exact absurd h1 h0
  · rw [hs] at h1; cases h1
  · refine ⟨now, draws, chan, he, ?_⟩
    rw [hs] at h1
    have ha := (CSys.advance_threads v (CSys.after v g h) t now draws chan).2
    rw [h1] at ha
    unfold CSys.Moves at ha
    split at ha
    · cases ha
    · rename_i ht; rw [ht] at h0; exact absurd ha.symm h0
    · rcases ha with ⟨-, ha⟩ | ⟨q, hq, ⟨hx, ha | ha⟩ | ⟨-, ha⟩⟩
      · cases ha
      · injection ha with a b; subst a; subst b; exact .inr ⟨q, hq, hx⟩
      · injection ha with a b; exact .inl ⟨_, b⟩
      · cases ha
    · rcases ha with ⟨-, ha⟩ | ⟨-, ha⟩ <;> cases ha
    · rcases ha with ⟨x, -, ha⟩ | ha | ⟨d, -, ha⟩
      · injection ha with a b; exact .inl ⟨_, b⟩
      · cases ha
      · cases ha
    · rcases ha with ⟨-, ha⟩ | ⟨q, hq, ⟨-, ha⟩ | ⟨-, ha⟩ | ⟨-, -, ha⟩ | ⟨m, hev, hm, ⟨-, ha⟩ | ⟨-, ha⟩⟩⟩
      · cases ha
      · cases ha
      · cases ha
      · injection ha with a b; exact .inl ⟨_, b⟩
      · injection ha with a b; exact .inl ⟨_, b⟩
      · injection ha with a b; subst a
        right
        have hans := hi.answers _ q m hq hm
        refine ⟨q, hq, ?_⟩
        by_cases hf : m.pdu.first = 0
        · rw [if_neg (not_not.2 hf)] at b
          subst b
          exact ⟨m, hans, hf, rfl⟩
        · rw [if_pos hf] at b
          subst b
          exact ⟨m, hans, hf, rfl, rfl, rfl⟩

/-- **C49** (v1/v2c), liveness part. Once a response is delivered to the request while `wait` is past its
expiration test, that call of `wait` does not end with `Timeout`, whatever happens afterwards. -/
theorem C49_delivered_partial (v : Version) (g : Nat) (h h' : List CEvent) (t r : Nat) (q : CReq)
    (hq : (CSys.after v g h).mgr.reqs r = some q) (hev : q.event = true)
    (ht : (CSys.after v g h).threads t = .loop r ∨ (CSys.after v g h).threads t = .body r ∨
      ∃ d since, (CSys.after v g h).threads t = .sleep r d since)
    (hw : ∀ r', CEvent.wait t r' ∉ h') :
    (CSys.after v g (h ++ h')).threads t ≠ .done r .timeout := by
  have key : ∃ q, (CSys.after v g (h ++ h')).mgr.reqs r = some q ∧ q.event = true ∧
      ((CSys.after v g (h ++ h')).threads t = .loop r ∨ (CSys.after v g (h ++ h')).threads t = .body r ∨
        (∃ d since, (CSys.after v g (h ++ h')).threads t = .sleep r d since) ∨
        ∃ o, o ≠ .timeout ∧ (CSys.after v g (h ++ h')).threads t = .done r o) := by
    induction h' using List.reverseRecOn with
    | nil =>
      rw [List.append_nil]
      refine ⟨q, hq, hev, ?_⟩
      rcases ht with h1 | h1 | h1
      · exact .inl h1
      · exact .inr (.inl h1)
      · exact .inr (.inr (.inl h1))
    | append_singleton h' e ih =>
      obtain ⟨q1, hq1, hev1, ht1⟩ := ih (fun r' hm => hw r' (List.mem_append_left _ hm))
      rw [← List.append_assoc, CSys.after_snoc]
      have hinv := CSys.Inv.after v g (h ++ h')
      have hevolve : ∃ q2, ((CSys.after v g (h ++ h')).step v e).mgr.reqs r = some q2 ∧ q2.event = true := by
        generalize CSys.after v g (h ++ h') = s at *
        have close : ∀ r0 q0, s.mgr.reqs r0 = some q0 → ∃ q2, (s.mgr.close r0 q0).2.reqs r = some q2 ∧
            q2.event = true := by
          intro r0 q0 h0
          obtain ⟨q2, h2, -, -, -, -, -, h3⟩ := (CMgr.Evolves.close h0).keep r q1 hq1
          exact ⟨q2, h2, h3 hev1⟩
        cases e with
        | send k r0 pdu community timeout period t0 t1 draws chan =>
          unfold CSys.step
          simp only
          split
          · exact ⟨q1, hq1, hev1⟩
          · rename_i hs
            have hn : s.mgr.reqs r0 = none := by simpa using hs
            have hne : r ≠ r0 := by rintro rfl; rw [hn] at hq1; cases hq1
            unfold CMgr.sendRequest
            simp only
            obtain ⟨id, cb, cache, sent, hr, -⟩ := CMgr.reallySend_spec v
              { s.mgr.setReq r0 (CReq.new k pdu community timeout period t0) with
                heaps := setAt (s.mgr.setReq r0 (CReq.new k pdu community timeout period t0)).heaps k (Heap.push (s.mgr.setReq r0 (CReq.new k pdu community timeout period t0)).env
                  ((s.mgr.setReq r0 (CReq.new k pdu community timeout period t0)).heaps k)
                  ⟨r0, WeakKey.new (CReq.new k pdu community timeout period t0).nextRefresh⟩) } r0
              ((CReq.new k pdu community timeout period t0).setNextRefresh
                (t1 + (CReq.new k pdu community timeout period t0).period)) draws chan
            refine ⟨q1, ?_, hev1⟩
            rw [hr]
            simp only [CMgr.setReq]
            rw [setAt_other _ _ hne, setAt_other _ _ hne]
            exact hq1
        | wait t' r' =>
          unfold CSys.step; simp only
          split <;> exact ⟨q1, hq1, hev1⟩
        | step t' now draws chan =>
          unfold CSys.step; simp only
          obtain ⟨-, h2 | ⟨r0, q0, h0, h2⟩ | ⟨r0, -, h2⟩⟩ := CSys.advance_mgr v s t' now draws chan
          · rw [h2]; exact ⟨q1, hq1, hev1⟩
          · rw [h2]; exact close r0 q0 h0
          · rw [h2]
            obtain ⟨q2, h2, -, -, -, -, -, h3⟩ := (CMgr.Evolves.refreshBody v s.mgr _ now draws chan).keep r q1 hq1
            exact ⟨q2, h2, h3 hev1⟩
        | hear w =>
          unfold CSys.step; simp only
          split
          · exact ⟨q1, hq1, hev1⟩
          · exact ⟨q1, by rw [(CMgr.hear_frame v s.mgr w).1]; exact hq1, hev1⟩
        | push =>
          unfold CSys.step; simp only
          split
          · exact ⟨q1, hq1, hev1⟩
          · rename_i r0 m _
            split
            · exact ⟨q1, hq1, hev1⟩
            · rename_i q0 h0
              obtain ⟨q2, h2, -, -, -, -, -, h3⟩ := (CMgr.Evolves.setReq (q' := q0.push m) h0 rfl rfl rfl rfl
                (fun _ => rfl) (fun _ => rfl)).keep r q1 hq1
              exact ⟨q2, h2, h3 hev1⟩
        | collect r' =>
          obtain ⟨q2, h2, -, -, -, -, -, h3⟩ := (CMgr.Evolves.collect s.mgr r').keep r q1 hq1
          exact ⟨q2, h2, h3 hev1⟩
      obtain ⟨q2, hq2, hev2⟩ := hevolve
      refine ⟨q2, hq2, hev2, ?_⟩
      rcases CSys.step_threads v (CSys.after v g (h ++ h')) e t with hs | ⟨r', he, -, -⟩ |
        ⟨now, draws, chan, he, hs⟩
      · rw [hs]; exact ht1
      · exact absurd (by rw [he]; simp) (hw r')
      · rw [hs]
        have ha := (CSys.advance_threads v (CSys.after v g (h ++ h')) t now draws chan).2
        rcases ht1 with h1 | h1 | ⟨d, since, h1⟩ | ⟨o, ho, h1⟩
        · rw [h1] at ha
          simp only [CSys.Moves] at ha
          rcases ha with ⟨-, ha⟩ | ⟨-, ha⟩
          · exact .inr (.inr (.inl ⟨_, _, ha⟩))
          · exact .inr (.inl ha)
        · rw [h1] at ha
          simp only [CSys.Moves] at ha
          rcases ha with ⟨x, -, ha⟩ | ha | ⟨d, -, ha⟩
          · exact .inr (.inr (.inr ⟨_, by simp, ha⟩))
          · exact .inl ha
          · exact .inr (.inr (.inl ⟨_, _, ha⟩))
        · rw [h1] at ha
          simp only [CSys.Moves] at ha
          rcases ha with ⟨hn, -⟩ | ⟨q0, hq0, ⟨hf, -⟩ | ⟨hf, -⟩ | ⟨-, -, ha⟩ | ⟨m, -, -, ⟨-, ha⟩ | ⟨-, ha⟩⟩⟩
          · rw [hn] at hq1; cases hq1
          · rw [hq1] at hq0; injection hq0 with hq0; subst hq0; rw [hf] at hev1; cases hev1
          · rw [hq1] at hq0; injection hq0 with hq0; subst hq0; rw [hf] at hev1; cases hev1
          · exact .inr (.inr (.inr ⟨_, by simp, ha⟩))
          · exact .inr (.inr (.inr ⟨_, by simp, ha⟩))
          · refine .inr (.inr (.inr ⟨_, ?_, ha⟩))
            split <;> simp
        · rw [h1] at ha
          simp only [CSys.Moves] at ha
          exact .inr (.inr (.inr ⟨o, ho, ha⟩))
  intro hc
  obtain ⟨-, -, -, h1 | h1 | ⟨d, since, h1⟩ | ⟨o, ho, h1⟩⟩ := key
  · rw [hc] at h1; cases h1
  · rw [hc] at h1; cases h1
  · rw [hc] at h1; cases h1
  · rw [hc] at h1; injection h1 with a b; exact ho b.symm

namespace CSys

/-- No step takes a request away or changes what never changes in one. -/
theorem step_evolves (v : Version) (s : CSys) (e : CEvent) : s.mgr.Evolves (s.step v e).mgr := by
  cases e with
  | send k r0 pdu community timeout period t0 t1 draws chan =>
    unfold CSys.step
    simp only
    split
    · exact CMgr.Evolves.refl _
    · rename_i hs
      have hn : s.mgr.reqs r0 = none := by simpa using hs
      unfold CMgr.sendRequest
      simp only
      obtain ⟨id, cb, cache, sent, hr, -, -, -, hsent⟩ := CMgr.reallySend_spec v
        { s.mgr.setReq r0 (CReq.new k pdu community timeout period t0) with
          heaps := setAt (s.mgr.setReq r0 (CReq.new k pdu community timeout period t0)).heaps k
            (Heap.push (s.mgr.setReq r0 (CReq.new k pdu community timeout period t0)).env
            ((s.mgr.setReq r0 (CReq.new k pdu community timeout period t0)).heaps k)
            ⟨r0, WeakKey.new (CReq.new k pdu community timeout period t0).nextRefresh⟩) } r0
        ((CReq.new k pdu community timeout period t0).setNextRefresh
          (t1 + (CReq.new k pdu community timeout period t0).period)) draws chan
      rw [hr]
      refine ⟨fun r q hq => ⟨q, ?_, rfl, rfl, rfl, rfl, fun _ => rfl, fun h => h⟩, fun x hx => ?_⟩
      · have hne : r ≠ r0 := by rintro rfl; rw [hn] at hq; cases hq
        simp only [CMgr.setReq]
        rw [setAt_other _ _ hne, setAt_other _ _ hne]
        exact hq
      · rcases hsent with ⟨-, w, -, h⟩ | ⟨-, h⟩
        · simp only; rw [h]; exact List.mem_cons_of_mem _ hx
        · simp only; rw [h]; exact hx
  | wait t' r' =>
    unfold CSys.step; simp only
    split <;> exact CMgr.Evolves.refl _
  | step t' now draws chan =>
    unfold CSys.step; simp only
    obtain ⟨-, h2 | ⟨r0, q0, h0, h2⟩ | ⟨r0, -, h2⟩⟩ := CSys.advance_mgr v s t' now draws chan
    · rw [h2]; exact CMgr.Evolves.refl _
    · rw [h2]; exact CMgr.Evolves.close h0
    · rw [h2]; exact CMgr.Evolves.refreshBody v s.mgr _ now draws chan
  | hear w =>
    unfold CSys.step; simp only
    split
    · exact CMgr.Evolves.refl _
    · exact CMgr.Evolves.congr (CMgr.hear_frame v s.mgr w).1 (CMgr.hear_frame v s.mgr w).2.1
  | push =>
    unfold CSys.step; simp only
    split
    · exact CMgr.Evolves.refl _
    · rename_i r0 m _
      split
      · exact CMgr.Evolves.refl _
      · rename_i q0 h0
        exact CMgr.Evolves.setReq (q' := q0.push m) h0 rfl rfl rfl rfl (fun _ => rfl) (fun _ => rfl)
  | collect r' => exact CMgr.Evolves.collect s.mgr r'

theorem step_manager {v : Version} {s : CSys} (e : CEvent) {r : Nat} {q : CReq} (hq : s.mgr.reqs r = some q) :
    (s.step v e).mgr.managerOf r = s.mgr.managerOf r := by
  obtain ⟨q', h1, h2, -⟩ := (step_evolves v s e).keep r q hq
  unfold CMgr.managerOf
  rw [hq, h1]; simp [h2]

/-- What a step puts on the heap of manager `k` was there before, or is a request it creates. -/
theorem step_heaps (v : Version) (s : CSys) (e : CEvent) (k : Nat) (x : Ref)
    (hx : x ∈ (s.step v e).mgr.heaps k) : (∃ y ∈ s.mgr.heaps k, y.id = x.id) ∨
      (s.mgr.reqs x.id = none ∧ ∃ q, (s.step v e).mgr.reqs x.id = some q ∧ q.manager = k) := by
  have same : x ∈ s.mgr.heaps k → ∃ y ∈ s.mgr.heaps k, y.id = x.id := fun h => ⟨x, h, rfl⟩
  have hclose : ∀ r q, (s.mgr.close r q).2.heaps = s.mgr.heaps := by
    intro r q
    rcases CMgr.close_cases s.mgr r q with ⟨h, -⟩ | ⟨-, h⟩
    · rw [h]
    · rw [h]; rfl
  cases e with
  | send k0 r0 pdu community timeout period t0 t1 draws chan =>
    unfold CSys.step at hx ⊢
    simp only at hx ⊢
    split at hx
    · exact .inl (same hx)
    · rename_i hs
      rw [if_neg hs]
      have hn : s.mgr.reqs r0 = none := by simpa using hs
      unfold CMgr.sendRequest at hx ⊢
      simp only at hx ⊢
      obtain ⟨id, cb, cache, sent, hr, -⟩ := CMgr.reallySend_spec v
        { s.mgr.setReq r0 (CReq.new k0 pdu community timeout period t0) with
          heaps := setAt (s.mgr.setReq r0 (CReq.new k0 pdu community timeout period t0)).heaps k0
            (Heap.push (s.mgr.setReq r0 (CReq.new k0 pdu community timeout period t0)).env
            ((s.mgr.setReq r0 (CReq.new k0 pdu community timeout period t0)).heaps k0)
            ⟨r0, WeakKey.new (CReq.new k0 pdu community timeout period t0).nextRefresh⟩) } r0
        ((CReq.new k0 pdu community timeout period t0).setNextRefresh
          (t1 + (CReq.new k0 pdu community timeout period t0).period)) draws chan
      rw [hr] at hx ⊢
      simp only [CMgr.setReq] at hx ⊢
      by_cases hk : k = k0
      · subst hk
        rw [setAt_same] at hx
        have := (Heap.push_moved _ _ _).1.mem_iff.1 (List.mem_map_of_mem (f := Ref.id) hx)
        obtain ⟨y, hy, hyx⟩ := List.mem_map.1 this
        rcases List.mem_append.1 hy with hy | hy
        · exact .inl ⟨y, hy, hyx⟩
        · right
          rw [List.mem_singleton] at hy
          rw [hy] at hyx
          simp only at hyx
          rw [← hyx]
          exact ⟨hn, _, setAt_same _ _ _, rfl⟩
      · rw [setAt_other _ _ hk] at hx
        exact .inl (same hx)
  | wait t' r' =>
    left
    unfold CSys.step at hx; simp only at hx
    split at hx <;> exact same hx
  | step t' now draws chan =>
    left
    unfold CSys.step at hx; simp only at hx
    obtain ⟨-, h2 | ⟨r0, q0, h0, h2⟩ | ⟨r0, -, h2⟩⟩ := CSys.advance_mgr v s t' now draws chan
    · rw [h2] at hx; exact same hx
    · rw [h2, hclose] at hx; exact same hx
    · rw [h2] at hx
      obtain ⟨s1, heap, h, hs, hh⟩ := CMgr.refreshBody_cases v s.mgr (s.mgr.managerOf r0) now draws chan
      rw [h] at hx
      simp only at hx
      by_cases hk : k = s.mgr.managerOf r0
      · subst hk
        rw [setAt_same] at hx
        exact hh x hx
      · rw [setAt_other _ _ hk] at hx
        have : s1.heaps = s.mgr.heaps := by
          rcases hs with hs | ⟨ref, rest, q, -, -, -, -, -, -, hs⟩
          · rw [hs]
          · obtain ⟨id, cb, cache, sent, hr, -⟩ := CMgr.reallySend_spec v s.mgr ref.id (CMgr.resent q now) draws chan
            rw [hs, hr]
        rw [this] at hx
        exact same hx
  | hear w =>
    left
    unfold CSys.step at hx; simp only at hx
    split at hx
    · exact same hx
    · simp only [(CMgr.hear_frame v s.mgr w).2.2.1] at hx
      exact same hx
  | push =>
    left
    unfold CSys.step at hx; simp only at hx
    split at hx
    · exact same hx
    · split at hx
      · exact same hx
      · exact same hx
  | collect r' =>
    left
    unfold CSys.step CMgr.collect at hx; simp only at hx
    split at hx
    · exact same hx
    · simp only at hx
      split at hx
      · rw [hclose] at hx; exact same hx
      · exact same hx

/-- The heap of a manager holds references to requests of that manager. -/
theorem owned (v : Version) (g : Nat) (h : List CEvent) (k : Nat) (x : Ref)
    (hx : x ∈ (CSys.after v g h).mgr.heaps k) :
    ∃ q, (CSys.after v g h).mgr.reqs x.id = some q ∧ q.manager = k := by
  induction h using List.reverseRecOn generalizing k x with
  | nil => cases hx
  | append_singleton h e ih =>
    rw [after_snoc] at hx ⊢
    rcases step_heaps v _ e k x hx with ⟨y, hy, hyx⟩ | ⟨-, h1⟩
    · obtain ⟨q, h1, h2⟩ := ih k y hy
      obtain ⟨q', h3, h4, -⟩ := (step_evolves v (CSys.after v g h) e).keep y.id q h1
      exact ⟨q', by rw [← hyx]; exact h3, by rw [h4]; exact h2⟩
    · exact h1

end CSys

/-- **C50** (v1/v2c), the part that holds: a sleep with a time limit begins by a step that reads the clock
as `since`, and the limit is positive and ends no later than the expiration of a pending request of the same
manager. -/
theorem C50_partial (v : Version) (g : Nat) (h : List CEvent) (e : CEvent) (t r : Nat) (d since : ℚ)
    (h0 : (CSys.after v g h).threads t ≠ .sleep r (some d) since)
    (h1 : (CSys.after v g (h ++ [e])).threads t = .sleep r (some d) since) :
    0 < d ∧ (∃ draws chan, e = .step t since draws chan) ∧
    ∃ r' q, (CSys.after v g h).mgr.reqs r' = some q ∧ q.manager = (CSys.after v g h).mgr.managerOf r ∧
      q.event = false ∧ since + d = q.nextRefresh ∧ q.nextRefresh ≤ q.expiration := by
  have hi := (CSys.Inv.after v g h).mgr
  rw [CSys.after_snoc] at h1
  rcases CSys.step_threads v (CSys.after v g h) e t with hs | ⟨r', -, -, hs⟩ | ⟨now, draws, chan, he, hs⟩
  · rw [hs] at h1; exact absurd h1 h0
  · rw [hs] at h1; cases h1
  · rw [hs] at h1
    have ha := (CSys.advance_threads v (CSys.after v g h) t now draws chan).2
    rw [h1] at ha
    unfold CSys.Moves at ha
    split at ha
    · cases ha
    · cases ha
    · rcases ha with ⟨-, ha⟩ | ⟨q, hq, ⟨hx, ha | ha⟩ | ⟨-, ha⟩⟩ <;> cases ha
    · rcases ha with ⟨-, ha⟩ | ⟨-, ha⟩ <;> cases ha
    · rcases ha with ⟨x, -, ha⟩ | ha | ⟨d', hf, ha⟩
      · cases ha
      · cases ha
      · injection ha with a b c
        injection b with b
        subst a; subst b; subst c
        unfold CMgr.refreshBody at hf
        split at hf
        · cases hf
        · rename_i ref rest hh
          split at hf
          · cases hf
          · rename_i q hd
            have hq := (CMgr.deref_some hd).1
            rcases CMgr.refreshRequest_cases v (CSys.after v g h).mgr ref.id q since draws chan with ⟨h, -⟩ |
              ⟨h, h2, h3⟩ | ⟨h, -⟩ | ⟨h1, h2, h3, h4, ⟨-, h⟩ | ⟨e, -, h⟩⟩
            · rw [h] at hf; cases hf
            · rw [h] at hf
              simp only at hf
              rw [if_pos (by linarith)] at hf
              injection hf with hf
              injection hf with hf
              subst hf
              obtain ⟨-, -, -, -, -, -, -, -, -, -, b5, -⟩ := hi.born ref.id q hq
              obtain ⟨q', hq', hk⟩ := CSys.owned v g _ _ ref (by rw [hh]; exact List.mem_cons_self)
              rw [hq] at hq'; injection hq' with hq'; subst hq'
              exact ⟨by linarith, ⟨draws, chan, he⟩, ref.id, q, hq, hk, h2, by linarith, b5⟩
            · rw [h] at hf; cases hf
            · rw [h] at hf; simp only [lt_self_iff_false, ↓reduceIte] at hf; injection hf with hf; cases hf
            · rw [h] at hf; cases hf
    · rename_i ht
      rcases ha with ⟨-, ha⟩ | ⟨q, hq, ⟨-, ha⟩ | ⟨-, ha⟩ | ⟨-, -, ha⟩ | ⟨m, hev, hm, ⟨-, ha⟩ | ⟨-, ha⟩⟩⟩
      · rw [ha] at h0; exact absurd ht h0
      · rw [ha] at h0; exact absurd ht h0
      · cases ha
      · cases ha
      · cases ha
      · cases ha

end Snmp

namespace Snmp

/-! ## Concrete histories -/

namespace Spec

/-- A GetRequest for nothing. -/
def emptyGet : Pdu := ⟨.getRequest, 0, 0, 0, []⟩

/-- A response to the request with ID 1 under the empty community, in version v1 or v2c. -/
def emptyResponse (v : Version) : Bytes :=
  [48, 18, 2, 1, if v = .v1 then 0 else 1, 4, 0, 162, 11, 2, 1, 1, 2, 1, 0, 2, 1, 0, 48, 0]

/-- Request `r` is created and sent at time 0. -/
def issue (r : Nat) (timeout period : ℚ) : CEvent :=
  .send 0 r emptyGet [] timeout period 0 0 (fun _ => 1) none

/-- Thread `t` does a step at time `now`. -/
def tick (t : Nat) (now : ℚ) : CEvent := .step t now (fun _ => 1) none

end Spec

/-- Non-vacuity of C48: a request is sent at 0, resent at 5/2 with the next refresh at 3, and the two
datagrams are the same. -/
theorem C48_community_example :
    let h := [Spec.issue 0 10 1, .wait 0 0, Spec.tick 0 0, Spec.tick 0 0, Spec.tick 0 (5/2)]
    (((CSys.after .v1 1 h).mgr.reqs 0).map CReq.nextRefresh = some 3) ∧
    (CSys.after .v1 1 h).mgr.sent.length = 2 ∧ (CSys.after .v1 1 h).mgr.sent.map Prod.fst = [0, 0] := by
  decide +kernel

/-- Non-vacuity of C49: a response arrives during the sleep, and `wait` returns its bindings. -/
theorem C49_example :
    (CSys.after .v1 1 [Spec.issue 0 10 1, .wait 0 0, Spec.tick 0 0, Spec.tick 0 0, Spec.tick 0 0,
      .hear (Spec.emptyResponse .v1), .push, Spec.tick 0 (1/2)]).threads 0 = .done 0 (.bindings []) ∧
    (CSys.after .v2c 1 [Spec.issue 0 10 1, .wait 0 0, Spec.tick 0 0, Spec.tick 0 0, Spec.tick 0 0,
      .hear (Spec.emptyResponse .v2c), .push, Spec.tick 0 (1/2)]).threads 0 = .done 0 (.bindings []) := by
  decide +kernel

/-- **C49** is false of v1 and v2c: the response was delivered before `wait` is called, yet `wait`, called
after the expiration, raises `Timeout`. -/
theorem C49_false (v : Version) (hv : v = .v1 ∨ v = .v2c) :
    let h := [Spec.issue 0 10 1, .hear (Spec.emptyResponse v), .push, .wait 0 0, Spec.tick 0 11]
    ((CSys.after v 1 h).mgr.reqs 0).map CReq.event = some true ∧
    (CSys.after v 1 h).threads 0 = .done 0 .timeout := by
  rcases hv with rfl | rfl <;> decide +kernel

/-- A thread asleep without a time limit stays so until a response is pushed to its request. -/
theorem CSys.sleep_forever (v : Version) (s : CSys) (e : CEvent) (t r : Nat) (since : ℚ)
    (ht : s.threads t = .sleep r none since)
    (hq : ∀ q, s.mgr.reqs r = some q → q.event = false) :
    (s.step v e).threads t = .sleep r none since := by
  rcases CSys.step_threads v s e t with hs | ⟨r', -, h0, -⟩ | ⟨now, draws, chan, he, hs⟩
  · rw [hs]; exact ht
  · rcases h0 with h0 | ⟨_, _, h0⟩ <;> rw [ht] at h0 <;> cases h0
  · rw [hs]
    unfold CSys.advance
    rw [ht]
    simp only
    split
    · exact ht
    · rename_i q h1
      rw [hq q h1]
      simp only [Bool.false_eq_true, ↓reduceIte]
      exact ht

/-- **C50** is false of v1 and v2c: the request expires between the test and the refresh; the thread sleeps
without a time limit, and no number of further steps of that thread, at any clock readings, wakes it. -/
theorem C50_false (v : Version) (hv : v = .v1 ∨ v = .v2c) (ticks : List ℚ) :
    let h := [Spec.issue 0 10 1, .wait 0 0, Spec.tick 0 9, Spec.tick 0 9, Spec.tick 0 10, Spec.tick 0 10]
    (CSys.after v 1 (h ++ ticks.map (Spec.tick 0))).threads 0 = .sleep 0 none 10 := by
  intro h
  have base : (CSys.after v 1 h).threads 0 = .sleep 0 none 10 ∧
      ((CSys.after v 1 h).mgr.reqs 0).map CReq.event = some false := by
    rcases hv with rfl | rfl <;> decide +kernel
  have key : (CSys.after v 1 (h ++ ticks.map (Spec.tick 0))).threads 0 = .sleep 0 none 10 ∧
      ((CSys.after v 1 (h ++ ticks.map (Spec.tick 0))).mgr.reqs 0).map CReq.event = some false := by
    induction ticks using List.reverseRecOn with
    | nil => simpa using base
    | append_singleton l x ih =>
      obtain ⟨i1, i2⟩ := ih
      rw [List.map_append, List.map_singleton, ← List.append_assoc, CSys.after_snoc]
      have hq : ∀ q, (CSys.after v 1 (h ++ l.map (Spec.tick 0))).mgr.reqs 0 = some q → q.event = false := by
        intro q hq; rw [hq] at i2; simpa using i2
      refine ⟨CSys.sleep_forever v _ _ 0 0 10 i1 hq, ?_⟩
      have : ((CSys.after v 1 (h ++ l.map (Spec.tick 0))).step v (Spec.tick 0 x)) =
          CSys.after v 1 (h ++ l.map (Spec.tick 0)) := by
        generalize CSys.after v 1 (h ++ l.map (Spec.tick 0)) = s at *
        unfold Spec.tick CSys.step CSys.advance
        simp only
        rw [i1]
        simp only
        split
        · rfl
        · rename_i q h1
          rw [hq q h1]; rfl
      rw [this]; exact i2
  exact key.1

/-- **C51** is false of v1 and v2c: request 1 (period 1) has to be resent at time 1, but `refresh` looks at
request 0 (period 5) and goes to sleep until time 5. -/
theorem C51_false (v : Version) (hv : v = .v1 ∨ v = .v2c) :
    let h := [Spec.issue 0 10 5, .send 0 1 Spec.emptyGet [] 10 1 0 0 (fun _ => 2) none, .wait 0 1,
      Spec.tick 0 0, Spec.tick 0 0, Spec.tick 0 0]
    ((CSys.after v 1 h).mgr.reqs 1).map (fun q => (q.event, q.nextRefresh, q.expiration)) =
      some (false, 1, 10) ∧
    ((CSys.after v 1 h).mgr.heaps 0).map Ref.id = [0, 1] ∧
    (CSys.after v 1 h).threads 0 = .sleep 1 (some 5) 0 := by
  rcases hv with rfl | rfl <;> decide +kernel

/-- **C64** is false of v1 and v2c: two threads wait on handles of one manager; both find the list of
requests not empty, one empties it, and the other's `wait` raises IndexError. -/
theorem C64_false (v : Version) (hv : v = .v1 ∨ v = .v2c) :
    (CSys.after v 1 [Spec.issue 0 1 1, .wait 0 0, .wait 1 0, Spec.tick 0 0, Spec.tick 0 0, Spec.tick 1 0,
      Spec.tick 1 0, Spec.tick 0 2, Spec.tick 1 2]).threads 1 = .done 0 (.raised .indexError) := by
  rcases hv with rfl | rfl <;> decide +kernel

/-- **C65** is false of v1 and v2c: a second `wait` on the same handle raises AssertionError instead of
giving the same result. -/
theorem C65_false (v : Version) (hv : v = .v1 ∨ v = .v2c) :
    let h := [Spec.issue 0 10 1, .wait 0 0, Spec.tick 0 0, Spec.tick 0 0, Spec.tick 0 0,
      .hear (Spec.emptyResponse v), .push, Spec.tick 0 (1/2)]
    (CSys.after v 1 h).threads 0 = .done 0 (.bindings []) ∧
    (CSys.after v 1 (h ++ [.wait 0 0, Spec.tick 0 (1/2), Spec.tick 0 (1/2), Spec.tick 0 (1/2),
      Spec.tick 0 (1/2), Spec.tick 0 (1/2), Spec.tick 0 (1/2)])).threads 0 =
        .done 0 (.raised .assertionError) := by
  rcases hv with rfl | rfl <;> decide +kernel

end Snmp

namespace Snmp

/-- **C66** is false of v1 and v2c: `sendRequest` with a PDU that was sent before (it carries the ID 1 it
was given then) sends the datagram, but the response is not matched with it, and when the time is up
`wait` raises AssertionError instead of `Timeout`. -/
theorem C66_false (v : Version) (hv : v = .v1 ∨ v = .v2c) :
    let h := [CEvent.send 0 0 { Spec.emptyGet with requestID := 1 } [] 10 1 0 0 (fun _ => 1) none,
      .hear (Spec.emptyResponse v), .push]
    (CSys.after v 1 h).mgr.sent.map Prod.fst = [0] ∧
    ((CSys.after v 1 h).mgr.reqs 0).map CReq.event = some false ∧
    (CSys.after v 1 (h ++ [.wait 0 0, Spec.tick 0 11])).threads 0 = .done 0 (.raised .assertionError) := by
  rcases hv with rfl | rfl <;> decide +kernel

end Snmp
