import Verif.ManagerCommunity
import Verif.Spec.Community
import Verif.HeapLemmas
import Verif.MessageLemmas
import Verif.ProcessorLemmas
import Mathlib.Tactic.Linarith
import Mathlib.Tactic.FieldSimp
import Mathlib.Algebra.Order.Field.Basic
/-! # Facts about the v1/v2c manager -/

namespace Snmp

theorem setAt_get_self {α : Type} (f : Nat → α) (i : Nat) : setAt f i (f i) = f := by
  funext j; unfold setAt; split
  · rename_i h; rw [h]
  · rfl

theorem setAt_get {α : Type} (f : Nat → α) (i j : Nat) (x : α) :
    setAt f i x j = if j = i then x else f j := rfl

/-- What `cache` does to the table. -/
theorem Cache.cacheLoop_spec {E : Type} (bits : Nat) (signed : Bool) (n : Nat) (c : Cache E) (e : E)
    (draws : Nat → Nat) :
    (∀ id, (cacheLoop bits signed n c e draws).1 = .ok id → id ≠ 0 ∧ c.outstanding id = none ∧
      ∀ i, (cacheLoop bits signed n c e draws).2.outstanding i =
        if i = id then some e else c.outstanding i) ∧
    (∀ err, (cacheLoop bits signed n c e draws).1 = .error err → err = .cacheError ∧
      (cacheLoop bits signed n c e draws).2.outstanding = c.outstanding) := by
  induction n generalizing c draws with
  | zero => exact ⟨fun _ h => by simp [cacheLoop] at h, fun _ h => by simpa [cacheLoop] using h.symm⟩
  | succ n ih =>
    unfold cacheLoop
    unfold attempt
    by_cases h0 : c.gen.next.previous = 0
    · simp only [h0, ↓reduceIte]
      exact ih _ _
    · by_cases h1 : c.outstanding c.gen.next.previous = none
      · simp only [h0, h1, ↓reduceIte]
        refine ⟨fun id h => ?_, fun err h => by cases h⟩
        injection h with h
        subst h
        exact ⟨h0, h1, fun _ => rfl⟩
      · simp only [h0, h1, ↓reduceIte]
        exact ih _ _

namespace CMgr

/-- What sending does to the shared state. -/
theorem reallySend_spec (v : Version) (s : CMgr) (r : Nat) (q : CReq) (draws : Nat → Nat)
    (chan : Option PyErr) :
    ∃ id cb cache sent, (s.reallySend v r q draws chan).2 =
        ⟨setAt s.reqs r (some { q with pdu := { q.pdu with requestID := id }, callback := cb }), s.dead,
          s.heaps, cache, sent⟩ ∧
      (q.pdu.requestID ≠ 0 → id = q.pdu.requestID ∧ cache = s.cache) ∧
      (q.pdu.requestID = 0 → ∀ i e, cache.outstanding i = some e →
        s.cache.outstanding i = some e ∨ (i = id ∧ i ≠ 0 ∧ e = ⟨r, q.community⟩)) ∧
      (q.pdu.requestID = 0 → (s.reallySend v r q draws chan).1 = .ok () → id ≠ 0) ∧
      (((s.reallySend v r q draws chan).1 = .ok () ∧
          ∃ w, (Message.mk v q.community { q.pdu with requestID := id }).encode = .ok w ∧
            sent = (r, w) :: s.sent) ∨
        ((∃ e, (s.reallySend v r q draws chan).1 = .error e) ∧ sent = s.sent)) := by
  by_cases h0 : q.pdu.requestID = 0
  · have hpo : prepareOutgoingCommunity v s.cache q.pdu r q.community draws =
        match s.cache.cache 32 true ⟨r, q.community⟩ draws with
        | (.error e, c) => (.error e, q.pdu, c, none)
        | (.ok id, c) => ((Message.mk v q.community { q.pdu with requestID := id }).encode,
            { q.pdu with requestID := id }, c, some id) := by
      unfold prepareOutgoingCommunity; rw [if_pos h0]; rfl
    unfold reallySend
    rw [hpo]
    obtain ⟨k1, k2⟩ := Cache.cacheLoop_spec 32 true 10 s.cache (⟨r, q.community⟩ : CommunityEntry) draws
    unfold Cache.cache
    generalize Cache.cacheLoop 32 true 10 s.cache (⟨r, q.community⟩ : CommunityEntry) draws = x at *
    obtain ⟨res, c⟩ := x
    cases res with
    | error e =>
      have := (k2 e rfl).2
      simp only at this
      refine ⟨q.pdu.requestID, q.callback, c, s.sent, ?_, fun h => absurd h0 h, ?_, fun _ h => by simp at h,
        .inr ⟨⟨e, by simp⟩, rfl⟩⟩
      · simp [setReq]
      · intro _ i e' he; rw [this] at he; exact .inl he
    | ok id =>
      obtain ⟨h1, -, h3⟩ := k1 id rfl
      simp only at h3
      have hc : ∀ i e, c.outstanding i = some e →
          s.cache.outstanding i = some e ∨ (i = id ∧ i ≠ 0 ∧ e = ⟨r, q.community⟩) := by
        intro i e he
        rw [h3] at he
        split at he
        · rename_i hi; subst hi
          injection he with he
          exact .inr ⟨rfl, h1, he.symm⟩
        · exact .inl he
      simp only
      cases hcb : q.callback with
      | true =>
        refine ⟨id, true, c, s.sent, ?_, fun h => absurd h0 h, fun _ => hc, fun _ _ => h1, .inr ⟨⟨.assertionError, by simp⟩, rfl⟩⟩
        simp [setReq]
      | false =>
        cases he : (Message.mk v q.community { q.pdu with requestID := id }).encode with
        | error e =>
          refine ⟨id, true, c, s.sent, ?_, fun h => absurd h0 h, fun _ => hc, fun _ _ => h1, .inr ⟨⟨e, by simp⟩, rfl⟩⟩
          simp [setReq]
        | ok w =>
          cases chan with
          | some e =>
            refine ⟨id, true, c, s.sent, ?_, fun h => absurd h0 h, fun _ => hc, fun _ _ => h1, .inr ⟨⟨e, by simp⟩, rfl⟩⟩
            simp [setReq]
          | none =>
            refine ⟨id, true, c, (r, w) :: s.sent, ?_, fun h => absurd h0 h, fun _ => hc, fun _ _ => h1,
              .inl ⟨by simp, w, he, rfl⟩⟩
            simp [setReq]
  · have hpo : prepareOutgoingCommunity v s.cache q.pdu r q.community draws =
        ((Message.mk v q.community q.pdu).encode, q.pdu, s.cache, none) := by
      unfold prepareOutgoingCommunity; rw [if_neg h0]
    unfold reallySend
    rw [hpo]
    simp only
    cases he : (Message.mk v q.community q.pdu).encode with
    | error e =>
      refine ⟨q.pdu.requestID, q.callback, s.cache, s.sent, ?_, fun _ => ⟨rfl, rfl⟩, fun h => absurd h h0, fun h => absurd h h0,
        .inr ⟨⟨e, by simp⟩, rfl⟩⟩
      simp [setReq]
    | ok w =>
      cases chan with
      | some e =>
        refine ⟨q.pdu.requestID, q.callback, s.cache, s.sent, ?_, fun _ => ⟨rfl, rfl⟩, fun h => absurd h h0, fun h => absurd h h0,
          .inr ⟨⟨e, by simp⟩, rfl⟩⟩
        simp [setReq]
      | none =>
        refine ⟨q.pdu.requestID, q.callback, s.cache, (r, w) :: s.sent, ?_, fun _ => ⟨rfl, rfl⟩,
          fun h => absurd h h0, fun h => absurd h h0, .inl ⟨by simp, w, he, rfl⟩⟩
        simp [setReq]

end CMgr
end Snmp

namespace Snmp

theorem Spec.Answers.mono {v : Version} {h : List CEvent} {q q' : CReq} {m : Message} {e : CEvent}
    (ha : Spec.Answers v h q m) (h1 : q'.pdu.requestID = q.pdu.requestID) (h2 : q'.community = q.community) :
    Spec.Answers v (h ++ [e]) q' m := by
  obtain ⟨⟨w, tail, hw, hd⟩, a, b, z, c, d⟩ := ha
  exact ⟨⟨w, tail, List.mem_append_left _ hw, hd⟩, a, b, by rw [h1]; exact z, by rw [c, h1], by rw [d, h2]⟩

theorem Spec.Answers.congr {v : Version} {h : List CEvent} {q q' : CReq} {m : Message}
    (ha : Spec.Answers v h q m) (h1 : q'.pdu.requestID = q.pdu.requestID) (h2 : q'.community = q.community) :
    Spec.Answers v h q' m := by
  obtain ⟨e, a, b, z, c, d⟩ := ha
  exact ⟨e, a, b, by rw [h1]; exact z, by rw [c, h1], by rw [d, h2]⟩

theorem Spec.Born.mono {h : List CEvent} {r : Nat} {q : CReq} {e : CEvent} (hb : Spec.Born h r q) :
    Spec.Born (h ++ [e]) r q := by
  obtain ⟨pdu, timeout, t0, t1, draws, chan, hm, hr⟩ := hb
  exact ⟨pdu, timeout, t0, t1, draws, chan, List.mem_append_left _ hm, hr⟩

/-- The version probe and the decoder read the same version. -/
theorem version_agree {types : List PduType} {w : Bytes} {x : Version × Subbytes} {y : Message × Subbytes}
    (h1 : VersionOnly.decode (.bytes w) = .ok x) (h2 : Message.decode types (.bytes w) = .ok y) :
    y.1.version = x.1 := by
  obtain ⟨x, xt⟩ := x
  obtain ⟨y, yt⟩ := y
  unfold VersionOnly.decode asn1Decode at h1
  unfold Message.decode asn1Decode at h2
  obtain ⟨⟨d, tl⟩, hd, h1⟩ := bind_ok h1
  rw [hd] at h2
  simp only [Except.bind] at h2
  obtain ⟨a, ha, h1⟩ := bind_ok h1
  obtain ⟨b, hb, h2⟩ := bind_ok h2
  injection h1 with h1
  injection h2 with h2
  have e1 : a = x := by cases h1; rfl
  have e2 : b = y := by cases h2; rfl
  subst e1; subst e2
  unfold VersionOnly.deserialize at ha
  unfold Message.deserialize at hb
  obtain ⟨⟨ver, p⟩, hv, ha⟩ := bind_ok ha
  rw [hv] at hb
  simp only [Except.bind] at hb
  injection ha with ha
  subst ha
  split at hb
  · cases hb
  · obtain ⟨⟨c, p2⟩, -, hb⟩ := bind_ok hb
    obtain ⟨pdu, -, hb⟩ := bind_ok hb
    injection hb with hb
    rw [← hb]

end Snmp

namespace Snmp

/-! ## The invariant -/

/-- What holds of the shared state after the history `h`. -/
structure CInv (v : Version) (h : List CEvent) (s : CMgr) : Prop where
  cached : ∀ id e, s.cache.outstanding id = some e → id ≠ 0 ∧
    ∃ q, s.reqs e.handle = some q ∧ q.pdu.requestID = id ∧ q.community = e.community
  event : ∀ r q, s.reqs r = some q → q.event = q.response.isSome
  answers : ∀ r q m, s.reqs r = some q → q.response = some m → Spec.Answers v h q m
  born : ∀ r q, s.reqs r = some q → Spec.Born h r q
  sent : ∀ r w, (r, w) ∈ s.sent → ∃ q, s.reqs r = some q ∧ q.pdu.requestID ≠ 0 ∧
    (Message.mk v q.community q.pdu).encode = .ok w

theorem CInv.mono {v : Version} {h : List CEvent} {s : CMgr} {e : CEvent} (hi : CInv v h s) :
    CInv v (h ++ [e]) s :=
  ⟨hi.cached, hi.event, fun r q m h1 h2 => (hi.answers r q m h1 h2).mono rfl rfl,
    fun r q h1 => (hi.born r q h1).mono, hi.sent⟩

/-- Only the heap and the set of collected requests changed. -/
theorem CInv.congr {v : Version} {h : List CEvent} {s s' : CMgr} (hi : CInv v h s) (h1 : s'.reqs = s.reqs)
    (h2 : s'.cache = s.cache) (h3 : s'.sent = s.sent) : CInv v h s' := by
  obtain ⟨a, b, c, d, e⟩ := hi
  exact ⟨by rw [h1, h2]; exact a, by rw [h1]; exact b, by rw [h1]; exact c, by rw [h1]; exact d,
    by rw [h1, h3]; exact e⟩

/-- Sending the request `r`, which has attributes `q`, with a new refresh time. -/
theorem CInv.send {v : Version} {h : List CEvent} {s : CMgr} (hi : CInv v h s) {r : Nat} {q q1 : CReq}
    (hq : s.reqs r = some q) (h1 : q1.pdu = q.pdu) (h2 : q1.community = q.community)
    (h3 : q1.event = q.event) (h4 : q1.response = q.response)
    (hb : Spec.Born h r q1) (draws : Nat → Nat) (chan : Option PyErr) :
    CInv v h (s.reallySend v r q1 draws chan).2 := by
  obtain ⟨id, cb, cache, sent, hs, k1, k2, k4, k3⟩ := CMgr.reallySend_spec v s r q1 draws chan
  rw [hs]
  have hid : q.pdu.requestID ≠ 0 → id = q.pdu.requestID := by
    intro h0; rw [← h1]; exact (k1 (by rw [h1]; exact h0)).1
  have hgrow : ∀ e, e ∈ sent → e ∈ s.sent ∨ ∃ w, e = (r, w) ∧
      (Message.mk v q1.community { q1.pdu with requestID := id }).encode = .ok w ∧ id ≠ 0 := by
    intro e he
    rcases k3 with ⟨k, w, kw, k3⟩ | ⟨-, k3⟩
    · rw [k3] at he
      rcases List.mem_cons.1 he with he | he
      · refine .inr ⟨w, he, kw, ?_⟩
        by_cases h0 : q1.pdu.requestID = 0
        · exact k4 h0 k
        · rw [(k1 h0).1]; exact h0
      · exact .inl he
    · rw [k3] at he; exact .inl he
  constructor
  · intro i e he
    simp only at he ⊢
    by_cases h0 : q1.pdu.requestID = 0
    · rcases k2 h0 i e he with h | ⟨rfl, h, rfl⟩
      · obtain ⟨hz, q', hq', hqi, hqc⟩ := hi.cached i e h
        refine ⟨hz, q', ?_, hqi, hqc⟩
        rw [setAt_other]
        · exact hq'
        · rintro rfl
          rw [hq] at hq'; injection hq' with hq'; subst hq'
          rw [← hqi, ← h1] at hz
          exact hz h0
      · exact ⟨h, _, setAt_same _ _ _, rfl, rfl⟩
    · rw [(k1 h0).2] at he
      obtain ⟨hz, q', hq', hqi, hqc⟩ := hi.cached i e he
      refine ⟨hz, ?_⟩
      by_cases hr : e.handle = r
      · subst hr
        rw [hq] at hq'; injection hq' with hq'; subst hq'
        refine ⟨_, setAt_same _ _ _, ?_, ?_⟩
        · simp only; rw [(k1 h0).1, h1, hqi]
        · simp only; rw [h2, hqc]
      · exact ⟨q', by rw [setAt_other _ _ hr]; exact hq', hqi, hqc⟩
  · intro r' q' hr'
    simp only [setAt_get] at hr'
    split at hr'
    · injection hr' with hr'; subst hr'
      simp only
      rw [h3, h4]; exact hi.event r q hq
    · exact hi.event r' q' hr'
  · intro r' q' m hr' hm
    simp only [setAt_get] at hr'
    split at hr'
    · injection hr' with hr'; subst hr'
      simp only at hm
      rw [h4] at hm
      have ha := hi.answers r q m hq hm
      exact ha.congr (hid ha.assigned) h2
    · exact hi.answers r' q' m hr' hm
  · intro r' q' hr'
    simp only [setAt_get] at hr'
    split at hr'
    · rename_i he; subst he
      injection hr' with hr'; subst hr'
      obtain ⟨pdu, timeout, t0, t1, draws, chan, b1, b2, ⟨id', b3⟩, b4, b5, b6⟩ := hb
      refine ⟨pdu, timeout, t0, t1, draws, chan, b1, b2, ⟨id, ?_⟩, ?_, b5, b6⟩
      · simp only; rw [b3]
      · intro h0
        simp only
        have := b4 h0
        rw [(k1 (by rw [this]; exact h0)).1, this]
    · exact hi.born r' q' hr'
  · intro r' w hw
    simp only [setAt_get] at hw ⊢
    rcases hgrow _ hw with h | ⟨w', h, he, hz⟩
    · obtain ⟨q', hq', hz, he⟩ := hi.sent r' w h
      split
      · rename_i heq; subst heq
        rw [hq] at hq'; injection hq' with hq'; subst hq'
        refine ⟨_, rfl, ?_, ?_⟩
        · simp only; rw [hid hz]; exact hz
        · simp only; rw [hid hz, h1, h2]; exact he
      · exact ⟨q', hq', hz, he⟩
    · injection h with e1 e2
      subst e1; subst e2
      rw [if_pos rfl]
      exact ⟨_, rfl, hz, he⟩

end Snmp

namespace Snmp

/-! ## The steps -/

namespace CMgr

/-- The new attributes of a request that is resent at `now`. -/
def resent (q : CReq) (now : ℚ) : CReq :=
  q.setNextRefresh (q.nextRefresh + (⌈-(q.nextRefresh - now) / q.period⌉ : ℤ) * q.period)

theorem refreshRequest_cases (v : Version) (s : CMgr) (r : Nat) (q : CReq) (now : ℚ) (draws : Nat → Nat)
    (chan : Option PyErr) :
    (s.refreshRequest v r q now draws chan = (.ok none, s) ∧
      (q.event = true ∨ (q.nextRefresh ≤ now ∧ q.expiration ≤ now))) ∨
    (s.refreshRequest v r q now draws chan = (.ok (some (q.nextRefresh - now)), s) ∧ q.event = false ∧
      now < q.nextRefresh) ∨
    (s.refreshRequest v r q now draws chan = (.error .zeroDivisionError, s) ∧ q.event = false ∧
      q.nextRefresh ≤ now ∧ now < q.expiration ∧ q.period = 0) ∨
    (q.event = false ∧ q.nextRefresh ≤ now ∧ now < q.expiration ∧ q.period ≠ 0 ∧
      (((s.reallySend v r (resent q now) draws chan).1 = .ok () ∧
          s.refreshRequest v r q now draws chan =
            (.ok (some 0), (s.reallySend v r (resent q now) draws chan).2)) ∨
        ∃ e, (s.reallySend v r (resent q now) draws chan).1 = .error e ∧
          s.refreshRequest v r q now draws chan =
            (.error e, (s.reallySend v r (resent q now) draws chan).2))) := by
  unfold refreshRequest
  cases he : q.event with
  | true => left; exact ⟨by simp, .inl rfl⟩
  | false =>
    simp only [Bool.false_eq_true, ↓reduceIte, false_or]
    by_cases h1 : q.nextRefresh - now ≤ 0
    · rw [if_pos h1]
      have h1' : q.nextRefresh ≤ now := by linarith
      by_cases h2 : q.expiration ≤ now
      · rw [if_pos h2]
        exact .inl ⟨rfl, h1', h2⟩
      · rw [if_neg h2]
        have h2' : now < q.expiration := not_le.1 h2
        by_cases h3 : q.period = 0
        · rw [if_pos h3]
          exact .inr (.inr (.inl ⟨rfl, trivial, h1', h2', h3⟩))
        · rw [if_neg h3]
          refine .inr (.inr (.inr ⟨trivial, h1', h2', h3, ?_⟩))
          show ((s.reallySend v r (resent q now) draws chan).1 = .ok () ∧
            (match s.reallySend v r (resent q now) draws chan with
              | (.error e, s) => ((Except.error e : Res (Option ℚ)), s)
              | (.ok (), s) => ((.ok (some 0) : Res (Option ℚ)), s)) = _) ∨ ∃ e,
            (s.reallySend v r (resent q now) draws chan).1 = .error e ∧
            (match s.reallySend v r (resent q now) draws chan with
              | (.error e, s) => ((Except.error e : Res (Option ℚ)), s)
              | (.ok (), s) => ((.ok (some 0) : Res (Option ℚ)), s)) = _
          generalize s.reallySend v r (resent q now) draws chan = x
          obtain ⟨res, s'⟩ := x
          cases res with
          | error e => exact .inr ⟨e, rfl, rfl⟩
          | ok u => exact .inl ⟨rfl, rfl⟩
    · rw [if_neg h1]
      exact .inr (.inl ⟨rfl, trivial, by linarith⟩)

/-- The refresh time after a resend. -/
theorem resent_time {q : CReq} {now : ℚ} (hp : 0 < q.period)
    (h2 : now < q.expiration) :
    now ≤ (resent q now).nextRefresh ∧ (resent q now).nextRefresh < now + q.period ∧
    (resent q now).nextRefresh ≤ q.expiration := by
  have e : (resent q now).nextRefresh = min q.expiration
      (q.nextRefresh + (⌈-(q.nextRefresh - now) / q.period⌉ : ℤ) * q.period) := rfl
  rw [e]
  have c1 := Int.le_ceil (-(q.nextRefresh - now) / q.period)
  have c2 := Int.ceil_lt_add_one (-(q.nextRefresh - now) / q.period)
  rw [div_le_iff₀ hp] at c1
  have c3 : (⌈-(q.nextRefresh - now) / q.period⌉ : ℚ) * q.period <
      -(q.nextRefresh - now) + q.period := by
    have := mul_lt_mul_of_pos_right c2 hp
    rw [add_mul, div_mul_cancel₀ _ (ne_of_gt hp), one_mul] at this
    exact this
  refine ⟨le_min (le_of_lt h2) (by linarith), lt_of_le_of_lt (min_le_right _ _) (by linarith),
    min_le_left _ _⟩

theorem resent_born {h : List CEvent} {r : Nat} {q : CReq} {now : ℚ} (hb : Spec.Born h r q)
    (h1 : q.nextRefresh ≤ now) (h2 : now < q.expiration) : Spec.Born h r (resent q now) := by
  obtain ⟨pdu, timeout, t0, t1, draws, chan, b1, b2, b3, b4, b5, b6⟩ := hb
  refine ⟨pdu, timeout, t0, t1, draws, chan, b1, b2, b3, b4, min_le_left _ _, ?_⟩
  rcases b6 with b6 | ⟨k, b6, b7⟩
  · exact absurd (b6 ▸ h1) (not_le.2 h2)
  · rcases min_choice q.expiration
        (q.nextRefresh + (⌈-(q.nextRefresh - now) / q.period⌉ : ℤ) * q.period) with hm | hm
    · exact .inl hm
    · refine .inr ⟨k + ⌈-(q.nextRefresh - now) / q.period⌉, ?_, ?_⟩
      · show min _ _ = _
        rw [hm, b6]
        show _ = t1 + ((k + ⌈-(t1 + ↑k * q.period - now) / q.period⌉ : ℤ) : ℚ) * q.period
        push_cast
        ring
      · intro hp
        have hp' : 0 < q.period := hp
        have : 0 ≤ ⌈-(q.nextRefresh - now) / q.period⌉ :=
          Int.ceil_nonneg (div_nonneg (by linarith) (le_of_lt hp'))
        have := b7 hp'
        omega

/-- One turn of the loop in `refresh`: nothing is sent, or the request at the head of the heap, which is
due and neither answered nor expired, is sent. -/
theorem refreshBody_cases (v : Version) (s : CMgr) (k : Nat) (now : ℚ) (draws : Nat → Nat) (chan : Option PyErr) :
    ∃ s1 heap, (s.refreshBody v k now draws chan).2 = { s1 with heaps := setAt s1.heaps k heap } ∧
      (s1 = s ∨ ∃ ref rest q, s.heaps k = ref :: rest ∧ s.deref ref.id = some q ∧ q.event = false ∧
        q.nextRefresh ≤ now ∧ now < q.expiration ∧ q.period ≠ 0 ∧
        s1 = (s.reallySend v ref.id (resent q now) draws chan).2) ∧
      ∀ x ∈ heap, ∃ y ∈ s.heaps k, y.id = x.id := by
  have hpop : ∀ (l : List Ref), ∀ x ∈ Heap.pop s.env l, ∃ y ∈ l, y.id = x.id := by
    intro l x hx
    cases l with
    | nil => cases hx
    | cons a l =>
      have := (Heap.pop_moved s.env a l).1.mem_iff.1 (List.mem_map_of_mem (f := Ref.id) hx)
      obtain ⟨y, hy, hyx⟩ := List.mem_map.1 this
      exact ⟨y, List.mem_cons_of_mem _ hy, hyx⟩
  have hrep : ∀ (env : Env) (l : List Ref) (a : Ref), a ∈ l → ∀ x ∈ Heap.replace env l a, ∃ y ∈ l, y.id = x.id := by
    intro env l a ha x hx
    have := (Heap.siftup_moved env (l.set 0 a) 0).1.mem_iff.1 (List.mem_map_of_mem (f := Ref.id) hx)
    obtain ⟨y, hy, hyx⟩ := List.mem_map.1 this
    rcases List.mem_or_eq_of_mem_set hy with hy | rfl
    · exact ⟨y, hy, hyx⟩
    · exact ⟨y, ha, hyx⟩
  have hid : ∀ x ∈ s.heaps k, ∃ y ∈ s.heaps k, y.id = x.id := fun x hx => ⟨x, hx, rfl⟩
  unfold refreshBody
  have hself : s = { s with heaps := setAt s.heaps k (s.heaps k) } := by rw [setAt_get_self]
  cases hh : s.heaps k with
  | nil => exact ⟨s, s.heaps k, hself, .inl rfl, by rw [← hh]; exact hid⟩
  | cons ref rest =>
    simp only
    cases hd : s.deref ref.id with
    | none => exact ⟨s, _, rfl, .inl rfl, by rw [← hh]; exact hpop _⟩
    | some q =>
      simp only
      rcases refreshRequest_cases v s ref.id q now draws chan with ⟨h, -⟩ | ⟨h, -, h1⟩ | ⟨h, -⟩ |
        ⟨h1, h2, h3, h4, ⟨-, h⟩ | ⟨e, -, h⟩⟩
      · rw [h]; exact ⟨s, _, rfl, .inl rfl, by rw [← hh]; exact hpop _⟩
      · rw [h]; simp only
        rw [if_pos (by linarith)]
        exact ⟨s, s.heaps k, hself, .inl rfl, by rw [← hh]; exact hid⟩
      · rw [h]; exact ⟨s, s.heaps k, hself, .inl rfl, by rw [← hh]; exact hid⟩
      · rw [h]; simp only [lt_self_iff_false, ↓reduceIte]
        refine ⟨_, _, rfl, .inr ⟨ref, rest, q, rfl, hd, h1, h2, h3, h4, rfl⟩, ?_⟩
        have hh' : (s.reallySend v ref.id (resent q now) draws chan).2.heaps k = ref :: rest := by
          obtain ⟨id, cb, cache, sent, hr, -⟩ := reallySend_spec v s ref.id (resent q now) draws chan
          rw [hr]; exact hh
        rw [hh']
        exact hrep _ _ ref List.mem_cons_self
      · rw [h]
        refine ⟨_, _, by rw [setAt_get_self], .inr ⟨ref, rest, q, rfl, hd, h1, h2, h3, h4, rfl⟩, ?_⟩
        obtain ⟨id, cb, cache, sent, hr, -⟩ := reallySend_spec v s ref.id (resent q now) draws chan
        rw [hr, ← hh]; exact hid

theorem deref_some {s : CMgr} {r : Nat} {q : CReq} (h : s.deref r = some q) :
    s.reqs r = some q ∧ s.dead r = false := by
  unfold deref at h
  cases hd : s.dead r with
  | true => rw [hd] at h; cases h
  | false => rw [hd] at h; exact ⟨by simpa using h, rfl⟩

/-- What never changes in a request, or changes once. -/
structure Evolves (s s' : CMgr) : Prop where
  keep : ∀ r q, s.reqs r = some q → ∃ q', s'.reqs r = some q' ∧ q'.manager = q.manager ∧ q'.community = q.community ∧
    q'.expiration = q.expiration ∧ q'.period = q.period ∧ (q.pdu.requestID ≠ 0 → q'.pdu = q.pdu) ∧
    (q.event = true → q'.event = true)
  sent : ∀ x, x ∈ s.sent → x ∈ s'.sent

theorem Evolves.refl (s : CMgr) : Evolves s s :=
  ⟨fun _ q h => ⟨q, h, rfl, rfl, rfl, rfl, fun _ => rfl, id⟩, fun _ h => h⟩

theorem Evolves.trans {a b c : CMgr} (h : Evolves a b) (h' : Evolves b c) : Evolves a c := by
  refine ⟨fun r q hq => ?_, fun x hx => h'.sent x (h.sent x hx)⟩
  obtain ⟨q1, e1, e0, e2, e3, e4, e5, e6⟩ := h.keep r q hq
  obtain ⟨q2, f1, f0, f2, f3, f4, f5, f6⟩ := h'.keep r q1 e1
  exact ⟨q2, f1, f0.trans e0, f2.trans e2, f3.trans e3, f4.trans e4,
    fun h0 => by rw [f5 (by rw [e5 h0]; exact h0), e5 h0], fun he => f6 (e6 he)⟩

theorem Evolves.congr {s s' : CMgr} (h1 : s'.reqs = s.reqs) (h2 : s'.sent = s.sent) : Evolves s s' :=
  ⟨fun r q h => ⟨q, by rw [h1]; exact h, rfl, rfl, rfl, rfl, fun _ => rfl, id⟩, fun x h => by rw [h2]; exact h⟩

theorem Evolves.setReq {s : CMgr} {r : Nat} {q q' : CReq} (h : s.reqs r = some q)
    (h0 : q'.manager = q.manager) (h1 : q'.community = q.community) (h2 : q'.expiration = q.expiration) (h3 : q'.period = q.period)
    (h4 : q.pdu.requestID ≠ 0 → q'.pdu = q.pdu) (h5 : q.event = true → q'.event = true) :
    Evolves s (s.setReq r q') := by
  refine ⟨fun r' q0 hq => ?_, fun x hx => hx⟩
  unfold CMgr.setReq
  simp only [setAt_get]
  split
  · rename_i he; subst he
    rw [h] at hq; injection hq with hq; subst hq
    exact ⟨q', rfl, h0, h1, h2, h3, h4, h5⟩
  · exact ⟨q0, hq, rfl, rfl, rfl, rfl, fun _ => rfl, id⟩

theorem Evolves.reallySend {v : Version} {s : CMgr} {r : Nat} {q q1 : CReq} (hq : s.reqs r = some q)
    (h0 : q1.manager = q.manager) (h1 : q1.pdu = q.pdu) (h2 : q1.community = q.community)
    (h3 : q1.event = q.event)
    (h4 : q1.expiration = q.expiration) (h5 : q1.period = q.period) (draws : Nat → Nat)
    (chan : Option PyErr) : Evolves s (s.reallySend v r q1 draws chan).2 := by
  obtain ⟨id, cb, cache, sent, hs, k1, k2, k4, k3⟩ := reallySend_spec v s r q1 draws chan
  rw [hs]
  refine ⟨fun r' q0 hq0 => ?_, fun x hx => ?_⟩
  · simp only [setAt_get]
    split
    · rename_i he; subst he
      rw [hq] at hq0; injection hq0 with hq0; subst hq0
      refine ⟨_, rfl, h0, h2, h4, h5, ?_, ?_⟩
      · intro h0
        simp only
        rw [(k1 (by rw [h1]; exact h0)).1, h1]
      · intro he; simp only; rw [h3]; exact he
    · exact ⟨q0, hq0, rfl, rfl, rfl, rfl, fun _ => rfl, _root_.id⟩
  · rcases k3 with ⟨-, w, -, k3⟩ | ⟨-, k3⟩
    · simp only; rw [k3]; exact List.mem_cons_of_mem _ hx
    · simp only; rw [k3]; exact hx

theorem Evolves.refreshBody (v : Version) (s : CMgr) (k : Nat) (now : ℚ) (draws : Nat → Nat) (chan : Option PyErr) :
    Evolves s (s.refreshBody v k now draws chan).2 := by
  obtain ⟨s1, heap, h, hs | ⟨ref, rest, q, -, hd, -, -, -, -, hs⟩, -⟩ := refreshBody_cases v s k now draws chan
  · rw [h, hs]; exact Evolves.congr rfl rfl
  · rw [h]
    have : Evolves s s1 := by
      rw [hs]
      exact Evolves.reallySend (q1 := resent q now) (deref_some hd).1 rfl rfl rfl rfl rfl rfl draws chan
    exact this.trans (Evolves.congr rfl rfl)

theorem close_cases (s : CMgr) (r : Nat) (q : CReq) :
    s.close r q = (.error .assertionError, s) ∧ q.callback = false ∨
    q.callback = true ∧ s.close r q = (.ok (),
      ({ s with cache := s.cache.uncache q.pdu.requestID } : CMgr).setReq r { q with callback := false }) := by
  unfold close
  cases q.callback
  · exact .inl ⟨rfl, rfl⟩
  · exact .inr ⟨rfl, rfl⟩

theorem Evolves.close {s : CMgr} {r : Nat} {q : CReq} (hq : s.reqs r = some q) :
    Evolves s (s.close r q).2 := by
  rcases close_cases s r q with ⟨h, -⟩ | ⟨-, h⟩
  · rw [h]; exact Evolves.refl s
  · rw [h]
    exact (Evolves.congr (s := s) (s' := { s with cache := s.cache.uncache q.pdu.requestID }) rfl rfl).trans
      (Evolves.setReq (q := q) (q' := { q with callback := false }) hq rfl rfl rfl rfl (fun _ => rfl) id)

theorem Evolves.collect (s : CMgr) (r : Nat) : Evolves s (s.collect r) := by
  unfold CMgr.collect
  cases hd : s.deref r with
  | none => exact Evolves.refl s
  | some q =>
    simp only
    have := (deref_some hd).1
    split
    · exact (Evolves.close this).trans (Evolves.congr rfl rfl)
    · exact Evolves.congr rfl rfl

theorem hear_frame (v : Version) (s : CMgr) (w : Bytes) :
    (s.hear v w).2.reqs = s.reqs ∧ (s.hear v w).2.sent = s.sent ∧ (s.hear v w).2.heaps = s.heaps ∧
    (s.hear v w).2.dead = s.dead ∧
    ∀ i e, (s.hear v w).2.cache.outstanding i = some e → s.cache.outstanding i = some e := by
  have base : ∀ (c : Cache CommunityEntry) (m : Message) i e,
      (communityProto.prepareDataElements c s.dead m).2.outstanding i = some e → c.outstanding i = some e := by
    intro c m i e h
    unfold Proto.prepareDataElements at h
    split at h
    · exact h
    · split at h
      · exact h
      · simp only at h
        split at h
        · unfold Cache.uncache at h
          simp only at h
          split at h
          · cases h
          · exact h
        · exact h
  unfold hear
  split
  · exact ⟨rfl, rfl, rfl, rfl, fun _ _ h => h⟩
  · split
    · exact ⟨rfl, rfl, rfl, rfl, fun _ _ h => h⟩
    · split
      · exact ⟨rfl, rfl, rfl, rfl, fun _ _ h => h⟩
      · rename_i m _ _
        have hb := base s.cache m
        split
        · rename_i heq; rw [heq] at hb; exact ⟨rfl, rfl, rfl, rfl, hb⟩
        · rename_i heq; rw [heq] at hb; exact ⟨rfl, rfl, rfl, rfl, hb⟩

theorem hear_some {v : Version} {s : CMgr} {w : Bytes} {r : Nat} {m : Message}
    (h : (s.hear v w).1 = some (r, m)) :
    (∃ tail, Message.decode (if v = .v1 then v1Types else v2Types) (.bytes w) = .ok (m, tail)) ∧
    m.version = v ∧ m.pdu.type = .response ∧ s.dead r = false ∧
    s.cache.outstanding m.pdu.requestID = some ⟨r, m.community⟩ := by
  unfold hear at h
  split at h
  · cases h
  · rename_i ver tl hver
    split at h
    · cases h
    · rename_i hvv
      split at h
      · cases h
      · rename_i m' tail hdec
        split at h
        · cases h
        · rename_i r' cache hp
          simp only [Option.some.injEq, Prod.mk.injEq] at h
          obtain ⟨rfl, rfl⟩ := h
          refine ⟨⟨tail, hdec⟩, ?_, ?_⟩
          · rw [version_agree hver hdec]; exact not_not.1 hvv
          · have hp1 := congrArg Prod.fst hp
            unfold Proto.prepareDataElements at hp1
            simp only [communityProto] at hp1
            by_cases ht : m'.pdu.type = .response
            · rw [if_pos ht] at hp1
              simp only [Cache.retrieve] at hp1
              cases ho : s.cache.outstanding m'.pdu.requestID with
              | none => rw [ho] at hp1; cases hp1
              | some e =>
                rw [ho] at hp1
                simp only [Proto.resolve] at hp1
                split at hp1
                · cases hp1
                · rename_i hdead
                  split at hp1
                  · cases hp1
                  · rename_i hcom
                    simp only [Except.bind, Except.ok.injEq] at hp1
                    subst hp1
                    have : e.community = m'.community := not_not.1 hcom
                    refine ⟨ht, by simpa using hdead, ?_⟩
                    rw [← this]
            · rw [if_neg ht] at hp1; cases hp1

end CMgr

/-! ## The invariant holds -/

theorem CInv.uncache {v : Version} {h : List CEvent} {s : CMgr} (hi : CInv v h s) (id : Int) :
    CInv v h { s with cache := s.cache.uncache id } := by
  refine ⟨fun i e he => hi.cached i e ?_, hi.event, hi.answers, hi.born, hi.sent⟩
  unfold Cache.uncache at he
  simp only at he
  split at he
  · cases he
  · exact he

/-- Changing the callback, or receiving an answer. -/
theorem CInv.setReq {v : Version} {h : List CEvent} {s : CMgr} (hi : CInv v h s) {r : Nat} {q q' : CReq}
    (hq : s.reqs r = some q) (h0 : q'.manager = q.manager) (h1 : q'.pdu = q.pdu)
    (h2 : q'.community = q.community) (h3 : q'.event = q'.response.isSome) (h4 : ∀ m, q'.response = some m → Spec.Answers v h q m)
    (h5 : q'.expiration = q.expiration) (h6 : q'.period = q.period) (h7 : q'.nextRefresh = q.nextRefresh) :
    CInv v h (s.setReq r q') := by
  unfold CMgr.setReq
  constructor
  · intro i e he
    obtain ⟨hz, q0, a, b, c⟩ := hi.cached i e he
    refine ⟨hz, ?_⟩
    simp only [setAt_get]
    split
    · rename_i hr
      rw [hr, hq] at a; injection a with a; subst a
      exact ⟨q', rfl, by rw [h1]; exact b, by rw [h2]; exact c⟩
    · exact ⟨q0, a, b, c⟩
  · intro r' q0 h0
    simp only [setAt_get] at h0
    split at h0
    · injection h0 with h0; subst h0; exact h3
    · exact hi.event r' q0 h0
  · intro r' q0 m h0 hm
    simp only [setAt_get] at h0
    split at h0
    · injection h0 with h0; subst h0
      exact (h4 m hm).congr (by rw [h1]) h2
    · exact hi.answers r' q0 m h0 hm
  · intro r' q0 h0
    simp only [setAt_get] at h0
    split at h0
    · rename_i hr; subst hr
      injection h0 with h0; subst h0
      have := hi.born _ q hq
      unfold Spec.Born at this ⊢
      rw [h0, h1, h2, h5, h6, h7]
      exact this
    · exact hi.born r' q0 h0
  · intro r' w hw
    obtain ⟨q0, a, b, c⟩ := hi.sent r' w hw
    simp only [setAt_get]
    split
    · rename_i hr
      rw [hr, hq] at a; injection a with a; subst a
      exact ⟨q', rfl, by rw [h1]; exact b, by rw [h1, h2]; exact c⟩
    · exact ⟨q0, a, b, c⟩

theorem CInv.close {v : Version} {h : List CEvent} {s : CMgr} (hi : CInv v h s) {r : Nat} {q : CReq}
    (hq : s.reqs r = some q) : CInv v h (s.close r q).2 := by
  rcases CMgr.close_cases s r q with ⟨h, -⟩ | ⟨-, h⟩
  · rw [h]; exact hi
  · rw [h]
    exact (hi.uncache q.pdu.requestID).setReq (q := q) (q' := { q with callback := false }) hq rfl rfl rfl (hi.event r q hq)
      (fun m hm => hi.answers r q m hq hm) rfl rfl rfl

theorem CInv.refreshBody {v : Version} {h : List CEvent} {s : CMgr} (hi : CInv v h s) (k : Nat) (now : ℚ)
    (draws : Nat → Nat) (chan : Option PyErr) : CInv v h (s.refreshBody v k now draws chan).2 := by
  obtain ⟨s1, heap, he, hs | ⟨ref, rest, q, -, hd, h1, h2, h3, h4, hs⟩, -⟩ :=
    CMgr.refreshBody_cases v s k now draws chan
  · rw [he, hs]; exact hi.congr rfl rfl rfl
  · rw [he]
    have hq := (CMgr.deref_some hd).1
    have : CInv v h s1 := by
      rw [hs]
      exact hi.send (q1 := CMgr.resent q now) hq rfl rfl rfl rfl (CMgr.resent_born (hi.born _ _ hq) h2 h3) draws chan
    exact this.congr rfl rfl rfl

theorem CInv.sendRequest {v : Version} {h : List CEvent} {s : CMgr} (hi : CInv v h s) {r : Nat}
    (hr : s.reqs r = none) (k : Nat) (pdu : Pdu) (community : Bytes) (timeout period t0 t1 : ℚ) (draws : Nat → Nat)
    (chan : Option PyErr) :
    CInv v (h ++ [.send k r pdu community timeout period t0 t1 draws chan])
      (s.sendRequest v k r pdu community timeout period t0 t1 draws chan).2 := by
  unfold CMgr.sendRequest
  have hnew : ∀ q1 : CReq, q1.event = false → q1.response = none →
      Spec.Born (h ++ [.send k r pdu community timeout period t0 t1 draws chan]) r q1 →
      CInv v (h ++ [.send k r pdu community timeout period t0 t1 draws chan]) (s.setReq r q1) := by
    intro q1 e1 e2 hb
    have hi' := hi.mono (e := .send k r pdu community timeout period t0 t1 draws chan)
    unfold CMgr.setReq
    constructor
    · intro i e he
      obtain ⟨hz, q0, a, b, c⟩ := hi'.cached i e he
      refine ⟨hz, q0, ?_, b, c⟩
      simp only
      rw [setAt_other]
      · exact a
      · intro hc; rw [hc, hr] at a; cases a
    · intro r' q0 h0
      simp only [setAt_get] at h0
      split at h0
      · injection h0 with h0; subst h0; rw [e1, e2]; rfl
      · exact hi'.event r' q0 h0
    · intro r' q0 m h0 hm
      simp only [setAt_get] at h0
      split at h0
      · injection h0 with h0; subst h0; rw [e2] at hm; cases hm
      · exact hi'.answers r' q0 m h0 hm
    · intro r' q0 h0
      simp only [setAt_get] at h0
      split at h0
      · rename_i hr; subst hr
        injection h0 with h0; subst h0
        exact hb
      · exact hi'.born r' q0 h0
    · intro r' w hw
      obtain ⟨q0, a, b, c⟩ := hi'.sent r' w hw
      refine ⟨q0, ?_, b, c⟩
      simp only
      rw [setAt_other]
      · exact a
      · intro hc; rw [hc, hr] at a; cases a
  have hb0 : Spec.Born (h ++ [.send k r pdu community timeout period t0 t1 draws chan]) r
      (CReq.new k pdu community timeout period t0) :=
    ⟨pdu, timeout, t0, t1, draws, chan, List.mem_append_right _ List.mem_cons_self, rfl, ⟨pdu.requestID, rfl⟩,
      fun _ => rfl, le_refl _, .inl rfl⟩
  have hb1 : Spec.Born (h ++ [.send k r pdu community timeout period t0 t1 draws chan]) r
      ((CReq.new k pdu community timeout period t0).setNextRefresh (t1 + period)) := by
    refine ⟨pdu, timeout, t0, t1, draws, chan, List.mem_append_right _ List.mem_cons_self, rfl, ⟨pdu.requestID, rfl⟩,
      fun _ => rfl, min_le_left _ _, ?_⟩
    rcases min_choice (t0 + timeout) (t1 + period) with hm | hm
    · exact .inl hm
    · exact .inr ⟨1, by show min (t0 + timeout) (t1 + period) = t1 + ((1 : ℤ) : ℚ) * period; rw [hm]; simp, fun _ => le_refl _⟩
  have h1 := (hnew _ rfl rfl hb0).congr (s' := { s.setReq r (CReq.new k pdu community timeout period t0) with
    heaps := setAt (s.setReq r (CReq.new k pdu community timeout period t0)).heaps k
      (Heap.push (s.setReq r (CReq.new k pdu community timeout period t0)).env
      ((s.setReq r (CReq.new k pdu community timeout period t0)).heaps k)
      ⟨r, WeakKey.new (CReq.new k pdu community timeout period t0).nextRefresh⟩) }) rfl rfl rfl
  exact h1.send (q := CReq.new k pdu community timeout period t0)
    (q1 := (CReq.new k pdu community timeout period t0).setNextRefresh (t1 + period)) (setAt_same _ _ _) rfl rfl rfl rfl hb1 draws chan

theorem CInv.collect {v : Version} {h : List CEvent} {s : CMgr} (hi : CInv v h s) (r : Nat) :
    CInv v h (s.collect r) := by
  unfold CMgr.collect
  cases hd : s.deref r with
  | none => exact hi
  | some q =>
    simp only
    have := (CMgr.deref_some hd).1
    split
    · exact (hi.close this).congr rfl rfl rfl
    · exact hi.congr rfl rfl rfl

theorem CInv.hear {v : Version} {h : List CEvent} {s : CMgr} (hi : CInv v h s) (w : Bytes) :
    CInv v h (s.hear v w).2 := by
  obtain ⟨h1, h2, -, -, h3⟩ := CMgr.hear_frame v s w
  refine ⟨?_, ?_, ?_, ?_, ?_⟩
  · intro i e he
    rw [h1]
    exact hi.cached i e (h3 i e he)
  · rw [h1]; exact hi.event
  · rw [h1]; exact hi.answers
  · rw [h1]; exact hi.born
  · rw [h1, h2]; exact hi.sent

end Snmp
