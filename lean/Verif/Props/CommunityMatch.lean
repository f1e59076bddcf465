import Verif.ManagerCommunityMoves
/-!
# C84, C65, C66: which responses reach a v1/v2c handle, and how often `wait` gives a result
-/

namespace Snmp

/-! ## Specification -/

/-- The outcome is what `wait` is for: `Timeout`, bindings or `ErrorResponse`, not some other exception. -/
def Outcome.IsResult (o : Outcome) : Prop := ∀ e, o ≠ .raised e

/-- In the history `h`, `sendRequest` created the request `r` from a PDU that had no request ID, and returned;
since then its handle was not collected and no `wait` on it gave a result. -/
structure Spec.Pending (v : Version) (g : Nat) (h : List CEvent) (r : Nat) : Prop where
  issued : ∃ k h1 h2 pdu community timeout period t0 t1 draws chan,
    h = h1 ++ .send k r pdu community timeout period t0 t1 draws chan :: h2 ∧ pdu.requestID = 0 ∧
    (CSys.after v g h1).mgr.reqs r = none ∧
    ((CSys.after v g h1).mgr.sendRequest v k r pdu community timeout period t0 t1 draws chan).1 = .ok ()
  kept : .collect r ∉ h
  unfinished : ∀ h1 h2 t o, h = h1 ++ h2 → (CSys.after v g h1).threads t = .done r o → ¬ o.IsResult

/-! ## Proofs -/

/-- A request whose callback is set is cached under its ID, and was not collected. -/
structure CbInv (s : CMgr) : Prop where
  cb : ∀ r q, s.reqs r = some q → q.callback = true → s.cache.outstanding q.pdu.requestID = some ⟨r, q.community⟩
  dead : ∀ r q, s.reqs r = some q → s.dead r = true → q.callback = false
  known : ∀ r, s.dead r = true → (s.reqs r).isSome

theorem CbInv.congr {s s' : CMgr} (hi : CbInv s) (h1 : s'.reqs = s.reqs) (h2 : s'.dead = s.dead)
    (h3 : s'.cache.outstanding = s.cache.outstanding) : CbInv s' := by
  obtain ⟨a, b, c⟩ := hi
  exact ⟨by rw [h1, h3]; exact a, by rw [h1, h2]; exact b, by rw [h1, h2]; exact c⟩

/-- Replace the attributes of a request, other than its ID, community and callback. -/
theorem CbInv.setReq {s : CMgr} (hi : CbInv s) {r : Nat} {q q' : CReq} (hq : s.reqs r = some q)
    (h1 : q'.pdu.requestID = q.pdu.requestID) (h2 : q'.community = q.community) (h3 : q'.callback = q.callback) :
    CbInv (s.setReq r q') := by
  unfold CMgr.setReq
  constructor
  · intro r' q0 h0 hc
    simp only [setAt_get] at h0
    split at h0
    · rename_i he; subst he; injection h0 with h0; subst h0
      rw [h1, h2]; exact hi.cb _ q hq (by rw [← h3]; exact hc)
    · exact hi.cb r' q0 h0 hc
  · intro r' q0 h0 hd
    simp only [setAt_get] at h0
    split at h0
    · rename_i he; subst he; injection h0 with h0; subst h0
      rw [h3]; exact hi.dead _ q hq hd
    · exact hi.dead r' q0 h0 hd
  · intro r' hd
    simp only [setAt_get]
    split
    · rfl
    · exact hi.known r' hd

theorem CbInv.send {v : Version} {s : CMgr} (hi : CbInv s) {r : Nat} {q q1 : CReq} (hq : s.reqs r = some q)
    (h1 : q1.pdu = q.pdu) (h2 : q1.community = q.community) (h3 : q1.callback = q.callback)
    (hz : q.callback = true → q.pdu.requestID ≠ 0) (hd : s.dead r = false) (draws : Nat → Nat)
    (chan : Option PyErr) : CbInv (s.reallySend v r q1 draws chan).2 := by
  have key : ∀ id cb (c : Cache CommunityEntry),
      ((q1.pdu.requestID = 0 ∧ id ≠ 0 ∧ cb = true ∧ s.cache.outstanding id = none ∧
          ∀ i, c.outstanding i = if i = id then some ⟨r, q1.community⟩ else s.cache.outstanding i) ∨
        (q1.pdu.requestID ≠ 0 ∧ id = q1.pdu.requestID ∧ cb = q1.callback ∧ c = s.cache)) →
      CbInv (({ s with cache := c } : CMgr).setReq r
        { q1 with pdu := { q1.pdu with requestID := id }, callback := cb }) := by
    intro id cb c hk
    rcases hk with ⟨k0, k1, rfl, k2, k3⟩ | ⟨k0, rfl, rfl, rfl⟩
    · unfold CMgr.setReq
      constructor
      · intro r' q0 h0 hc
        simp only [setAt_get] at h0
        split at h0
        · rename_i he; subst he; injection h0 with h0; subst h0
          simp only; rw [k3, if_pos rfl]
        · simp only; rw [k3]
          have := hi.cb r' q0 h0 hc
          rw [if_neg]
          · exact this
          · intro he; rw [he, k2] at this; cases this
      · intro r' q0 h0 hd'
        simp only [setAt_get] at h0
        split at h0
        · rename_i he; subst he; simp only at hd'; rw [hd] at hd'; cases hd'
        · exact hi.dead r' q0 h0 hd'
      · intro r' hd
        simp only [setAt_get]
        split
        · rfl
        · exact hi.known r' hd
    · exact hi.setReq hq (by simp only; rw [h1]) h2 h3
  rcases CMgr.reallySend_full v s r q1 draws chan (by rw [h1, h3]; exact hz) with ⟨-, c, hc, hs⟩ |
    ⟨id, cb, c, hk, ⟨e, -, hs⟩ | ⟨w, -, -, hs⟩⟩
  · rw [hs]
    exact (hi.congr (s' := { s with cache := c }) rfl rfl hc).setReq hq (by rw [h1]) h2 h3
  · rw [hs]; exact key id cb c hk
  · rw [hs]; exact (key id cb c hk).congr rfl rfl rfl

theorem CbInv.close {s : CMgr} (hi : CbInv s) {r : Nat} {q : CReq} (hq : s.reqs r = some q)
    (hc : q.callback = true) : CbInv (({ s with cache := s.cache.uncache q.pdu.requestID } : CMgr).setReq r
      { q with callback := false }) := by
  unfold CMgr.setReq
  constructor
  · intro r' q0 h0 hc'
    simp only [setAt_get] at h0
    split at h0
    · injection h0 with h0; subst h0; cases hc'
    · rename_i hne
      have k := hi.cb r' q0 h0 hc'
      unfold Cache.uncache
      simp only
      rw [if_neg]
      · exact k
      · intro he
        rw [he, hi.cb r q hq hc] at k
        injection k with k; injection k with k
        exact hne k.symm
  · intro r' q0 h0 hd
    simp only [setAt_get] at h0
    split at h0
    · injection h0 with h0; subst h0; rfl
    · exact hi.dead r' q0 h0 hd
  · intro r' hd
    simp only [setAt_get]
    split
    · rfl
    · exact hi.known r' hd

/-- A response that is heard uncaches only a collected request. -/
theorem CMgr.hear_cache (v : Version) (s : CMgr) (w : Bytes) (id : Int) (e : CommunityEntry)
    (h : s.cache.outstanding id = some e) (hd : s.dead e.handle = false) :
    (s.hear v w).2.cache.outstanding id = some e := by
  have base : ∀ m, (communityProto.prepareDataElements s.cache s.dead m).2.outstanding id = some e := by
    intro m
    unfold Proto.prepareDataElements
    split
    · exact h
    · rename_i i hi
      split
      · exact h
      · rename_i e' he'
        simp only
        split
        · rename_i hdd
          unfold Cache.uncache
          simp only
          rw [if_neg]
          · exact h
          · rintro rfl
            unfold Cache.retrieve at he'
            rw [h] at he'; injection he' with he'; subst he'
            simp only [communityProto, Bool.and_true] at hdd
            rw [hd] at hdd; cases hdd
        · exact h
  unfold CMgr.hear
  split
  · exact h
  · split
    · exact h
    · split
      · exact h
      · rename_i m _ _
        have hb := base m
        split
        · rename_i heq; rw [heq] at hb; exact hb
        · rename_i heq; rw [heq] at hb; exact hb

theorem CbInv.hear {v : Version} {s : CMgr} (hi : CbInv s) (w : Bytes) : CbInv (s.hear v w).2 := by
  obtain ⟨h1, -, -, h2, -⟩ := CMgr.hear_frame v s w
  refine ⟨?_, by rw [h1, h2]; exact hi.dead, by rw [h1, h2]; exact hi.known⟩
  rw [h1]
  intro r q hq hc
  refine CMgr.hear_cache v s w _ _ (hi.cb r q hq hc) ?_
  cases hd : s.dead r with
  | false => rfl
  | true => rw [hi.dead r q hq hd] at hc; cases hc

/-- Sending a request changes no other one, and does not clear its callback. -/
theorem CMgr.reallySend_cb (v : Version) (s : CMgr) (r : Nat) (q1 : CReq) (draws : Nat → Nat)
    (chan : Option PyErr) (hz : q1.callback = true → q1.pdu.requestID ≠ 0) (r' : Nat) (q : CReq)
    (hq : s.reqs r' = some q) (hc : q.callback = true) (h1 : r' = r → q1.callback = true) :
    ∃ q', (s.reallySend v r q1 draws chan).2.reqs r' = some q' ∧ q'.callback = true := by
  by_cases hr : r' = r
  · have hc1 := h1 hr
    subst hr
    rcases reallySend_full v s r' q1 draws chan hz with ⟨h0, -⟩ |
      ⟨id, cb, c, ⟨h0, -⟩ | ⟨-, -, rfl, -⟩, ⟨e, -, hs⟩ | ⟨w, -, -, hs⟩⟩
    · exact absurd h0 (hz hc1)
    · exact absurd h0 (hz hc1)
    · exact absurd h0 (hz hc1)
    · rw [hs]; exact ⟨_, setAt_same _ _ _, hc1⟩
    · rw [hs]; exact ⟨_, setAt_same _ _ _, hc1⟩
  · obtain ⟨id, cb, cache, sent, hs, -⟩ := reallySend_spec v s r q1 draws chan
    rw [hs]
    exact ⟨q, by simp only; rw [setAt_other _ _ hr]; exact hq, hc⟩

theorem CInv.callbackID {v : Version} {h : List CEvent} {s : CMgr} (hi : CInv v h s) (hb : CbInv s) {r : Nat}
    {q : CReq} (hq : s.reqs r = some q) (hc : q.callback = true) : q.pdu.requestID ≠ 0 :=
  (hi.cached _ _ (hb.cb r q hq hc)).1

theorem CMgr.sendRequest_eq (v : Version) (s : CMgr) (k r : Nat) (pdu : Pdu) (community : Bytes)
    (timeout period t0 t1 : ℚ) (draws : Nat → Nat) (chan : Option PyErr) :
    ∃ heaps, s.sendRequest v k r pdu community timeout period t0 t1 draws chan =
      ({ s.setReq r (CReq.new k pdu community timeout period t0) with heaps } : CMgr).reallySend v r
        ((CReq.new k pdu community timeout period t0).setNextRefresh (t1 + period)) draws chan :=
  ⟨_, rfl⟩

namespace CSys

theorem cbInv_step {v : Version} {h : List CEvent} {s : CSys} (hi : Inv v h s) (hb : CbInv s.mgr) {e : CEvent}
    {s' : CSys} (hm : Chg v s e s') : CbInv s'.mgr := by
  cases hm
  case same h => rw [h]; exact hb
  case created k r pdu community timeout period t0 t1 draws chan hn =>
    simp only
    obtain ⟨heaps, he⟩ := CMgr.sendRequest_eq v s.mgr k r pdu community timeout period t0 t1 draws chan
    rw [he]
    have hd : s.mgr.dead r = false := by
      cases hd : s.mgr.dead r with
      | false => rfl
      | true => have := hb.known r hd; rw [hn] at this; cases this
    have h1 : CbInv ({ s.mgr.setReq r (CReq.new k pdu community timeout period t0) with heaps } : CMgr) := by
      unfold CMgr.setReq
      constructor
      · intro r' q0 h0 hc
        simp only [setAt_get] at h0
        split at h0
        · injection h0 with h0; subst h0; cases hc
        · exact hb.cb r' q0 h0 hc
      · intro r' q0 h0 hd
        simp only [setAt_get] at h0
        split at h0
        · injection h0 with h0; subst h0; rfl
        · exact hb.dead r' q0 h0 hd
      · intro r' hd
        simp only [setAt_get]
        split
        · rfl
        · exact hb.known r' hd
    exact h1.send (v := v) (q := CReq.new k pdu community timeout period t0)
      (q1 := (CReq.new k pdu community timeout period t0).setNextRefresh (t1 + period)) (setAt_same _ _ _) rfl rfl rfl
      (fun h => by cases h) hd draws chan
  case closed hq hc ho h ht => rw [h]; exact hb.close hq hc
  case popped h => rw [h]; exact hb.congr rfl rfl rfl
  case resent t now draws chan _ ref rest q m' _ hh hd h1 h2 h3 h4 hs h =>
    rw [h]
    obtain ⟨hq, hdd⟩ := CMgr.deref_some hd
    have := hb.send (v := v) (q1 := CMgr.resent q now) hq rfl rfl rfl
      (fun hc => hi.mgr.callbackID hb hq hc) hdd draws chan
    rw [hs] at this
    exact this.congr rfl rfl rfl
  case failed t now draws chan _ ref rest q m' err _ hh hd h1 h2 h3 h4 hs h =>
    rw [h]
    obtain ⟨hq, hdd⟩ := CMgr.deref_some hd
    have := hb.send (v := v) (q1 := CMgr.resent q now) hq rfl rfl rfl
      (fun hc => hi.mgr.callbackID hb hq hc) hdd draws chan
    rw [hs] at this
    exact this
  case heard w hr => exact hb.hear w
  case pushed r m q hr hq => exact hb.setReq hq rfl rfl rfl
  case collected r =>
    simp only
    unfold CMgr.collect
    cases hd : s.mgr.deref r with
    | none => exact hb
    | some q =>
      obtain ⟨hq, hdd⟩ := CMgr.deref_some hd
      simp only
      have key : ∀ (m : CMgr), CbInv m → m.dead = s.mgr.dead → (∃ q', m.reqs r = some q' ∧ q'.callback = false) →
          CbInv { m with dead := setAt m.dead r true } := by
        intro m hm hmd ⟨q', hq', hc'⟩
        refine ⟨hm.cb, ?_, ?_⟩
        · intro r' q0 h0 hd0
          simp only [setAt_get] at hd0
          split at hd0
          · rename_i he; subst he
            have : some q' = some q0 := hq'.symm.trans h0
            injection this with this; subst this
            exact hc'
          · exact hm.dead r' q0 h0 hd0
        · intro r' hd0
          simp only [setAt_get] at hd0
          split at hd0
          · rename_i he; subst he; rw [hq']; rfl
          · exact hm.known r' hd0
      split
      · rename_i hc
        rcases CMgr.close_cases s.mgr r q with ⟨-, hf⟩ | ⟨-, h⟩
        · rw [hf] at hc; cases hc
        · rw [h]
          exact key _ (hb.close hq hc) rfl ⟨_, setAt_same _ _ _, rfl⟩
      · rename_i hc
        exact key _ hb rfl ⟨q, hq, by simpa using hc⟩

theorem CbInv.after (v : Version) (g : Nat) (h : List CEvent) : CbInv (CSys.after v g h).mgr := by
  induction h using List.reverseRecOn with
  | nil => exact ⟨fun _ _ h => (by cases h), fun _ _ h => (by cases h), fun _ h => (by cases h)⟩
  | append_singleton h e ih =>
    rw [after_snoc]; exact cbInv_step (Inv.after v g h) ih (step_chg v _ e)

/-- A callback is cleared only at the end of a `wait` with a result, or when the handle is collected. -/
theorem cb_step {v : Version} {h : List CEvent} {s : CSys} (hi : Inv v h s) (hb : CbInv s.mgr) {e : CEvent}
    {s' : CSys} (hm : Chg v s e s') {r : Nat} {q : CReq} (hq : s.mgr.reqs r = some q) (hc : q.callback = true) :
    (∃ q', s'.mgr.reqs r = some q' ∧ q'.callback = true) ∨ e = .collect r ∨
    ∃ t now draws chan o, e = .step t now draws chan ∧ o.IsResult ∧ s'.threads t = .done r o := by
  cases hm
  case same h => rw [h]; exact .inl ⟨q, hq, hc⟩
  case created k r0 pdu community timeout period t0 t1 draws chan hn =>
    left
    simp only
    obtain ⟨heaps, he⟩ := CMgr.sendRequest_eq v s.mgr k r0 pdu community timeout period t0 t1 draws chan
    rw [he]
    have hne : r ≠ r0 := by rintro rfl; rw [hn] at hq; cases hq
    refine CMgr.reallySend_cb v _ r0 _ draws chan (fun h => by cases h) r q ?_ hc (fun h => absurd h hne)
    show setAt s.mgr.reqs r0 _ r = some q
    rw [setAt_other _ _ hne]; exact hq
  case closed t now draws chan r0 q0 o hq0 hc0 ho h ht =>
    by_cases hr : r = r0
    · subst hr
      exact .inr (.inr ⟨t, now, draws, chan, o, rfl, ho, ht⟩)
    · left; rw [h]
      exact ⟨q, by unfold CMgr.setReq; simp only; rw [setAt_other _ _ hr]; exact hq, hc⟩
  case popped h => rw [h]; exact .inl ⟨q, hq, hc⟩
  case resent t now draws chan _ ref rest q0 m' _ hh hd h1 h2 h3 h4 hs h =>
    left; rw [h]
    obtain ⟨hq0, hdd⟩ := CMgr.deref_some hd
    have := CMgr.reallySend_cb v s.mgr ref.id (CMgr.resent q0 now) draws chan
      (fun hc => by have := hi.mgr.callbackID hb hq0 hc; exact this) r q hq hc (by
        rintro rfl; rw [hq] at hq0; injection hq0 with hq0; subst hq0; exact hc)
    rw [hs] at this
    exact this
  case failed t now draws chan _ ref rest q0 m' err _ hh hd h1 h2 h3 h4 hs h =>
    left; rw [h]
    obtain ⟨hq0, hdd⟩ := CMgr.deref_some hd
    have := CMgr.reallySend_cb v s.mgr ref.id (CMgr.resent q0 now) draws chan
      (fun hc => by have := hi.mgr.callbackID hb hq0 hc; exact this) r q hq hc (by
        rintro rfl; rw [hq] at hq0; injection hq0 with hq0; subst hq0; exact hc)
    rw [hs] at this
    exact this
  case heard w hr => left; simp only; rw [(CMgr.hear_frame v s.mgr w).1]; exact ⟨q, hq, hc⟩
  case pushed r0 m q0 hr hq0 =>
    left
    unfold CMgr.setReq
    simp only [setAt_get]
    split
    · rename_i he; subst he
      rw [hq] at hq0; injection hq0 with hq0; subst hq0
      exact ⟨_, rfl, hc⟩
    · exact ⟨q, hq, hc⟩
  case collected r0 =>
    by_cases hr : r0 = r
    · subst hr; exact .inr (.inl rfl)
    · left
      simp only
      unfold CMgr.collect
      split
      · exact ⟨q, hq, hc⟩
      · rename_i q0 hd
        simp only
        split
        · rcases CMgr.close_cases s.mgr r0 q0 with ⟨h, -⟩ | ⟨-, h⟩
          · rw [h]; exact ⟨q, hq, hc⟩
          · rw [h]
            exact ⟨q, by unfold CMgr.setReq; simp only; rw [setAt_other _ _ (Ne.symm hr)]; exact hq, hc⟩
        · exact ⟨q, hq, hc⟩

/-- A callback is set only by `sendRequest` or, for a request without an ID, by a resend; it never comes back. -/
theorem cb_clear {v : Version} {h : List CEvent} {s : CSys} (hi : Inv v h s) (hb : CbInv s.mgr) {e : CEvent}
    {s' : CSys} (hm : Chg v s e s') {r : Nat} {q : CReq} (hq : s.mgr.reqs r = some q) (hc : q.callback = false)
    (hz : q.pdu.requestID ≠ 0) :
    ∃ q', s'.mgr.reqs r = some q' ∧ q'.callback = false ∧ q'.pdu.requestID ≠ 0 := by
  have send : ∀ (m : CMgr) r0 (q1 : CReq) draws chan, (q1.callback = true → q1.pdu.requestID ≠ 0) →
      m.reqs r = some q → (r = r0 → q1.callback = false ∧ q1.pdu.requestID ≠ 0) →
      ∃ q', (m.reallySend v r0 q1 draws chan).2.reqs r = some q' ∧ q'.callback = false ∧ q'.pdu.requestID ≠ 0 := by
    intro m r0 q1 draws chan hz1 hq1 h1
    by_cases hr : r = r0
    · obtain ⟨hc1, h0'⟩ := h1 hr
      subst hr
      rcases CMgr.reallySend_full v m r q1 draws chan hz1 with ⟨h0, -⟩ |
        ⟨id, cb, c, ⟨h0, -⟩ | ⟨-, rfl, rfl, -⟩, ⟨e, -, hs⟩ | ⟨w, -, -, hs⟩⟩
      · exact absurd h0 h0'
      · exact absurd h0 h0'
      · exact absurd h0 h0'
      · rw [hs]; exact ⟨_, setAt_same _ _ _, hc1, h0'⟩
      · rw [hs]; exact ⟨_, setAt_same _ _ _, hc1, h0'⟩
    · obtain ⟨id, cb, cache, sent, hs, -⟩ := CMgr.reallySend_spec v m r0 q1 draws chan
      rw [hs]
      exact ⟨q, by simp only; rw [setAt_other _ _ hr]; exact hq1, hc, hz⟩
  have close : ∀ r0 (q0 : CReq) (m : CMgr), s.mgr.reqs r0 = some q0 → m.reqs = s.mgr.reqs →
      ∃ q', (m.setReq r0 { q0 with callback := false }).reqs r = some q' ∧ q'.callback = false ∧
        q'.pdu.requestID ≠ 0 := by
    intro r0 q0 m h0 hm
    unfold CMgr.setReq
    simp only [setAt_get]
    split
    · rename_i he; subst he
      rw [hq] at h0; injection h0 with h0; subst h0
      exact ⟨_, rfl, rfl, hz⟩
    · exact ⟨q, by rw [hm]; exact hq, hc, hz⟩
  cases hm
  case same h => rw [h]; exact ⟨q, hq, hc, hz⟩
  case created k r0 pdu community timeout period t0 t1 draws chan hn =>
    simp only
    obtain ⟨heaps, he⟩ := CMgr.sendRequest_eq v s.mgr k r0 pdu community timeout period t0 t1 draws chan
    rw [he]
    have hne : r ≠ r0 := by rintro rfl; rw [hn] at hq; cases hq
    refine send _ r0 _ draws chan (fun h => by cases h) ?_ (fun h => absurd h hne)
    show setAt s.mgr.reqs r0 _ r = some q
    rw [setAt_other _ _ hne]; exact hq
  case closed t now draws chan r0 q0 o hq0 hc0 ho h ht =>
    rw [h]; exact close r0 q0 _ hq0 rfl
  case popped h => rw [h]; exact ⟨q, hq, hc, hz⟩
  case resent t now draws chan _ ref rest q0 m' _ hh hd h1 h2 h3 h4 hs h =>
    rw [h]
    obtain ⟨hq0, hdd⟩ := CMgr.deref_some hd
    have := send s.mgr ref.id (CMgr.resent q0 now) draws chan (fun hc => by have := hi.mgr.callbackID hb hq0 hc; exact this) hq (by
        rintro rfl; rw [hq] at hq0; injection hq0 with hq0; subst hq0; exact ⟨hc, hz⟩)
    rw [hs] at this
    exact this
  case failed t now draws chan _ ref rest q0 m' err _ hh hd h1 h2 h3 h4 hs h =>
    rw [h]
    obtain ⟨hq0, hdd⟩ := CMgr.deref_some hd
    have := send s.mgr ref.id (CMgr.resent q0 now) draws chan (fun hc => by have := hi.mgr.callbackID hb hq0 hc; exact this) hq (by
        rintro rfl; rw [hq] at hq0; injection hq0 with hq0; subst hq0; exact ⟨hc, hz⟩)
    rw [hs] at this
    exact this
  case heard w hr => simp only; rw [(CMgr.hear_frame v s.mgr w).1]; exact ⟨q, hq, hc, hz⟩
  case pushed r0 m q0 hr hq0 =>
    unfold CMgr.setReq
    simp only [setAt_get]
    split
    · rename_i he; subst he
      rw [hq] at hq0; injection hq0 with hq0; subst hq0
      exact ⟨_, rfl, hc, hz⟩
    · exact ⟨q, hq, hc, hz⟩
  case collected r0 =>
    simp only
    unfold CMgr.collect
    split
    · exact ⟨q, hq, hc, hz⟩
    · rename_i q0 hd
      simp only
      split
      · rcases CMgr.close_cases s.mgr r0 q0 with ⟨h, -⟩ | ⟨-, h⟩
        · rw [h]; exact ⟨q, hq, hc, hz⟩
        · rw [h]; exact close r0 q0 _ (CMgr.deref_some hd).1 rfl
      · exact ⟨q, hq, hc, hz⟩

/-- A `wait` that gives a result closes the request, whose callback was set. -/
theorem finishing {v : Version} {s : CSys} {e : CEvent} {t r : Nat} {o : Outcome} (ho : o.IsResult)
    (h0 : s.threads t ≠ .done r o) (h1 : (s.step v e).threads t = .done r o) :
    ∃ q, s.mgr.reqs r = some q ∧ q.callback = true ∧ (s.step v e).mgr = (s.mgr.close r q).2 ∧
      ∃ now draws chan, e = .step t now draws chan := by
  have fin : ∀ (q : CReq) p r0 now draws chan, e = .step t now draws chan → s.mgr.reqs r0 = some q →
      s.step v e = s.finish t r0 q p →
      ∃ q, s.mgr.reqs r = some q ∧ q.callback = true ∧ (s.step v e).mgr = (s.mgr.close r q).2 ∧
        ∃ now draws chan, e = .step t now draws chan := by
    intro q p r0 now draws chan he hq hs
    obtain ⟨-, h2, ⟨hc, h3⟩ | ⟨hc, h3⟩⟩ := finish_cases s t r0 q p
    · rw [hs, h3, setAt_same] at h1; injection h1 with a b; exact absurd b.symm (ho _)
    · rw [hs, h3, setAt_same] at h1; injection h1 with a b; subst a
      exact ⟨q, hq, hc, by rw [hs, h2], now, draws, chan, he⟩
  rcases step_threads v s e t with hs | ⟨r', -, -, hs⟩ | ⟨now, draws, chan, he, hs⟩
  · rw [hs] at h1; exact absurd h1 h0
  · rw [hs] at h1; cases h1
  · have hstep : s.step v e = s.advance v t now draws chan := by rw [he]; rfl
    have h2 := h1
    rw [hstep] at h2
    unfold advance at h2
    split at h2
    · exact absurd h2 h0
    · exact absurd h2 h0
    · rename_i r0 ht
      split at h2
      · exact absurd h2 h0
      · rename_i q hq
        split at h2
        · rename_i hx
          refine fin q none r0 now draws chan he hq ?_
          rw [hstep]; unfold advance; rw [ht]; simp only; rw [hq]; simp only; rw [if_pos hx]
        · simp only [setAt_same] at h2; cases h2
    · split at h2 <;> (simp only [setAt_same] at h2; cases h2)
    · split at h2
      · simp only [setAt_same] at h2; injection h2 with a b; exact absurd b.symm (ho _)
      · simp only [setAt_same] at h2; cases h2
      · simp only [setAt_same] at h2; cases h2
    · rename_i r0 timeout since ht
      split at h2
      · exact absurd h2 h0
      · rename_i q hq
        split at h2
        · rename_i hev
          split at h2
          · simp only [setAt_same] at h2; injection h2 with a b; exact absurd b.symm (ho _)
          · rename_i m hm
            refine fin q (some m.pdu) r0 now draws chan he hq ?_
            rw [hstep]; unfold advance; rw [ht]; simp only; rw [hq]; simp only; rw [if_pos hev, hm]
        · split at h2
          · exact absurd h2 h0
          · split at h2
            · simp only [setAt_same] at h2; cases h2
            · exact absurd h2 h0

end CSys

/-- **C65** (v1/v2c), the part that holds: once a `wait` on a request has given a result, no other `wait` on it,
running or called later, by any thread, gives one (it raises some other exception, or never ends). So no two
results of one request disagree. -/
theorem C65_partial (v : Version) (g : Nat) (h : List CEvent) (e : CEvent) (h' : List CEvent) (e' : CEvent)
    (t t' r : Nat) (o o' : Outcome) (ho : o.IsResult) (ho' : o'.IsResult)
    (h0 : (CSys.after v g h).threads t ≠ .done r o) (h1 : (CSys.after v g (h ++ [e])).threads t = .done r o)
    (h2 : (CSys.after v g (h ++ [e] ++ h')).threads t' ≠ .done r o') :
    (CSys.after v g (h ++ [e] ++ h' ++ [e'])).threads t' ≠ .done r o' := by
  intro h3
  rw [CSys.after_snoc] at h1 h3
  obtain ⟨q, hq, hc, hs, -⟩ := CSys.finishing ho h0 h1
  have base : ∃ q', (CSys.after v g (h ++ [e])).mgr.reqs r = some q' ∧ q'.callback = false ∧ q'.pdu.requestID ≠ 0 := by
    rw [CSys.after_snoc, hs]
    rcases CMgr.close_cases (CSys.after v g h).mgr r q with ⟨-, hf⟩ | ⟨-, hk⟩
    · rw [hf] at hc; cases hc
    · rw [hk]
      have hz := (CSys.Inv.after v g h).mgr.callbackID (CSys.CbInv.after v g h) hq hc
      exact ⟨_, setAt_same _ _ _, rfl, hz⟩
  have key : ∃ q', (CSys.after v g (h ++ [e] ++ h')).mgr.reqs r = some q' ∧ q'.callback = false ∧
      q'.pdu.requestID ≠ 0 := by
    clear h2 h3
    induction h' using List.reverseRecOn with
    | nil => rw [List.append_nil]; exact base
    | append_singleton h' e1 ih =>
      obtain ⟨q1, a, b, c⟩ := ih
      rw [← List.append_assoc, CSys.after_snoc]
      exact CSys.cb_clear (CSys.Inv.after v g _) (CSys.CbInv.after v g _) (CSys.step_chg v _ e1) a b c
  obtain ⟨q', hq', hc', -⟩ := key
  obtain ⟨q2, hq2, hc2, -⟩ := CSys.finishing ho' h2 h3
  rw [hq'] at hq2; injection hq2 with hq2; subst hq2
  rw [hc'] at hc2; cases hc2

/-- A pending request has its callback set and is alive. -/
theorem Spec.Pending.callback {v : Version} {g : Nat} {h : List CEvent} {r : Nat} (hp : Spec.Pending v g h r) :
    ∃ q, (CSys.after v g h).mgr.reqs r = some q ∧ q.callback = true ∧ (CSys.after v g h).mgr.dead r = false := by
  obtain ⟨⟨k, h1, h2, pdu, community, timeout, period, t0, t1, draws, chan, rfl, hz, hn, hok⟩, hk, hu⟩ := hp
  suffices hs : ∃ q, (CSys.after v g (h1 ++ .send k r pdu community timeout period t0 t1 draws chan :: h2)).mgr.reqs r =
      some q ∧ q.callback = true by
    obtain ⟨q, hq, hc⟩ := hs
    refine ⟨q, hq, hc, ?_⟩
    have := (CSys.CbInv.after v g (h1 ++ .send k r pdu community timeout period t0 t1 draws chan :: h2)).dead r q hq
    rw [hc] at this
    simpa using this
  induction h2 using List.reverseRecOn with
  | nil =>
    rw [CSys.after_snoc]
    obtain ⟨heaps, he⟩ := CMgr.sendRequest_eq v (CSys.after v g h1).mgr k r pdu community timeout period t0 t1 draws chan
    have hstep : ((CSys.after v g h1).step v (.send k r pdu community timeout period t0 t1 draws chan)).mgr =
        ((CSys.after v g h1).mgr.sendRequest v k r pdu community timeout period t0 t1 draws chan).2 := by
      unfold CSys.step; simp only; rw [hn]; rfl
    rw [hstep]
    rw [he] at hok ⊢
    rcases CMgr.reallySend_full v
      ({ (CSys.after v g h1).mgr.setReq r (CReq.new k pdu community timeout period t0) with heaps } : CMgr) r
      ((CReq.new k pdu community timeout period t0).setNextRefresh (t1 + period)) draws chan (fun h => by cases h) with
      ⟨-, c, -, hs⟩ | ⟨id, cb, c, hkk, ⟨e, -, hs⟩ | ⟨w, -, -, hs⟩⟩
    · rw [hs] at hok; cases hok
    · rw [hs] at hok; cases hok
    · rw [hs]
      refine ⟨_, setAt_same _ _ _, ?_⟩
      rcases hkk with ⟨-, -, kk, -⟩ | ⟨kk, -⟩
      · exact kk
      · exact absurd hz kk
  | append_singleton h2 e ih =>
    have happ : h1 ++ .send k r pdu community timeout period t0 t1 draws chan :: (h2 ++ [e]) =
        (h1 ++ .send k r pdu community timeout period t0 t1 draws chan :: h2) ++ [e] := by simp
    rw [happ] at hk hu ⊢
    obtain ⟨q, hq, hc⟩ := ih (fun hm => hk (List.mem_append_left _ hm)) (fun a b t o hab => hu a (b ++ [e]) t o (by rw [hab]; simp))
    rw [CSys.after_snoc]
    rcases CSys.cb_step (CSys.Inv.after v g _) (CSys.CbInv.after v g _) (CSys.step_chg v _ e) hq hc with h | h |
      ⟨t, now, draws', chan', o, -, ho, ht⟩
    · exact h
    · exact absurd (by rw [h]; simp) hk
    · exact absurd ho (hu _ [] t o (by rw [List.append_nil]) (by rw [CSys.after_snoc]; exact ht))

/-- If the decoder accepts a message then the version probe does. -/
theorem version_probe {types : List PduType} {w : Bytes} {y : Message × Subbytes}
    (h : Message.decode types (.bytes w) = .ok y) : ∃ tail, VersionOnly.decode (.bytes w) = .ok (y.1.version, tail) := by
  obtain ⟨y, yt⟩ := y
  have h2 := h
  unfold Message.decode asn1Decode at h2
  obtain ⟨⟨d, enc, tl⟩, hd, h2⟩ := bind_ok h2
  obtain ⟨b, hb, h2⟩ := bind_ok h2
  have hb0 := hb
  unfold Message.deserialize at hb
  obtain ⟨⟨ver, p⟩, hv, hb⟩ := bind_ok hb
  suffices hs : VersionOnly.decode (.bytes w) = .ok (ver, tl) by
    exact ⟨tl, by rw [hs, version_agree hs h]⟩
  unfold VersionOnly.decode asn1Decode
  rw [hd]
  simp only [Except.bind]
  unfold VersionOnly.deserialize
  rw [hv]
  rfl

/-- **C84** (v1/v2c). A datagram that is a response, in the manager's version, with the request's ID and community
reaches the handle while the request is pending: it is what the listener pushes, whatever else happened before. -/
theorem C84_delivered (v : Version) (g : Nat) (h : List CEvent) (r : Nat) (q : CReq) (w : Bytes) (m : Message)
    (tail : Subbytes) (hp : Spec.Pending v g h r) (hq : (CSys.after v g h).mgr.reqs r = some q)
    (hrecv : (CSys.after v g h).recv = none)
    (hw : Message.decode (if v = .v1 then v1Types else v2Types) (.bytes w) = .ok (m, tail))
    (hv : m.version = v) (ht : m.pdu.type = .response) (hid : m.pdu.requestID = q.pdu.requestID)
    (hcom : m.community = q.community) :
    (CSys.after v g (h ++ [.hear w])).recv = some (r, m) ∧
    (CSys.after v g (h ++ [.hear w, .push])).mgr.reqs r = some { q with response := some m, event := true } := by
  obtain ⟨q', hq', hc, hd⟩ := hp.callback
  rw [hq] at hq'; injection hq' with hq'; subst hq'
  have hcache := (CSys.CbInv.after v g h).cb r q hq hc
  obtain ⟨tl, hver⟩ := version_probe hw
  have hear : ((CSys.after v g h).mgr.hear v w).1 = some (r, m) := by
    have hpde : (communityProto.prepareDataElements (CSys.after v g h).mgr.cache (CSys.after v g h).mgr.dead m).1 =
        .ok r := by
      unfold Proto.prepareDataElements
      simp only [communityProto, ht, ↓reduceIte, Cache.retrieve, hid]
      rw [hcache]
      simp [Proto.resolve, hd, hcom, Except.bind]
    unfold CMgr.hear
    rw [hver]
    simp only [hv, ne_eq, not_true_eq_false, ↓reduceIte]
    rw [hw]
    simp only
    generalize communityProto.prepareDataElements (CSys.after v g h).mgr.cache (CSys.after v g h).mgr.dead m = x at *
    obtain ⟨res, c⟩ := x
    simp only at hpde
    subst hpde
    rfl
  have h1 : (CSys.after v g (h ++ [.hear w])).recv = some (r, m) := by
    rw [CSys.after_snoc]
    unfold CSys.step
    simp only
    rw [hrecv]
    exact hear
  have h2 : (CSys.after v g (h ++ [.hear w])).mgr.reqs r = some q := by
    rw [CSys.after_snoc]
    unfold CSys.step
    simp only
    rw [hrecv]
    simp only
    rw [(CMgr.hear_frame v _ w).1]; exact hq
  refine ⟨h1, ?_⟩
  have happ : h ++ [.hear w, .push] = (h ++ [.hear w]) ++ [.push] := by simp
  rw [happ, CSys.after_snoc]
  generalize CSys.after v g (h ++ [.hear w]) = s at *
  unfold CSys.step
  simp only
  rw [h1]
  simp only
  rw [h2]
  exact setAt_same _ _ _

/-- **C84** (v1/v2c), end to end. If moreover a thread sleeps in `wait` on the request, its next step, at whatever
clock reading, ends `wait` with the bindings of that response, or with `ErrorResponse` if it reports an error. -/
theorem C84_wait (v : Version) (g : Nat) (h : List CEvent) (r : Nat) (q : CReq) (w : Bytes) (m : Message)
    (tail : Subbytes) (hp : Spec.Pending v g h r) (hq : (CSys.after v g h).mgr.reqs r = some q)
    (hrecv : (CSys.after v g h).recv = none)
    (hw : Message.decode (if v = .v1 then v1Types else v2Types) (.bytes w) = .ok (m, tail))
    (hv : m.version = v) (ht : m.pdu.type = .response) (hid : m.pdu.requestID = q.pdu.requestID)
    (hcom : m.community = q.community) (t : Nat) (timeout : Option ℚ) (since now : ℚ) (draws : Nat → Nat)
    (chan : Option PyErr) (hth : (CSys.after v g h).threads t = .sleep r timeout since) :
    (CSys.after v g (h ++ [.hear w, .push, .step t now draws chan])).threads t = .done r
      (if m.pdu.first = 0 then .bindings m.pdu.bindings else .errorResponse m.pdu.first m.pdu.second q.pdu) := by
  obtain ⟨q', hq', hc, -⟩ := hp.callback
  rw [hq] at hq'; injection hq' with hq'; subst hq'
  obtain ⟨h1, h2⟩ := C84_delivered v g h r q w m tail hp hq hrecv hw hv ht hid hcom
  have hth1 : (CSys.after v g (h ++ [.hear w, .push])).threads t = .sleep r timeout since := by
    have happ : h ++ [.hear w, .push] = (h ++ [.hear w]) ++ [.push] := by simp
    rw [happ, CSys.after_snoc, CSys.after_snoc]
    rcases CSys.step_threads v ((CSys.after v g h).step v (.hear w)) .push t with hs | ⟨_, he, -⟩ | ⟨_, _, _, he, -⟩
    · rw [hs]
      rcases CSys.step_threads v (CSys.after v g h) (.hear w) t with hs | ⟨_, he, -⟩ | ⟨_, _, _, he, -⟩
      · rw [hs]; exact hth
      · cases he
      · cases he
    · cases he
    · cases he
  have happ : h ++ [.hear w, .push, .step t now draws chan] = (h ++ [.hear w, .push]) ++ [.step t now draws chan] := by
    simp
  rw [happ, CSys.after_snoc]
  generalize CSys.after v g (h ++ [.hear w, .push]) = s at *
  show (s.advance v t now draws chan).threads t = _
  unfold CSys.advance
  rw [hth1]
  simp only
  rw [h2]
  simp only [if_true]
  obtain ⟨-, -, ⟨hf, -⟩ | ⟨-, hk⟩⟩ := CSys.finish_cases s t r { q with response := some m, event := true } (some m.pdu)
  · simp only at hf; rw [hf] at hc; cases hc
  · rw [hk, setAt_same]
    by_cases h0 : m.pdu.first = 0
    · simp [h0]
    · simp [h0]

/-- **C66** (v1/v2c), the part that holds: a PDU whose request ID is 0 (one that was not sent before) can be sent:
while its request is pending, `wait`, when the expiration has passed, raises `Timeout` (for its response, see C84). -/
theorem C66_partial (v : Version) (g : Nat) (h : List CEvent) (r : Nat) (hp : Spec.Pending v g h r) (q : CReq)
    (hq : (CSys.after v g h).mgr.reqs r = some q) (t : Nat) (ht : (CSys.after v g h).threads t = .test r) (now : ℚ)
    (hnow : q.expiration ≤ now) (draws : Nat → Nat) (chan : Option PyErr) :
    (CSys.after v g (h ++ [.step t now draws chan])).threads t = .done r .timeout := by
  obtain ⟨q', hq', hc, -⟩ := hp.callback
  rw [hq] at hq'; injection hq' with hq'; subst hq'
  rw [CSys.after_snoc]
  generalize CSys.after v g h = s at *
  show (s.advance v t now draws chan).threads t = _
  unfold CSys.advance
  rw [ht]
  simp only
  rw [hq]
  simp only
  rw [if_pos hnow]
  obtain ⟨-, -, ⟨hf, -⟩ | ⟨-, hk⟩⟩ := CSys.finish_cases s t r q none
  · rw [hf] at hc; cases hc
  · rw [hk, setAt_same]

/-! ## Examples -/

theorem CSys.idle_of_absent (v : Version) (g : Nat) (h : List CEvent) (t : Nat) (hn : ∀ r, .wait t r ∉ h) :
    (CSys.after v g h).threads t = .idle := by
  induction h using List.reverseRecOn with
  | nil => rfl
  | append_singleton h e ih =>
    have ih := ih (fun r hm => hn r (List.mem_append_left _ hm))
    rw [CSys.after_snoc]
    rcases CSys.step_threads v (CSys.after v g h) e t with hs | ⟨r', he, -⟩ | ⟨now, draws, chan, he, hs⟩
    · rw [hs]; exact ih
    · exact absurd (by rw [he]; simp) (hn r')
    · rw [hs]
      have ha := (CSys.advance_threads v (CSys.after v g h) t now draws chan).2
      rw [ih] at ha
      exact ha

/-- Only thread 0 waits; whether it ever ended a `wait` can be computed. -/
theorem Spec.unfinished_of (v : Version) (g : Nat) (h : List CEvent) (r : Nat) (hw : ∀ t r, .wait t r ∈ h → t = 0)
    (hc : ∀ n, n < h.length + 1 → ∀ o, (CSys.after v g (h.take n)).threads 0 ≠ .done r o) (h1 h2 : List CEvent)
    (t : Nat) (o : Outcome) (he : h = h1 ++ h2) (ht : (CSys.after v g h1).threads t = .done r o) : ¬ o.IsResult := by
  by_cases h0 : t = 0
  · subst h0
    refine absurd ?_ (hc h1.length (by rw [he]; simp; omega) o)
    rw [he, List.take_left]; exact ht
  · rw [CSys.idle_of_absent v g h1 t (fun r hm => h0 (hw t r (by rw [he]; exact List.mem_append_left _ hm)))] at ht
    cases ht

def Pc.isDone : Pc → Bool
  | .done _ _ => true
  | _ => false

/-- Non-vacuity of C84 and C66: a request is pending while a thread sleeps in `wait` on it, and also when `wait`
is called after its expiration. -/
theorem C84_example (v : Version) (hv : v = .v1 ∨ v = .v2c) :
    (let h := [Spec.issue 0 10 1, .wait 0 0, Spec.tick 0 0, Spec.tick 0 0, Spec.tick 0 0];
      Spec.Pending v 1 h 0 ∧ (CSys.after v 1 h).threads 0 = .sleep 0 (some 1) 0 ∧ (CSys.after v 1 h).recv = none ∧
      ((CSys.after v 1 h).mgr.reqs 0).map (fun q => (q.pdu.requestID, q.community)) = some (1, [])) ∧
    (let h := [Spec.issue 0 10 1, .wait 0 0];
      Spec.Pending v 1 h 0 ∧ (CSys.after v 1 h).threads 0 = .test 0 ∧
      ((CSys.after v 1 h).mgr.reqs 0).map CReq.expiration = some 10) := by
  have aux : ∀ (h : List CEvent), (∀ t r, CEvent.wait t r ∈ h → t = 0) →
      (∀ n, n < h.length + 1 → ((CSys.after v 1 (h.take n)).threads 0).isDone = false) →
      ∀ h1 h2 t o, h = h1 ++ h2 → (CSys.after v 1 h1).threads t = .done 0 o → ¬ o.IsResult := by
    intro h hw hc
    refine Spec.unfinished_of v 1 h 0 hw ?_
    intro n hn o ho
    have := hc n hn
    rw [ho] at this; cases this
  have sent : ((CSys.after v 1 []).mgr.sendRequest v 0 0 Spec.emptyGet [] 10 1 0 0 (fun _ => 1) none).1 = .ok () := by
    rcases hv with rfl | rfl <;> decide +kernel
  refine ⟨⟨⟨⟨0, [], [.wait 0 0, Spec.tick 0 0, Spec.tick 0 0, Spec.tick 0 0], Spec.emptyGet, [], 10, 1, 0, 0,
      (fun _ => 1), none, rfl, rfl, rfl, sent⟩, ?_, ?_⟩, ?_⟩, ⟨⟨0, [], [.wait 0 0], Spec.emptyGet, [], 10, 1, 0, 0,
      (fun _ => 1), none, rfl, rfl, rfl, sent⟩, ?_, ?_⟩, ?_⟩
  · intro hm; simp [Spec.issue, Spec.tick] at hm
  · refine aux _ ?_ ?_
    · intro t r hm; simp [Spec.issue, Spec.tick] at hm; exact hm.1
    · rcases hv with rfl | rfl <;> decide +kernel
  · rcases hv with rfl | rfl <;> decide +kernel
  · intro hm; simp [Spec.issue] at hm
  · refine aux _ ?_ ?_
    · intro t r hm; simp [Spec.issue] at hm; exact hm.1
    · rcases hv with rfl | rfl <;> decide +kernel
  · rcases hv with rfl | rfl <;> decide +kernel

end Snmp
