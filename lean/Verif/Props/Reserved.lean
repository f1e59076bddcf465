import Verif.Props.V3Deliver
import Verif.Props.CommunityMatch
/-!
# C113: request IDs and message IDs are given back
-/

namespace Snmp

/-! ## Specification -/

/-- v1/v2c: the request ID `id` is reserved for request `r`: it is kept out of circulation, and a response with it is
looked up as an answer to `r`. -/
def Spec.ReservedC (s : CSys) (r : Nat) (id : Int) : Prop :=
  ∃ e, s.mgr.cache.outstanding id = some e ∧ e.handle = r

/-- v3: the message ID `id` is reserved for a message that was made for request `r`. -/
def Spec.Reserved (s : VSys) (r : Nat) (id : Int) : Prop :=
  ∃ e msg, s.mgr.cache.outstanding id = some e ∧ s.mgr.msgs e.handle = some msg ∧ msg.request = r

/-! ## v1/v2c -/

/-- Every reserved ID is that of a request whose callback is set. -/
def CRes (s : CMgr) : Prop :=
  ∀ id e, s.cache.outstanding id = some e → ∃ q, s.reqs e.handle = some q ∧ q.pdu.requestID = id ∧ q.callback = true

theorem CRes.send {v : Version} {s : CMgr} (hi : CRes s) {r : Nat} {q q1 : CReq} (hq : s.reqs r = some q)
    (h1 : q1.pdu = q.pdu) (h3 : q1.callback = q.callback) (hz : q.callback = true → q.pdu.requestID ≠ 0)
    (draws : Nat → Nat) (chan : Option PyErr) : CRes (s.reallySend v r q1 draws chan).2 := by
  have key : ∀ id cb (c : Cache CommunityEntry),
      ((q1.pdu.requestID = 0 ∧ id ≠ 0 ∧ cb = true ∧ s.cache.outstanding id = none ∧
          ∀ i, c.outstanding i = if i = id then some ⟨r, q1.community⟩ else s.cache.outstanding i) ∨
        (q1.pdu.requestID ≠ 0 ∧ id = q1.pdu.requestID ∧ cb = q1.callback ∧ c = s.cache)) →
      CRes (({ s with cache := c } : CMgr).setReq r
        { q1 with pdu := { q1.pdu with requestID := id }, callback := cb }) := by
    intro id cb c hk i e he
    unfold CMgr.setReq at he ⊢
    simp only at he ⊢
    rcases hk with ⟨k0, k1, rfl, k2, k3⟩ | ⟨k0, rfl, rfl, rfl⟩
    · rw [k3] at he
      by_cases hid : i = id
      · rw [if_pos hid] at he; cases he
        exact ⟨_, setAt_same _ _ _, hid.symm, rfl⟩
      · rw [if_neg hid] at he
        obtain ⟨q', a, b, d⟩ := hi i e he
        by_cases hr : e.handle = r
        · rw [hr, hq] at a; cases a
          exact absurd (by rw [← h1]; exact k0) (hz d)
        · exact ⟨q', by rw [setAt_other _ _ hr]; exact a, b, d⟩
    · obtain ⟨q', a, b, d⟩ := hi i e he
      by_cases hr : e.handle = r
      · rw [hr, hq] at a; cases a
        rw [hr]
        exact ⟨_, setAt_same _ _ _, by simp only; rw [h1]; exact b, by simp only; rw [h3]; exact d⟩
      · exact ⟨q', by rw [setAt_other _ _ hr]; exact a, b, d⟩
  rcases CMgr.reallySend_full v s r q1 draws chan (by rw [h1, h3]; exact hz) with ⟨k0, c, hc, hs⟩ |
    ⟨id, cb, c, hk, ⟨e, -, hs⟩ | ⟨w, -, -, hs⟩⟩
  · rw [hs]
    intro i e he
    unfold CMgr.setReq at he ⊢
    simp only at he ⊢
    rw [hc] at he
    obtain ⟨q', a, b, d⟩ := hi i e he
    by_cases hr : e.handle = r
    · rw [hr, hq] at a; cases a
      exact absurd (by rw [← h1]; exact k0) (hz d)
    · exact ⟨q', by rw [setAt_other _ _ hr]; exact a, b, d⟩
  · rw [hs]; exact key id cb c hk
  · rw [hs]; exact key id cb c hk

theorem CRes.close {s : CMgr} (hi : CRes s) {r : Nat} {q : CReq} (hq : s.reqs r = some q) :
    CRes (({ s with cache := s.cache.uncache q.pdu.requestID } : CMgr).setReq r { q with callback := false }) := by
  intro i e he
  unfold CMgr.setReq Cache.uncache at he
  simp only at he
  split at he
  · cases he
  · rename_i hne
    obtain ⟨q', a, b, d⟩ := hi i e he
    by_cases hr : e.handle = r
    · rw [hr, hq] at a; cases a
      exact absurd b.symm hne
    · exact ⟨q', by unfold CMgr.setReq; simp only; rw [setAt_other _ _ hr]; exact a, b, d⟩

theorem CMgr.hear_less (v : Version) (s : CMgr) (w : Bytes) (id : Int) (e : CommunityEntry)
    (h : (s.hear v w).2.cache.outstanding id = some e) : s.cache.outstanding id = some e := by
  have base : ∀ m, (communityProto.prepareDataElements s.cache s.dead m).2.outstanding id = some e →
      s.cache.outstanding id = some e := by
    intro m h
    unfold Proto.prepareDataElements at h
    split at h
    · exact h
    · split at h
      · exact h
      · simp only at h
        split at h
        · unfold Cache.uncache at h
          simp only at h
          split at h
          · cases h
          · exact h
        · exact h
  unfold CMgr.hear at h
  split at h
  · exact h
  · split at h
    · exact h
    · split at h
      · exact h
      · rename_i m _ _
        have hb := base m
        split at h
        · rename_i heq; rw [heq] at hb; exact hb h
        · rename_i heq; rw [heq] at hb; exact hb h

namespace CSys

theorem res_step {v : Version} {h : List CEvent} {s : CSys} (hi : Inv v h s) (hb : CbInv s.mgr) (hr : CRes s.mgr)
    {e : CEvent} {s' : CSys} (hm : Chg v s e s') : CRes s'.mgr := by
  cases hm
  case same h => rw [h]; exact hr
  case created k r pdu community timeout period t0 t1 draws chan hn =>
    simp only
    obtain ⟨heaps, he⟩ := CMgr.sendRequest_eq v s.mgr k r pdu community timeout period t0 t1 draws chan
    rw [he]
    have h1 : CRes ({ s.mgr.setReq r (CReq.new k pdu community timeout period t0) with heaps } : CMgr) := by
      intro i e he
      obtain ⟨q', a, b, d⟩ := hr i e he
      have hne : e.handle ≠ r := by intro hh; rw [hh, hn] at a; cases a
      exact ⟨q', by unfold CMgr.setReq; simp only; rw [setAt_other _ _ hne]; exact a, b, d⟩
    exact h1.send (v := v) (q := CReq.new k pdu community timeout period t0)
      (q1 := (CReq.new k pdu community timeout period t0).setNextRefresh (t1 + period)) (setAt_same _ _ _) rfl rfl
      (fun h => by cases h) draws chan
  case closed hq hc ho h ht => rw [h]; exact hr.close hq
  case popped h => rw [h]; exact hr
  case resent t now draws chan _ ref rest q m' _ hh hd h1 h2 h3 h4 hs h =>
    rw [h]
    obtain ⟨hq, hdd⟩ := CMgr.deref_some hd
    have := hr.send (v := v) (q1 := CMgr.resent q now) hq rfl rfl (fun hc => hi.mgr.callbackID hb hq hc) draws chan
    rw [hs] at this
    exact this
  case failed t now draws chan _ ref rest q m' err _ hh hd h1 h2 h3 h4 hs h =>
    rw [h]
    obtain ⟨hq, hdd⟩ := CMgr.deref_some hd
    have := hr.send (v := v) (q1 := CMgr.resent q now) hq rfl rfl (fun hc => hi.mgr.callbackID hb hq hc) draws chan
    rw [hs] at this
    exact this
  case heard w hrr =>
    intro i e he
    simp only at he ⊢
    rw [(CMgr.hear_frame v s.mgr w).1]
    exact hr i e (CMgr.hear_less v s.mgr w i e he)
  case pushed r m q hrr hq =>
    intro i e he
    obtain ⟨q', a, b, d⟩ := hr i e he
    unfold CMgr.setReq
    simp only
    by_cases hh : e.handle = r
    · rw [hh, hq] at a; cases a
      rw [hh]; exact ⟨_, setAt_same _ _ _, b, d⟩
    · exact ⟨q', by rw [setAt_other _ _ hh]; exact a, b, d⟩
  case collected r =>
    simp only
    unfold CMgr.collect
    cases hd : s.mgr.deref r with
    | none => exact hr
    | some q =>
      obtain ⟨hq, hdd⟩ := CMgr.deref_some hd
      simp only
      split
      · rcases CMgr.close_cases s.mgr r q with ⟨h, -⟩ | ⟨-, h⟩
        · rw [h]; exact hr
        · rw [h]; exact hr.close hq
      · exact hr

theorem res (v : Version) (g : Nat) (h : List CEvent) : CRes (CSys.after v g h).mgr := by
  induction h using List.reverseRecOn with
  | nil => intro i e he; cases he
  | append_singleton h e ih =>
    rw [after_snoc]; exact res_step (Inv.after v g h) (CbInv.after v g h) ih (step_chg v _ e)

end CSys

/-- **C113** (v1/v2c). A reserved ID is the ID of a request whose handle still exists and that has not given a result;
no request has two. -/
theorem C113_held (v : Version) (g : Nat) (h : List CEvent) (r : Nat) (id : Int)
    (hr : Spec.ReservedC (CSys.after v g h) r id) :
    (∃ q, (CSys.after v g h).mgr.reqs r = some q ∧ q.pdu.requestID = id) ∧ (CSys.after v g h).mgr.dead r = false ∧
    ∀ id', Spec.ReservedC (CSys.after v g h) r id' → id' = id := by
  obtain ⟨e, he, rfl⟩ := hr
  obtain ⟨q, a, b, c⟩ := CSys.res v g h id e he
  refine ⟨⟨q, a, b⟩, ?_, ?_⟩
  · have := (CSys.CbInv.after v g h).dead _ q a
    rw [c] at this
    simpa using this
  · rintro id' ⟨e', he', hh⟩
    obtain ⟨q', a', b', -⟩ := CSys.res v g h id' e' he'
    rw [hh, a] at a'; cases a'
    exact b'.symm.trans b

/-- **C113** (v1/v2c). Once a `wait` on a request has given a result, no ID is reserved for it, whatever happens. -/
theorem C113_waited (v : Version) (g : Nat) (h h' : List CEvent) (t r : Nat) (o : Outcome) (ho : o.IsResult)
    (hd : (CSys.after v g h).threads t = .done r o) (id : Int) : ¬ Spec.ReservedC (CSys.after v g (h ++ h')) r id := by
  have first : ∃ q', (CSys.after v g h).mgr.reqs r = some q' ∧ q'.callback = false ∧ q'.pdu.requestID ≠ 0 := by
    induction h using List.reverseRecOn with
    | nil => cases hd
    | append_singleton h e ih =>
      by_cases h0 : (CSys.after v g h).threads t = .done r o
      · obtain ⟨q1, a, b, c⟩ := ih h0
        rw [CSys.after_snoc]
        exact CSys.cb_clear (CSys.Inv.after v g _) (CSys.CbInv.after v g _) (CSys.step_chg v _ e) a b c
      · rw [CSys.after_snoc] at hd ⊢
        obtain ⟨q, hq, hc, hs, -⟩ := CSys.finishing ho h0 hd
        rw [hs]
        rcases CMgr.close_cases (CSys.after v g h).mgr r q with ⟨-, hf⟩ | ⟨-, hk⟩
        · rw [hf] at hc; cases hc
        · rw [hk]
          have hz := (CSys.Inv.after v g h).mgr.callbackID (CSys.CbInv.after v g h) hq hc
          exact ⟨_, setAt_same _ _ _, rfl, hz⟩
  have key : ∃ q', (CSys.after v g (h ++ h')).mgr.reqs r = some q' ∧ q'.callback = false ∧ q'.pdu.requestID ≠ 0 := by
    induction h' using List.reverseRecOn with
    | nil => rw [List.append_nil]; exact first
    | append_singleton h' e1 ih =>
      obtain ⟨q1, a, b, c⟩ := ih
      rw [← List.append_assoc, CSys.after_snoc]
      exact CSys.cb_clear (CSys.Inv.after v g _) (CSys.CbInv.after v g _) (CSys.step_chg v _ e1) a b c
  rintro ⟨e, he, rfl⟩
  obtain ⟨q, a, -, c⟩ := CSys.res v g (h ++ h') id e he
  obtain ⟨q', a', c', -⟩ := key
  rw [a] at a'; cases a'
  rw [c] at c'; cases c'

theorem CMgr.collect_dead (s : CMgr) (r : Nat) (hq : (s.reqs r).isSome) : (s.collect r).dead r = true := by
  obtain ⟨q, hq⟩ := Option.isSome_iff_exists.1 hq
  unfold CMgr.collect
  cases hd : s.deref r with
  | none =>
    simp only
    unfold CMgr.deref at hd
    cases hx : s.dead r with
    | true => rfl
    | false => rw [hx] at hd; simp [hq] at hd
  | some q' => simp only; split <;> exact setAt_same _ _ _

/-- A dead handle stays dead. -/
theorem CSys.dead_step {v : Version} {s s' : CSys} {e : CEvent} (hm : Chg v s e s') {r : Nat} (h : s.mgr.dead r = true) :
    s'.mgr.dead r = true := by
  have sent : ∀ (m : CMgr) r0 (q1 : CReq) draws chan, (m.reallySend v r0 q1 draws chan).2.dead = m.dead := by
    intro m r0 q1 draws chan
    obtain ⟨id, cb, cache, sent, hs, -⟩ := CMgr.reallySend_spec v m r0 q1 draws chan
    rw [hs]
  cases hm
  case same h' => rw [h']; exact h
  case created k r0 pdu community timeout period t0 t1 draws chan hn =>
    simp only
    obtain ⟨heaps, he⟩ := CMgr.sendRequest_eq v s.mgr k r0 pdu community timeout period t0 t1 draws chan
    rw [he, sent]; exact h
  case closed h' ht => rw [h']; exact h
  case popped h' => rw [h']; exact h
  case resent t now draws chan _ ref rest q m' _ hh hd h1 h2 h3 h4 hs h' =>
    rw [h']
    have := sent s.mgr ref.id (CMgr.resent q now) draws chan
    rw [hs] at this
    simp only at this ⊢
    rw [this]; exact h
  case failed t now draws chan _ ref rest q m' err _ hh hd h1 h2 h3 h4 hs h' =>
    rw [h']
    have := sent s.mgr ref.id (CMgr.resent q now) draws chan
    rw [hs] at this
    simp only at this ⊢
    rw [this]; exact h
  case heard w _ => simp only; rw [(CMgr.hear_frame v s.mgr w).2.2.2.1]; exact h
  case pushed => exact h
  case collected r0 =>
    simp only
    unfold CMgr.collect
    split
    · exact h
    · rename_i q hd
      simp only
      have hm : (if q.callback = true then (s.mgr.close r0 q).2 else s.mgr).dead = s.mgr.dead := by
        split
        · rcases CMgr.close_cases s.mgr r0 q with ⟨h, -⟩ | ⟨-, h⟩
          · rw [h]
          · rw [h]; rfl
        · rfl
      by_cases hr : r = r0
      · rw [hr]; exact setAt_same _ _ _
      · rw [setAt_other _ _ hr, hm]; exact h

/-- **C113** (v1/v2c). Once the handle of a request was dropped, no ID is reserved for it, whatever happens. -/
theorem C113_dropped (v : Version) (g : Nat) (h h' : List CEvent) (r : Nat)
    (hn : (CSys.after v g h).mgr.reqs r ≠ none) (id : Int) :
    ¬ Spec.ReservedC (CSys.after v g (h ++ [.collect r] ++ h')) r id := by
  have hdead : (CSys.after v g (h ++ [.collect r] ++ h')).mgr.dead r = true := by
    induction h' using List.reverseRecOn with
    | nil =>
      rw [List.append_nil, CSys.after_snoc]
      exact CMgr.collect_dead _ r (Option.isSome_iff_ne_none.2 hn)
    | append_singleton l e1 ih =>
      rw [← List.append_assoc, CSys.after_snoc]
      exact CSys.dead_step (CSys.step_chg v _ e1) ih
  intro hres
  have := (C113_held v g _ r id hres).2.1
  rw [hdead] at this; cases this

/-! ## v3 -/

variable {cfg : VCfg} {m0 : VMgr}

namespace VSys

open Snmp.VMgr

/-- An ID is reserved only for a message that its request still has. -/
structure Owned (m : VMgr) : Prop where
  lt : ∀ k msg, m.msgs k = some msg → k < m.nextMsg
  old : ∀ id e, m.cache.outstanding id = some e → e.handle < m.nextMsg
  own : ∀ id e msg, m.cache.outstanding id = some e → m.msgs e.handle = some msg →
    ∃ q, m.reqs msg.request = some q ∧ e.handle ∈ q.messages ∧ msg.messageID = some id

theorem Owned.prim {e : VEvent} {ends : Nat → Prop} {m m' : VMgr} (h : Owned m) (hp : Prim cfg e ends m m') : Owned m' := by
  cases hp with
  | calm h1 h2 h3 h4 h5 h6 h7 h8 =>
    refine ⟨fun k msg hk => Nat.lt_of_lt_of_le (h.lt k msg (by rw [← h1]; exact hk)) h2, fun id e1 he => ?_, fun id e1 msg he hm => ?_⟩
    · rcases h8 id e1 he with h9 | ⟨-, h9⟩
      · exact Nat.lt_of_lt_of_le (h.old id e1 h9) h2
      · exact h9
    · rw [h1] at hm
      rcases h8 id e1 he with h9 | ⟨h9, -⟩
      · obtain ⟨q, a, b, c⟩ := h.own id e1 msg h9 hm
        obtain ⟨q', hq'⟩ := h6 _ q a
        rcases h5 _ q' hq' with ⟨q2, hq2, hk⟩ | ⟨hno, -⟩
        · rw [a] at hq2; cases hq2
          exact ⟨q', hq', by rw [hk]; exact b, c⟩
        · rw [a] at hno; cases hno
      · exact absurd (h.lt _ _ hm) (by omega)
  | send r q0 q h0 hdr hq engineID cause i res hs =>
    cases hs with
    | refused e1 err usm he hc =>
      refine ⟨h.lt, h.old, fun id e1 msg he hm => ?_⟩
      obtain ⟨q', a, b, c⟩ := h.own id e1 msg he hm
      simp only
      by_cases hr : msg.request = r
      · rw [hr, h0] at a; cases a
        rw [hr]
        exact ⟨_, setAt_same _ _ _, by rw [hq]; exact b, c⟩
      · exact ⟨q', by rw [setAt_other _ _ hr]; exact a, b, c⟩
    | made q1 usm1 usm cache id0 sent res he hb hu hs hpo hdo =>
      have hmsgs : q1.messages = q0.messages := by
        rcases he with ⟨-, rfl, -⟩ | ⟨_, -, -, rfl⟩ <;> exact hq
      have old : ∀ id e1, cache.outstanding id = some e1 → m.cache.outstanding id = some e1 ∨
          e1.handle = m.nextMsg ∧ id0 = some id := by
        intro id e1 hx
        cases hb with
        | unbooked hb => rw [hb] at hx; exact .inl hx
        | booked id' h0' h1' hb =>
          rw [hb] at hx
          by_cases hi : id = id'
          · subst hi
            simp only [if_true] at hx
            cases hx
            exact .inr ⟨entry_handle _ _, rfl⟩
          · simp only [hi, if_false] at hx; exact .inl hx
      refine ⟨fun k msg hk => ?_, fun id e1 hx => ?_, fun id e1 msg hx hm => ?_⟩
      · simp only at hk ⊢
        by_cases hk0 : k = m.nextMsg
        · omega
        · rw [setAt_other _ _ hk0] at hk
          have := h.lt k msg hk
          omega
      · simp only
        rcases old id e1 hx with h9 | ⟨h9, -⟩
        · have := h.old id e1 h9; omega
        · omega
      · simp only at hm ⊢
        rcases old id e1 hx with h9 | ⟨h9, hid⟩
        · have hlt := h.old id e1 h9
          rw [setAt_other _ _ (by omega)] at hm
          obtain ⟨q', a, b, c⟩ := h.own id e1 msg h9 hm
          by_cases hr : msg.request = r
          · rw [hr, h0] at a; cases a
            rw [hr]
            exact ⟨_, setAt_same _ _ _, List.mem_cons_of_mem _ (by rw [hmsgs]; exact b), c⟩
          · exact ⟨q', by rw [setAt_other _ _ hr]; exact a, b, c⟩
        · rw [h9, setAt_same] at hm
          cases hm
          exact ⟨_, setAt_same _ _ _, by rw [h9]; exact List.mem_cons_self, hid⟩
  | close r q hq he =>
    refine ⟨h.lt, fun id e1 hx => ?_, fun id e1 msg hx hm => ?_⟩
    all_goals
      unfold VMgr.closed at hx
      simp only at hx
      rw [closeMessages_spec] at hx
      split at hx
      · cases hx
    · exact h.old id e1 hx
    · rename_i hne
      have hm : m.msgs e1.handle = some msg := hm
      obtain ⟨q', a, b, c⟩ := h.own id e1 msg hx hm
      have hr : msg.request ≠ r := by
        intro hr
        rw [hr, hq] at a; cases a
        exact hne ⟨_, b, _, hm, c⟩
      have e1 : (m.closed cfg r q).reqs msg.request = m.reqs msg.request := setAt_other _ _ hr
      exact ⟨q', by rw [e1]; exact a, b, c⟩

theorem Owned.chain {e : VEvent} {ends : Nat → Prop} {m m' : VMgr} (h : Owned m) (hp : Chain cfg e ends m m') : Owned m' := by
  induction hp with
  | nil => exact h
  | cons p _ ih => exact ih (h.prim p)

theorem owned (hc : Spec.Created cfg m0) (h : List VEvent) : Owned (after cfg m0 h).mgr := by
  induction h using List.reverseRecOn with
  | nil =>
    obtain ⟨-, h0, engineID, g, c0, n0, seed, hu0, hm⟩ := hc
    have : m0.msgs = (fun _ => none) ∧ m0.cache = c0 ∧ m0.nextMsg = n0 := by
      unfold VMgr.create at hm
      split at hm
      · cases hm
      · cases hm; exact ⟨rfl, rfl, rfl⟩
    obtain ⟨a, b, c⟩ := this
    have e : (after cfg m0 []).mgr = m0 := rfl
    rw [e]
    refine ⟨fun k msg hk => ?_, fun id x hx => ?_, fun id x msg hx hk => ?_⟩
    · rw [a] at hk; cases hk
    · rw [b] at hx; rw [c]; exact hu0 id x hx
    · rw [a] at hk; cases hk
  | append_singleton h e ih =>
    rw [after_snoc]
    rcases step_move cfg (after cfg m0 h) e with hm | hm
    · rw [hm]; exact ih
    · obtain ⟨base, hp, hsound⟩ := hc.sound h
      exact ih.chain (move_chain hsound.accounts.later hsound.old hm)

theorem closing_empty (m : VMgr) (r : Nat) (q : VReq) (h : (m.closing cfg r).reqs r = some q) : q.messages = [] := by
  unfold VMgr.closing at h
  split at h
  · rename_i hn; rw [hn] at h; cases h
  · rename_i q0 _
    have : (m.closed cfg r q0).reqs r = some _ := setAt_same _ _ _
    rw [this] at h
    cases h; rfl

theorem ends_empty {s s' : VSys} {e : VEvent} {r : Nat} (hm : Move cfg s e s') (he : Spec.Ends s s' e r) (q : VReq)
    (hq : s'.mgr.reqs r = some q) : q.messages = [] := by
  have fin : ∀ (s0 : VSys) (t0 r0 : Nat) (o0 : VOutcome), s' = s0.finish cfg t0 r0 o0 → s0.threads = s.threads →
      e ≠ .collect r → q.messages = [] := by
    intro s0 t0 r0 o0 h1 h2 h3
    rcases he with he | ⟨t, o, h4, h5⟩
    · exact absurd he h3
    · rw [h1, finish_eq] at h4
      simp only at h4
      by_cases ht : t = t0
      · subst ht
        rw [setAt_same] at h4
        injection h4 with h4
        subst h4
        rw [h1, finish_eq] at hq
        exact closing_empty _ _ _ hq
      · rw [setAt_other _ _ ht, h2] at h4
        exact absurd h4 h5
  have same : s'.threads = s.threads → e ≠ .collect r → q.messages = [] := by
    intro h1 h2
    rcases he with he | ⟨t, o, h4, h5⟩
    · exact absurd he h2
    · rw [h1] at h4; exact absurd h4 h5
  have goto : ∀ t p, s'.threads = setAt s.threads t p → (∀ r o, p ≠ .done r o) → e ≠ .collect r → q.messages = [] := by
    intro t0 p h1 hp h2
    rcases he with he | ⟨t, o, h4, h5⟩
    · exact absurd he h2
    · rw [h1] at h4
      by_cases ht : t = t0
      · subst ht; rw [setAt_same] at h4; exact absurd h4 (hp _ _)
      · rw [setAt_other _ _ ht] at h4; exact absurd h4 h5
  cases hm
  case bodyZero t i r0 x rest q ht ha hx he hn hx' hz => exact fin _ t r0 _ rfl rfl (by simp)
  case bodyFailed t i r0 x rest q ht ha hx he hn hx' hz m' err hm' => exact fin _ t r0 _ rfl rfl (by simp)
  case pokeFailed t i r0 l x a q ht hx next hs m' err hm' => exact fin _ t r0 _ rfl rfl (by simp)
  case answered t i r0 q x ht hq he hx => exact fin _ t r0 _ rfl rfl (by simp)
  case reported t i r0 q ex ht hq he => exact fin _ t r0 _ rfl rfl (by simp)
  case timedOut t i r0 q ht hq he => exact fin _ t r0 _ rfl rfl (by simp)
  case collected r0 q0 hq0 =>
    rcases he with he | ⟨t, o, h4, h5⟩
    · injection he with he
      subst he
      have : (s.mgr.closed cfg r0 q0).reqs r0 = some _ := setAt_same _ _ _
      simp only at hq
      rw [this] at hq; cases hq; rfl
    · exact absurd h4 h5
  case pokeEnd t i r0 a ht => exact goto t _ rfl (by intro _ _; split <;> simp) (by simp)
  all_goals first
    | exact same rfl (by simp)
    | exact goto _ _ rfl (by intro _ _; simp) (by simp)

end VSys

open VSys Snmp.VMgr

/-- **C113** (v3). Every message ID that is reserved for a message of this manager is reserved for a message that its
request still has; that request's handle still exists; and no message has two. -/
theorem C113_v3_held (hc : Spec.Created cfg m0) (h : List VEvent) (r : Nat) (id : Int)
    (hr : Spec.Reserved (after cfg m0 h) r id) : (after cfg m0 h).mgr.dead r = false ∧
    ∃ q k, (after cfg m0 h).mgr.reqs r = some q ∧ k ∈ q.messages ∧
      ∀ id' e, (after cfg m0 h).mgr.cache.outstanding id' = some e → (e.handle = k ↔ id' = id) := by
  obtain ⟨e, msg, h1, h2, rfl⟩ := hr
  have ho := owned hc h
  obtain ⟨q, a, b, c⟩ := ho.own id e msg h1 h2
  refine ⟨(live hc h _ q _ a b).1.1, q, e.handle, a, b, fun id' e' he' => ⟨fun hk => ?_, fun hk => ?_⟩⟩
  · obtain ⟨-, -, -, c'⟩ := ho.own id' e' msg he' (by rw [hk]; exact h2)
    rw [c] at c'; cases c'; rfl
  · subst hk; rw [h1] at he'; cases he'; rfl

/-- **C113** (v3). In the step in which a `wait()` on a request ends, in any way, or its handle is dropped, every message
ID reserved for it is given back. -/
theorem C113_v3_ended (hc : Spec.Created cfg m0) (h : List VEvent) (e : VEvent) (r : Nat)
    (he : Spec.Ends (after cfg m0 h) (after cfg m0 (h ++ [e])) e r) (id : Int) :
    ¬ Spec.Reserved (after cfg m0 (h ++ [e])) r id := by
  rintro ⟨x, msg, h1, h2, rfl⟩
  obtain ⟨q, a, b, -⟩ := (owned hc (h ++ [e])).own id x msg h1 h2
  have hl := live hc (h ++ [e]) _ q _ a b
  rw [after_snoc] at he a hl
  rcases step_move cfg (after cfg m0 h) e with hm | hm
  · rcases he with he | ⟨t, o, h4, h5⟩
    · have hal := hl.1.1
      have hder : (step cfg (after cfg m0 h) e).mgr.deref msg.request = some q := by
        unfold VMgr.deref; rw [hal, a]; rfl
      rw [hm] at hder
      have hd2 : (step cfg (after cfg m0 h) e).mgr.dead msg.request = true := by
        rw [he]
        unfold VSys.step
        simp only
        unfold VMgr.collect
        rw [hder]
        exact setAt_same _ _ _
      rw [hal] at hd2; cases hd2
    · rw [hm] at h4; exact absurd h4 h5
  · rw [ends_empty hm he q a] at b; cases b

/-- **C113** (v3). Once the handle of a request was dropped, no message ID is reserved for it, whatever happens. -/
theorem C113_v3_dropped (hc : Spec.Created cfg m0) (h h' : List VEvent) (r : Nat)
    (hn : (after cfg m0 h).mgr.reqs r ≠ none) (id : Int) :
    ¬ Spec.Reserved (after cfg m0 (h ++ [.collect r] ++ h')) r id := by
  have hdead : (after cfg m0 (h ++ [.collect r] ++ h')).mgr.dead r = true := by
    induction h' using List.reverseRecOn with
    | nil =>
      rw [List.append_nil, after_snoc]
      obtain ⟨q, hq⟩ := Option.ne_none_iff_exists'.1 hn
      unfold VSys.step
      simp only
      unfold VMgr.collect
      cases hd : (after cfg m0 h).mgr.deref r with
      | some q' => exact setAt_same _ _ _
      | none =>
        simp only
        unfold VMgr.deref at hd
        cases hx : (after cfg m0 h).mgr.dead r with
        | true => rfl
        | false => rw [hx] at hd; simp [hq] at hd
    | append_singleton l e1 ih =>
      rw [← List.append_assoc, after_snoc]
      rcases step_move cfg (after cfg m0 (h ++ [.collect r] ++ l)) e1 with hm | hm
      · rw [hm]; exact ih
      · by_contra hx
        rw [move_dead hm r (by simpa using hx)] at ih
        cases ih
  intro hr
  have := (C113_v3_held hc _ r id hr).1
  rw [hdead] at this
  cases this

/-! ## Concrete cases -/

/-- A request with a timeout of 1, on which thread 0 waits until it expires. -/
def Spec.shortWait : List CEvent :=
  [.send 0 0 ⟨.getRequest, 0, 0, 0, []⟩ [] 1 5 0 0 (fun _ => 1) none, .wait 0 0]

/-- Thread 0 does a step at time `now`. -/
def Spec.stepC (now : ℚ) : CEvent := .step 0 now (fun _ => 1) none

/-- Non-vacuity of C113 (v1/v2c): an ID is reserved while `wait` runs, and not after it has raised `Timeout`. -/
theorem C113_example : Spec.ReservedC (CSys.after .v1 1 Spec.shortWait) 0 1 ∧
    (CSys.after .v1 1 (Spec.shortWait ++ [Spec.stepC 2, Spec.stepC 2])).threads 0 = .done 0 .timeout ∧
    (CSys.after .v1 1 (Spec.shortWait ++ [Spec.stepC 2, Spec.stepC 2])).mgr.reqs 0 ≠ none := by
  refine ⟨⟨⟨0, []⟩, ?_, rfl⟩, ?_, ?_⟩
  all_goals decide +kernel

/-- Non-vacuity of C113 (v3): an ID is reserved while `wait()` runs; `wait()` then ends in a step. -/
theorem C113_v3_example :
    Spec.Reserved (after Spec.demoCfg (Spec.demo (some [1])) [Demo.issue 0 1 5, .wait 0 0]) 0 1 ∧
    Spec.Ends (after Spec.demoCfg (Spec.demo (some [1])) [Demo.issue 0 1 5, .wait 0 0, Demo.at_ 0 2, Demo.at_ 0 2])
      (after Spec.demoCfg (Spec.demo (some [1])) ([Demo.issue 0 1 5, .wait 0 0, Demo.at_ 0 2, Demo.at_ 0 2] ++
        [Demo.at_ 0 2])) (Demo.at_ 0 2) 0 := by
  refine ⟨⟨⟨[1], [], 0, [97], .usm, noAuthNoPriv⟩, ⟨0, some 1, 0, .issue⟩, ?_, ?_, rfl⟩, .inr ⟨0, .timeout, ?_, ?_⟩⟩
  all_goals decide +kernel

end Snmp
