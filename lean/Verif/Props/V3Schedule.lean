import Verif.Props.V3Wait
/-! # C67: when a v3 manager sends -/

namespace Snmp

open VSys

variable {cfg : VCfg} {m0 : VMgr}

theorem VMgr.resent_next {q : VReq} {now : ℚ} (hp : 0 < q.period) (h1 : q.nextRefresh ≤ now) :
    Spec.NextRefresh q.nextRefresh now q.period q.expiration (VMgr.resent q now).nextRefresh := by
  have h0 : 0 ≤ -(q.nextRefresh - now) / q.period := div_nonneg (by linarith) hp.le
  have c0 : 0 ≤ ⌈-(q.nextRefresh - now) / q.period⌉ := Int.ceil_nonneg h0
  obtain ⟨k, hk⟩ := Int.eq_ofNat_of_zero_le c0
  have hkq : ((⌈-(q.nextRefresh - now) / q.period⌉ : ℤ) : ℚ) = (k : ℚ) := by rw [hk]; rfl
  have c1 := Int.le_ceil (-(q.nextRefresh - now) / q.period)
  have c2 := Int.ceil_lt_add_one (-(q.nextRefresh - now) / q.period)
  rw [hkq] at c1 c2
  rw [div_le_iff₀ hp] at c1
  have c3 := mul_lt_mul_of_pos_right c2 hp
  rw [add_mul, div_mul_cancel₀ _ (ne_of_gt hp), one_mul] at c3
  refine ⟨k, ?_, by linarith, by linarith⟩
  unfold VMgr.resent VReq.setNextRefresh
  simp only [hkq]

theorem VMgr.Sends.sent_ok {s s' : VMgr} {r : Nat} {q : VReq} {engineID : Option Bytes} {cause : Why}
    {i : SendIn} (h : VMgr.Sends cfg s r q engineID cause i (.ok ()) s') :
    ∃ m w, s'.sent = ⟨r, m, w⟩ :: s.sent := by
  cases h with
  | made q1 usm1 usm cache id sent res he hb hu hs hpo hdo =>
    rcases hs with ⟨-, w, msg, h, -, -⟩ | ⟨⟨err, h, -⟩, -⟩
    · exact ⟨_, w, h⟩
    · cases h

theorem VMgr.Sends.sent_error {s s' : VMgr} {r : Nat} {q : VReq} {engineID : Option Bytes} {cause : Why}
    {i : SendIn} {err : PyErr} (h : VMgr.Sends cfg s r q engineID cause i (.error err) s') : s'.sent = s.sent := by
  cases h with
  | refused => rfl
  | made q1 usm1 usm cache id sent res he hb hu hs hpo hdo =>
    rcases hs with ⟨h, -⟩ | ⟨-, h⟩
    · cases h
    · exact h

theorem VMgr.updateState_sent (m : VMgr) : m.updateState.sent = m.sent := by rw [VMgr.updateState_eq]
theorem VMgr.propose_sent (m : VMgr) (n : Option MState) : (m.propose n).sent = m.sent := by rw [VMgr.propose_eq]

theorem VSys.finish_sent (s : VSys) (t r : Nat) (o : VOutcome) : (s.finish cfg t r o).mgr.sent = s.mgr.sent := by
  rw [finish_eq]
  show (s.mgr.closing cfg r).sent = _
  unfold VMgr.closing VMgr.closed
  split <;> rfl

/-- What sending leaves of the request that is sent. -/
theorem VMgr.Sends.request {s s' : VMgr} {r : Nat} {q : VReq} {engineID : Option Bytes} {cause : Why}
    {i : SendIn} {res : Res Unit} (h : VMgr.Sends cfg s r q engineID cause i res s') :
    ∃ q', s'.reqs r = some q' ∧ Same q q' := by
  obtain ⟨q', h1, h2⟩ := h.reqs
  exact ⟨q', by rw [h1, setAt_same], by unfold Same; rw [h2]⟩

theorem Same.nextRefresh {q q' : VReq} (h : Same q q') :
    q'.nextRefresh = q.nextRefresh ∧ q'.expiration = q.expiration ∧ q'.period = q.period := by
  unfold Same at h; rw [h]; exact ⟨rfl, rfl, rfl⟩

theorem Same.resent {q q' : VReq} {now : ℚ} (h : Same (q.setNextRefresh (now + q.period)) q') :
    q'.nextRefresh = min q'.expiration (now + q'.period) ∧ q'.expiration = q.expiration ∧ q'.period = q.period := by
  obtain ⟨h1, h2, h3⟩ := Same.nextRefresh h
  rw [h1, h2, h3]; exact ⟨rfl, rfl, rfl⟩

/-- **C67**. Each step hands at most one datagram to the channel, for a request that is alive. It does so because
the request is due, unanswered and unexpired, and then the next refresh time is on the grid of the previous one,
not in the past, less than one period ahead and capped by the expiration; or on one of four other occasions, and
then the next refresh time is one period ahead, capped by the expiration. Missing, because false of the code
(`C67_false`): that the other occasions, too, are before the expiration and without an answer. -/
theorem C67_partial (hc : Spec.Created cfg m0) (h : List VEvent) (e : VEvent) :
    (after cfg m0 (h ++ [e])).mgr.sent = (after cfg m0 h).mgr.sent ∨
    ∃ r m w q', (after cfg m0 (h ++ [e])).mgr.sent = ⟨r, m, w⟩ :: (after cfg m0 h).mgr.sent ∧
      (after cfg m0 h).mgr.dead r = false ∧ (after cfg m0 (h ++ [e])).mgr.reqs r = some q' ∧
      ((∃ q, Spec.Refreshes (after cfg m0 h) e r q q') ∨
        ∃ now, Spec.Occasion (after cfg m0 h) r now e ∧ q'.nextRefresh = min q'.expiration (now + q'.period)) := by
  obtain ⟨base, hp, hsnd⟩ := hc.sound h
  rw [after_snoc]
  generalize after cfg m0 h = s at *
  rcases step_move cfg s e with hm | hm
  · rw [hm]; exact .inl rfl
  generalize s.step cfg e = s' at *
  cases hm
  case issued pdu user level timeout period t0 r0 i q hq hl hd next hs m' hm =>
    obtain ⟨mm, w, hw⟩ := hm.sent_ok
    obtain ⟨q', hq', hsame⟩ := hm.request
    have hnone : s.mgr.reqs s.mgr.nextReq = none := by
      cases hx : s.mgr.reqs s.mgr.nextReq with
      | none => rfl
      | some y => exact absurd (hsnd.accounts.lt hx) (lt_irrefl _)
    have hdead : s.mgr.dead s.mgr.nextReq = false := hsnd.old _ le_rfl
    refine .inr ⟨s.mgr.nextReq, mm, w, q', ?_, hdead, ?_, .inr ⟨i.now, .issue hnone rfl, (Same.resent hsame).1⟩⟩
    · rw [VMgr.updateState_sent]; show m'.sent = _; rw [hw, VMgr.propose_sent]; rfl
    · rw [updateState_reqs]; exact hq'
  case issueFailed pdu user level timeout period t0 r0 i q hq hl hd next hs m' err hm =>
    left; show m'.sent = _; rw [hm.sent_error, VMgr.propose_sent]; rfl
  case bodyZero => left; rw [finish_sent]; rfl
  case bodySent t i r x rest q ht ha hx he hn hx' hz m' hm =>
    obtain ⟨mm, w, hw⟩ := hm.sent_ok
    obtain ⟨q', hq', hsame⟩ := hm.request
    obtain ⟨h1, h2, h3⟩ := Same.nextRefresh hsame
    refine .inr ⟨x.id, mm, w, q', hw, (VMgr.deref_some hx).1, hq', .inl ⟨q, ⟨t, i, r, rfl, ht, hn, hx', fun hp => ?_⟩,
      ⟨x, rest, ha, rfl⟩, (VMgr.deref_some hx).2, he, h2, h3⟩⟩
    rw [h1]; exact VMgr.resent_next hp hn
  case bodyFailed t i r x rest q ht ha hx he hn hx' hz m' err hm =>
    left; rw [finish_sent]; show m'.sent = _; rw [hm.sent_error]
  case pokeBegin => left; simp only [VMgr.updateState_sent, VMgr.propose_sent]
  case pokeSent t i r l x a q ht hx next hs m' hm =>
    obtain ⟨mm, w, hw⟩ := hm.sent_ok
    obtain ⟨q', hq', hsame⟩ := hm.request
    refine .inr ⟨x.id, mm, w, q', ?_, (VMgr.deref_some hx).1, ?_, .inr ⟨i.now, .poke r l x a ht rfl rfl, (Same.resent hsame).1⟩⟩
    · simp only [VMgr.updateState_sent]; rw [hw, VMgr.propose_sent]
    · simp only [updateState_reqs]; exact hq'
  case pokeFailed t i r l x a q ht hx next hs m' err hm =>
    left; rw [finish_sent]; show m'.sent = _; rw [hm.sent_error, VMgr.propose_sent]
  case answered => left; rw [finish_sent]
  case reported => left; rw [finish_sent]
  case timedOut => left; rw [finish_sent]
  case reportFailed i m x r q cause sync hr hl all next hs m' err hm =>
    left; show m'.sent = _; rw [hm.sent_error, VMgr.propose_sent]
  case reportOne i m x r q cause sync hr hl next hs m' hm =>
    obtain ⟨mm, w, hw⟩ := hm.sent_ok
    obtain ⟨q', hq', hsame⟩ := hm.request
    have hdr : s.mgr.deref r = some q := by cases hr <;> assumption
    refine .inr ⟨r, mm, w, q', ?_, (VMgr.deref_some hdr).1, hq', .inr ⟨i.now, ?_, (Same.resent hsame).1⟩⟩
    · rw [hw, VMgr.propose_sent]
    · cases hr with
      | unknownEngine msg v rest hlp hmp hrp hqp hi hv hn he => exact .report m x msg v rest hlp hmp hrp hi hv (.inl hn) rfl
      | notInTime msg v rest hlp hmp hrp hqp hi hv hn hb => exact .report m x msg v rest hlp hmp hrp hi hv (.inr hn) rfl
  case reportAll i m x r q cause sync hr hl next hs m' hm =>
    obtain ⟨mm, w, hw⟩ := hm.sent_ok
    obtain ⟨q', hq', hsame⟩ := hm.request
    have hdr : s.mgr.deref r = some q := by cases hr <;> assumption
    refine .inr ⟨r, mm, w, q', ?_, (VMgr.deref_some hdr).1, ?_, .inr ⟨i.now, ?_, (Same.resent hsame).1⟩⟩
    · simp only [VMgr.updateState_sent]; rw [hw, VMgr.propose_sent]
    · simp only [updateState_reqs]; exact hq'
    · cases hr with
      | unknownEngine msg v rest hlp hmp hrp hqp hi hv hn he => exact .report m x msg v rest hlp hmp hrp hi hv (.inl hn) rfl
      | notInTime msg v rest hlp hmp hrp hqp hi hv hn hb => exact .report m x msg v rest hlp hmp hrp hi hv (.inr hn) rfl
  case responseBad i m x msg q hl hm hq hi hlk err m' hp =>
    left
    rcases VMgr.processResponse_cases cfg s.mgr x i.seed with ⟨_, _, k⟩ | ⟨_, _, _, _, _, k⟩ | ⟨_, _, _, _, k⟩ | ⟨_, k⟩ <;>
      rw [k] at hp <;> cases hp <;> rfl
  case responded i m x msg q hl hm hq hi hlk m' hp =>
    left
    rcases VMgr.processResponse_cases cfg s.mgr x i.seed with ⟨_, _, k⟩ | ⟨_, _, _, _, _, k⟩ | ⟨_, _, _, _, k⟩ | ⟨_, k⟩ <;>
      rw [k] at hp <;> cases hp <;> rfl
  case flushSent i r eid sync l x q hl hu hx m' hm =>
    obtain ⟨mm, w, hw⟩ := hm.sent_ok
    obtain ⟨q', hq', hsame⟩ := hm.request
    exact .inr ⟨x.id, mm, w, q', hw, (VMgr.deref_some hx).1, hq', .inr ⟨i.now, .flush r eid sync l x hl hu rfl rfl,
      (Same.resent hsame).1⟩⟩
  case flushFailed i r eid sync l x q hl hu hx m' err hm =>
    left; show m'.sent = _; rw [hm.sent_error]
  all_goals exact .inl rfl

/-- **C67**, schedule. The refresh time of an existing request moves only in a step that sends it or fails to send
it: because it was due, unanswered and unexpired, by the rule of the grid; or to one period ahead. -/
theorem C67_schedule_partial (hc : Spec.Created cfg m0) (h : List VEvent) (e : VEvent) (r : Nat) (q q' : VReq)
    (hq : (after cfg m0 h).mgr.reqs r = some q) (hq' : (after cfg m0 (h ++ [e])).mgr.reqs r = some q')
    (hne : q'.nextRefresh ≠ q.nextRefresh) :
    q'.expiration = q.expiration ∧ q'.period = q.period ∧
    ((∃ t i, e = .step t i ∧ q.event = false ∧ q.nextRefresh ≤ i.now ∧ i.now < q.expiration ∧
        (0 < q.period → Spec.NextRefresh q.nextRefresh i.now q.period q.expiration q'.nextRefresh)) ∨
      ∃ i, ((∃ t, e = .step t i) ∨ e = .listen i) ∧ q'.nextRefresh = min q'.expiration (i.now + q'.period)) := by
  obtain ⟨q2, h1, h2⟩ := step_touch hc h e r q hq
  rw [hq'] at h1; injection h1 with h1; subst h1
  cases h2 with
  | same h => exact absurd (Same.nextRefresh h).1 hne
  | timer t i he h1 h2 h3 h4 h =>
    obtain ⟨k1, k2, k3⟩ := Same.nextRefresh h
    exact ⟨k2, k3, .inl ⟨t, i, he, h1, h2, h3, fun hp => by rw [k1]; exact VMgr.resent_next hp h2⟩⟩
  | resend i he h =>
    obtain ⟨k1, k2, k3⟩ := Same.resent h
    exact ⟨k2, k3, .inr ⟨i, he, k1⟩⟩
  | stored x hd h =>
    refine absurd ?_ hne
    rw [h]; unfold VReq.store; split <;> rfl
  | excepted x ex hd h =>
    refine absurd ?_ hne
    rw [h]; unfold VReq.processException; split <;> split <;> rfl

end Snmp
