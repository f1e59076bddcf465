import Verif.Props.V3Registry
/-! # What a step does to one request, and to one thread -/

namespace Snmp

namespace VSys

open VMgr

variable {cfg : VCfg}

/-- `q'` differs from `q` at most in the engine ID, the messages and the `SharedBool`. -/
def Same (q q' : VReq) : Prop :=
  q' = { q with engineID := q'.engineID, messages := q'.messages, shared := q'.shared }

theorem Same.refl (q : VReq) : Same q q := rfl

/-- What the step `e` does to the attributes of request `r`. -/
inductive Touch (cfg : VCfg) (s : VSys) (e : VEvent) (r : Nat) (q q' : VReq) : Prop
  | same (h : Same q q')
  /-- resent because it was due -/
  | timer (t : Nat) (i : SendIn) (he : e = .step t i) (h1 : q.event = false) (h2 : q.nextRefresh ≤ i.now)
      (h3 : i.now < q.expiration) (h4 : q.period ≠ 0) (h : Same (VMgr.resent q i.now) q')
  /-- sent from the queue, or because of a report -/
  | resend (i : SendIn) (he : (∃ t, e = .step t i) ∨ e = .listen i)
      (h : Same (q.setNextRefresh (i.now + q.period)) q')
  | stored (x : V3Incoming) (hd : Spec.Delivers cfg s e r x) (h : q' = q.store x)
  | excepted (x : V3Incoming) (ex : Report) (hd : Spec.ReportsError cfg s e r x ex)
      (h : q' = q.processException ex x.header.flags.level.auth)

theorem closed_reqs (m : VMgr) (r : Nat) (q : VReq) (h : m.reqs r = some q) (r' : Nat) (q' : VReq)
    (h' : m.reqs r' = some q') : ∃ q'', (m.closed cfg r q).reqs r' = some q'' ∧ Same q' q'' := by
  unfold VMgr.closed
  simp only [setAt_get]
  split
  · rename_i hr; subst hr
    rw [h] at h'; injection h' with h'; subst h'
    exact ⟨_, rfl, rfl⟩
  · exact ⟨q', h', rfl⟩

theorem closing_reqs (m : VMgr) (r : Nat) (r' : Nat) (q' : VReq) (h' : m.reqs r' = some q') :
    ∃ q'', (m.closing cfg r).reqs r' = some q'' ∧ Same q' q'' := by
  unfold VMgr.closing
  cases h : m.reqs r with
  | none => exact ⟨q', h', rfl⟩
  | some q => exact closed_reqs m r q h r' q' h'

theorem Same.trans {q q' q'' : VReq} (h : Same q q') (h' : Same q' q'') : Same q q'' := by
  unfold Same at *; rw [h', h]

/-- Sending: request `r` becomes `q` up to `Same`, the others stay. -/
theorem sends_reqs {m m' : VMgr} {r : Nat} {q : VReq} {engineID : Option Bytes} {cause : Why} {i : SendIn}
    {res : Res Unit} (h : VMgr.Sends cfg m r q engineID cause i res m') (r' : Nat) (q' : VReq)
    (h' : m.reqs r' = some q') :
    (r' ≠ r ∧ m'.reqs r' = some q') ∨ (r' = r ∧ ∃ q'', m'.reqs r' = some q'' ∧ Same q q'') := by
  obtain ⟨q2, h1, h2⟩ := h.reqs
  by_cases hr : r' = r
  · subst hr
    refine .inr ⟨rfl, q2, by rw [h1, setAt_same], ?_⟩
    unfold Same; rw [h2]
  · exact .inl ⟨hr, by rw [h1, setAt_other _ _ hr]; exact h'⟩

theorem propose_reqs (m : VMgr) (n : Option MState) : (m.propose n).reqs = m.reqs := by rw [VMgr.propose_eq]
theorem updateState_reqs (m : VMgr) : m.updateState.reqs = m.reqs := by rw [VMgr.updateState_eq]

/-- Every step does one of these things to a request. -/
theorem move_touch {base : Bytes → Option (Int × String)} {s s' : VSys} {e : VEvent} (ha : s.mgr.Accounts base cfg.ns)
    (hm : Move cfg s e s') (r : Nat) (q : VReq) (hq : s.mgr.reqs r = some q) :
    ∃ q', s'.mgr.reqs r = some q' ∧ Touch cfg s e r q q' := by
  have hlt := ha.lt hq
  have hsame : s'.mgr.reqs = s.mgr.reqs → ∃ q', s'.mgr.reqs r = some q' ∧ Touch cfg s e r q q' := by
    intro h; exact ⟨q, by rw [h]; exact hq, .same rfl⟩
  have hfin : ∀ (m : VMgr) (t r0 : Nat) (o : VOutcome) (q1 : VReq), m.reqs r = some q1 →
      (∀ q2, Same q1 q2 → Touch cfg s e r q q2) →
      ∃ q', (({ s with mgr := m } : VSys).finish cfg t r0 o).mgr.reqs r = some q' ∧ Touch cfg s e r q q' := by
    intro m t r0 o q1 h1 h2
    rw [finish_eq]
    obtain ⟨q2, h3, h4⟩ := closing_reqs (cfg := cfg) m r0 r q1 h1
    exact ⟨q2, h3, h2 q2 h4⟩
  cases hm
  case queued pdu user level timeout period t0 r0 i q0 hq0 hl hd hs =>
    refine ⟨q, ?_, .same rfl⟩
    show setAt s.mgr.reqs s.mgr.nextReq _ r = _
    rw [setAt_other _ _ (by omega)]; exact hq
  case issued pdu user level timeout period t0 r0 i q0 hq0 hl hd next hs m' hm =>
    rcases sends_reqs hm r q (by
      rw [propose_reqs]; show setAt s.mgr.reqs s.mgr.nextReq _ r = _
      rw [setAt_other _ _ (by omega)]; exact hq) with ⟨-, h⟩ | ⟨h, -⟩
    · exact ⟨q, by rw [updateState_reqs]; exact h, .same rfl⟩
    · omega
  case issueFailed pdu user level timeout period t0 r0 i q0 hq0 hl hd next hs m' err hm =>
    rcases sends_reqs hm r q (by
      rw [propose_reqs]; show setAt s.mgr.reqs s.mgr.nextReq _ r = _
      rw [setAt_other _ _ (by omega)]; exact hq) with ⟨-, h⟩ | ⟨h, -⟩
    · exact ⟨q, h, .same rfl⟩
    · omega
  case bodyZero t i r0 x rest q0 ht ha hx he hn hx' hz =>
    exact hfin _ t r0 _ q hq fun q2 h => .same h
  case bodySent t i r0 x rest q0 ht ha hx he hn hx' hz m' hm =>
    rcases sends_reqs hm r q hq with ⟨-, h⟩ | ⟨rfl, q2, h, h'⟩
    · exact ⟨q, h, .same rfl⟩
    · have := (VMgr.deref_some hx).2
      rw [hq] at this; injection this with this; subst this
      exact ⟨q2, h, .timer t i rfl he hn hx' hz h'⟩
  case bodyFailed t i r0 x rest q0 ht ha hx he hn hx' hz m' err hm =>
    rcases sends_reqs hm r q hq with ⟨-, h⟩ | ⟨rfl, q2, h, h'⟩
    · exact hfin _ t r0 _ q h fun q2 h => .same h
    · have := (VMgr.deref_some hx).2
      rw [hq] at this; injection this with this; subst this
      exact hfin _ t r0 _ q2 h fun q3 h3 => .timer t i rfl he hn hx' hz (h'.trans h3)
  case pokeBegin => refine hsame ?_; simp only [updateState_reqs, propose_reqs]
  case pokeSent t i r0 l x a q0 ht hx next hs m' hm =>
    rcases sends_reqs hm r q (by rw [propose_reqs]; exact hq) with ⟨-, h⟩ | ⟨rfl, q2, h, h'⟩
    · exact ⟨q, by rw [updateState_reqs]; exact h, .same rfl⟩
    · have := (VMgr.deref_some hx).2
      rw [hq] at this; injection this with this; subst this
      exact ⟨q2, by rw [updateState_reqs]; exact h, .resend i (.inl ⟨t, rfl⟩) h'⟩
  case pokeFailed t i r0 l x a q0 ht hx next hs m' err hm =>
    rcases sends_reqs hm r q (by rw [propose_reqs]; exact hq) with ⟨-, h⟩ | ⟨rfl, q2, h, h'⟩
    · exact hfin _ t r0 _ q h fun q2 h => .same h
    · have := (VMgr.deref_some hx).2
      rw [hq] at this; injection this with this; subst this
      exact hfin _ t r0 _ q2 h fun q3 h3 => .resend i (.inl ⟨t, rfl⟩) (h'.trans h3)
  case answered t i r0 q0 x ht hq0 he hx => exact hfin s.mgr t r0 _ q hq fun q2 h => .same h
  case reported t i r0 q0 ex ht hq0 he => exact hfin s.mgr t r0 _ q hq fun q2 h => .same h
  case timedOut t i r0 q0 ht hq0 he => exact hfin s.mgr t r0 _ q hq fun q2 h => .same h
  case reportFailed i m x r0 q0 cause sync hr hl all next hs m' err hm =>
    have hx : s.mgr.deref r0 = some q0 := by cases hr <;> assumption
    rcases sends_reqs hm r q (by rw [propose_reqs]; exact hq) with ⟨-, h⟩ | ⟨rfl, q2, h, h'⟩
    · exact ⟨q, h, .same rfl⟩
    · have := (VMgr.deref_some hx).2
      rw [hq] at this; injection this with this; subst this
      exact ⟨q2, h, .resend i (.inr rfl) h'⟩
  case reportOne i m x r0 q0 cause sync hr hl next hs m' hm =>
    have hx : s.mgr.deref r0 = some q0 := by cases hr <;> assumption
    rcases sends_reqs hm r q (by rw [propose_reqs]; exact hq) with ⟨-, h⟩ | ⟨rfl, q2, h, h'⟩
    · exact ⟨q, h, .same rfl⟩
    · have := (VMgr.deref_some hx).2
      rw [hq] at this; injection this with this; subst this
      exact ⟨q2, h, .resend i (.inr rfl) h'⟩
  case reportAll i m x r0 q0 cause sync hr hl next hs m' hm =>
    have hx : s.mgr.deref r0 = some q0 := by cases hr <;> assumption
    rcases sends_reqs hm r q (by rw [propose_reqs]; exact hq) with ⟨-, h⟩ | ⟨rfl, q2, h, h'⟩
    · refine ⟨q, ?_, .same rfl⟩
      show (VMgr.updateState _).reqs r = _
      rw [updateState_reqs]; exact h
    · have := (VMgr.deref_some hx).2
      rw [hq] at this; injection this with this; subst this
      refine ⟨q2, ?_, .resend i (.inr rfl) h'⟩
      show (VMgr.updateState _).reqs r = _
      rw [updateState_reqs]; exact h
  case excepted i m x msg q0 v rest e hl hm hq0 hi hv hn1 hn2 he =>
    by_cases hr : r = msg.request
    · subst hr
      have := (VMgr.deref_some hq0).2
      rw [hq] at this; injection this with this; subst this
      exact ⟨_, setAt_same _ _ _, .excepted x e ⟨i, m, msg, v, rest, rfl, hl, hm, rfl, by rw [hq0]; rfl, hi, hv, hn1, hn2,
        he⟩ rfl⟩
    · exact ⟨q, by show setAt s.mgr.reqs _ _ r = _; rw [setAt_other _ _ hr]; exact hq, .same rfl⟩
  case responseBad i m x msg q0 hl hm hq0 hi hlk err m' hp' =>
    refine hsame ?_
    rcases VMgr.processResponse_cases cfg s.mgr x i.seed with ⟨_, -, h'⟩ | ⟨next, _, usm, -, hc, h'⟩ | ⟨_, _, -, -, h'⟩ |
      ⟨-, h'⟩ <;> rw [h'] at hp' <;> cases hp' <;> rfl
  case responded i m x msg q0 hl hm hq0 hi hlk m' hp' =>
    have hreqs : m'.reqs = s.mgr.reqs := by
      rcases VMgr.processResponse_cases cfg s.mgr x i.seed with ⟨_, -, h'⟩ | ⟨next, _, usm, -, hc, h'⟩ | ⟨_, _, -, -, h'⟩ |
        ⟨-, h'⟩ <;> rw [h'] at hp' <;> cases hp' <;> rfl
    by_cases hr : r = msg.request
    · subst hr
      have := (VMgr.deref_some hq0).2
      rw [hq] at this; injection this with this; subst this
      exact ⟨_, setAt_same _ _ _, .stored x ⟨i, m, msg, rfl, hl, hm, rfl, by rw [hq0]; rfl, hi, hlk, by rw [hp']⟩ rfl⟩
    · refine ⟨q, ?_, .same rfl⟩
      show setAt m'.reqs _ _ r = _
      rw [setAt_other _ _ hr, hreqs]; exact hq
  case flushSent i r0 eid sync l x q0 hl hu hx m' hm =>
    rcases sends_reqs hm r q hq with ⟨-, h⟩ | ⟨rfl, q2, h, h'⟩
    · exact ⟨q, h, .same rfl⟩
    · have := (VMgr.deref_some hx).2
      rw [hq] at this; injection this with this; subst this
      exact ⟨q2, h, .resend i (.inr rfl) h'⟩
  case flushFailed i r0 eid sync l x q0 hl hu hx m' err hm =>
    rcases sends_reqs hm r q hq with ⟨-, h⟩ | ⟨rfl, q2, h, h'⟩
    · exact ⟨q, h, .same rfl⟩
    · have := (VMgr.deref_some hx).2
      rw [hq] at this; injection this with this; subst this
      exact ⟨q2, h, .resend i (.inr rfl) h'⟩
  case synced i r0 q0 hl hq0 =>
    by_cases hr : r = r0
    · subst hr
      rw [hq] at hq0; injection hq0 with hq0; subst hq0
      exact ⟨_, setAt_same _ _ _, .same rfl⟩
    · exact ⟨q, by show setAt s.mgr.reqs _ _ r = _; rw [setAt_other _ _ hr]; exact hq, .same rfl⟩
  case collected r0 q0 hq0 =>
    obtain ⟨q2, h1, h2⟩ := closed_reqs (cfg := cfg) s.mgr r0 q0 (VMgr.deref_some hq0).2 r q hq
    exact ⟨q2, h1, .same h2⟩
  all_goals exact hsame rfl

/-- The request `r` was created by the step `e`. -/
def Born (e : VEvent) (gen : NumGen) (q : VReq) : Prop :=
  ∃ pdu timeout t0 r0 i, e = .send pdu q.userName q.level timeout q.period t0 r0 i ∧
    q.pdu = { pdu with requestID := (VMgr.generateRequestID gen r0).1 } ∧ q.expiration = t0 + timeout ∧
    q.event = false ∧ q.exception = none ∧ q.response = none ∧
    (q.nextRefresh = q.expiration ∨ q.nextRefresh = min q.expiration (i.now + q.period))

/-- A request exists before the step, or the step creates it. -/
theorem move_born {s s' : VSys} {e : VEvent}
    (hm : Move cfg s e s') (r : Nat) (q' : VReq) (hq' : s'.mgr.reqs r = some q') :
    (∃ q, s.mgr.reqs r = some q) ∨ (r = s.mgr.nextReq ∧ Born e s.mgr.gen q') := by
  cases hq : s.mgr.reqs r with
  | some q => exact .inl ⟨q, rfl⟩
  | none =>
    right
    have hset : ∀ r0 (q0 : VReq) q1, s.mgr.reqs r0 = some q0 → setAt s.mgr.reqs r0 q1 r = s.mgr.reqs r := by
      intro r0 q0 q1 h0
      rw [setAt_other]; rintro rfl; rw [hq] at h0; cases h0
    have hsend : ∀ (m m' : VMgr) r0 q0 q1 engineID cause i res, m.reqs = s.mgr.reqs → s.mgr.reqs r0 = some q0 →
        VMgr.Sends cfg m r0 q1 engineID cause i res m' → m'.reqs r = none := by
      intro m m' r0 q0 q1 engineID cause i res h1 h2 h3
      obtain ⟨q2, h4, -⟩ := h3.reqs
      rw [h4, h1, hset r0 q0 _ h2, hq]
    have hclose : ∀ (m : VMgr) r0, m.reqs r = none → (m.closing cfg r0).reqs r = none := by
      intro m r0 h
      unfold VMgr.closing
      split
      · exact h
      · rename_i q0 h0
        unfold VMgr.closed
        simp only
        rw [setAt_other]; · exact h
        rintro rfl; rw [h] at h0; cases h0
    have hfin : ∀ (m : VMgr) (t r0 : Nat) (o : VOutcome), m.reqs r = none →
        (({ s with mgr := m } : VSys).finish cfg t r0 o).mgr.reqs r = none := by
      intro m t r0 o h
      rw [finish_eq]; exact hclose m r0 h
    have key : s'.mgr.reqs r = none → r = s.mgr.nextReq ∧ Born e s.mgr.gen q' := by
      intro h; rw [h] at hq'; cases hq'
    cases hm
    case queued pdu user level timeout period t0 r0 i q0 hq0 hl hd hs =>
      have hq' : setAt s.mgr.reqs s.mgr.nextReq (some q0) r = some q' := hq'
      by_cases hr : r = s.mgr.nextReq
      · subst hr
        rw [setAt_same] at hq'; injection hq' with hq'; subst hq'
        subst hq0
        exact ⟨rfl, pdu, timeout, t0, r0, i, rfl, rfl, rfl, rfl, rfl, rfl, .inl rfl⟩
      · rw [setAt_other _ _ hr, hq] at hq'; cases hq'
    case issued pdu user level timeout period t0 r0 i q0 hq0 hl hd next hs m' hm =>
      obtain ⟨q2, h1, h2⟩ := hm.reqs
      rw [updateState_reqs] at hq'
      simp only at hq'
      rw [h1, propose_reqs] at hq'
      by_cases hr : r = s.mgr.nextReq
      · subst hr
        rw [setAt_same] at hq'; injection hq' with hq'; subst hq'
        rw [h2]
        subst hq0
        exact ⟨rfl, pdu, timeout, t0, r0, i, rfl, rfl, rfl, rfl, rfl, rfl, .inr rfl⟩
      · have : setAt (setAt s.mgr.reqs s.mgr.nextReq (some q0)) s.mgr.nextReq (some q2) r = some q' := hq'
        rw [setAt_other _ _ hr, setAt_other _ _ hr, hq] at this; cases this
    case issueFailed pdu user level timeout period t0 r0 i q0 hq0 hl hd next hs m' err hm =>
      obtain ⟨q2, h1, h2⟩ := hm.reqs
      have hq' : m'.reqs r = some q' := hq'
      rw [h1, propose_reqs] at hq'
      by_cases hr : r = s.mgr.nextReq
      · subst hr
        rw [setAt_same] at hq'; injection hq' with hq'; subst hq'
        rw [h2]
        subst hq0
        exact ⟨rfl, pdu, timeout, t0, r0, i, rfl, rfl, rfl, rfl, rfl, rfl, .inr rfl⟩
      · have : setAt (setAt s.mgr.reqs s.mgr.nextReq (some q0)) s.mgr.nextReq (some q2) r = some q' := hq'
        rw [setAt_other _ _ hr, setAt_other _ _ hr, hq] at this; cases this
    case bodyZero t i r0 x rest q0 ht ha hx he hn hx' hz => exact key (hfin _ t r0 _ hq)
    case bodySent t i r0 x rest q0 ht ha hx he hn hx' hz m' hm =>
      exact key (hsend _ m' _ _ _ _ _ _ _ rfl (VMgr.deref_some hx).2 hm)
    case bodyFailed t i r0 x rest q0 ht ha hx he hn hx' hz m' err hm =>
      exact key (hfin _ t r0 _ (hsend _ m' _ _ _ _ _ _ _ rfl (VMgr.deref_some hx).2 hm))
    case pokeBegin => refine key ?_; simp only [updateState_reqs, propose_reqs]; exact hq
    case pokeSent t i r0 l x a q0 ht hx next hs m' hm =>
      refine key ?_
      rw [updateState_reqs]
      exact hsend _ m' _ _ _ _ _ _ _ (propose_reqs _ _) (VMgr.deref_some hx).2 hm
    case pokeFailed t i r0 l x a q0 ht hx next hs m' err hm =>
      exact key (hfin _ t r0 _ (hsend _ m' _ _ _ _ _ _ _ (propose_reqs _ _) (VMgr.deref_some hx).2 hm))
    case answered t i r0 q0 x ht hq0 he hx => exact key (hfin s.mgr t r0 _ hq)
    case reported t i r0 q0 ex ht hq0 he => exact key (hfin s.mgr t r0 _ hq)
    case timedOut t i r0 q0 ht hq0 he => exact key (hfin s.mgr t r0 _ hq)
    case reportFailed i m x r0 q0 cause sync hr hl all next hs m' err hm =>
      have hx : s.mgr.deref r0 = some q0 := by cases hr <;> assumption
      exact key (hsend _ m' _ _ _ _ _ _ _ (propose_reqs _ _) (VMgr.deref_some hx).2 hm)
    case reportOne i m x r0 q0 cause sync hr hl next hs m' hm =>
      have hx : s.mgr.deref r0 = some q0 := by cases hr <;> assumption
      exact key (hsend _ m' _ _ _ _ _ _ _ (propose_reqs _ _) (VMgr.deref_some hx).2 hm)
    case reportAll i m x r0 q0 cause sync hr hl next hs m' hm =>
      have hx : s.mgr.deref r0 = some q0 := by cases hr <;> assumption
      refine key ?_
      show (VMgr.updateState _).reqs r = _
      rw [updateState_reqs]
      exact hsend _ m' _ _ _ _ _ _ _ (propose_reqs _ _) (VMgr.deref_some hx).2 hm
    case excepted i m x msg q0 v rest e hl hm hq0 hi hv hn1 hn2 he =>
      exact key ((hset _ _ _ (VMgr.deref_some hq0).2).trans hq)
    case responseBad i m x msg q0 hl hm hq0 hi hlk err m' hp' =>
      refine key ?_
      rcases VMgr.processResponse_cases cfg s.mgr x i.seed with ⟨_, -, h'⟩ | ⟨next, _, usm, -, hc, h'⟩ | ⟨_, _, -, -, h'⟩ |
        ⟨-, h'⟩ <;> rw [h'] at hp' <;> cases hp' <;> exact hq
    case responded i m x msg q0 hl hm hq0 hi hlk m' hp' =>
      have hreqs : m'.reqs = s.mgr.reqs := by
        rcases VMgr.processResponse_cases cfg s.mgr x i.seed with ⟨_, -, h'⟩ | ⟨next, _, usm, -, hc, h'⟩ | ⟨_, _, -, -, h'⟩ |
          ⟨-, h'⟩ <;> rw [h'] at hp' <;> cases hp' <;> rfl
      refine key ?_
      show setAt m'.reqs _ _ r = _
      rw [hreqs]
      exact (hset _ _ _ (VMgr.deref_some hq0).2).trans hq
    case flushSent i r0 eid sync l x q0 hl hu hx m' hm =>
      exact key (hsend { s.mgr with unsent := l } m' _ _ _ _ _ _ _ rfl (VMgr.deref_some hx).2 hm)
    case flushFailed i r0 eid sync l x q0 hl hu hx m' err hm =>
      exact key (hsend { s.mgr with unsent := l } m' _ _ _ _ _ _ _ rfl (VMgr.deref_some hx).2 hm)
    case synced i r0 q0 hl hq0 => exact key ((hset _ _ _ hq0).trans hq)
    case collected r0 q0 hq0 =>
      refine key ?_
      show setAt s.mgr.reqs _ _ r = _
      exact (hset _ _ _ (VMgr.deref_some hq0).2).trans hq
    all_goals exact key hq

/-- Why a send from state `m` raised the exception `err`: the user registry refused the engine; or no message
ID was free, the security module refused to protect the message, or the channel raised it. -/
def SendFailed (cfg : VCfg) (m : VMgr) (i : SendIn) (err : PyErr) : Prop :=
  (∃ e, m.usm.Refused cfg e i.seed err) ∨
  ∃ q usm, (usm = m.usm ∨ ∃ old e, changeEngine cfg m.usm old (some e) i.seed = (.ok (), usm)) ∧
    VMgr.Trouble cfg m q usm i err

theorem sends_failed {base : Bytes → Option (Int × String)} (hp : Usm.Positive base) {m m' : VMgr}
    (h : m.Accounts base cfg.ns) {r : Nat} {q q0 : VReq} (h0 : m.deref r = some q0) {engineID : Option Bytes}
    {cause : Why} {i : SendIn} {err : PyErr} (hs : VMgr.Sends cfg m r q engineID cause i (.error err) m')
    (hq : q.engineID = q0.engineID) : SendFailed cfg m i err := by
  obtain ⟨hd, h0⟩ := deref_some h0
  obtain ⟨rest, hrest⟩ := naming_split m.engineID m.reqs (h.lt h0)
  have hl : Usm.Ledger base cfg.ns m.usm (fun e => rest e + one q.engineID e) := by
    refine h.ledger.congr fun e => ?_
    unfold Spec.holders
    rw [hq, ← hrest q0 e, setAt_self _ _ _ h0]
  generalize hr : (Except.error err : Res Unit) = res at hs
  cases hs with
  | refused e err' usm he hc =>
    cases hr
    rcases changeEngine_spec hl hp (some e) i.seed with ⟨h1, -⟩ | ⟨⟨err', h1, e', h2, h3⟩, -⟩
    · rw [hc] at h1; cases h1
    · rw [hc] at h1; cases h1; exact .inl ⟨e', h3⟩
  | made q1 usm1 usm cache id sent res he hb hu hs hpo hdo =>
    rcases hs with ⟨h, -⟩ | ⟨⟨err', h, ht⟩, -⟩
    · rw [h] at hr; cases hr
    · rw [h] at hr; cases hr
      refine .inr ⟨_, _, ?_, ht⟩
      rcases he with ⟨-, -, h⟩ | ⟨e, -, h, -⟩
      · exact .inl h
      · exact .inr ⟨_, e, h⟩

theorem SendFailed.propose {m : VMgr} {n : Option MState} {i : SendIn} {err : PyErr}
    (h : SendFailed cfg (m.propose n) i err) : SendFailed cfg m i err := by
  rw [propose_eq] at h; exact h

/-- How a thread inside `wait` moves in its own step, at clock reading `i.now`. `fails` are the new failed
sends. -/
inductive Goes (cfg : VCfg) (s : VSys) (i : SendIn) : VPc → VPc → List Fail → Prop
  | expired (r : Nat) (q : VReq) (hq : s.mgr.reqs r = some q) (he : q.expiration ≤ i.now) :
      Goes cfg s i (.test r) (.finish r) []
  | unexpired (r : Nat) (q : VReq) (hq : s.mgr.reqs r = some q) (he : i.now < q.expiration) :
      Goes cfg s i (.test r) (.body r) []
  | nothing (r : Nat) (ha : s.mgr.active = []) : Goes cfg s i (.body r) (.poke r) []
  | again (r : Nat) : Goes cfg s i (.body r) (.body r) []
  | rest (r : Nat) (x : Ref) (l : List Ref) (q : VReq) (ha : s.mgr.active = x :: l)
      (hx : s.mgr.deref x.id = some q) (he : q.event = false) (hn : i.now < q.nextRefresh) :
      Goes cfg s i (.body r) (.sleep r (q.nextRefresh - i.now) i.now) []
  | bodyZero (r : Nat) (x : Ref) (l : List Ref) (q : VReq) (ha : s.mgr.active = x :: l)
      (hx : s.mgr.deref x.id = some q) (hz : q.period = 0)
      (ho : q.event = false ∧ q.nextRefresh ≤ i.now ∧ i.now < q.expiration) :
      Goes cfg s i (.body r) (.done r (.raised .zeroDivisionError)) [.refresh x.id]
  | bodyRaised (r r' : Nat) (q : VReq) (err : PyErr) (hx : s.mgr.deref r' = some q)
      (ho : q.event = false ∧ q.nextRefresh ≤ i.now ∧ i.now < q.expiration) (hf : SendFailed cfg s.mgr i err) :
      Goes cfg s i (.body r) (.done r (.raised err)) [.refresh r']
  | poke (r : Nat) (hl : s.mgr.locked = false) : Goes cfg s i (.poke r) (.poking r s.mgr.unsent false) []
  | pokeOne (r : Nat) (l : List Ref) (x : Ref) (a a' : Bool) :
      Goes cfg s i (.poking r (l ++ [x]) a) (.poking r l a') []
  | poked (r : Nat) : Goes cfg s i (.poking r [] true) (.body r) []
  | idled (r : Nat) : Goes cfg s i (.poking r [] false) (.sleep r 0 i.now) []
  | pokeRaised (r : Nat) (l : List Ref) (x : Ref) (a : Bool) (q : VReq) (err : PyErr)
      (hx : s.mgr.deref x.id = some q) (hf : SendFailed cfg s.mgr i err) :
      Goes cfg s i (.poking r (l ++ [x]) a) (.done r (.raised err)) [.poke x.id]
  | woken (r : Nat) (timeout since : ℚ) (q : VReq) (hq : s.mgr.reqs r = some q) (he : q.event = true) :
      Goes cfg s i (.sleep r timeout since) (.finish r) []
  | slept (r : Nat) (timeout since : ℚ) (q : VReq) (hq : s.mgr.reqs r = some q) (he : q.event = false)
      (hn : since + timeout ≤ i.now) : Goes cfg s i (.sleep r timeout since) (.test r) []
  | answered (r : Nat) (q : VReq) (x : V3Incoming) (hq : s.mgr.reqs r = some q) (he : q.event = true)
      (hx : q.response = some x) :
      Goes cfg s i (.finish r) (.done r (if x.scopedPDU.pdu.first ≠ 0
        then .errorResponse x.scopedPDU.pdu.first x.scopedPDU.pdu.second q.pdu
        else .bindings x.scopedPDU.pdu.bindings)) []
  | unanswered (r : Nat) (q : VReq) (hq : s.mgr.reqs r = some q) (he : q.event = false ∨ q.response = none) :
      Goes cfg s i (.finish r) (.failed r) []
  | reported (r : Nat) (q : VReq) (ex : Report) (hq : s.mgr.reqs r = some q) (he : q.exception = some ex) :
      Goes cfg s i (.failed r) (.done r (.reported ex)) []
  | timedOut (r : Nat) (q : VReq) (hq : s.mgr.reqs r = some q) (he : q.exception = none) :
      Goes cfg s i (.failed r) (.done r .timeout) []

/-- The end of `wait`: `close` does not raise, so the outcome stands. -/
theorem finish_threads {base : Bytes → Option (Int × String)} (hp : Usm.Positive base) (s : VSys)
    (ha : s.mgr.Accounts base cfg.ns) (t r : Nat) (o : VOutcome) :
    (s.finish cfg t r o).threads = setAt s.threads t (.done r o) ∧
      (s.finish cfg t r o).mgr.fails = s.mgr.fails := by
  refine ⟨?_, (finish_frame cfg s t r o).fails⟩
  rw [finish_eq]
  simp only
  cases hq : s.mgr.reqs r with
  | none => rfl
  | some q =>
    simp only
    rw [VMgr.close_eq, (ha.close_ok hp hq).1]

/-- What a step does to thread `t`. -/
theorem move_goes {base : Bytes → Option (Int × String)} (hp : Usm.Positive base) {s s' : VSys} {e : VEvent}
    (ha : s.mgr.Accounts base cfg.ns) (hm : Move cfg s e s') (t : Nat) :
    (s'.threads t = s.threads t ∧ ∀ i, e ≠ .step t i) ∨
    (∃ r q, e = .wait t r ∧ s.mgr.deref r = some q ∧ (s.threads t = .idle ∨ ∃ r' o, s.threads t = .done r' o) ∧
      s'.threads t = .test r) ∨
    ∃ i fails, e = .step t i ∧ Goes cfg s i (s.threads t) (s'.threads t) fails ∧ s'.mgr.fails = fails ++ s.mgr.fails := by
  have hsend : ∀ (m : VMgr) {m' : VMgr} {r0 : Nat} {q0 q1 engineID cause i res}, m.Accounts base cfg.ns →
      m.deref r0 = some q0 → VMgr.Sends cfg m r0 q1 engineID cause i res m' → q1.engineID = q0.engineID →
      m'.Accounts base cfg.ns := fun m _ _ _ _ _ _ _ _ h1 h2 h3 h4 => h1.sends hp h2 h3 h4
  have hset : ∀ (t0 : Nat) (p p0 : VPc) (i : SendIn) (f : List Fail), s.threads t0 = p0 → Goes cfg s i p0 p f →
      e = .step t0 i → s'.threads = setAt s.threads t0 p → s'.mgr.fails = f ++ s.mgr.fails →
      (s'.threads t = s.threads t ∧ ∀ i, e ≠ .step t i) ∨
      (∃ r q, e = .wait t r ∧ s.mgr.deref r = some q ∧ (s.threads t = .idle ∨ ∃ r' o, s.threads t = .done r' o) ∧
        s'.threads t = .test r) ∨
      ∃ i fails, e = .step t i ∧ Goes cfg s i (s.threads t) (s'.threads t) fails ∧
        s'.mgr.fails = fails ++ s.mgr.fails := by
    intro t0 p p0 i f h1 h2 h3 h4 h5
    by_cases htt : t = t0
    · subst htt
      exact .inr (.inr ⟨i, f, h3, by rw [h4, setAt_same, h1]; exact h2, h5⟩)
    · refine .inl ⟨by rw [h4, setAt_other _ _ htt], fun i' h' => ?_⟩
      rw [h3] at h'; cases h'; exact htt rfl
  cases hm
  case wait t0 r q ht hq =>
    by_cases htt : t = t0
    · subst htt
      exact .inr (.inl ⟨r, q, rfl, hq, ht, by show setAt s.threads t _ t = _; rw [setAt_same]⟩)
    · exact .inl ⟨by show setAt s.threads t0 _ t = _; rw [setAt_other _ _ htt], fun i h => by cases h⟩
  case expired t0 i r q ht hq he => exact hset _ _ _ _ _ ht (.expired r q hq he) rfl rfl rfl
  case unexpired t0 i r q ht hq he => exact hset _ _ _ _ _ ht (.unexpired r q hq he) rfl rfl rfl
  case bodyEmpty t0 i r ht ha => exact hset _ _ _ _ _ ht (.nothing r ha) rfl rfl rfl
  case bodyDead t0 i r x rest ht ha hx => exact hset _ _ _ _ _ ht (.again r) rfl rfl rfl
  case bodyOver t0 i r x rest q ht ha hx ho => exact hset _ _ _ _ _ ht (.again r) rfl rfl rfl
  case bodyWait t0 i r x rest q ht ha hx he hn => exact hset _ _ _ _ _ ht (.rest r x rest q ha hx he hn) rfl rfl rfl
  case bodyZero t0 i r x rest q ht ha0 hx he hn hx' hz =>
    have hf := finish_threads hp { s with mgr := s.mgr.fail (.refresh x.id) }
      (ha.same (.inl (.refl _)) rfl rfl rfl fun _ => rfl) t0 r (.raised .zeroDivisionError)
    exact hset _ _ _ _ _ ht (.bodyZero r x rest q ha0 hx hz ⟨he, hn, hx'⟩) rfl hf.1 hf.2
  case bodySent t0 i r x rest q ht ha hx he hn hx' hz m' hm =>
    exact hset _ _ _ _ _ ht (.again r) rfl rfl hm.frame.fails
  case bodyFailed t0 i r x rest q ht ha0 hx he hn hx' hz m' err hm =>
    have hf := finish_threads hp { s with mgr := m'.fail (.refresh x.id) }
      ((hsend _ ha hx hm rfl).same (.inl (.refl _)) rfl rfl rfl fun _ => rfl) t0 r (.raised err)
    exact hset _ _ _ _ _ ht (.bodyRaised r x.id q _ hx ⟨he, hn, hx'⟩ (sends_failed hp ha hx hm rfl)) rfl hf.1 (hf.2.trans (by
      show _ :: m'.fails = _; rw [hm.frame.fails]; rfl))
  case pokeBegin t0 i r ht hl =>
    exact hset _ _ _ _ _ ht (.poke r hl) rfl rfl (by simp only [VMgr.updateState_eq, VMgr.propose_eq]; rfl)
  case pokeEnd t0 i r a ht =>
    cases a
    · exact hset _ _ _ _ _ ht (.idled r) rfl rfl rfl
    · exact hset _ _ _ _ _ ht (.poked r) rfl rfl rfl
  case pokeDead t0 i r l x a ht hx => exact hset _ _ _ _ _ ht (.pokeOne r l x a a) rfl rfl rfl
  case pokeQueued t0 i r l x a q ht hx hs => exact hset _ _ _ _ _ ht (.pokeOne r l x a a) rfl rfl rfl
  case pokeSent t0 i r l x a q ht hx next hs m' hm =>
    refine hset _ _ _ _ _ ht (.pokeOne r l x a true) rfl rfl ?_
    rw [VMgr.updateState_eq]
    exact hm.frame.fails.trans (by rw [VMgr.propose_eq]; rfl)
  case pokeFailed t0 i r l x a q ht hx next hs m' err hm =>
    have hprop : (s.mgr.propose next).Accounts base cfg.ns := by
      rw [VMgr.propose_eq]; exact ha.same (.inl (.refl _)) rfl rfl rfl fun _ => rfl
    have hf := finish_threads hp { s with mgr := { m'.fail (.poke x.id) with locked := false } }
      ((hsend _ hprop (q0 := q) (by rw [VMgr.propose_eq]; exact hx) hm rfl).same (.inl (.refl _)) rfl rfl rfl fun _ => rfl)
      t0 r (.raised err)
    exact hset _ _ _ _ _ ht (.pokeRaised r l x a q err hx (sends_failed hp hprop (q0 := q)
      (by rw [VMgr.propose_eq]; exact hx) hm rfl).propose) rfl hf.1 (hf.2.trans (by
      show _ :: m'.fails = _; rw [hm.frame.fails, VMgr.propose_eq]; rfl))
  case woken t0 i r timeout since q ht hq he => exact hset _ _ _ _ _ ht (.woken r timeout since q hq he) rfl rfl rfl
  case slept t0 i r timeout since q ht hq he hn => exact hset _ _ _ _ _ ht (.slept r timeout since q hq he hn) rfl rfl rfl
  case answered t0 i r q x ht hq he hx =>
    have hf := finish_threads hp s ha t0 r (if x.scopedPDU.pdu.first ≠ 0
        then .errorResponse x.scopedPDU.pdu.first x.scopedPDU.pdu.second q.pdu
        else .bindings x.scopedPDU.pdu.bindings)
    exact hset _ _ _ _ _ ht (.answered r q x hq he hx) rfl hf.1 hf.2
  case unanswered t0 i r q ht hq he => exact hset _ _ _ _ _ ht (.unanswered r q hq he) rfl rfl rfl
  case reported t0 i r q ex ht hq he =>
    have hf := finish_threads hp s ha t0 r (.reported ex)
    exact hset _ _ _ _ _ ht (.reported r q ex hq he) rfl hf.1 hf.2
  case timedOut t0 i r q ht hq he =>
    have hf := finish_threads hp s ha t0 r .timeout
    exact hset _ _ _ _ _ ht (.timedOut r q hq he) rfl hf.1 hf.2
  all_goals exact .inl ⟨rfl, fun i h => by cases h⟩

end VSys
end Snmp
