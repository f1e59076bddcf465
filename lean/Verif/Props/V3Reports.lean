import Verif.Props.V3Book
/-!
# C55: notInTimeWindows reports and resends
-/

namespace Snmp

variable {cfg : VCfg} {m0 : VMgr}

open VSys

/-- The step `e` in state `s` processes a notInTimeWindows report that answers message `m`, and message `m'` is sent
in it. -/
def Spec.Triggers (cfg : VCfg) (s : VSys) (e : VEvent) (m m' : Nat) : Prop :=
  ∃ i x v rest r w, e = .listen i ∧ s.listener = .push m x ∧ x.scopedPDU.pdu.type.isInternal = true ∧
    x.scopedPDU.pdu.bindings = v :: rest ∧ v.name = Spec.notInTimeWindows ∧
    (s.step cfg e).mgr.sent = ⟨r, m', w⟩ :: s.mgr.sent

namespace VSys

open VMgr

/-- What sending does to the messages. -/
theorem sends_ok_msgs {m m' : VMgr} {r : Nat} {q : VReq} {engineID : Option Bytes} {cause : Why} {i : SendIn}
    (h : VMgr.Sends cfg m r q engineID cause i (.ok ()) m') :
    (∃ id, m'.msgs m.nextMsg = some ⟨r, id, q.shared, cause⟩) ∧ (∃ w, m'.sent = ⟨r, m.nextMsg, w⟩ :: m.sent) ∧
    (∀ n, n ≠ m.nextMsg → m'.msgs n = m.msgs n) ∧ ∃ q', m'.reqs r = some q' ∧ q'.shared = q.shared := by
  cases h with
  | made q1 usm1 usm cache id sent res he hb hu hs hpo hdo =>
    have e1 : q1.shared = q.shared := by
      rcases he with ⟨-, rfl, -⟩ | ⟨e, -, -, rfl⟩ <;> rfl
    refine ⟨⟨id, ?_⟩, ?_, fun n hn => setAt_other _ _ hn, _, setAt_same _ _ _, e1⟩
    · rw [← e1]; exact setAt_same _ _ _
    · rcases hs with ⟨-, w, msg, h1, -⟩ | ⟨⟨err, h1, -⟩, -⟩
      · exact ⟨w, h1⟩
      · cases h1

/-- What the listening thread owes to the requests whose messages have the `SharedBool` `b`. -/
structure Owed (s : VSys) (m m' b : Nat) : Prop where
  first : ∃ msg, s.mgr.msgs m = some msg ∧ msg.shared = b
  second : ∃ msg, s.mgr.msgs m' = some msg ∧ msg.shared = b
  owed : s.mgr.bools b = true ∨ ∃ r q, s.mgr.reqs r = some q ∧ q.shared = b ∧
    (s.listener = .sync r ∨ ∃ e, s.listener = .flush r e true)

theorem triggers_owed {s : VSys} {e : VEvent} {m m' : Nat} (hb : Book s) (ht : Spec.Triggers cfg s e m m') :
    (∃ msg, s.mgr.msgs m = some msg ∧ s.mgr.bools msg.shared = false) ∧ ∃ b, Owed (s.step cfg e) m m' b := by
  obtain ⟨i, x, v, rest, r, w, rfl, hl, hi, hv, hn, hs⟩ := ht
  have hne : (s.step cfg (.listen i)).mgr.sent ≠ s.mgr.sent := by
    rw [hs]; intro h; exact absurd (congrArg List.length h) (by simp)
  rcases step_move cfg s (.listen i) with hm | hm
  · rw [hm] at hne; exact absurd rfl hne
  · generalize s.step cfg (.listen i) = s' at *
    have key : ∀ (x' : V3Incoming) (m1 r' : Nat) (q : VReq) (cause : Why) (sync : Bool) (next : Option MState) (m'' : VMgr),
        Reports s m1 x' r' q cause sync →
        VMgr.Sends cfg (s.mgr.propose next) r' (q.setNextRefresh (i.now + q.period)) (some x'.securityEngineID)
          cause i (.ok ()) m'' → s'.mgr.sent = m''.sent → s'.mgr.msgs = m''.msgs → s'.mgr.reqs = m''.reqs →
        (s'.listener = (if sync then .sync r' else .idle) ∨ ∃ e, s'.listener = .flush r' e sync) →
        (∃ msg, s.mgr.msgs m = some msg ∧ s.mgr.bools msg.shared = false) ∧ ∃ b, Owed s' m m' b := by
      intro x' m1 r' q cause sync next m'' hr hsend k1 k2 k3 k4
      obtain ⟨⟨id, j1⟩, ⟨w', j2⟩, j3, q', j4, j5⟩ := sends_ok_msgs hsend
      rw [k1, j2] at hs
      simp only [propose_eq] at hs j1 j3
      injection hs with hs _
      injection hs with _ hs _
      cases hr with
      | unknownEngine msg v' rest' hl' hm' hr' hq' hi' hv' hn' he' =>
        rw [hl] at hl'
        injection hl' with _ hl'
        subst hl'
        rw [hv] at hv'
        injection hv' with hv' _
        subst hv'
        rw [hn] at hn'
        exact absurd hn' (by decide)
      | notInTime msg v' rest' hl' hm' hr' hq' hi' hv' hn' hbool =>
        rw [hl] at hl'
        injection hl' with hl1 hl2
        subst hl1
        subst hl2
        refine ⟨⟨msg, hm', hbool⟩, msg.shared, ?_⟩
        have hsh : msg.shared = q.shared := by
          obtain ⟨q2, h1, h2⟩ := hb.request m msg hm'
          rw [hr', (VMgr.deref_some hq').2] at h1
          injection h1 with h1
          subst h1
          rcases h2 with h2 | h2
          · exact h2
          · rw [hbool] at h2; cases h2
        have hmlt := hb.lt m msg hm'
        refine ⟨⟨msg, ?_, rfl⟩, ?_, .inr ⟨r', q', by rw [k3]; exact j4, by rw [j5, hsh]; rfl, ?_⟩⟩
        · rw [k2, j3 m (Nat.ne_of_lt hmlt)]; exact hm'
        · rw [k2, ← hs, j1]
          exact ⟨_, rfl, hsh.symm⟩
        · rcases k4 with k4 | k4
          · exact .inl k4
          · exact .inr k4
    generalize he : VEvent.listen i = e at hm
    cases hm <;> try (exfalso; cases he; done)
    case reportOne i' m1 x' r' q cause sync hr hlk next hst m'' hsend =>
      cases he
      exact key x' m1 r' q cause sync next m'' hr hsend rfl rfl rfl (.inl rfl)
    case reportAll i' m1 x' r' q cause sync hr hlk next hst m'' hsend =>
      cases he
      refine key x' m1 r' q cause sync next m'' hr hsend ?_ ?_ ?_ (.inr ⟨_, rfl⟩) <;> simp only [updateState_eq]
    case reportFailed i' m1 x' r' q cause sync hr hlk all next hst m'' err hsend =>
      exfalso
      refine hne ?_
      show m''.sent = _
      rw [hsend.sent_error, propose_sent]
    case responseBad i' m1 x' msg q hl' hmm hq hi' hlk err m'' hp =>
      exfalso
      refine hne ?_
      rcases processResponse_cases cfg s.mgr x' i'.seed with ⟨_, -, h'⟩ | ⟨_, _, _, -, -, h'⟩ | ⟨_, _, -, -, h'⟩ | ⟨-, h'⟩ <;>
        rw [hp] at h' <;> cases h' <;> rfl
    case responded i' m1 x' msg q hl' hmm hq hi' hlk m'' hp =>
      exfalso
      refine hne ?_
      rcases processResponse_cases cfg s.mgr x' i'.seed with ⟨_, -, h'⟩ | ⟨_, _, _, -, -, h'⟩ | ⟨_, _, -, -, h'⟩ | ⟨-, h'⟩ <;>
        rw [hp] at h' <;> cases h' <;> rfl
    case flushSent i' r' eid sync l x' q hl' hu hx m'' hm' => rw [hl] at hl'; cases hl'
    case flushFailed i' r' eid sync l x' q hl' hu hx m'' err hm' => rw [hl] at hl'; cases hl'
    all_goals (exfalso; exact hne rfl)

theorem Owed.move {s s' : VSys} {e : VEvent} {m m' b : Nat} (hlt : ∀ r q, s.mgr.reqs r = some q → r < s.mgr.nextReq)
    (hb : Book s) (ho : Owed s m m' b) (hm : Move cfg s e s') (hf : ∀ r, Fail.flush r ∉ s'.mgr.fails) :
    Owed s' m m' b := by
  obtain ⟨g1, g2, g3⟩ := move_mono hlt hb hm
  obtain ⟨msg1, a1, a2⟩ := ho.first
  obtain ⟨msg2, b1, b2⟩ := ho.second
  refine ⟨⟨msg1, g1 _ _ a1, a2⟩, ⟨msg2, g1 _ _ b1, b2⟩, ?_⟩
  rcases ho.owed with h | ⟨r, q, h1, h2, h3⟩
  · exact .inl (g2 b h)
  · obtain ⟨q', h4, h5⟩ := g3 r q h1
    rcases h5.shared with h6 | h6
    · have hlis : (s'.mgr.bools b = true) ∨ s'.listener = .sync r ∨ ∃ e, s'.listener = .flush r e true := by
        have fin : ∀ (s0 : VSys) (t r : Nat) (o : VOutcome), (s0.finish cfg t r o).listener = s0.listener := by
          intro s0 t r o; rw [finish_eq]
        cases hm
        case flushEnd i r' eid sync hl hu =>
          right; left
          rcases h3 with h3 | ⟨e', h3⟩
          · rw [hl] at h3; cases h3
          · rw [hl] at h3; cases h3; rfl
        case flushFailed i r' eid sync l x q hl hu hx m'' err hm' => exact absurd List.mem_cons_self (hf x.id)
        case synced i r' q'' hl hq =>
          left
          rcases h3 with h3 | ⟨e', h3⟩
          · rw [hl] at h3
            cases h3
            rw [h1] at hq
            cases hq
            rw [← h2]
            exact setAt_same _ _ _
          · rw [hl] at h3; cases h3
        case syncGone i r' hl hq =>
          rcases h3 with h3 | ⟨e', h3⟩
          · rw [hl] at h3
            cases h3
            rw [h1] at hq; cases hq
          · rw [hl] at h3; cases h3
        case heardNothing w stamp usm hl hu hd => rcases h3 with h3 | ⟨e', h3⟩ <;> rw [hl] at h3 <;> cases h3
        case heard w stamp usm m' x' msg msg' id en hl hw hu hx hr hid he hh hg hc =>
          rcases h3 with h3 | ⟨e', h3⟩ <;> rw [hl] at h3 <;> cases h3
        case pushStop i m x hl => rcases h3 with h3 | ⟨e', h3⟩ <;> rw [hl] at h3 <;> cases h3
        case reportBad i m x r q cause sync hr hl err hs =>
          have hl := hr.listener
          rcases h3 with h3 | ⟨e', h3⟩ <;> rw [hl] at h3 <;> cases h3
        case reportFailed i m x r q cause sync hr hl all next hs m' err hm' =>
          have hl := hr.listener
          rcases h3 with h3 | ⟨e', h3⟩ <;> rw [hl] at h3 <;> cases h3
        case reportOne i m x r q cause sync hr hl next hs m' hm' =>
          have hl := hr.listener
          rcases h3 with h3 | ⟨e', h3⟩ <;> rw [hl] at h3 <;> cases h3
        case reportAll i m x r q cause sync hr hl next hs m' hm' =>
          have hl := hr.listener
          rcases h3 with h3 | ⟨e', h3⟩ <;> rw [hl] at h3 <;> cases h3
        case excepted i m x msg q v rest e hl hmm hq hi hv hn1 hn2 he =>
          rcases h3 with h3 | ⟨e', h3⟩ <;> rw [hl] at h3 <;> cases h3
        case responseBad i m x msg q hl hmm hq hi hlk err m' hp =>
          rcases h3 with h3 | ⟨e', h3⟩ <;> rw [hl] at h3 <;> cases h3
        case responded i m x msg q hl hmm hq hi hlk m' hp =>
          rcases h3 with h3 | ⟨e', h3⟩ <;> rw [hl] at h3 <;> cases h3
        all_goals first
          | exact .inr h3
          | (rw [fin]; exact .inr h3)
      rcases hlis with h7 | h7
      · exact .inl h7
      · exact .inr ⟨r, q', h4, h6.trans h2, h7⟩
    · exact .inl (by rw [← h2]; exact h6)

theorem Owed.after (hc : Spec.Created cfg m0) (h : List VEvent) {m m' b : Nat} (ho : Owed (after cfg m0 h) m m' b)
    (h' : List VEvent) (hf : ∀ r, Fail.flush r ∉ (VSys.after cfg m0 (h ++ h')).mgr.fails) :
    Owed (VSys.after cfg m0 (h ++ h')) m m' b := by
  induction h' using List.reverseRecOn with
  | nil => rw [List.append_nil]; exact ho
  | append_singleton h' e ih =>
    rw [← List.append_assoc, after_snoc] at hf ⊢
    obtain ⟨base, hpos, hs⟩ := hc.sound (h ++ h')
    obtain ⟨held, hp, -⟩ := hc.kept (h ++ h')
    rcases step_move cfg (VSys.after cfg m0 (h ++ h')) e with hm | hm
    · rw [hm] at hf ⊢
      exact ih hf
    · exact (ih fun r hr => hf r ((move_flow hp.owner hm).1 _ hr)).move (fun r q hq => hs.accounts.lt hq)
        (hc.book _) hm hf

end VSys

/-- **C55**, what is true of the code: if a notInTimeWindows report answering message `m` made the manager send
message `m'`, then no later report answering `m` or `m'` makes it send anything; provided that no send of a queued
request raised an exception. Missing: that proviso, without which it is false (`C55_false`). -/
theorem C55_partial (hc : Spec.Created cfg m0) (h : List VEvent) (e : VEvent) (m m' : Nat)
    (ht : Spec.Triggers cfg (after cfg m0 h) e m m') (h' : List VEvent) (e' : VEvent) (n n' : Nat)
    (ht' : Spec.Triggers cfg (after cfg m0 (h ++ e :: h')) e' n n')
    (hf : ∀ r, Fail.flush r ∉ (after cfg m0 (h ++ e :: h')).mgr.fails) : n ≠ m ∧ n ≠ m' := by
  have ho := (triggers_owed (hc.book h) ht).2
  obtain ⟨b, ho⟩ := ho
  rw [← after_snoc] at ho
  have hh : h ++ e :: h' = h ++ [e] ++ h' := by simp
  rw [hh] at ht' hf
  have ho' := ho.after hc _ h' hf
  obtain ⟨msg, h1, h2⟩ := (triggers_owed (hc.book _) ht').1
  obtain ⟨i, x, v, rest, r, w, -, hl, -⟩ := ht'
  have hbt : (after cfg m0 (h ++ [e] ++ h')).mgr.bools b = true := by
    rcases ho'.owed with h3 | ⟨r, q, -, -, h3 | ⟨e', h3⟩⟩
    · exact h3
    · rw [hl] at h3; cases h3
    · rw [hl] at h3; cases h3
  constructor
  · rintro rfl
    obtain ⟨msg', h3, h4⟩ := ho'.first
    rw [h1] at h3
    injection h3 with h3
    subst h3
    rw [h4, hbt] at h2; cases h2
  · rintro rfl
    obtain ⟨msg', h3, h4⟩ := ho'.second
    rw [h1] at h3
    injection h3 with h3
    subst h3
    rw [h4, hbt] at h2; cases h2

end Snmp
