import Verif.Props.V3State
/-!
# C53: engine registrations are released
-/

namespace Snmp

/-- How many of the manager and the first `n` requests name the engine `e`. -/
def Spec.naming (mgr : Option Bytes) (reqs : Nat → Option VReq) (n : Nat) (e : Bytes) : Nat :=
  (if mgr = some e then 1 else 0) +
    ((List.range n).filter fun r => decide ((reqs r).bind VReq.engineID = some e)).length

/-- How many of the manager and its requests name the engine `e`. -/
def Spec.holders (m : VMgr) (e : Bytes) : Nat := Spec.naming m.engineID m.reqs m.nextReq e

/-- The registration of an engine registered as `base`, with `k` more references under namespace `ns`. -/
def Spec.expected (base : Option (Int × String)) (ns : String) (k : Nat) : Option (Int × String) :=
  match base with
  | none => if k = 0 then none else some (k, ns)
  | some (n, ns') => some (n + k, ns')

theorem naming_succ (mgr : Option Bytes) (reqs : Nat → Option VReq) (n : Nat) (e : Bytes) :
    Spec.naming mgr reqs (n + 1) e = Spec.naming mgr reqs n e + one ((reqs n).bind VReq.engineID) e := by
  unfold Spec.naming one
  rw [List.range_succ, List.filter_append, List.length_append]
  by_cases h : (reqs n).bind VReq.engineID = some e
  · simp [h]; omega
  · simp [h]

theorem naming_congr (mgr : Option Bytes) {reqs reqs' : Nat → Option VReq} {n : Nat}
    (h : ∀ r < n, (reqs' r).bind VReq.engineID = (reqs r).bind VReq.engineID) (e : Bytes) :
    Spec.naming mgr reqs' n e = Spec.naming mgr reqs n e := by
  unfold Spec.naming
  congr 2
  apply List.filter_congr
  intro r hr
  rw [h r (List.mem_range.1 hr)]

/-- Apart from request `r`. -/
theorem naming_split (mgr : Option Bytes) (reqs : Nat → Option VReq) {n r : Nat} (hr : r < n) :
    ∃ rest : Bytes → Nat, ∀ q e, Spec.naming mgr (setAt reqs r (some q)) n e = rest e + one q.engineID e := by
  induction n with
  | zero => omega
  | succ n ih =>
    by_cases h : r = n
    · subst h
      refine ⟨fun e => Spec.naming mgr reqs r e, fun q e => ?_⟩
      rw [naming_succ, setAt_same]
      congr 1
      exact naming_congr mgr (fun r' hr' => by rw [setAt_other _ _ (by omega)]) e
    · obtain ⟨rest, hrest⟩ := ih (by omega)
      refine ⟨fun e => rest e + one ((reqs n).bind VReq.engineID) e, fun q e => ?_⟩
      rw [naming_succ, hrest, setAt_other _ _ (by omega)]
      exact Nat.add_right_comm _ _ _

/-- Apart from the manager. -/
theorem naming_mgr (reqs : Nat → Option VReq) (n : Nat) :
    ∃ rest : Bytes → Nat, ∀ mgr e, Spec.naming mgr reqs n e = rest e + one mgr e := by
  refine ⟨fun e => ((List.range n).filter fun r => decide ((reqs r).bind VReq.engineID = some e)).length, fun mgr e => ?_⟩
  unfold Spec.naming one
  exact Nat.add_comm _ _

theorem setAt_self {α : Type} (f : Nat → α) (i : Nat) (x : α) (h : f i = x) : setAt f i x = f := by
  funext j; unfold setAt; split
  · rename_i hj; rw [hj, h]
  · rfl

variable {base : Bytes → Option (Int × String)} {cfg : VCfg}

/-- The registrations are those the manager and its requests name; there are no requests yet to come; a
collected request names no engine. -/
structure VMgr.Accounts (base : Bytes → Option (Int × String)) (ns : String) (s : VMgr) : Prop where
  ledger : Usm.Ledger base ns s.usm (Spec.holders s)
  later : ∀ r, s.nextReq ≤ r → s.reqs r = none
  dead : ∀ r q, s.dead r = true → s.reqs r = some q → q.engineID = none

namespace VMgr.Accounts

theorem lt {s : VMgr} {ns : String} (h : s.Accounts base ns) {r : Nat} {q : VReq} (hq : s.reqs r = some q) :
    r < s.nextReq := by
  by_contra hr
  rw [h.later r (by omega)] at hq
  cases hq

theorem sends (hp : Usm.Positive base) {s s' : VMgr} (h : s.Accounts base cfg.ns) {r : Nat} {q q0 : VReq}
    (h0 : s.deref r = some q0) {engineID : Option Bytes} {cause : Why} {i : SendIn} {res : Res Unit}
    (hs : VMgr.Sends cfg s r q engineID cause i res s') (hq : q.engineID = q0.engineID) : s'.Accounts base cfg.ns := by
  obtain ⟨hd, h0⟩ := deref_some h0
  have hr := h.lt h0
  obtain ⟨rest, hrest⟩ := naming_split s.engineID s.reqs hr
  have hl : Usm.Ledger base cfg.ns s.usm (fun e => rest e + one q.engineID e) := by
    refine h.ledger.congr fun e => ?_
    unfold Spec.holders
    rw [hq, ← hrest q0 e, setAt_self _ _ _ h0]
  have hlater : ∀ q' : VReq, ∀ r', s.nextReq ≤ r' → setAt s.reqs r (some q') r' = none := by
    intro q' r' hr'
    rw [setAt_other _ _ (by omega)]
    exact h.later r' hr'
  have hdead : ∀ q' : VReq, ∀ r' q'', s.dead r' = true → setAt s.reqs r (some q') r' = some q'' → q''.engineID = none := by
    intro q' r' q'' hd' hq''
    by_cases hrr : r' = r
    · subst hrr; rw [hd] at hd'; cases hd'
    · rw [setAt_other _ _ hrr] at hq''; exact h.dead r' q'' hd' hq''
  cases hs with
  | refused e err usm he hc =>
    refine ⟨?_, hlater q, hdead q⟩
    rcases changeEngine_spec hl hp (some e) i.seed with ⟨h1, -⟩ | ⟨-, -, -, h2⟩
    · rw [hc] at h1; cases h1
    · rw [hc] at h2
      exact (hl.same_reg h2).congr fun e => hrest q e
  | made q1 usm1 usm cache id sent res he hb hu hs hpo hdo =>
    refine ⟨?_, hlater _, hdead _⟩
    have : Usm.Ledger base cfg.ns usm1 (fun e => rest e + one q1.engineID e) := by
      rcases he with ⟨-, rfl, rfl⟩ | ⟨e, -, hc, rfl⟩
      · exact hl
      · rcases changeEngine_spec hl hp (some e) i.seed with ⟨-, h2⟩ | ⟨⟨err, h1, -⟩, -⟩
        · rw [hc] at h2; exact h2
        · rw [hc] at h1; cases h1
    exact (this.same_reg hu).congr fun e => hrest _ e

/-- `Request.close` does not raise. -/
theorem close_ok (hp : Usm.Positive base) {s : VMgr} (h : s.Accounts base cfg.ns) {r : Nat} {q : VReq}
    (hq : s.reqs r = some q) :
    (changeEngine cfg s.usm q.engineID none (fun _ => 0)).1 = .ok () ∧
      (s.closed cfg r q).Accounts base cfg.ns ∧
      ∃ q', (s.closed cfg r q).reqs r = some q' ∧ q'.engineID = none := by
  have hr := h.lt hq
  obtain ⟨rest, hrest⟩ := naming_split s.engineID s.reqs hr
  have hl : Usm.Ledger base cfg.ns s.usm (fun e => rest e + one q.engineID e) := by
    refine h.ledger.congr fun e => ?_
    unfold Spec.holders
    rw [← hrest q e, setAt_self _ _ _ hq]
  rcases changeEngine_spec hl hp none (fun _ => 0) with ⟨h1, h2⟩ | ⟨-, h1, -⟩
  · refine ⟨h1, ⟨?_, ?_, ?_⟩, ?_⟩
    · refine h2.congr fun e => ?_
      unfold Spec.holders VMgr.closed
      simp only [hrest, h1, if_true]
    · intro r' hr'
      show setAt s.reqs r _ r' = none
      rw [setAt_other _ _ (by have : (s.closed cfg r q).nextReq = s.nextReq := rfl; omega)]
      exact h.later r' hr'
    · intro r' q' hd hq'
      unfold VMgr.closed at hq' hd
      simp only [h1, if_true] at hq' hd
      by_cases hrr : r' = r
      · subst hrr; rw [setAt_same] at hq'; injection hq' with hq'; rw [← hq']
      · rw [setAt_other _ _ hrr] at hq'; exact h.dead r' q' hd hq'
    · refine ⟨_, setAt_same _ _ _, ?_⟩
      simp [h1]
  · exact absurd rfl h1

theorem closing (hp : Usm.Positive base) {s : VMgr} (h : s.Accounts base cfg.ns) (r : Nat) :
    (s.closing cfg r).Accounts base cfg.ns := by
  unfold VMgr.closing
  cases hq : s.reqs r with
  | none => exact h
  | some q => exact (h.close_ok hp hq).2.1

/-- Nothing that matters here has changed. -/
theorem same {s s' : VMgr} {ns : String} (h : s.Accounts base ns) (h1 : s'.usm.SameReg s.usm ∨ s.usm.SameReg s'.usm)
    (h2 : s'.engineID = s.engineID) (h3 : s'.nextReq = s.nextReq) (h4 : s'.dead = s.dead)
    (h5 : ∀ r, (s'.reqs r).map VReq.engineID = (s.reqs r).map VReq.engineID) : s'.Accounts base ns := by
  have h1 : s.usm.SameReg s'.usm := h1.elim (fun h e => (h e).symm) id
  have hb : ∀ r, (s'.reqs r).bind VReq.engineID = (s.reqs r).bind VReq.engineID := by
    intro r
    have := h5 r
    cases hx : s.reqs r <;> cases hy : s'.reqs r <;> simp_all
  refine ⟨(h.ledger.same_reg h1).congr fun e => ?_, ?_, ?_⟩
  · unfold Spec.holders
    rw [h2, h3]
    exact naming_congr _ (fun r _ => hb r) e
  · intro r hr
    have := h5 r
    rw [h.later r (by omega)] at this
    simpa using this
  · intro r q hd hq
    have := h5 r
    rw [hq] at this
    cases hx : s.reqs r with
    | none => rw [hx] at this; cases this
    | some q0 =>
      rw [hx] at this
      simp only [Option.map_some, Option.some.injEq] at this
      rw [this]
      exact h.dead r q0 (by rw [← h4]; exact hd) hx

theorem setReq {s : VMgr} {ns : String} (h : s.Accounts base ns) {r : Nat} {q q' : VReq} (hq : s.reqs r = some q)
    (he : q'.engineID = q.engineID) : (s.setReq r q').Accounts base ns := by
  refine h.same (.inl (.refl _)) rfl rfl rfl fun r' => ?_
  unfold VMgr.setReq
  simp only [setAt_get]
  split
  · rename_i hr; subst hr; rw [hq]; simp [he]
  · rfl

/-- Creating a request. -/
theorem issue {s : VMgr} {ns : String} (h : s.Accounts base ns) {q : VReq} (hq : q.engineID = none) (gen : NumGen)
    : (s.issue q gen).Accounts base ns := by
  refine ⟨h.ledger.congr fun e => ?_, ?_, ?_⟩
  · unfold Spec.holders VMgr.issue
    simp only
    rw [naming_succ, setAt_same]
    simp only [Option.bind_some, hq]
    rw [naming_congr _ (fun r hr => by rw [setAt_other _ _ (by omega)])]
    simp [one]
  · intro r hr
    unfold VMgr.issue at hr ⊢
    simp only at hr ⊢
    rw [setAt_other _ _ (by omega)]
    exact h.later r (by omega)
  · intro r q' hd hq'
    unfold VMgr.issue at hd hq'
    simp only at hd hq'
    by_cases hr : r = s.nextReq
    · subst hr; rw [setAt_same] at hq'; injection hq' with hq'; rw [← hq', hq]
    · rw [setAt_other _ _ hr] at hq'; exact h.dead r q' hd hq'

end VMgr.Accounts

open VSys

namespace VMgr

theorem Frame.accounts_core {s s' : VMgr} (h : Frame s s') : s'.engineID = s.engineID ∧ s'.nextReq = s.nextReq ∧
    s'.dead = s.dead := ⟨h.engineID, h.nextReq, h.dead⟩

theorem issue_deref {s : VMgr} (hd : s.dead s.nextReq = false) (q : VReq) (gen : NumGen) (next : Option MState) :
    ((s.issue q gen).propose next).deref s.nextReq = some q := by
  rw [propose_eq]
  unfold deref issue
  simp only [hd, setAt_same]
  simp

end VMgr

/-- No request was collected before it was created. -/
def VMgr.DeadOld (s : VMgr) : Prop := ∀ r, s.nextReq ≤ r → s.dead r = false

/-- What others registered changes only by their own steps. -/
theorem VSys.held_move {s s' : VSys} {e : VEvent} (hno : ∀ o, e ≠ .other o) (hm : Move cfg s e s') : s'.held = s.held := by
  cases hm <;> first
    | rfl
    | (rw [finish_eq])
    | exact absurd rfl (hno _)

theorem VSys.accounts_own (hp : Usm.Positive base) {s s' : VSys} {e : VEvent} (hno : ∀ o, e ≠ .other o)
    (h : s.mgr.Accounts base cfg.ns) (ho : s.mgr.DeadOld) (hm : Move cfg s e s') :
    s'.mgr.Accounts base cfg.ns ∧ s'.mgr.DeadOld := by
  have hprop : ∀ n, (s.mgr.propose n).Accounts base cfg.ns := fun n => by
    rw [VMgr.propose_eq]; exact h.same (.inl (.refl _)) rfl rfl rfl fun _ => rfl
  have hderef : ∀ n r, (s.mgr.propose n).deref r = s.mgr.deref r := fun n r => by rw [VMgr.propose_eq]; rfl
  have hfin : ∀ (m : VMgr) (t r : Nat) (o : VOutcome), m.Accounts base cfg.ns → m.DeadOld →
      (({ s with mgr := m } : VSys).finish cfg t r o).mgr.Accounts base cfg.ns ∧
        (({ s with mgr := m } : VSys).finish cfg t r o).mgr.DeadOld := by
    intro m t r o h1 h2
    have hf := finish_frame cfg ({ s with mgr := m } : VSys) t r o
    refine ⟨by rw [finish_eq]; exact h1.closing hp r, ?_⟩
    intro r' hr'
    rw [hf.dead]
    exact h2 r' (by rw [hf.nextReq] at hr'; exact hr')
  have hold' : ∀ {m m' : VMgr}, VMgr.Frame s.mgr m' → m.dead = m'.dead → m.nextReq = m'.nextReq → m.DeadOld := by
    intro m m' hf h1 h2 r hr
    rw [h1, hf.dead]; exact ho r (by rw [h2, hf.nextReq] at hr; exact hr)
  have hissue : ∀ q gen n, VReq.engineID q = none → ((s.mgr.issue q gen).propose n).Accounts base cfg.ns :=
    fun q gen n hq => by
      rw [VMgr.propose_eq]; exact (h.issue hq gen).same (.inl (.refl _)) rfl rfl rfl fun _ => rfl
  have hissued : ∀ q gen n, ((s.mgr.issue q gen).propose n).DeadOld := by
    intro q gen n r hr
    rw [VMgr.propose_eq] at hr ⊢
    unfold VMgr.issue at hr ⊢
    simp only at hr ⊢
    exact ho r (by omega)
  cases hm
  case queued pdu user level timeout period t0 r0 i q hq hl hd hs =>
    refine ⟨(h.issue (q := q) (by rw [hq]; rfl) (VMgr.generateRequestID s.mgr.gen r0).2).same (.inl (.refl _)) rfl rfl rfl
      fun _ => rfl, ?_⟩
    intro r hr; exact hissued q (VMgr.generateRequestID s.mgr.gen r0).2 none r hr
  case issued pdu user level timeout period t0 r0 i q hq hl hd next hs m' hm =>
    have hf := hm.frame
    have := (hissue q _ next (by rw [hq]; rfl)).sends hp (q0 := q)
      (VMgr.issue_deref (ho _ (Nat.le_refl _)) q _ next) hm rfl
    rw [VMgr.updateState_eq]
    refine ⟨this.same (.inl (.refl _)) rfl rfl rfl fun _ => rfl, ?_⟩
    intro r hr
    show m'.dead r = false
    rw [hf.dead]; exact hissued q _ next r (by rw [← hf.nextReq]; exact hr)
  case issueFailed pdu user level timeout period t0 r0 i q hq hl hd next hs m' err hm =>
    have hf := hm.frame
    have := (hissue q _ next (by rw [hq]; rfl)).sends hp (q0 := q)
      (VMgr.issue_deref (ho _ (Nat.le_refl _)) q _ next) hm rfl
    refine ⟨this.same (.inl (.refl _)) rfl rfl rfl fun _ => rfl, ?_⟩
    intro r hr
    show m'.dead r = false
    rw [hf.dead]; exact hissued q _ next r (by rw [← hf.nextReq]; exact hr)
  case bodyDead => exact ⟨h.same (.inl (.refl _)) rfl rfl rfl fun _ => rfl, ho⟩
  case bodyOver => exact ⟨h.same (.inl (.refl _)) rfl rfl rfl fun _ => rfl, ho⟩
  case bodyZero t i r x rest q ht ha hx he hn hx' hz =>
    exact hfin _ t r _ (h.same (.inl (.refl _)) rfl rfl rfl fun _ => rfl) ho
  case bodySent t i r x rest q ht ha hx he hn hx' hz m' hm =>
    exact ⟨(h.sends hp (q0 := q) hx hm rfl).same (.inl (.refl _)) rfl rfl rfl fun _ => rfl, hold' (m' := m') hm.frame rfl rfl⟩
  case bodyFailed t i r x rest q ht ha hx he hn hx' hz m' err hm =>
    exact hfin _ t r _ ((h.sends hp (q0 := q) hx hm rfl).same (.inl (.refl _)) rfl rfl rfl fun _ => rfl) (hold' (m' := m') hm.frame rfl rfl)
  case pokeBegin =>
    simp only [VMgr.updateState_eq, VMgr.propose_eq]
    exact ⟨h.same (.inl (.refl _)) rfl rfl rfl fun _ => rfl, ho⟩
  case pokeEnd => exact ⟨h.same (.inl (.refl _)) rfl rfl rfl fun _ => rfl, ho⟩
  case pokeQueued => exact ⟨h.same (.inl (.refl _)) rfl rfl rfl fun _ => rfl, ho⟩
  case pokeSent t i r l x a q ht hx next hs m' hm =>
    have hf := hm.frame
    rw [VMgr.updateState_eq]
    refine ⟨((hprop next).sends hp (q0 := q) (by rw [hderef]; exact hx) hm rfl).same (.inl (.refl _)) rfl rfl rfl fun _ => rfl, ?_⟩
    intro r hr
    show m'.dead r = false
    rw [hf.dead, VMgr.propose_eq]
    exact ho r (by rw [VMgr.propose_eq] at hf; rw [← hf.nextReq]; exact hr)
  case pokeFailed t i r l x a q ht hx next hs m' err hm =>
    have hf := hm.frame
    refine hfin _ t r _ (((hprop next).sends hp (q0 := q) (by rw [hderef]; exact hx) hm rfl).same (.inl (.refl _)) rfl rfl rfl
      fun _ => rfl) ?_
    intro r hr
    show m'.dead r = false
    rw [hf.dead, VMgr.propose_eq]
    exact ho r (by rw [VMgr.propose_eq] at hf; rw [← hf.nextReq]; exact hr)
  case answered t i r q x ht hq he hx => exact hfin s.mgr t r _ h ho
  case reported t i r q ex ht hq he => exact hfin s.mgr t r _ h ho
  case timedOut t i r q ht hq he => exact hfin s.mgr t r _ h ho
  case heardNothing usm hl hu hd => exact ⟨h.same (.inr hu) rfl rfl rfl fun _ => rfl, ho⟩
  case heard w stamp usm m x msg msg' id en hl hw hu hx hr hid he hh hg hc =>
    have := s.mgr.usm.processIncoming_reg cfg.backend cfg.crypto msg stamp
    rw [hu] at this
    exact ⟨h.same (.inr this) rfl rfl rfl fun _ => rfl, ho⟩
  case reportFailed i m x r q cause sync hr hl all next hs m' err hm =>
    have hf := hm.frame
    have hq : s.mgr.deref r = some q := by cases hr <;> assumption
    refine ⟨((hprop next).sends hp (q0 := q) (by rw [hderef]; exact hq) hm rfl).same (.inl (.refl _)) rfl rfl rfl fun _ => rfl, ?_⟩
    intro r hr
    show m'.dead r = false
    rw [hf.dead, VMgr.propose_eq]
    exact ho r (by rw [VMgr.propose_eq] at hf; rw [← hf.nextReq]; exact hr)
  case reportOne i m x r q cause sync hr hl next hs m' hm =>
    have hf := hm.frame
    have hq : s.mgr.deref r = some q := by cases hr <;> assumption
    refine ⟨((hprop next).sends hp (q0 := q) (by rw [hderef]; exact hq) hm rfl).same (.inl (.refl _)) rfl rfl rfl fun _ => rfl, ?_⟩
    intro r hr
    show m'.dead r = false
    rw [hf.dead, VMgr.propose_eq]
    exact ho r (by rw [VMgr.propose_eq] at hf; rw [← hf.nextReq]; exact hr)
  case reportAll i m x r q cause sync hr hl next hs m' hm =>
    have hf := hm.frame
    have hq : s.mgr.deref r = some q := by cases hr <;> assumption
    simp only [VMgr.updateState_eq]
    refine ⟨((hprop next).sends hp (q0 := q) (by rw [hderef]; exact hq) hm rfl).same (.inl (.refl _)) rfl rfl rfl fun _ => rfl, ?_⟩
    intro r hr
    show m'.dead r = false
    rw [hf.dead, VMgr.propose_eq]
    exact ho r (by rw [VMgr.propose_eq] at hf; rw [← hf.nextReq]; exact hr)
  case excepted i m x msg q v rest e hl hm hq hi hv hn1 hn2 he =>
    refine ⟨h.setReq (VMgr.deref_some hq).2 ?_, ho⟩
    unfold VReq.processException
    split <;> split <;> rfl
  case responseBad i m x msg q hl hm hq hi hlk err m' hp' =>
    rcases VMgr.processResponse_cases cfg s.mgr x i.seed with ⟨_, -, h'⟩ | ⟨next, _, usm, -, hc, h'⟩ | ⟨_, _, -, -, h'⟩ |
      ⟨-, h'⟩ <;> rw [h'] at hp' <;> cases hp'
    · exact ⟨h, ho⟩
    · refine ⟨h.same (.inr ?_) rfl rfl rfl fun _ => rfl, ho⟩
      obtain ⟨rest, hrest⟩ := naming_mgr s.mgr.reqs s.mgr.nextReq
      rcases changeEngine_spec (h.ledger.congr fun e => (hrest s.mgr.engineID e).symm) hp (some x.securityEngineID)
        i.seed with ⟨h1, -⟩ | ⟨-, -, -, h2⟩
      · rw [hc] at h1; cases h1
      · rw [hc] at h2; exact h2
  case responded i m x msg q hl hm hq hi hlk m' hp' =>
    have hst : (q.store x).engineID = q.engineID := by unfold VReq.store; split <;> rfl
    rcases VMgr.processResponse_cases cfg s.mgr x i.seed with ⟨_, -, h'⟩ | ⟨next, _, usm, -, -, h'⟩ | ⟨_, usm, -, hc, h'⟩ |
      ⟨-, h'⟩ <;> rw [h'] at hp' <;> cases hp'
    · refine ⟨VMgr.Accounts.setReq (q := q) ?_ (VMgr.deref_some hq).2 hst, ho⟩
      obtain ⟨rest, hrest⟩ := naming_mgr s.mgr.reqs s.mgr.nextReq
      rcases changeEngine_spec (h.ledger.congr fun e => (hrest s.mgr.engineID e).symm) hp (some x.securityEngineID)
        i.seed with ⟨-, h2⟩ | ⟨⟨err, h1, -⟩, -⟩
      · rw [hc] at h2
        exact ⟨h2.congr fun e => hrest _ e, h.later, h.dead⟩
      · rw [hc] at h1; cases h1
    · exact ⟨h.setReq (VMgr.deref_some hq).2 hst, ho⟩
  case flushEnd => exact ⟨h.same (.inl (.refl _)) rfl rfl rfl fun _ => rfl, ho⟩
  case flushDead => exact ⟨h.same (.inl (.refl _)) rfl rfl rfl fun _ => rfl, ho⟩
  case flushSent i r eid sync l x q hl hu hx m' hm =>
    have h' : ({ s.mgr with unsent := l } : VMgr).Accounts base cfg.ns := h.same (.inl (.refl _)) rfl rfl rfl fun _ => rfl
    exact ⟨(h'.sends hp (q0 := q) hx hm rfl).same (.inl (.refl _)) rfl rfl rfl fun _ => rfl, by
      have hf := hm.frame
      intro r hr
      show m'.dead r = false
      rw [hf.dead]; exact ho r (by have := hf.nextReq; simp only at this; rw [← this]; exact hr)⟩
  case flushFailed i r eid sync l x q hl hu hx m' err hm =>
    have h' : ({ s.mgr with unsent := l } : VMgr).Accounts base cfg.ns := h.same (.inl (.refl _)) rfl rfl rfl fun _ => rfl
    exact ⟨(h'.sends hp (q0 := q) hx hm rfl).same (.inl (.refl _)) rfl rfl rfl fun _ => rfl, by
      have hf := hm.frame
      intro r hr
      show m'.dead r = false
      rw [hf.dead]; exact ho r (by have := hf.nextReq; simp only at this; rw [← this]; exact hr)⟩
  case synced i r q hl hq =>
    exact ⟨(h.setReq (q' := { q with shared := s.mgr.nextBool }) hq rfl).same (.inl (.refl _)) rfl rfl rfl fun _ => rfl, ho⟩
  case collected r q hq =>
    obtain ⟨hdr, hq⟩ := VMgr.deref_some hq
    obtain ⟨-, h1, q', h2, h3⟩ := h.close_ok hp hq
    refine ⟨⟨h1.ledger.congr fun e => rfl, h1.later, ?_⟩, ?_⟩
    · intro r' q'' hd hq''
      by_cases hr : r' = r
      · subst hr
        have : some q'' = some q' := hq''.symm.trans h2
        injection this with this
        rw [this]; exact h3
      · refine h1.dead r' q'' ?_ hq''
        show s.mgr.dead r' = true
        have hd : setAt s.mgr.dead r true r' = true := hd
        rw [setAt_other _ _ hr] at hd
        exact hd
    · intro r' hr'
      have hr' : s.mgr.nextReq ≤ r' := hr'
      have := h.lt hq
      show setAt s.mgr.dead r true r' = false
      rw [setAt_other _ _ (by omega)]
      exact ho r' hr'
  case dropped hd ha =>
    obtain ⟨rest, hrest⟩ := naming_mgr s.mgr.reqs s.mgr.nextReq
    rcases changeEngine_spec (h.ledger.congr fun e => (hrest s.mgr.engineID e).symm) hp none
        (fun _ => 0) with ⟨h1, h2⟩ | ⟨-, h1, -⟩
    · refine ⟨⟨h2.congr fun e => ?_, h.later, h.dead⟩, ho⟩
      unfold Spec.holders
      simp only [h1, if_true]
      exact hrest none e
    · exact absurd rfl h1
  case addUser a seed =>
    exact ⟨h.same (.inr (s.mgr.usm.addUser_reg cfg.crypto a seed)) rfl rfl rfl fun _ => rfl, ho⟩
  case other o usm cache n held hs => exact absurd rfl (hno o)
  all_goals exact ⟨h, ho⟩

/-- Somebody else registers an engine. -/
theorem Usm.Ledger.others_add {ns : String} {u u' : Usm} {n : Bytes → Nat} (h : Usm.Ledger base ns u n) {i : Bytes} {ns1 : String}
    (hn : ∀ k ns', u.reg i = some (k, ns') → ns' = ns1)
    (hr : ∀ e, u'.reg e = if e = i then Usm.bump (u.reg i) ns1 else u.reg e) :
    Usm.Ledger (fun x => if x = i then Usm.bump (base i) ns1 else base x) ns u' n := by
  have other : ∀ e, e ≠ i → u'.reg e = u.reg e := fun e he => by rw [hr, if_neg he]
  have he : u'.reg i = Usm.bump (u.reg i) ns1 := by rw [hr, if_pos rfl]
  refine ⟨?_, ?_, ?_, ?_⟩
  · intro e h1 h2
    by_cases hi : e = i
    · subst hi
      simp only [if_true] at h1
      unfold Usm.bump at h1; split at h1 <;> cases h1
    · simp only [hi, if_false] at h1
      rw [other e hi]; exact h.free e h1 h2
  · intro e h1 h2
    by_cases hi : e = i
    · subst hi
      simp only [if_true] at h1
      unfold Usm.bump at h1; split at h1 <;> cases h1
    · simp only [hi, if_false] at h1
      rw [other e hi]; exact h.ours e h1 h2
  · intro e k ns' h1
    by_cases hi : e = i
    · subst hi
      simp only [if_true] at h1
      rw [he]
      cases hbi : base e with
      | none =>
        rw [hbi] at h1
        cases h1
        rcases Nat.eq_zero_or_pos (n e) with h0 | h0
        · rw [h.free e hbi h0, h0]; rfl
        · have := h.ours e hbi h0
          rw [this]
          have := hn _ _ this
          subst this
          show some ((n e : Int) + 1, ns) = _
          congr 2; omega
      | some y =>
        obtain ⟨k', ns2⟩ := y
        rw [hbi] at h1
        cases h1
        rw [h.more e k' _ hbi]
        show some (k' + (n e : Int) + 1, ns') = _
        congr 2; omega
    · simp only [hi, if_false] at h1
      rw [other e hi]; exact h.more e k ns' h1
  · intro e k ns' h1 h2
    by_cases hi : e = i
    · subst hi
      simp only [if_true] at h1
      cases hbi : base e with
      | none =>
        rw [hbi] at h1
        cases h1
        exact (hn _ _ (h.ours e hbi h2)).symm
      | some y =>
        obtain ⟨k', ns2⟩ := y
        rw [hbi] at h1
        cases h1
        exact h.same e k' _ hbi h2
    · simp only [hi, if_false] at h1
      exact h.same e k ns' h1 h2

/-- Somebody else releases an engine. -/
theorem Usm.Ledger.others_sub {ns : String} {u u' : Usm} {n : Bytes → Nat} (h : Usm.Ledger base ns u n) (hp : Usm.Positive base)
    {i : Bytes} {k : Int} {ns1 : String} (hi : base i = some (k, ns1))
    (hr : ∀ e, u'.reg e = if e = i then Usm.unbump (u.reg i) else u.reg e) :
    Usm.Ledger (fun x => if x = i then Usm.unbump (base i) else base x) ns u' n := by
  have other : ∀ e, e ≠ i → u'.reg e = u.reg e := fun e he => by rw [hr, if_neg he]
  have hk := hp i k ns1 hi
  have he : u'.reg i = if k + n i - 1 = 0 then none else some (k + n i - 1, ns1) := by
    rw [hr, if_pos rfl, h.more i k ns1 hi]; rfl
  have hs := h.same i k ns1 hi
  have hb : Usm.unbump (base i) = if k - 1 = 0 then none else some (k - 1, ns1) := by rw [hi]; rfl
  refine ⟨?_, ?_, ?_, ?_⟩
  · intro e h1 h2
    by_cases h' : e = i
    · subst h'
      simp only [if_true, hb] at h1
      split at h1
      · rw [he, if_pos (by omega)]
      · cases h1
    · simp only [h', if_false] at h1
      rw [other e h']; exact h.free e h1 h2
  · intro e h1 h2
    by_cases h' : e = i
    · subst h'
      simp only [if_true, hb] at h1
      split at h1
      · rw [he, if_neg (by omega), hs h2]
        congr 2; omega
      · cases h1
    · simp only [h', if_false] at h1
      rw [other e h']; exact h.ours e h1 h2
  · intro e k' ns' h1
    by_cases h' : e = i
    · subst h'
      simp only [if_true, hb] at h1
      split at h1
      · cases h1
      · cases h1
        rw [he, if_neg (by omega)]
        congr 2; omega
    · simp only [h', if_false] at h1
      rw [other e h']; exact h.more e k' ns' h1
  · intro e k' ns' h1 h2
    by_cases h' : e = i
    · subst h'
      simp only [if_true, hb] at h1
      split at h1
      · cases h1
      · cases h1; exact hs h2
    · simp only [h', if_false] at h1
      exact h.same e k' ns' h1 h2

/-- The registrations after a step of somebody else. -/
theorem VSys.shared_ledger {s : VSys} {o : Other} {usm : Usm} {cache : Cache V3Entry} {k : Nat}
    {held : Bytes → Option (Int × String)} {ns : String} {n : Bytes → Nat} (hs : Shared cfg s o usm cache k held)
    (hp : Usm.Positive s.held) (h : Usm.Ledger s.held ns s.mgr.usm n) :
    Usm.Ledger held ns usm n ∧ Usm.Positive held := by
  cases hs with
  | registered e ns1 seed hok =>
    rcases assign_reg cfg.crypto s.mgr.usm e ns1 seed with ⟨-, h2, h3⟩ | ⟨h1, -⟩
    · refine ⟨h.others_add h2 h3, ?_⟩
      intro x k' ns' hx
      simp only at hx
      split at hx
      · cases hb : s.held e with
        | none => rw [hb] at hx; cases hx; omega
        | some y =>
          rw [hb] at hx; cases hx
          have := hp e y.1 y.2 hb
          omega
      · exact hp x k' ns' hx
    · exact absurd hok h1
  | refused e ns1 seed hok =>
    rcases assign_reg cfg.crypto s.mgr.usm e ns1 seed with ⟨h1, -⟩ | ⟨-, h2⟩
    · exact absurd h1 hok
    · exact ⟨h.same_reg h2, hp⟩
  | released e ns1 k' hh =>
    have hr := h.more e k' ns1 hh
    have hk := hp e k' ns1 hh
    obtain ⟨-, h3⟩ := release_reg s.mgr.usm e ns1 hr (by omega)
    refine ⟨h.others_sub hp hh h3, ?_⟩
    intro x k2 ns' hx
    simp only at hx
    split at hx
    · rw [hh] at hx
      unfold Usm.unbump at hx
      simp only at hx
      split at hx
      · cases hx
      · cases hx; omega
    · exact hp x k2 ns' hx
  | sent pdu engineID user level draws stamp usm hu =>
    refine ⟨?_, hp⟩
    rcases hu with rfl | ⟨msg, rfl⟩
    · exact h
    · exact h.same_reg (Usm.prepareOutgoing_reg _ _ _ _ _ _ _)
  | forgot id he => exact ⟨h, hp⟩

theorem VSys.accounts_move {s s' : VSys} {e : VEvent} (hp : Usm.Positive s.held)
    (h : s.mgr.Accounts s.held cfg.ns) (ho : s.mgr.DeadOld) (hm : Move cfg s e s') :
    s'.mgr.Accounts s'.held cfg.ns ∧ s'.mgr.DeadOld ∧ Usm.Positive s'.held := by
  by_cases hno : ∀ o, e ≠ .other o
  · rw [held_move hno hm]
    obtain ⟨h1, h2⟩ := accounts_own hp hno h ho hm
    exact ⟨h1, h2, hp⟩
  · simp only [not_forall, not_not] at hno
    obtain ⟨o, rfl⟩ := hno
    cases hm with
    | other usm cache n held hs =>
      obtain ⟨h1, h2⟩ := shared_ledger hs hp h.ledger
      exact ⟨⟨h1, h.later, h.dead⟩, ho, h2⟩

/-- At the start the others hold what was registered before. -/
theorem VMgr.create_held {u : Usm} (hp : Usm.Positive u.reg) {engineID : Option Bytes} {g : Nat} {c0 : Cache V3Entry}
    {n0 : Nat} {seed : Bytes → Nat} {m0 : VMgr} (hm : VMgr.create cfg u engineID g c0 n0 seed = .ok m0) :
    (VSys.init m0).held = u.reg := by
  obtain ⟨usm, hc, hm0⟩ := VMgr.create_ok hm
  have h0 : Usm.Ledger u.reg cfg.ns u (fun e => 0 + one none e) := by
    refine ⟨fun e he _ => he, fun e _ h => by simp [one] at h,
      fun e k ns' he => by rw [he]; simp [one], fun e k ns' _ h => by simp [one] at h⟩
  have h1 : Usm.Ledger u.reg cfg.ns m0.usm (fun e => 0 + one m0.engineID e) := by
    rcases changeEngine_spec h0 hp engineID seed with ⟨-, h1⟩ | ⟨⟨err, h1, -⟩, -⟩
    · rw [hc] at h1
      rw [hm0]
      exact h1
    · rw [hc] at h1; cases h1
  funext e
  unfold VSys.init
  simp only
  cases hb : u.reg e with
  | none =>
    split
    · rename_i he
      rw [h1.ours e hb (by simp [one, he])]
      simp [one, he, Usm.unbump]
    · rename_i he
      exact h1.free e hb (by simp [one, he])
  | some x =>
    rw [h1.more e x.1 x.2 hb]
    split
    · rename_i he
      have := hp e x.1 x.2 hb
      simp only [one, he, if_true, Usm.unbump]
      rw [if_neg (by push_cast; omega)]
      congr 1
      ext <;> simp
    · rename_i he
      simp [one, he]

/-- The counts after every history. -/
theorem VSys.accounts {u : Usm} (hp : Usm.Positive u.reg) {engineID : Option Bytes} {g : Nat} {c0 : Cache V3Entry}
    {n0 : Nat} {seed : Bytes → Nat} {m0 : VMgr} (hm : VMgr.create cfg u engineID g c0 n0 seed = .ok m0) (h : List VEvent) :
    (after cfg m0 h).mgr.Accounts (after cfg m0 h).held cfg.ns ∧ (after cfg m0 h).mgr.DeadOld ∧
      Usm.Positive (after cfg m0 h).held := by
  refine after_induct (fun _ s => s.mgr.Accounts s.held cfg.ns ∧ s.mgr.DeadOld ∧ Usm.Positive s.held) ?_ (fun _ _ _ h => h)
    (fun h s e s' hi hmv => accounts_move hi.2.2 hi.1 hi.2.1 hmv) h
  have hh := VMgr.create_held hp hm
  obtain ⟨usm, hc, hm0⟩ := VMgr.create_ok hm
  have h0 : Usm.Ledger u.reg cfg.ns u (fun e => 0 + one none e) := by
    refine ⟨fun e he _ => he, fun e _ h => by simp [one] at h,
      fun e k ns' he => by rw [he]; simp [one], fun e k ns' _ h => by simp [one] at h⟩
  rw [hh]
  refine ⟨⟨?_, ?_, ?_⟩, ?_, hp⟩
  · rcases changeEngine_spec h0 hp engineID seed with ⟨-, h1⟩ | ⟨⟨err, h1, -⟩, -⟩
    · rw [hc] at h1
      show Usm.Ledger u.reg cfg.ns m0.usm (Spec.holders m0)
      subst hm0
      refine h1.congr fun e => ?_
      simp [Spec.holders, Spec.naming, one]
    · rw [hc] at h1; cases h1
  · intro r _; show m0.reqs r = none; rw [hm0]
  · intro r q _ hq; have hq : m0.reqs r = some q := hq; rw [hm0] at hq; cases hq
  · intro r _; show m0.dead r = false; rw [hm0]

/-- Registries reached by calls of the security module's methods have positive counts. -/
theorem Usm.after_positive (b : Backend) (c : Crypto) (hc : c.Ok) (h : List Spec.UsmOp) :
    Usm.Positive (Usm.after b c h).reg := by
  intro e k ns hr
  unfold Usm.reg at hr
  cases hg : (Usm.after b c h).users.engines.get e with
  | none => rw [hg] at hr; cases hr
  | some en =>
    rw [hg] at hr
    have := (Usm.after_users hc b h).count e en hg
    cases hr
    omega

/-- **C53.** A manager is created on a security module with any earlier use, and other managers of the engine use it as
well. After every history, each engine is registered as often as the others have it registered plus once for each of
the manager and its requests that names it. -/
theorem C53_counts (b : Backend) (c : Crypto) (hc : c.Ok) (h0 : List Spec.UsmOp) (cfg : VCfg) (engineID : Option Bytes)
    (g : Nat) (c0 : Cache V3Entry) (n0 : Nat) (seed : Bytes → Nat) (m0 : VMgr)
    (hm : VMgr.create cfg (Usm.after b c h0) engineID g c0 n0 seed = .ok m0) (h : List VEvent) (e : Bytes) :
    (after cfg m0 h).mgr.usm.reg e =
      Spec.expected ((after cfg m0 h).held e) cfg.ns (Spec.holders (after cfg m0 h).mgr e) := by
  obtain ⟨ha, -⟩ := VSys.accounts (Usm.after_positive b c hc h0) hm h
  unfold Spec.expected
  cases hb : (after cfg m0 h).held e with
  | none =>
    simp only
    split
    · rename_i hz; exact ha.ledger.free e hb hz
    · rename_i hz; exact ha.ledger.ours e hb (by omega)
  | some x => exact ha.ledger.more e x.1 x.2 hb

/-- **C53.** What the others have registered: at first, what was registered before the manager was created; and only
steps of others change it. -/
theorem C53_others (b : Backend) (c : Crypto) (hc : c.Ok) (h0 : List Spec.UsmOp) (cfg : VCfg) (engineID : Option Bytes)
    (g : Nat) (c0 : Cache V3Entry) (n0 : Nat) (seed : Bytes → Nat) (m0 : VMgr)
    (hm : VMgr.create cfg (Usm.after b c h0) engineID g c0 n0 seed = .ok m0) :
    (after cfg m0 []).held = (Usm.after b c h0).reg ∧
    ∀ (h : List VEvent) (e : VEvent), (∀ o, e ≠ .other o) → (after cfg m0 (h ++ [e])).held = (after cfg m0 h).held := by
  refine ⟨VMgr.create_held (Usm.after_positive b c hc h0) hm, fun h e he => ?_⟩
  rw [after_snoc]
  rcases step_move cfg (after cfg m0 h) e with hs | hs
  · rw [hs]
  · exact held_move he hs

/-- Once the manager was collected, so were its requests, and it names no engine. -/
def VSys.Gone (s : VSys) : Prop :=
  s.dropped = true → (∀ r < s.mgr.nextReq, s.mgr.dead r = true) ∧ s.mgr.engineID = none

theorem VSys.gone_move (hp : Usm.Positive base) {s s' : VSys} {e : VEvent}
    (h : s.mgr.Accounts base cfg.ns) (hg : s.Gone) (hm : Move cfg s e s') : s'.Gone := by
  have hno : ∀ r q, s.mgr.deref r = some q → s.dropped = false := by
    intro r q hq
    by_contra hd
    obtain ⟨h1, h2⟩ := VMgr.deref_some hq
    rw [(hg (by simpa using hd)).1 r (h.lt h2)] at h1
    cases h1
  have hfin : ∀ (m : VMgr) (t r : Nat) (o : VOutcome), m.dead = s.mgr.dead → m.nextReq = s.mgr.nextReq →
      m.engineID = s.mgr.engineID → (({ s with mgr := m } : VSys).finish cfg t r o).Gone := by
    intro m t r o h1 h2 h3 hd
    have hf := finish_frame cfg ({ s with mgr := m } : VSys) t r o
    rw [hf.dead, hf.nextReq, hf.engineID]
    have hd : s.dropped = true := by rw [finish_eq] at hd; exact hd
    show (∀ r < m.nextReq, m.dead r = true) ∧ m.engineID = none
    rw [h1, h2, h3]; exact hg hd
  have hdead : s.dropped = false → s'.dropped = s.dropped → s'.Gone := by
    intro h1 h2 h3; rw [h2, h1] at h3; cases h3
  cases hm
  case queued hd _ => exact hdead hd rfl
  case issued hd _ _ _ _ => exact hdead hd rfl
  case issueFailed hd _ _ _ _ _ => exact hdead hd rfl
  case bodyZero t i r x rest q ht ha hx he hn hx' hz => exact hfin _ t r _ rfl rfl rfl
  case bodySent hx _ _ _ _ _ _ => exact hdead (hno _ _ hx) rfl
  case bodyFailed t i r x rest q ht ha hx he hn hx' hz m' err hm =>
    exact hfin _ t r _ hm.frame.dead hm.frame.nextReq hm.frame.engineID
  case pokeBegin => simp only [VMgr.updateState_eq, VMgr.propose_eq]; exact hg
  case pokeSent hx _ _ _ _ => exact hdead (hno _ _ hx) rfl
  case pokeFailed t i r l x a q ht hx next hs m' err hm =>
    have hf := hm.frame
    rw [VMgr.propose_eq] at hf
    exact hfin _ t r _ hf.dead hf.nextReq hf.engineID
  case answered t i r q x ht hq he hx => exact hfin s.mgr t r _ rfl rfl rfl
  case reported t i r q ex ht hq he => exact hfin s.mgr t r _ rfl rfl rfl
  case timedOut t i r q ht hq he => exact hfin s.mgr t r _ rfl rfl rfl
  case reportFailed hr _ _ _ _ _ _ _ => cases hr <;> exact hdead (hno _ _ (by assumption)) rfl
  case reportOne hr _ _ _ _ _ => cases hr <;> exact hdead (hno _ _ (by assumption)) rfl
  case reportAll hr _ _ _ _ _ => cases hr <;> exact hdead (hno _ _ (by assumption)) rfl
  case excepted hq _ _ _ _ _ => exact hdead (hno _ _ hq) rfl
  case responseBad hq _ _ _ _ _ => exact hdead (hno _ _ hq) rfl
  case responded hq _ _ _ _ => exact hdead (hno _ _ hq) rfl
  case flushSent hx _ _ => exact hdead (hno _ _ hx) rfl
  case flushFailed hx _ _ _ => exact hdead (hno _ _ hx) rfl
  case collected q hq => exact hdead (hno _ _ hq) rfl
  case dropped hd ha =>
    intro _
    refine ⟨ha, ?_⟩
    obtain ⟨rest, hrest⟩ := naming_mgr s.mgr.reqs s.mgr.nextReq
    rcases changeEngine_spec (h.ledger.congr fun e => (hrest s.mgr.engineID e).symm) hp none
        (fun _ => 0) with ⟨h1, -⟩ | ⟨-, h1, -⟩
    · simp only [h1, if_true]
    · exact absurd rfl h1
  all_goals exact hg

/-- **C53.** When the manager has been collected, which happens only after its requests were, no registration
remains but those of the others. -/
theorem C53_released (b : Backend) (c : Crypto) (hc : c.Ok) (h0 : List Spec.UsmOp) (cfg : VCfg) (engineID : Option Bytes)
    (g : Nat) (c0 : Cache V3Entry) (n0 : Nat) (seed : Bytes → Nat) (m0 : VMgr)
    (hm : VMgr.create cfg (Usm.after b c h0) engineID g c0 n0 seed = .ok m0) (h : List VEvent)
    (hd : (after cfg m0 h).dropped = true) (e : Bytes) :
    (after cfg m0 h).mgr.usm.reg e = (after cfg m0 h).held e := by
  have hp := Usm.after_positive b c hc h0
  have hg : (after cfg m0 h).mgr.Accounts (after cfg m0 h).held cfg.ns ∧ ((after cfg m0 h).mgr.DeadOld ∧
      Usm.Positive (after cfg m0 h).held) ∧ (after cfg m0 h).Gone := by
    refine after_induct (fun _ s => s.mgr.Accounts s.held cfg.ns ∧ (s.mgr.DeadOld ∧ Usm.Positive s.held) ∧ s.Gone) ?_
      (fun _ _ _ h => h) (fun h s e s' hi hmv => ?_) h
    · have := VSys.accounts hp hm []
      exact ⟨this.1, this.2, fun h => by cases h⟩
    · have := accounts_move hi.2.1.2 hi.1 hi.2.1.1 hmv
      exact ⟨this.1, this.2, gone_move hi.2.1.2 hi.1 hi.2.2 hmv⟩
  obtain ⟨ha, -, hg⟩ := hg
  obtain ⟨h1, h2⟩ := hg hd
  rw [C53_counts b c hc h0 cfg engineID g c0 n0 seed m0 hm h e]
  have hz : Spec.holders (after cfg m0 h).mgr e = 0 := by
    unfold Spec.holders Spec.naming
    rw [h2, List.filter_eq_nil_iff.2]
    · simp
    · intro r hr
      cases hq : (after cfg m0 h).mgr.reqs r with
      | none => simp
      | some q => simp [ha.dead r q (h1 r (List.mem_range.1 hr)) hq]
  rw [hz]
  unfold Spec.expected
  split
  · rename_i hb; rw [hb]; rfl
  · rename_i hb; rw [hb]; simp

end Snmp
