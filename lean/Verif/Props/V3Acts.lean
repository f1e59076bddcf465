import Verif.EngineV3
import Verif.Props.V3Deliver
/-!
# What a step of one manager does to what all managers of an engine share
-/

namespace Snmp

namespace VSys

open VMgr

variable {cfg : VCfg}

/-- A manager with the configuration `cfg` does one thing after the other to the shared part. It releases engines only
that it has registered, on top of the registrations `held`; and closes only messages that are `mine`. -/
inductive Acts (cfg : VCfg) (held : Bytes → Option (Int × String)) (mine : Nat → Prop) : Pool → List Other → Pool → Prop
  | nil (p : Pool) : Acts cfg held mine p [] p
  | register (p p' : Pool) (os : List Other) (e : Bytes) (seed : Bytes → Nat)
      (h : Acts cfg held mine
        { p with usm := { p.usm with users := (p.usm.users.assign cfg.crypto e cfg.ns seed).2 } } os p') :
      Acts cfg held mine p (.register e cfg.ns seed :: os) p'
  | release (p p' : Pool) (os : List Other) (e : Bytes) (n : Bytes → Nat) (hl : Usm.Ledger held cfg.ns p.usm n) (hn : 0 < n e)
      (h : Acts cfg held mine { p with usm := { p.usm with users := (p.usm.users.release e cfg.ns).2 } } os p') :
      Acts cfg held mine p (.release e cfg.ns :: os) p'
  | send (p p' : Pool) (os : List Other) (pdu : Pdu) (engineID user : Bytes) (level : SecurityLevel) (draws : Nat → Nat)
      (stamp : ℚ) (usm : Usm) (cache : Cache V3Entry) (msg : Res V3Message) (id : Option Int)
      (hp : prepareOutgoingV3 cfg.maxSize p.cache pdu p.nextMsg engineID user level .usm [] draws = (msg, cache, id))
      (hu : usm = match (generalizing := false) msg with
        | .error _ => p.usm
        | .ok msg => (p.usm.prepareOutgoing cfg.backend cfg.crypto msg engineID user stamp).2)
      (h : Acts cfg held mine ⟨usm, cache, p.nextMsg + 1⟩ os p') :
      Acts cfg held mine p (.send pdu engineID user level draws stamp :: os) p'
  | forget (p p' : Pool) (os : List Other) (id : Int) (hm : ∀ e, p.cache.outstanding id = some e → mine e.handle)
      (h : Acts cfg held mine { p with cache := p.cache.uncache id } os p') :
      Acts cfg held mine p (.forget id :: os) p'

variable {held : Bytes → Option (Int × String)} {mine : Nat → Prop}

theorem Acts.trans {p p' p'' : Pool} {os os' : List Other} (h : Acts cfg held mine p os p')
    (h' : Acts cfg held mine p' os' p'') : Acts cfg held mine p (os ++ os') p'' := by
  induction h with
  | nil p => exact h'
  | register p p' os e seed h ih => exact .register _ _ _ _ _ (ih h')
  | release p p' os e n hl hn h ih => exact .release _ _ _ _ n hl hn (ih h')
  | send p p' os pdu engineID user level draws stamp usm cache msg id hp hu h ih =>
    exact .send _ _ _ _ _ _ _ _ _ _ _ _ _ hp hu (ih h')
  | forget p p' os id hm h ih => exact .forget _ _ _ _ hm (ih h')

/-- Some acts. -/
def Acting (cfg : VCfg) (held : Bytes → Option (Int × String)) (mine : Nat → Prop) (p p' : Pool) : Prop :=
  ∃ os, Acts cfg held mine p os p'

theorem Acting.refl (p : Pool) : Acting cfg held mine p p := ⟨[], .nil p⟩

theorem Acting.of_eq {p p' : Pool} (h : p' = p) : Acting cfg held mine p p' := by rw [h]; exact .refl p

theorem Acting.trans {p p' p'' : Pool} (h : Acting cfg held mine p p') (h' : Acting cfg held mine p' p'') :
    Acting cfg held mine p p'' := by
  obtain ⟨os, h⟩ := h
  obtain ⟨os', h'⟩ := h'
  exact ⟨_, h.trans h'⟩

theorem acting_release (u : Usm) (c : Cache V3Entry) (k : Nat) (old : Option Bytes) (n : Bytes → Nat)
    (h : Usm.Ledger held cfg.ns u (fun e => n e + one old e)) :
    Acting cfg held mine ⟨u, c, k⟩ ⟨(match old with
      | none => ((.ok () : Res Unit), u)
      | some e =>
        match u.users.release e cfg.ns with
        | (.error err, users) => (.error err, { u with users })
        | (.ok _, users) => (.ok (), { u with users })).2, c, k⟩ := by
  cases old with
  | none => exact .refl _
  | some e =>
    refine ⟨[.release e cfg.ns], .release _ _ _ e _ h (by simp [one]) ?_⟩
    simp only
    generalize u.users.release e cfg.ns = y
    obtain ⟨res, users⟩ := y
    cases res <;> exact .nil _

theorem acting_change (u : Usm) (c : Cache V3Entry) (k : Nat) (old new : Option Bytes)
    (seed : Bytes → Nat) (n : Bytes → Nat) (h : Usm.Ledger held cfg.ns u (fun e => n e + one old e)) :
    Acting cfg held mine ⟨u, c, k⟩ ⟨(changeEngine cfg u old new seed).2, c, k⟩ := by
  unfold changeEngine
  split
  · exact .refl _
  · simp only
    cases new with
    | none => exact acting_release u c k old n h
    | some e =>
      have hreg := assign_reg cfg.crypto u e cfg.ns seed
      have act : Acting cfg held mine ⟨u, c, k⟩ ⟨{ u with users := (u.users.assign cfg.crypto e cfg.ns seed).2 }, c, k⟩ :=
        ⟨_, .register _ _ _ e seed (.nil _)⟩
      simp only
      generalize u.users.assign cfg.crypto e cfg.ns seed = y at *
      obtain ⟨res, users⟩ := y
      cases res with
      | error err => exact act
      | ok b => cases b with
        | false => exact act
        | true =>
          refine act.trans (acting_release { u with users } c k old (fun x => n x + one (some e) x) ?_)
          rcases hreg with ⟨-, h2, h3⟩ | ⟨h1, -⟩
          · refine (h.add h2 h3).congr fun x => ?_
            simp only [one, Option.some.injEq, eq_comm]
            omega
          · exact absurd rfl h1

theorem acting_sends {m m' : VMgr} (h : m.Accounts held cfg.ns) {r : Nat} {q q0 : VReq}
    (h0 : m.deref r = some q0) {engineID : Option Bytes} {cause : Why} {i : SendIn} {res : Res Unit}
    (hs : VMgr.Sends cfg m r q engineID cause i res m') (hq : q.engineID = q0.engineID) :
    Acting cfg held mine m.pool m'.pool := by
  obtain ⟨hd, h0⟩ := deref_some h0
  obtain ⟨rest, hrest⟩ := naming_split m.engineID m.reqs (h.lt h0)
  have hl : Usm.Ledger held cfg.ns m.usm (fun e => rest e + one q.engineID e) := by
    refine h.ledger.congr fun e => ?_
    unfold Spec.holders
    rw [hq, ← hrest q0 e, setAt_self _ _ _ h0]
  cases hs with
  | refused e err usm he hc =>
    have := acting_change (mine := mine) m.usm m.cache m.nextMsg q.engineID (some e) i.seed rest hl
    rw [hc] at this
    exact this
  | made q1 usm1 usm cache id sent res he hb hu hs hpo hdo =>
    have h1 : Acting cfg held mine m.pool ⟨usm1, m.cache, m.nextMsg⟩ := by
      rcases he with ⟨-, -, rfl⟩ | ⟨e, -, hc, -⟩
      · exact .refl _
      · have := acting_change (mine := mine) m.usm m.cache m.nextMsg q.engineID (some e) i.seed rest hl
        rw [hc] at this
        exact this
    refine h1.trans ⟨[_], .send _ _ [] q1.content (q1.entry m.nextMsg).engineID (q1.entry m.nextMsg).securityName
      (q1.entry m.nextMsg).securityLevel i.draws i.stamp usm cache
      (prepareOutgoingV3 cfg.maxSize m.cache q1.content m.nextMsg (q1.entry m.nextMsg).engineID
            (q1.entry m.nextMsg).securityName (q1.entry m.nextMsg).securityLevel .usm [] i.draws).1 id ?_ ?_ (.nil _)⟩
    · rw [← hpo]
    · rcases hdo with ⟨rfl, err, hx⟩ | ⟨msg, hx, hy⟩
      · rw [hx]
      · rw [hx]; exact hy

theorem acting_messages (msgs : Nat → Option VMsg) (u : Usm) (k : Nat) (l : List Nat) (c : Cache V3Entry)
    (h : ∀ m ∈ l, ∀ msg id, msgs m = some msg → msg.messageID = some id → ∀ e, c.outstanding id = some e → mine e.handle) :
    Acting cfg held mine ⟨u, c, k⟩ ⟨u, closeMessages msgs l c, k⟩ := by
  induction l generalizing c with
  | nil => exact .refl _
  | cons m l ih =>
    unfold closeMessages
    simp only
    have hrest : ∀ m' ∈ l, ∀ msg id, msgs m' = some msg → msg.messageID = some id → ∀ e, c.outstanding id = some e → mine e.handle :=
      fun m' hm' => h m' (List.mem_cons_of_mem _ hm')
    cases hm : msgs m with
    | none => exact ih c hrest
    | some msg =>
      obtain ⟨r, mid, sh, ca⟩ := msg
      cases mid with
      | none => exact ih c hrest
      | some id =>
        refine Acting.trans ⟨[_], .forget _ _ [] id (h m (List.mem_cons_self ..) _ _ hm rfl) (.nil _)⟩ (ih _ ?_)
        intro m' hm' msg' id' h1 h2 e he
        refine hrest m' hm' msg' id' h1 h2 e ?_
        simp only [Cache.uncache] at he
        by_cases hx : id' = id
        · subst hx; simp at he
        · simpa [hx] using he

theorem acting_closed {m : VMgr} (h : m.Accounts held cfg.ns) (hl : Live m) {r : Nat} {q : VReq}
    (hq : m.reqs r = some q) (hmine : ∀ k, (m.msgs k).isSome → mine k) :
    Acting cfg held mine m.pool (m.closed cfg r q).pool := by
  obtain ⟨rest, hrest⟩ := naming_split m.engineID m.reqs (h.lt hq)
  have hled : Usm.Ledger held cfg.ns m.usm (fun e => rest e + one q.engineID e) := by
    refine h.ledger.congr fun e => ?_
    unfold Spec.holders
    rw [← hrest q e, setAt_self _ _ _ hq]
  refine (acting_messages (mine := mine) m.msgs m.usm m.nextMsg q.messages m.cache ?_).trans
    (acting_change m.usm _ m.nextMsg q.engineID none (fun _ => 0) rest hled)
  intro k hk msg id h1 h2 e he
  obtain ⟨-, msg', h3, -, h5⟩ := hl r q k hq hk
  rw [h1] at h3; cases h3
  obtain ⟨e', h6, h7⟩ := h5 id h2
  rw [he] at h6; cases h6
  rw [h7]
  exact hmine k (by rw [h1]; rfl)

theorem acting_closing {m : VMgr} (h : m.Accounts held cfg.ns) (hl : Live m) (r : Nat)
    (hmine : ∀ k, (m.msgs k).isSome → mine k) : Acting cfg held mine m.pool (m.closing cfg r).pool := by
  unfold VMgr.closing
  cases hq : m.reqs r with
  | none => exact .refl _
  | some q => exact acting_closed h hl hq hmine

theorem updateState_pool (m : VMgr) : m.updateState.pool = m.pool := by rw [updateState_eq]; rfl
theorem propose_pool (m : VMgr) (n : Option MState) : (m.propose n).pool = m.pool := by rw [propose_eq]; rfl

/-- Every step of a manager's own consists of such acts. -/
theorem move_acts (hp : Usm.Positive held) {s s' : VSys} {e : VEvent} (h : s.mgr.Accounts held cfg.ns) (ho : s.mgr.DeadOld)
    (hl : Live s.mgr) (h1 : ∀ o, e ≠ .other o) (h2 : ∀ w stamp, e ≠ .hear w stamp) (h3 : ∀ a seed, e ≠ .addUser a seed)
    (hm : Move cfg s e s') :
    Acting cfg held (fun k => (s'.mgr.msgs k).isSome) s.mgr.pool s'.mgr.pool := by
  have hprop : ∀ n, (s.mgr.propose n).Accounts held cfg.ns := fun n => by
    rw [VMgr.propose_eq]; exact h.same (.inl (.refl _)) rfl rfl rfl fun _ => rfl
  have hderef : ∀ n r, (s.mgr.propose n).deref r = s.mgr.deref r := fun n r => by rw [VMgr.propose_eq]; rfl
  have hissue : ∀ q gen n, VReq.engineID q = none → ((s.mgr.issue q gen).propose n).Accounts held cfg.ns :=
    fun q gen n hq => by
      rw [VMgr.propose_eq]; exact (h.issue hq gen).same (.inl (.refl _)) rfl rfl rfl fun _ => rfl
  have hfin : ∀ (m : VMgr) (t r : Nat) (o : VOutcome), m.Accounts held cfg.ns → Live m →
      Acting cfg held (fun k => (((({ s with mgr := m } : VSys).finish cfg t r o).mgr.msgs k).isSome : Bool) = true)
        m.pool (({ s with mgr := m } : VSys).finish cfg t r o).mgr.pool := by
    intro m t r o g1 g2
    rw [finish_eq]
    refine acting_closing g1 g2 r fun k hk => ?_
    have : (m.closing cfg r).msgs = m.msgs := by unfold VMgr.closing VMgr.closed; split <;> rfl
    simp only [this]; exact hk
  cases hm
  case issued pdu user level timeout period t0 r0 i q hq hl hd next hs m' hm =>
    rw [updateState_pool]
    have := acting_sends (mine := fun k => (m'.msgs k).isSome) (hissue q _ next (by rw [hq]; rfl)) (q0 := q)
      (VMgr.issue_deref (ho _ (Nat.le_refl _)) q _ next) hm rfl
    rw [propose_pool] at this
    rw [updateState_eq]
    exact this
  case issueFailed pdu user level timeout period t0 r0 i q hq hl hd next hs m' err hm =>
    have := acting_sends (mine := fun k => (m'.msgs k).isSome) (hissue q _ next (by rw [hq]; rfl)) (q0 := q)
      (VMgr.issue_deref (ho _ (Nat.le_refl _)) q _ next) hm rfl
    rw [propose_pool] at this
    exact this
  case bodyZero t i r x rest q ht ha hx he hn hx' hz =>
    exact hfin (s.mgr.fail (.refresh x.id)) t r _ (h.same (.inl (.refl _)) rfl rfl rfl fun _ => rfl) hl
  case bodySent t i r x rest q ht ha hx he hn hx' hz m' hm =>
    have := acting_sends (mine := fun k => (m'.msgs k).isSome) h (q0 := q) hx hm rfl
    exact this
  case bodyFailed t i r x rest q ht ha hx he hn hx' hz m' err hm =>
    refine (acting_sends h (q0 := q) hx hm rfl).trans (hfin (m'.fail (.refresh x.id)) t r _
      ((h.sends hp (q0 := q) hx hm rfl).same (.inl (.refl _)) rfl rfl rfl fun _ => rfl) ?_)
    have := hl.prim (cfg := cfg) (e := .drop) (ends := fun _ => False) (m' := m') (.sent (q0 := q) hm ⟨(deref_some hx).2, (deref_some hx).1⟩ rfl)
    exact this
  case pokeBegin t i r ht hl =>
    refine .of_eq ?_
    simp only [VMgr.updateState_eq, VMgr.propose_eq]
    rfl
  case pokeSent t i r l x a q ht hx next hs m' hm =>
    rw [updateState_pool]
    have := acting_sends (mine := fun k => (m'.msgs k).isSome) (hprop next) (q0 := q) (by rw [hderef]; exact hx) hm rfl
    rw [propose_pool] at this
    rw [updateState_eq]
    exact this
  case pokeFailed t i r l x a q ht hx next hs m' err hm =>
    have hA := hprop next
    have hD : (s.mgr.propose next).deref x.id = some q := by rw [hderef]; exact hx
    have hL : Live (s.mgr.propose next) := by rw [propose_eq]; exact hl
    have hP := propose_pool s.mgr next
    generalize s.mgr.propose next = m at *
    rw [← hP]
    refine (acting_sends hA (q0 := q) hD hm rfl).trans (hfin { m'.fail (.poke x.id) with locked := false } t r _
      ((hA.sends hp (q0 := q) hD hm rfl).same (.inl (.refl _)) rfl rfl rfl fun _ => rfl) ?_)
    have := hL.prim (cfg := cfg) (e := .drop) (ends := fun _ => False) (m' := m') (.sent (q0 := q) hm ⟨(deref_some hD).2, (deref_some hD).1⟩ rfl)
    exact this
  case answered t i r q x ht hq he hx => exact hfin s.mgr t r _ h hl
  case reported t i r q ex ht hq he => exact hfin s.mgr t r _ h hl
  case timedOut t i r q ht hq he => exact hfin s.mgr t r _ h hl
  case reportFailed i m x r q cause sync hr hl all next hs m' err hm =>
    have := acting_sends (mine := fun k => (m'.msgs k).isSome) (hprop next) (q0 := q) (by rw [hderef]; exact hr.deref) hm rfl
    rw [propose_pool] at this
    exact this
  case reportOne i m x r q cause sync hr hl next hs m' hm =>
    have := acting_sends (mine := fun k => (m'.msgs k).isSome) (hprop next) (q0 := q) (by rw [hderef]; exact hr.deref) hm rfl
    rw [propose_pool] at this
    exact this
  case reportAll i m x r q cause sync hr hl next hs m' hm =>
    have := acting_sends (mine := fun k => (m'.msgs k).isSome) (hprop next) (q0 := q) (by rw [hderef]; exact hr.deref) hm rfl
    rw [propose_pool] at this
    simp only [updateState_eq]
    exact this
  case responseBad i m x msg q hl hm hq hi hlk err m' hp' =>
    obtain ⟨rest, hrest⟩ := naming_mgr s.mgr.reqs s.mgr.nextReq
    have := acting_change (mine := fun k => (s.mgr.msgs k).isSome) s.mgr.usm s.mgr.cache s.mgr.nextMsg s.mgr.engineID (some x.securityEngineID) i.seed rest
      (h.ledger.congr fun e => (hrest s.mgr.engineID e).symm)
    rcases VMgr.processResponse_cases cfg s.mgr x i.seed with ⟨_, -, h'⟩ | ⟨next, _, usm, -, hc, h'⟩ | ⟨_, _, -, -, h'⟩ |
      ⟨-, h'⟩ <;> rw [h'] at hp' <;> cases hp'
    · exact .refl _
    · rw [hc] at this; exact this
  case responded i m x msg q hl hm hq hi hlk m' hp' =>
    obtain ⟨rest, hrest⟩ := naming_mgr s.mgr.reqs s.mgr.nextReq
    have := acting_change (mine := fun k => (s.mgr.msgs k).isSome) s.mgr.usm s.mgr.cache s.mgr.nextMsg s.mgr.engineID (some x.securityEngineID) i.seed rest
      (h.ledger.congr fun e => (hrest s.mgr.engineID e).symm)
    rcases VMgr.processResponse_cases cfg s.mgr x i.seed with ⟨_, -, h'⟩ | ⟨next, _, usm, -, -, h'⟩ | ⟨_, usm, -, hc, h'⟩ |
      ⟨-, h'⟩ <;> rw [h'] at hp' <;> cases hp'
    · rw [hc] at this; exact this
    · exact .refl _
  case flushSent i r eid sync l x q hl hu hx m' hm =>
    have h' : ({ s.mgr with unsent := l } : VMgr).Accounts held cfg.ns := h.same (.inl (.refl _)) rfl rfl rfl fun _ => rfl
    have := acting_sends (mine := fun k => (m'.msgs k).isSome) h' (q0 := q) hx hm rfl
    exact this
  case flushFailed i r eid sync l x q hl hu hx m' err hm =>
    have h' : ({ s.mgr with unsent := l } : VMgr).Accounts held cfg.ns := h.same (.inl (.refl _)) rfl rfl rfl fun _ => rfl
    have := acting_sends (mine := fun k => (m'.msgs k).isSome) h' (q0 := q) hx hm rfl
    exact this
  case collected r q hq => exact acting_closed h hl (deref_some hq).2 fun k hk => hk
  case dropped hd ha =>
    obtain ⟨rest, hrest⟩ := naming_mgr s.mgr.reqs s.mgr.nextReq
    exact acting_change s.mgr.usm s.mgr.cache s.mgr.nextMsg s.mgr.engineID none (fun _ => 0) rest
      (h.ledger.congr fun e => (hrest s.mgr.engineID e).symm)
  case heardNothing w stamp usm hl hu hd => exact absurd rfl (h2 w stamp)
  case heard w stamp usm m x msg msg' id en hl hw hu hx hr hid he hh hg hc => exact absurd rfl (h2 w stamp)
  case addUser a seed => exact absurd rfl (h3 a seed)
  case other o usm cache n held hs => exact absurd rfl (h1 o)
  all_goals exact .refl _

/-! ## What others have registered matters only to steps of others -/

def withHeld (s : VSys) (H : Bytes → Option (Int × String)) : VSys := { s with held := H }

theorem finish_held (cfg : VCfg) (s : VSys) (H : Bytes → Option (Int × String)) (t r : Nat) (o : VOutcome) :
    (s.withHeld H).finish cfg t r o = (s.finish cfg t r o).withHeld H := by
  unfold finish withHeld
  simp only
  cases s.mgr.reqs r with
  | none => rfl
  | some q =>
    simp only
    generalize s.mgr.close cfg r q = y
    obtain ⟨res, m⟩ := y
    cases res <;> rfl

theorem report_held (cfg : VCfg) (s : VSys) (H : Bytes → Option (Int × String)) (r : Nat) (q : VReq) (engineID : Bytes)
    (cause : Why) (sync : Bool) (i : SendIn) :
    (s.withHeld H).report cfg r q engineID cause sync i = (s.report cfg r q engineID cause sync i).withHeld H := by
  unfold report withHeld
  simp only
  split
  · rfl
  · generalize s.mgr.onReport cfg r q engineID cause i = y
    obtain ⟨res, m⟩ := y
    cases res with
    | error e => rfl
    | ok b => cases b <;> rfl

theorem push_held (cfg : VCfg) (s : VSys) (H : Bytes → Option (Int × String)) (m : Nat) (x : V3Incoming) (i : SendIn) :
    (s.withHeld H).push cfg m x i = (s.push cfg m x i).withHeld H := by
  have hrep := report_held cfg s H
  unfold push
  simp only [show (s.withHeld H).mgr = s.mgr from rfl]
  cases s.mgr.msgs m with
  | none => rfl
  | some msg =>
    simp only
    split
    · cases x.scopedPDU.pdu.bindings with
      | nil => rfl
      | cons v rest =>
        simp only
        split
        · cases s.mgr.deref msg.request with
          | none => rfl
          | some q =>
            simp only
            split
            · rfl
            · exact hrep _ _ _ _ _ _
        · split
          · split
            · rfl
            · cases s.mgr.deref msg.request with
              | none => rfl
              | some q => exact hrep _ _ _ _ _ _
          · cases makeReport cfg.utf8 x.securityName v <;> cases s.mgr.deref msg.request <;> rfl
    · cases s.mgr.deref msg.request with
      | none => rfl
      | some q =>
        simp only
        split
        · rfl
        · generalize s.mgr.processResponse cfg x i.seed = y
          obtain ⟨res, m'⟩ := y
          cases res <;> rfl

theorem listen_held (cfg : VCfg) (s : VSys) (H : Bytes → Option (Int × String)) (i : SendIn) :
    (s.withHeld H).listen cfg i = (s.listen cfg i).withHeld H := by
  have hpush := push_held cfg s H
  unfold listen
  simp only [show (s.withHeld H).mgr = s.mgr from rfl, show (s.withHeld H).listener = s.listener from rfl]
  cases s.listener with
  | idle => rfl
  | push m x => exact hpush m x i
  | flush r engineID sync =>
    simp only
    cases s.mgr.unsent.getLast? with
    | none => rfl
    | some reference =>
      simp only
      generalize VMgr.flushOne cfg _ reference engineID i = y
      obtain ⟨res, m⟩ := y
      cases res <;> rfl
  | sync r =>
    simp only
    cases s.mgr.reqs r <;> rfl

theorem advance_held (cfg : VCfg) (s : VSys) (H : Bytes → Option (Int × String)) (t : Nat) (i : SendIn) :
    (s.withHeld H).advance cfg t i = (s.advance cfg t i).withHeld H := by
  have hfin := fun m => finish_held cfg ({ s with mgr := m } : VSys) H
  have hfin0 := finish_held cfg s H
  unfold advance
  simp only [show (s.withHeld H).mgr = s.mgr from rfl, show (s.withHeld H).threads = s.threads from rfl]
  cases s.threads t with
  | idle => rfl
  | done r o => rfl
  | test r =>
    simp only
    cases s.mgr.reqs r with
    | none => rfl
    | some q => simp only; split <;> rfl
  | body r =>
    simp only
    generalize s.mgr.refreshBody cfg i = y
    obtain ⟨res, m⟩ := y
    cases res with
    | error e => exact hfin m t r _
    | ok u => cases u <;> rfl
  | poke r =>
    simp only
    split <;> rfl
  | poking r unsent active =>
    simp only
    cases unsent.getLast? with
    | none => rfl
    | some reference =>
      simp only
      generalize s.mgr.pokeOne cfg reference i = y
      obtain ⟨res, m⟩ := y
      cases res with
      | error e => exact hfin { m with locked := false } t r _
      | ok u => rfl
  | sleep r timeout since =>
    simp only
    cases s.mgr.reqs r with
    | none => rfl
    | some q => simp only; split <;> (try split) <;> rfl
  | finish r =>
    simp only
    cases s.mgr.reqs r with
    | none => rfl
    | some q =>
      simp only
      split
      · exact hfin0 t r _
      · rfl
  | failed r =>
    simp only
    cases s.mgr.reqs r with
    | none => rfl
    | some q =>
      simp only
      split <;> exact hfin0 t r _

theorem step_held (cfg : VCfg) (s : VSys) (H : Bytes → Option (Int × String)) (e : VEvent) (he : e.own = true) :
    (s.withHeld H).step cfg e = (s.step cfg e).withHeld H := by
  cases e with
  | send pdu user level timeout refreshPeriod t0 r0 i =>
    show (if _ then _ else _) = _
    unfold step
    simp only
    split <;> rename_i h <;> simp only [show (s.withHeld H).mgr = s.mgr from rfl, show (s.withHeld H).dropped = s.dropped from rfl] at h
    · rw [if_pos h]
    · rw [if_neg h]; rfl
  | wait t r =>
    unfold step
    simp only [show (s.withHeld H).mgr = s.mgr from rfl, show (s.withHeld H).threads = s.threads from rfl]
    generalize s.mgr.deref r = d
    generalize s.threads t = p
    cases p <;> cases d <;> rfl
  | step t i => exact advance_held cfg s H t i
  | hear w stamp => cases he
  | listen i => exact listen_held cfg s H i
  | collect r => rfl
  | drop =>
    unfold step
    simp only [show (s.withHeld H).mgr = s.mgr from rfl, show (s.withHeld H).dropped = s.dropped from rfl]
    split <;> rfl
  | addUser a seed => cases he
  | other o => cases he

end VSys
end Snmp
