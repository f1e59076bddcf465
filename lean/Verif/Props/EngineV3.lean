import Mathlib.Algebra.BigOperators.Group.Finset.Basic
import Mathlib.Algebra.Order.BigOperators.Group.Finset
import Mathlib.Data.List.Induction
import Verif.Props.V3Acts
import Verif.Props.V3Module
import Verif.Props.V3Demo
/-!
# C109: the managers of one engine
-/

namespace Snmp

/-! ## Specification -/

/-- How often an engine with this registration is registered. -/
def Spec.times (x : Option (Int × String)) : Int :=
  match x with
  | none => 0
  | some (n, _) => n

/-- How many of the managers, and of their requests, name the engine `e`. -/
def Spec.named (s : ESys) (e : Bytes) : Nat :=
  ∑ k ∈ Finset.range s.count, match s.mgrs k with
    | none => 0
    | some a => Spec.holders a.sys.mgr e

/-- The events of an engine's history that may concern its manager `k`: its own, and those of the listening thread and of the
security module. -/
def Spec.concern (k : Nat) : EEvent → Option VEvent
  | .create _ _ _ _ => none
  | .act j e => if j = k then some e else none
  | .hear w stamp => some (.hear w stamp)
  | .addUser a seed => some (.addUser a seed)

/-- An event other than a step of some other manager. -/
def Spec.isOther : VEvent → Bool
  | .other _ => true
  | _ => false

/-- `v` is what a manager alone with `others` sees after the history `h`. -/
def Spec.Alone (cfg : VCfg) (m0 : VMgr) (h : List VEvent) (v : VSys) : Prop :=
  ∃ held, (VSys.init m0).run cfg h = { v with held := held }

namespace VSys

open VMgr

variable {cfg cfg' : VCfg} {m0 : VMgr}

/-- What is known of a manager at any time. -/
structure Sane (cfg : VCfg) (s : VSys) : Prop where
  accounts : s.mgr.Accounts s.held cfg.ns
  old : s.mgr.DeadOld
  positive : Usm.Positive s.held
  live : Live s.mgr
  book : Book s
  gone : s.Gone

theorem sane {h0 : List Spec.UsmOp} (hc : Spec.CreatedOn cfg h0 m0) (h : List VEvent) : Sane cfg (after cfg m0 h) := by
  have hcr := hc.created
  obtain ⟨hok, engineID, g, c0, n0, seed, hu, hm⟩ := hc
  have hp := Usm.after_positive cfg.backend cfg.crypto hok h0
  have hg : (after cfg m0 h).mgr.Accounts (after cfg m0 h).held cfg.ns ∧ ((after cfg m0 h).mgr.DeadOld ∧
      Usm.Positive (after cfg m0 h).held) ∧ (after cfg m0 h).Gone := by
    refine after_induct (fun _ s => s.mgr.Accounts s.held cfg.ns ∧ (s.mgr.DeadOld ∧ Usm.Positive s.held) ∧ s.Gone) ?_
      (fun _ _ _ h => h) (fun h s e s' hi hmv => ?_) h
    · have := VSys.accounts hp hm []
      exact ⟨this.1, this.2, fun h => by cases h⟩
    · have := accounts_move hi.2.1.2 hi.1 hi.2.1.1 hmv
      exact ⟨this.1, this.2, gone_move hi.2.1.2 hi.1 hi.2.2 hmv⟩
  exact ⟨hg.1, hg.2.1.1, hg.2.1.2, VSys.live hcr h, hcr.book h, hg.2.2⟩

theorem Usm.Ledger.times {base : Bytes → Option (Int × String)} {ns : String} {u : Usm} {n : Bytes → Nat}
    (h : Usm.Ledger base ns u n) (e : Bytes) : Spec.times (u.reg e) = Spec.times (base e) + n e := by
  cases hb : base e with
  | none =>
    rcases Nat.eq_zero_or_pos (n e) with h0 | h0
    · rw [h.free e hb h0, h0]; rfl
    · rw [h.ours e hb h0]; simp [Spec.times]
  | some x => rw [h.more e x.1 x.2 hb]; rfl

/-! ## The acts of one manager, seen by another -/

theorem step_other (cfg : VCfg) (v : VSys) (o : Other) : v.step cfg (.other o) = v.other cfg o := rfl

theorem replay {held : Bytes → Option (Int × String)} {mine : Nat → Prop} {p p' : Pool} {os : List Other}
    (hb : cfg'.backend = cfg.backend) (hcr : cfg'.crypto = cfg.crypto) (hmx : cfg'.maxSize = cfg.maxSize)
    (h : Acts cfg held mine p os p') (v : VSys) (hv : v.mgr.pool = p) (ha : v.mgr.Accounts v.held cfg'.ns)
    (ho : v.mgr.DeadOld) (hp : Usm.Positive v.held) (hmine : ∀ k, mine k → v.mgr.msgs k = none)
    (hle : ∀ e, 0 < Spec.holders v.mgr e → (Spec.holders v.mgr e : Int) ≤ Spec.times (held e)) :
    ∃ H, v.run cfg' (os.map .other) = { v with mgr := v.mgr.on p', held := H } := by
  induction h generalizing v with
  | nil p => subst hv; exact ⟨v.held, rfl⟩
  | register p p' os e seed h ih =>
    have hmv := step_move cfg' v (.other (.register e cfg.ns seed))
    obtain ⟨H, hH⟩ : ∃ H, v.step cfg' (.other (.register e cfg.ns seed)) = { v with
        mgr := { v.mgr with usm := { v.mgr.usm with users := (v.mgr.usm.users.assign cfg.crypto e cfg.ns seed).2 } }
        held := H } := by
      refine ⟨(v.other cfg' (.register e cfg.ns seed)).held, ?_⟩
      rw [step_other]
      unfold other
      simp only [hcr]
    rw [List.map_cons]
    show ∃ H, run cfg' (v.step cfg' (.other (.register e cfg.ns seed))) (os.map .other) = _
    have hacc : (v.step cfg' (.other (.register e cfg.ns seed))).mgr.Accounts
        (v.step cfg' (.other (.register e cfg.ns seed))).held cfg'.ns ∧
        (v.step cfg' (.other (.register e cfg.ns seed))).mgr.DeadOld ∧
        Usm.Positive (v.step cfg' (.other (.register e cfg.ns seed))).held := by
      rcases hmv with hs | hs
      · rw [hs]; exact ⟨ha, ho, hp⟩
      · exact accounts_move hp ha ho hs
    rw [hH] at hacc ⊢
    subst hv
    obtain ⟨H', hr⟩ := ih _ rfl hacc.1 hacc.2.1 hacc.2.2 hmine hle
    exact ⟨H', hr⟩
  | release p p' os e n hl hn h ih =>
    have hmv := step_move cfg' v (.other (.release e cfg.ns))
    subst hv
    have hguard : (v.held e).map Prod.snd = some cfg.ns := by
      have h1 := Usm.Ledger.times hl e
      have h2 := Usm.Ledger.times ha.ledger e
      have hreg : ∃ k, v.mgr.usm.reg e = some (k, cfg.ns) := by
        cases hb : held e with
        | none => exact ⟨_, hl.ours e hb hn⟩
        | some x =>
          have := hl.same e x.1 x.2 hb hn
          exact ⟨_, by rw [← this]; exact hl.more e x.1 x.2 hb⟩
      obtain ⟨k, hk⟩ := hreg
      cases hb : v.held e with
      | none =>
        exfalso
        have h3 : Spec.times (v.mgr.pool.usm.reg e) = Spec.times (v.mgr.usm.reg e) := rfl
        rw [hb] at h2
        rcases Nat.eq_zero_or_pos (Spec.holders v.mgr e) with h0 | h0
        · have := ha.ledger.free e hb h0
          rw [hk] at this; cases this
        · have := hle e h0
          simp only [Spec.times] at h2 h3
          unfold Spec.times at h1 this
          omega
      | some x =>
        have := ha.ledger.more e x.1 x.2 hb
        rw [hk] at this
        simp only [Option.some.injEq, Prod.mk.injEq] at this
        simp [this.2]
    obtain ⟨H, hH⟩ : ∃ H, v.step cfg' (.other (.release e cfg.ns)) = { v with
        mgr := { v.mgr with usm := { v.mgr.usm with users := (v.mgr.usm.users.release e cfg.ns).2 } }
        held := H } := by
      refine ⟨(v.other cfg' (.release e cfg.ns)).held, ?_⟩
      rw [step_other]
      unfold other
      simp only
      rw [if_pos hguard]
    rw [List.map_cons]
    show ∃ H, run cfg' (v.step cfg' (.other (.release e cfg.ns))) (os.map .other) = _
    have hacc : (v.step cfg' (.other (.release e cfg.ns))).mgr.Accounts
        (v.step cfg' (.other (.release e cfg.ns))).held cfg'.ns ∧
        (v.step cfg' (.other (.release e cfg.ns))).mgr.DeadOld ∧
        Usm.Positive (v.step cfg' (.other (.release e cfg.ns))).held := by
      rcases hmv with hs | hs
      · rw [hs]; exact ⟨ha, ho, hp⟩
      · exact accounts_move hp ha ho hs
    rw [hH] at hacc ⊢
    obtain ⟨H', hr⟩ := ih _ rfl hacc.1 hacc.2.1 hacc.2.2 hmine hle
    exact ⟨H', hr⟩
  | send p p' os pdu engineID user level draws stamp usm cache msg id hpo hu h ih =>
    have hmv := step_move cfg' v (.other (.send pdu engineID user level draws stamp))
    subst hv
    have hH : v.step cfg' (.other (.send pdu engineID user level draws stamp)) = { v with
        mgr := { v.mgr with usm := usm, cache := cache, nextMsg := v.mgr.nextMsg + 1 } } := by
      rw [step_other]
      unfold other
      have hpo' : prepareOutgoingV3 cfg'.maxSize v.mgr.cache pdu v.mgr.nextMsg engineID user level .usm [] draws =
        (msg, cache, id) := by rw [hmx]; exact hpo
      simp only [hpo', hb, hcr]
      rw [hu]
      cases msg <;> rfl
    rw [List.map_cons]
    show ∃ H, run cfg' (v.step cfg' (.other (.send pdu engineID user level draws stamp))) (os.map .other) = _
    have hacc : (v.step cfg' (.other (.send pdu engineID user level draws stamp))).mgr.Accounts
        (v.step cfg' (.other (.send pdu engineID user level draws stamp))).held cfg'.ns ∧
        (v.step cfg' (.other (.send pdu engineID user level draws stamp))).mgr.DeadOld ∧
        Usm.Positive (v.step cfg' (.other (.send pdu engineID user level draws stamp))).held := by
      rcases hmv with hs | hs
      · rw [hs]; exact ⟨ha, ho, hp⟩
      · exact accounts_move hp ha ho hs
    rw [hH] at hacc ⊢
    obtain ⟨H', hr⟩ := ih _ rfl hacc.1 hacc.2.1 hacc.2.2 hmine hle
    exact ⟨H', hr⟩
  | forget p p' os id hm h ih =>
    have hmv := step_move cfg' v (.other (.forget id))
    subst hv
    have hguard : ((v.mgr.cache.outstanding id).bind fun e => v.mgr.msgs e.handle).isNone = true := by
      cases he : v.mgr.cache.outstanding id with
      | none => rfl
      | some e =>
        simp only [Option.bind_some, hmine _ (hm e he)]
        rfl
    have hH : v.step cfg' (.other (.forget id)) = { v with mgr := { v.mgr with cache := v.mgr.cache.uncache id } } := by
      rw [step_other]
      unfold other
      simp only
      rw [if_pos hguard]
    rw [List.map_cons]
    show ∃ H, run cfg' (v.step cfg' (.other (.forget id))) (os.map .other) = _
    have hacc : (v.step cfg' (.other (.forget id))).mgr.Accounts
        (v.step cfg' (.other (.forget id))).held cfg'.ns ∧
        (v.step cfg' (.other (.forget id))).mgr.DeadOld ∧
        Usm.Positive (v.step cfg' (.other (.forget id))).held := by
      rcases hmv with hs | hs
      · rw [hs]; exact ⟨ha, ho, hp⟩
      · exact accounts_move hp ha ho hs
    rw [hH] at hacc ⊢
    obtain ⟨H', hr⟩ := ih _ rfl hacc.1 hacc.2.1 hacc.2.2 hmine hle
    exact ⟨H', hr⟩

/-! ## New messages -/

theorem chain_msgs {e : VEvent} {ends : Nat → Prop} {m m' : VMgr} (h : Chain cfg e ends m m') :
    m.nextMsg ≤ m'.nextMsg ∧ ∀ k, (m'.msgs k).isSome → (m.msgs k).isSome ∨ m.nextMsg ≤ k := by
  induction h with
  | nil m => exact ⟨Nat.le_refl _, fun k h => .inl h⟩
  | @cons a b c p _ ih =>
    have : a.nextMsg ≤ b.nextMsg ∧ ∀ k, (b.msgs k).isSome → (a.msgs k).isSome ∨ a.nextMsg ≤ k := by
      cases p with
      | calm h1 h2 => exact ⟨h2, fun k hk => .inl (by rw [← h1]; exact hk)⟩
      | send r q0 q h0 hd hq engineID cause i res h =>
        cases h with
        | refused => exact ⟨Nat.le_refl _, fun k hk => .inl hk⟩
        | made q1 usm1 usm cache id sent res he hb hu hs hpo hdo =>
          refine ⟨Nat.le_succ _, fun k hk => ?_⟩
          by_cases hkk : k = a.nextMsg
          · exact .inr (by omega)
          · simp only at hk
            rw [setAt_other _ _ hkk] at hk
            exact .inl hk
      | close r q hq he => exact ⟨Nat.le_refl _, fun k hk => .inl hk⟩
    refine ⟨this.1.trans ih.1, fun k hk => ?_⟩
    rcases ih.2 k hk with h | h
    · exact this.2 k h
    · exact .inr (this.1.trans h)

end VSys

/-! ## The listening thread -/

namespace ESys

open VSys VMgr

theorem receive_usm (cfg : VCfg) (p : Pool) (g g' : Nat → Bool) (w : Bytes) (stamp : ℚ) :
    (receive cfg p g' w stamp).2 = (receive cfg p g w stamp).2 ∧
    (p.usm.Does cfg.backend cfg.crypto (receive cfg p g w stamp).2 ∧ p.usm.SameReg (receive cfg p g w stamp).2) := by
  unfold receive
  split
  · exact ⟨rfl, .refl _, .refl _⟩
  · split
    · exact ⟨rfl, .refl _, .refl _⟩
    · split
      · exact ⟨rfl, .refl _, .refl _⟩
      · rename_i msg hd
        have h1 := Usm.Does.process (b := cfg.backend) (c := cfg.crypto) p.usm msg stamp
        have h2 := p.usm.processIncoming_reg cfg.backend cfg.crypto msg stamp
        generalize p.usm.processIncoming cfg.backend cfg.crypto msg stamp = y at *
        obtain ⟨res, usm⟩ := y
        cases res with
        | error e => exact ⟨rfl, h1, h2⟩
        | ok msg' =>
          simp only
          split
          · rename_i pdu e n _ _ _
            generalize v3Proto.prepareDataElements p.cache g ⟨msg'.header, pdu, e, n⟩ = y
            generalize v3Proto.prepareDataElements p.cache g' ⟨msg'.header, pdu, e, n⟩ = z
            obtain ⟨a, b⟩ := y
            obtain ⟨c, d⟩ := z
            cases a <;> cases c <;> exact ⟨rfl, h1, h2⟩
          · exact ⟨rfl, h1, h2⟩

theorem prepare_gone (c : Cache V3Entry) (g g' : Nat → Bool) (hg : ∀ m, g m = true → g' m = true) (x : V3Incoming) :
    match (v3Proto.prepareDataElements c g x).1 with
    | .error _ => ∃ err, (v3Proto.prepareDataElements c g' x).1 = .error err
    | .ok m => if g' m then ∃ err, (v3Proto.prepareDataElements c g' x).1 = .error err
        else (v3Proto.prepareDataElements c g' x).1 = .ok m := by
  unfold Proto.prepareDataElements
  split
  · rename_i err hr
    split at hr
    · rename_i err' hcl; exact ⟨err', by simp only⟩
    · split at hr
      · rename_i hret; exact ⟨_, rfl⟩
      · rename_i e hret
        simp only
        unfold Proto.resolve at hr ⊢
        simp only at hr
        split at hr
        · rename_i hd
          rw [if_pos (hg _ hd)]; exact ⟨_, rfl⟩
        · cases hk : v3Proto.check e x with
          | error err' => split <;> exact ⟨_, rfl⟩
          | ok u => rw [hk] at hr; cases hr
  · rename_i m hr
    split at hr
    · cases hr
    · split at hr
      · cases hr
      · rename_i e hret
        simp only
        unfold Proto.resolve at hr ⊢
        simp only at hr
        split at hr
        · cases hr
        · cases hk : v3Proto.check e x with
          | error err' => rw [hk] at hr; cases hr
          | ok u =>
            rw [hk] at hr
            have hr' : v3Proto.handle e = m := by injection hr
            rw [hr']
            split
            · exact ⟨_, rfl⟩
            · rfl

/-- What one manager makes of a datagram. -/
theorem receive_gone (cfg : VCfg) (p : Pool) (g g' : Nat → Bool) (hg : ∀ m, g m = true → g' m = true) (w : Bytes) (stamp : ℚ) :
    (receive cfg p g' w stamp).1 = match (receive cfg p g w stamp).1 with
      | none => none
      | some (m, x) => if g' m then none else some (m, x) := by
  unfold receive
  generalize VersionOnly.decode (.bytes w) = v
  generalize V3Message.decode (.bytes w) = d
  cases v with
  | error e => rfl
  | ok v =>
    obtain ⟨version, rest⟩ := v
    simp only
    by_cases hv : version ≠ .v3
    · rw [if_pos hv, if_pos hv]
    rw [if_neg hv, if_neg hv]
    cases d with
    | error e => rfl
    | ok msg =>
      simp only
      generalize p.usm.processIncoming cfg.backend cfg.crypto msg stamp = y
      obtain ⟨res, usm⟩ := y
      cases res with
      | error e => rfl
      | ok msg' =>
        simp only
        generalize msg'.scopedPDU = a
        generalize msg'.securityEngineID = b
        generalize msg'.securityName = c
        cases a <;> cases b <;> cases c <;> try rfl
        rename_i pdu e n
        have := prepare_gone p.cache g g' hg ⟨msg'.header, pdu, e, n⟩
        simp only
        generalize v3Proto.prepareDataElements p.cache g ⟨msg'.header, pdu, e, n⟩ = y at *
        generalize v3Proto.prepareDataElements p.cache g' ⟨msg'.header, pdu, e, n⟩ = z at *
        obtain ⟨a, b⟩ := y
        obtain ⟨c, d⟩ := z
        cases a with
        | error e => obtain ⟨err, this⟩ := this; simp only at this; subst this; rfl
        | ok m =>
          simp only at this ⊢
          split at this
          · rename_i hgm
            obtain ⟨err, rfl⟩ := this
            rw [if_pos hgm]
          · rename_i hgm
            subst this
            rw [if_neg hgm]

theorem hear_receive (cfg : VCfg) (m : VMgr) (w : Bytes) (stamp : ℚ) :
    m.hear cfg w stamp = ((receive cfg m.pool m.gone w stamp).1, { m with usm := (receive cfg m.pool m.gone w stamp).2 }) := by
  unfold VMgr.hear receive VMgr.pool
  simp only
  generalize VersionOnly.decode (.bytes w) = v
  generalize V3Message.decode (.bytes w) = d
  cases v with
  | error e => rfl
  | ok v =>
    obtain ⟨version, rest⟩ := v
    simp only
    by_cases hv : version ≠ .v3
    · rw [if_pos hv, if_pos hv]
    rw [if_neg hv, if_neg hv]
    cases d with
    | error e => rfl
    | ok msg =>
      simp only
      generalize m.usm.processIncoming cfg.backend cfg.crypto msg stamp = y
      obtain ⟨res, usm⟩ := y
      cases res with
      | error e => rfl
      | ok msg' =>
        simp only
        generalize msg'.scopedPDU = a
        generalize msg'.securityEngineID = b
        generalize msg'.securityName = c
        cases a <;> cases b <;> cases c <;> try rfl
        rename_i pdu e n
        simp only
        generalize v3Proto.prepareDataElements m.cache m.gone ⟨msg'.header, pdu, e, n⟩ = y
        obtain ⟨a, b⟩ := y
        cases a <;> rfl

/-! ## Every manager of an engine is as if it were alone -/

theorem on_pool (m : VMgr) : m.on m.pool = m := rfl
theorem on_on (m : VMgr) (p p' : Pool) : (m.on p).on p' = m.on p' := rfl
theorem pool_on (m : VMgr) (p : Pool) : (m.on p).pool = p := rfl

/-- What holds of an engine after the history `H`. -/
structure Inv (cfg : VCfg) (H : List EEvent) (s : ESys) : Prop where
  module : ∃ ops, s.pool.usm = Usm.after cfg.backend cfg.crypto ops
  used : Spec.Used s.pool.cache s.pool.nextMsg
  bound : ∀ k, (s.mgrs k).isSome ↔ k < s.count
  runs : ∀ k a, s.mgrs k = some a → ∃ h0 m0 h, Spec.CreatedOn (cfg.at a.ns) h0 m0 ∧
    Spec.Alone (cfg.at a.ns) m0 h (s.view a) ∧
    (h.filter fun e => !Spec.isOther e).Sublist (H.filterMap (Spec.concern k))
  total : ∀ e, Spec.times (s.pool.usm.reg e) = Spec.named s e
  apart : ∀ j k a b m, j ≠ k → s.mgrs j = some a → s.mgrs k = some b → (a.sys.mgr.msgs m).isSome → b.sys.mgr.msgs m = none

theorem filter_others (os : List Other) : ((os.map VEvent.other).filter fun e => !Spec.isOther e) = [] := by
  rw [List.filter_eq_nil_iff]
  intro e he
  obtain ⟨o, -, rfl⟩ := List.mem_map.1 he
  simp [Spec.isOther]

theorem does_after {b : Backend} {c : Crypto} {u u' : Usm} (h : ∃ ops, u = Usm.after b c ops) (hd : u.Does b c u') :
    ∃ ops, u' = Usm.after b c ops := by
  obtain ⟨ops, rfl⟩ := h
  obtain ⟨l, -, rfl⟩ := hd
  exact ⟨ops ++ l, by unfold Usm.after; rw [List.foldl_append]⟩

theorem named_congr {s s' : ESys} (hc : s'.count = s.count)
    (h : ∀ k, (s'.mgrs k).map (fun a => a.sys.mgr) = (s.mgrs k).map (fun a => a.sys.mgr)) (e : Bytes) :
    Spec.named s' e = Spec.named s e := by
  unfold Spec.named
  rw [hc]
  refine Finset.sum_congr rfl fun k _ => ?_
  have := h k
  cases hx : s.mgrs k <;> cases hy : s'.mgrs k <;> simp_all

/-- One manager's share. -/
theorem named_split (s : ESys) {k : Nat} {a : EMgr} (hk : k < s.count) (ha : s.mgrs k = some a) (e : Bytes) :
    ∃ rest, Spec.named s e = Spec.holders a.sys.mgr e + rest ∧
      (∀ a', Spec.named { s with mgrs := fun i => if i = k then some a' else s.mgrs i } e =
        Spec.holders a'.sys.mgr e + rest) ∧
      ∀ j b, j ≠ k → j < s.count → s.mgrs j = some b → Spec.holders b.sys.mgr e ≤ rest := by
  refine ⟨∑ j ∈ (Finset.range s.count).erase k, match s.mgrs j with
    | none => 0
    | some a => Spec.holders a.sys.mgr e, ?_, fun a' => ?_, fun j b hj hjc hb => ?_⟩
  · unfold Spec.named
    rw [← Finset.add_sum_erase _ _ (Finset.mem_range.2 hk), ha]
  · unfold Spec.named
    rw [← Finset.add_sum_erase _ _ (Finset.mem_range.2 hk)]
    simp only [if_true]
    congr 1
    refine Finset.sum_congr rfl fun j hj => ?_
    rw [if_neg (Finset.mem_erase.1 hj).1]
  · have := Finset.single_le_sum (s := (Finset.range s.count).erase k) (f := fun j => match s.mgrs j with
      | none => 0
      | some a => Spec.holders a.sys.mgr e) (fun _ _ => Nat.zero_le _)
      (Finset.mem_erase.2 ⟨hj, Finset.mem_range.2 hjc⟩)
    simp only [hb] at this
    exact this

variable {cfg : VCfg}

theorem Inv.sane {H : List EEvent} {s : ESys} (hi : Inv cfg H s) {k : Nat} {a : EMgr} (ha : s.mgrs k = some a) :
    ∃ held, Sane (cfg.at a.ns) ((s.view a).withHeld held) := by
  obtain ⟨h0, m0, h, hc, ⟨held, hr⟩, -⟩ := hi.runs k a ha
  refine ⟨held, ?_⟩
  have := VSys.sane hc h
  rw [show after (cfg.at a.ns) m0 h = (s.view a).withHeld held from hr] at this
  exact this

/-- A step of one of the managers. -/
theorem Inv.act {H : List EEvent} {s : ESys} (hi : Inv cfg H s) {k : Nat} {a : EMgr} (ha : s.mgrs k = some a) (e : VEvent)
    (he : e.own = true) :
    Inv cfg (H ++ [.act k e]) { s with
      pool := ((s.view a).step (cfg.at a.ns) e).mgr.pool
      mgrs := fun i => if i = k then some ⟨a.ns, (s.view a).step (cfg.at a.ns) e⟩ else s.mgrs i } := by
  have hk : k < s.count := (hi.bound k).1 (by rw [ha]; rfl)
  obtain ⟨h0, m0, h, hc, ⟨held, hr⟩, hsub⟩ := hi.runs k a ha
  have hr : after (cfg.at a.ns) m0 h = (s.view a).withHeld held := hr
  generalize hcfg : cfg.at a.ns = cfga at *
  have hS := VSys.sane hc h
  rw [hr] at hS
  have hr' : after cfga m0 (h ++ [e]) = ((s.view a).step cfga e).withHeld held := by
    rw [after_snoc, hr, step_held cfga _ _ _ he]
  have hS' := VSys.sane hc (h ++ [e])
  rw [hr'] at hS'
  generalize hv : (s.view a).step cfga e = v at *
  have hb : cfga.backend = cfg.backend := by rw [← hcfg]; rfl
  have hcr : cfga.crypto = cfg.crypto := by rw [← hcfg]; rfl
  have hmx : cfga.maxSize = cfg.maxSize := by rw [← hcfg]; rfl
  -- acts of the manager, and its new messages
  have hown : (∀ o, e ≠ .other o) ∧ (∀ w stamp, e ≠ .hear w stamp) ∧ (∀ b seed, e ≠ .addUser b seed) := by
    refine ⟨fun o h => ?_, fun w st h => ?_, fun b sd h => ?_⟩ <;> subst h <;> cases he
  have hmv : (v.withHeld held = (s.view a).withHeld held) ∨ Move cfga ((s.view a).withHeld held) e (v.withHeld held) := by
    have := step_move cfga ((s.view a).withHeld held) e
    rw [step_held cfga _ _ _ he, hv] at this
    exact this
  have hacts : Acting cfga held (fun m => (v.mgr.msgs m).isSome) s.pool v.mgr.pool := by
    rcases hmv with hm | hm
    · have : (v.withHeld held).mgr = ((s.view a).withHeld held).mgr := congrArg VSys.mgr hm
      have : v.mgr = (s.view a).mgr := this
      rw [this]
      exact .refl _
    · have := move_acts hS.positive hS.accounts hS.old hS.live hown.1 hown.2.1 hown.2.2 hm
      exact this
  have hnew : ∀ m, (v.mgr.msgs m).isSome → (a.sys.mgr.msgs m).isSome ∨ s.pool.nextMsg ≤ m := by
    rcases hmv with hm | hm
    · have : (v.withHeld held).mgr = ((s.view a).withHeld held).mgr := congrArg VSys.mgr hm
      have : v.mgr = (s.view a).mgr := this
      rw [this]
      exact fun m h => .inl h
    · exact (chain_msgs (move_chain hS.accounts.later hS.old hm)).2
  have hother : ∀ j b, j ≠ k → s.mgrs j = some b → ∀ m, (v.mgr.msgs m).isSome → b.sys.mgr.msgs m = none := by
    intro j b hj hb' m hm
    rcases hnew m hm with h | h
    · exact hi.apart k j a b m (Ne.symm hj) ha hb' h
    · obtain ⟨held', hSj⟩ := hi.sane hb'
      by_contra hne
      obtain ⟨msg, hmsg⟩ := Option.ne_none_iff_exists'.1 hne
      have := hSj.book.lt m msg hmsg
      have h : (((s.view b).withHeld held').mgr.nextMsg) ≤ m := h
      omega
  refine ⟨?_, ?_, ?_, ?_, ?_, ?_⟩
  · obtain ⟨ops, h1, -⟩ := module_history hc (h ++ [e])
    rw [hr'] at h1
    exact ⟨ops, by rw [← hb, ← hcr]; exact h1⟩
  · intro id en hen
    exact (hS'.book.entry id en hen).1
  · intro j
    simp only
    split
    · rename_i hj; subst hj; simp [hk]
    · exact hi.bound j
  · intro j b hb'
    simp only at hb'
    split at hb'
    · rename_i hj
      subst hj
      injection hb' with hb'
      subst hb'
      refine ⟨h0, m0, h ++ [e], by simp only [hcfg]; exact hc, ⟨held, ?_⟩, ?_⟩
      · simp only [hcfg]
        exact hr'
      · rw [List.filter_append, List.filterMap_append]
        refine hsub.append ?_
        simp only [List.filterMap_cons, Spec.concern, if_true, List.filterMap_nil]
        exact List.filter_sublist
    · rename_i hj
      obtain ⟨h0', m0', h', hc', ⟨held', hr''⟩, hsub'⟩ := hi.runs j b hb'
      have hr'' : after (cfg.at b.ns) m0' h' = (s.view b).withHeld held' := hr''
      have hSj := VSys.sane hc' h'
      rw [hr''] at hSj
      obtain ⟨os, hos⟩ := hacts
      have hjc : j < s.count := (hi.bound j).1 (by rw [hb']; rfl)
      obtain ⟨H', hH'⟩ := replay (cfg' := cfg.at b.ns) hb.symm hcr.symm hmx.symm hos ((s.view b).withHeld held') rfl
        hSj.accounts hSj.old hSj.positive (fun m hm => hother j b hj hb' m hm) (fun en hen => by
          obtain ⟨rest, h1, -, h3⟩ := named_split s hk ha en
          have h4 := h3 j b hj hjc hb'
          have h5 := hi.total en
          have h6 := Usm.Ledger.times hS.accounts.ledger en
          have h7 : Spec.holders ((s.view a).withHeld held).mgr en = Spec.holders a.sys.mgr en := rfl
          have h8 : Spec.times (((s.view a).withHeld held).mgr.usm.reg en) = Spec.times (s.pool.usm.reg en) := rfl
          have h9 : Spec.holders ((s.view b).withHeld held').mgr en = Spec.holders b.sys.mgr en := rfl
          have h10 : ((s.view a).withHeld held).held = held := rfl
          rw [h10] at h6
          omega)
      refine ⟨h0', m0', h' ++ os.map .other, hc', ⟨H', ?_⟩, ?_⟩
      · show after (cfg.at b.ns) m0' (h' ++ os.map .other) = _
        rw [after_append, hr'', hH']
        rfl
      · rw [List.filter_append, filter_others, List.append_nil, List.filterMap_append]
        exact hsub'.trans (List.sublist_append_left _ _)
  · intro en
    obtain ⟨rest, h1, h2, -⟩ := named_split s hk ha en
    have h2 := h2 ⟨a.ns, v⟩
    have h5 := hi.total en
    have h6 := Usm.Ledger.times hS.accounts.ledger en
    have h7 := Usm.Ledger.times hS'.accounts.ledger en
    have e1 : Spec.holders ((s.view a).withHeld held).mgr en = Spec.holders a.sys.mgr en := rfl
    have e2 : Spec.times (((s.view a).withHeld held).mgr.usm.reg en) = Spec.times (s.pool.usm.reg en) := rfl
    have e3 : ((s.view a).withHeld held).held = held := rfl
    have e4 : (v.withHeld held).held = held := rfl
    have e5 : Spec.holders (v.withHeld held).mgr en = Spec.holders v.mgr en := rfl
    have e6 : (v.withHeld held).mgr = v.mgr := rfl
    rw [e3] at h6
    rw [e4, e6] at h7
    show Spec.times (v.mgr.usm.reg en) = (Spec.named { s with mgrs := fun i => if i = k then some ⟨a.ns, v⟩ else s.mgrs i } en : Nat)
    rw [h2]
    simp only
    omega
  · intro i j b c m hij hbi hcj hm
    simp only at hbi hcj
    split at hbi
    · rename_i hik
      injection hbi with hbi
      subst hbi
      rw [if_neg (by omega)] at hcj
      exact hother j c (by omega) hcj m hm
    · rename_i hik
      split at hcj
      · injection hcj with hcj
        subst hcj
        by_contra hne
        have := hother i b hik hbi m (Option.isSome_iff_ne_none.2 hne)
        rw [this] at hm
        cases hm
      · exact hi.apart i j b c m hij hbi hcj hm

theorem step_hear {cfg : VCfg} {v : VSys} {w : Bytes} {stamp : ℚ} {r : Option (Nat × V3Incoming)} {m' : VMgr}
    (h1 : v.listener = .idle) (h2 : v.mgr.hear cfg w stamp = (r, m')) :
    v.step cfg (.hear w stamp) = match (generalizing := false) r with
      | none => { v with mgr := m' }
      | some (m, x) => { v with mgr := m', listener := .push m x } := by
  unfold VSys.step
  simp only
  split
  · rw [h2]; rfl
  · rename_i h; exact (h h1).elim

/-- A datagram. -/
theorem Inv.hear {H : List EEvent} {s : ESys} (hi : Inv cfg H s) (w : Bytes) (stamp : ℚ) :
    Inv cfg (H ++ [.hear w stamp]) (s.step cfg (.hear w stamp)) := by
  have hlonger : ∀ k (h : List VEvent), (h.filter fun e => !Spec.isOther e).Sublist (H.filterMap (Spec.concern k)) →
      (h.filter fun e => !Spec.isOther e).Sublist ((H ++ [EEvent.hear w stamp]).filterMap (Spec.concern k)) := by
    intro k h hs
    rw [List.filterMap_append]
    exact hs.trans (List.sublist_append_left _ _)
  unfold step
  simp only
  by_cases hidle : s.idle = true
  swap
  · rw [if_neg hidle]
    refine ⟨hi.module, hi.used, hi.bound, fun k a ha => ?_, hi.total, hi.apart⟩
    obtain ⟨h0, m0, h, hc, hr, hsub⟩ := hi.runs k a ha
    exact ⟨h0, m0, h, hc, hr, hlonger k h hsub⟩
  rw [if_pos hidle]
  obtain ⟨-, hdoes, hreg⟩ := receive_usm cfg s.pool s.gone s.gone w stamp
  -- one manager
  have one : ∀ k a, s.mgrs k = some a → ∀ s' : ESys, s'.pool = { s.pool with usm := (receive cfg s.pool s.gone w stamp).2 } →
      ∀ a' : EMgr, a'.ns = a.ns → a'.sys = (match (receive cfg s.pool s.gone w stamp).1 with
        | none => a.sys
        | some (m, x) => (EMgr.toPush a m x).sys) →
      ∃ h0 m0 h, Spec.CreatedOn (cfg.at a'.ns) h0 m0 ∧ Spec.Alone (cfg.at a'.ns) m0 h (s'.view a') ∧
        (h.filter fun e => !Spec.isOther e).Sublist ((H ++ [EEvent.hear w stamp]).filterMap (Spec.concern k)) := by
    intro k a ha s' hs' a' hns hsys
    obtain ⟨h0, m0, h, hc, ⟨held, hr⟩, hsub⟩ := hi.runs k a ha
    have hr : after (cfg.at a.ns) m0 h = (s.view a).withHeld held := hr
    have hk : k < s.count := (hi.bound k).1 (by rw [ha]; rfl)
    refine ⟨h0, m0, h ++ [.hear w stamp], by rw [hns]; exact hc, ⟨held, ?_⟩, ?_⟩
    swap
    · rw [List.filter_append, List.filterMap_append]
      exact hsub.append (List.Sublist.refl _)
    rw [hns]
    show after (cfg.at a.ns) m0 (h ++ [.hear w stamp]) = _
    rw [after_snoc, hr]
    have hli : a.sys.listener = .idle := by
      unfold ESys.idle at hidle
      have := List.all_eq_true.1 hidle k (List.mem_range.2 hk)
      rw [ha] at this
      simp only [EMgr.idle] at this
      cases hx : a.sys.listener with
      | idle => rfl
      | push m x => rw [hx] at this; cases this
      | flush r e sy => rw [hx] at this; cases this
      | sync r => rw [hx] at this; cases this
    have hgone : ∀ m, s.gone m = true → a.sys.mgr.gone m = true := by
      intro m hm
      unfold ESys.gone at hm
      have := List.all_eq_true.1 hm k (List.mem_range.2 hk)
      rw [ha] at this
      exact this
    have hrec := receive_gone (cfg.at a.ns) s.pool s.gone a.sys.mgr.gone hgone w stamp
    obtain ⟨husm, -⟩ := receive_usm (cfg.at a.ns) s.pool s.gone a.sys.mgr.gone w stamp
    have hh := hear_receive (cfg.at a.ns) ((s.view a).withHeld held).mgr w stamp
    have e1 : ((s.view a).withHeld held).mgr.pool = s.pool := rfl
    have e2 : ((s.view a).withHeld held).mgr.gone = a.sys.mgr.gone := rfl
    have e3 : ∀ g, receive (cfg.at a.ns) s.pool g w stamp = receive cfg s.pool g w stamp := fun _ => rfl
    rw [e1, e2] at hh
    simp only [e3] at husm hrec hh
    rw [hrec, husm] at hh
    have e4 : ((s.view a).withHeld held).listener = .idle := hli
    rw [step_hear e4 hh]
    generalize receive cfg s.pool s.gone w stamp = y at *
    obtain ⟨res, usm⟩ := y
    cases res with
    | none =>
      simp only at hsys hs' ⊢
      unfold ESys.view
      rw [hsys, hs']
      rfl
    | some mx =>
      obtain ⟨m, x⟩ := mx
      simp only at hsys hs' ⊢
      unfold EMgr.toPush at hsys
      unfold ESys.view
      by_cases hg : a.sys.mgr.gone m = true
      · rw [if_pos hg] at hsys ⊢
        rw [hsys, hs']
        rfl
      · rw [if_neg hg] at hsys ⊢
        rw [hsys, hs']
        rfl
  have hmgr : ∀ (a : EMgr) m x, (EMgr.toPush a m x).sys.mgr = a.sys.mgr := by
    intro a m x; unfold EMgr.toPush; split <;> rfl
  have hns : ∀ (a : EMgr) m x, (EMgr.toPush a m x).ns = a.ns := by
    intro a m x; unfold EMgr.toPush; split <;> rfl
  generalize hy : receive cfg s.pool s.gone w stamp = y at *
  obtain ⟨res, usm⟩ := y
  have hmod := does_after hi.module hdoes
  cases res with
  | none =>
    show Inv cfg _ { s with pool := { s.pool with usm } }
    refine ⟨hmod, hi.used, hi.bound, fun k a ha => one k a ha _ rfl a rfl rfl, fun e => ?_, hi.apart⟩
    show Spec.times (usm.reg e) = _
    have : usm.reg e = s.pool.usm.reg e := hreg e
    rw [this, hi.total]
    rfl
  | some mx =>
    obtain ⟨m, x⟩ := mx
    show Inv cfg _ { s with pool := { s.pool with usm }, mgrs := fun k => (s.mgrs k).map fun a => EMgr.toPush a m x }
    refine ⟨hmod, hi.used, fun k => ?_, fun k a' ha' => ?_, fun e => ?_, fun j k a b m' hjk ha' hb' hm' => ?_⟩
    · simp only [Option.isSome_map]; exact hi.bound k
    · simp only [Option.map_eq_some_iff] at ha'
      obtain ⟨a, ha, rfl⟩ := ha'
      exact one k a ha _ rfl _ (hns a m x) rfl
    · show Spec.times (usm.reg e) = _
      have : usm.reg e = s.pool.usm.reg e := hreg e
      rw [this, hi.total]
      refine congrArg _ (named_congr (s := s) (s' := { s with
        pool := { s.pool with usm }, mgrs := fun k => (s.mgrs k).map fun a => EMgr.toPush a m x }) rfl (fun k => ?_) e).symm
      simp only [Option.map_map]
      congr 1
      funext a
      exact hmgr a m x
    · simp only [Option.map_eq_some_iff] at ha' hb'
      obtain ⟨a1, ha1, rfl⟩ := ha'
      obtain ⟨b1, hb1, rfl⟩ := hb'
      rw [hmgr] at hm' ⊢
      exact hi.apart j k a1 b1 m' hjk ha1 hb1 hm'

/-- A new user. -/
theorem Inv.addUser {H : List EEvent} {s : ESys} (hi : Inv cfg H s) (u : UserArgs) (seed : Bytes → Nat) :
    Inv cfg (H ++ [.addUser u seed]) (s.step cfg (.addUser u seed)) := by
  unfold step
  simp only
  refine ⟨?_, hi.used, hi.bound, fun k a ha => ?_, fun e => ?_, hi.apart⟩
  · obtain ⟨ops, h⟩ := hi.module
    exact ⟨ops ++ [.config (.addUser u seed)], by rw [Usm.after_snoc, ← h]; rfl⟩
  · obtain ⟨h0, m0, h, hc, ⟨held, hr⟩, hsub⟩ := hi.runs k a ha
    have hr : after (cfg.at a.ns) m0 h = (s.view a).withHeld held := hr
    refine ⟨h0, m0, h ++ [.addUser u seed], hc, ⟨held, ?_⟩, ?_⟩
    · show after (cfg.at a.ns) m0 (h ++ [.addUser u seed]) = _
      rw [after_snoc, hr]
      rfl
    · rw [List.filter_append, List.filterMap_append]
      exact hsub.append (List.Sublist.refl _)
  · have := s.pool.usm.addUser_reg cfg.crypto u seed e
    show Spec.times (Usm.reg { s.pool.usm with users := (s.pool.usm.users.addUser cfg.crypto u seed).2 } e) = _
    rw [this]
    exact hi.total e

/-- A new manager. -/
theorem Inv.create {H : List EEvent} {s : ESys} (hok : cfg.crypto.Ok) (hi : Inv cfg H s) (ns : String) (engineID : Option Bytes) (g : Nat)
    (seed : Bytes → Nat) :
    Inv cfg (H ++ [.create ns engineID g seed]) (s.step cfg (.create ns engineID g seed)) := by
  have hlonger : ∀ k (h : List VEvent), (h.filter fun e => !Spec.isOther e).Sublist (H.filterMap (Spec.concern k)) →
      (h.filter fun e => !Spec.isOther e).Sublist ((H ++ [EEvent.create ns engineID g seed]).filterMap (Spec.concern k)) := by
    intro k h hs
    rw [List.filterMap_append]
    exact hs.trans (List.sublist_append_left _ _)
  obtain ⟨ops, hops⟩ := hi.module
  have hpos : Usm.Positive s.pool.usm.reg := by rw [hops]; exact Usm.after_positive _ _ hok ops
  have hled : Usm.Ledger s.pool.usm.reg ns s.pool.usm (fun e => 0 + Snmp.one none e) :=
    ⟨fun e he _ => he, fun e _ h => by simp [Snmp.one] at h,
      fun e k ns' he => by rw [he]; simp [Snmp.one], fun e k ns' _ h => by simp [Snmp.one] at h⟩
  have hspec := changeEngine_spec (cfg := cfg.at ns) hled hpos engineID seed
  have hdoes := changeEngine_does (cfg.at ns) s.pool.usm none engineID seed
  have hacts : ∀ mine, Acting (cfg.at ns) s.pool.usm.reg mine s.pool
      ⟨(changeEngine (cfg.at ns) s.pool.usm none engineID seed).2, s.pool.cache, s.pool.nextMsg⟩ := fun mine =>
    acting_change s.pool.usm s.pool.cache s.pool.nextMsg none engineID seed (fun _ => 0) hled
  -- the managers that are there already
  have old : ∀ k b, s.mgrs k = some b → ∀ s' : ESys,
      s'.pool = ⟨(changeEngine (cfg.at ns) s.pool.usm none engineID seed).2, s.pool.cache, s.pool.nextMsg⟩ →
      ∃ h0 m0 h, Spec.CreatedOn (cfg.at b.ns) h0 m0 ∧ Spec.Alone (cfg.at b.ns) m0 h (s'.view b) ∧
        (h.filter fun e => !Spec.isOther e).Sublist ((H ++ [EEvent.create ns engineID g seed]).filterMap (Spec.concern k)) := by
    intro k b hb s' hs'
    obtain ⟨h0, m0, h, hc, ⟨held, hr⟩, hsub⟩ := hi.runs k b hb
    have hr : after (cfg.at b.ns) m0 h = (s.view b).withHeld held := hr
    have hS := VSys.sane hc h
    rw [hr] at hS
    obtain ⟨os, hos⟩ := hacts fun _ => False
    obtain ⟨H', hH'⟩ := replay (cfg := cfg.at ns) (cfg' := cfg.at b.ns) rfl rfl rfl hos ((s.view b).withHeld held) rfl hS.accounts hS.old
      hS.positive (fun _ h => h.elim) (fun en hen => by
        have h1 := Usm.Ledger.times hS.accounts.ledger en
        have e1 : ((s.view b).withHeld held).mgr.usm = s.pool.usm := rfl
        rw [e1] at h1
        have h2 : 0 ≤ Spec.times (((s.view b).withHeld held).held en) := by
          unfold Spec.times
          split
          · exact Int.le_refl _
          · rename_i n ns' hx; exact Int.le_of_lt (hS.positive en n ns' hx)
        omega)
    refine ⟨h0, m0, h ++ os.map .other, hc, ⟨H', ?_⟩, ?_⟩
    · show after (cfg.at b.ns) m0 (h ++ os.map .other) = _
      rw [after_append, hr, hH']
      unfold ESys.view
      rw [hs']
      rfl
    · rw [List.filter_append, filter_others, List.append_nil]
      exact hlonger k h hsub
  show Inv cfg _ (s.create cfg ns engineID g seed)
  unfold ESys.create
  cases hm : VMgr.create (cfg.at ns) s.pool.usm engineID g s.pool.cache s.pool.nextMsg seed with
  | error err =>
    refine ⟨does_after hi.module hdoes, hi.used, hi.bound, fun k b hb => old k b hb _ rfl, fun e => ?_, hi.apart⟩
    unfold VMgr.create at hm
    rcases hspec with ⟨h1, -⟩ | ⟨-, -, -, h2⟩
    · generalize changeEngine (cfg.at ns) s.pool.usm none engineID seed = y at *
      obtain ⟨res, usm⟩ := y
      simp only at h1
      subst h1
      cases hm
    · show Spec.times (Usm.reg (changeEngine (cfg.at ns) s.pool.usm none engineID seed).2 e) = _
      rw [h2 e]
      exact hi.total e
  | ok m =>
    obtain ⟨usm, hce, hm0⟩ := VMgr.create_ok hm
    have hcreated : Spec.CreatedOn (cfg.at ns) ops m := ⟨hok, engineID, g, s.pool.cache, s.pool.nextMsg, seed, hi.used, by
      rw [← hm, hops]; rfl⟩
    have husm : m.usm = (changeEngine (cfg.at ns) s.pool.usm none engineID seed).2 := by rw [hce, hm0]
    have hpool : m.pool = ⟨(changeEngine (cfg.at ns) s.pool.usm none engineID seed).2, s.pool.cache, s.pool.nextMsg⟩ := by
      rw [hce, hm0]; rfl
    have hmsgs : m.msgs = fun _ => none := by rw [hm0]
    have hcount : s.mgrs s.count = none := by
      have := hi.bound s.count
      cases hx : s.mgrs s.count with
      | none => rfl
      | some y => rw [hx] at this; simp at this
    refine ⟨?_, ?_, ?_, ?_, ?_, ?_⟩
    · have := does_after hi.module hdoes
      rw [← husm] at this
      exact this
    · show Spec.Used m.pool.cache m.pool.nextMsg
      rw [hpool]; exact hi.used
    · intro k
      simp only
      split
      · rename_i hk; subst hk; simp
      · rename_i hk
        rw [hi.bound k]
        omega
    · intro k b hb
      simp only at hb
      split at hb
      · injection hb with hb
        subst hb
        refine ⟨ops, m, [], hcreated, ⟨(VSys.init m).held, ?_⟩, List.nil_sublist _⟩
        unfold ESys.view
        rfl
      · exact old k b hb _ hpool
    · intro e
      show Spec.times (m.usm.reg e) = _
      have hS := VSys.sane hcreated []
      have h1 := Usm.Ledger.times hS.accounts.ledger e
      have h2 := VMgr.create_held hpos hm
      have e1 : (after (cfg.at ns) m []).mgr = m := rfl
      have e2 : (after (cfg.at ns) m []).held = s.pool.usm.reg := h2
      rw [e1, e2] at h1
      rw [h1, hi.total e]
      unfold Spec.named
      simp only
      rw [Finset.sum_range_succ]
      have : ∀ k ∈ Finset.range s.count, (match (if k = s.count then some (⟨ns, VSys.init m⟩ : EMgr) else s.mgrs k) with
          | none => 0
          | some a => Spec.holders a.sys.mgr e) = (match s.mgrs k with
          | none => 0
          | some a => Spec.holders a.sys.mgr e) := by
        intro k hk
        rw [if_neg (by have := Finset.mem_range.1 hk; omega)]
      rw [Finset.sum_congr rfl this]
      simp only [if_true]
      push_cast
      rfl
    · intro i j b c k hij hbi hcj hk
      simp only at hbi hcj
      split at hbi
      · injection hbi with hbi
        subst hbi
        have hk : (m.msgs k).isSome := hk
        rw [hmsgs] at hk; cases hk
      · split at hcj
        · injection hcj with hcj
          subst hcj
          show m.msgs k = none
          rw [hmsgs]
        · exact hi.apart i j b c k hij hbi hcj hk

theorem inv (hok : cfg.crypto.Ok) (r : Nat) (H : List EEvent) : Inv cfg H ((ESys.new r).run cfg H) := by
  induction H using List.reverseRecOn with
  | nil =>
    refine ⟨⟨[], rfl⟩, fun id e he => ?_, fun k => ?_, fun k a ha => ?_, fun e => ?_, fun j k a b m _ ha => ?_⟩
    · cases he
    · simp [run, ESys.new]
    · cases ha
    · simp [run, ESys.new, Spec.named, Usm.reg, Usm.new, UserRegistry.new, Spec.times]
      rfl
    · cases ha
  | append_singleton H e ih =>
    have hr : (ESys.new r).run cfg (H ++ [e]) = ((ESys.new r).run cfg H).step cfg e := by
      unfold run; rw [List.foldl_append]; rfl
    rw [hr]
    generalize (ESys.new r).run cfg H = s at *
    have same : (s.step cfg e = s) → Inv cfg (H ++ [e]) (s.step cfg e) := by
      intro h
      rw [h]
      refine ⟨ih.module, ih.used, ih.bound, fun k a ha => ?_, ih.total, ih.apart⟩
      obtain ⟨h0, m0, h, hc, hr, hsub⟩ := ih.runs k a ha
      refine ⟨h0, m0, h, hc, hr, ?_⟩
      rw [List.filterMap_append]
      exact hsub.trans (List.sublist_append_left _ _)
    cases e with
    | create ns engineID g seed => exact ih.create hok ns engineID g seed
    | hear w stamp => exact ih.hear w stamp
    | addUser u seed => exact ih.addUser u seed
    | act k e =>
      cases ha : s.mgrs k with
      | none => exact same (by unfold step; simp only [ha])
      | some a =>
        by_cases he : e.own = true
        · have := ih.act ha e he
          unfold step
          simp only [ha, he, if_true]
          exact this
        · exact same (by unfold step; simp only [ha, he]; rfl)

/-! ## The listening thread is in one manager at a time -/

theorem goto_listener (v : VSys) (t : Nat) (p : VPc) : (v.goto t p).listener = v.listener := rfl

theorem finish_listener (cfg : VCfg) (v : VSys) (t r : Nat) (o : VOutcome) : (v.finish cfg t r o).listener = v.listener := by
  unfold VSys.finish
  split
  · rfl
  · split <;> rfl

theorem advance_listener (cfg : VCfg) (v : VSys) (t : Nat) (i : SendIn) : (v.advance cfg t i).listener = v.listener := by
  unfold VSys.advance
  repeat' (first | rfl | rw [finish_listener] | rw [goto_listener] | split)

theorem step_idle {v : VSys} {e : VEvent} (he : e.own = true) (h : v.listener = .idle) :
    (v.step cfg e).listener = .idle := by
  cases e with
  | send pdu user level timeout period t0 r0 i => unfold VSys.step; simp only; split <;> exact h
  | wait t r => unfold VSys.step; simp only; split <;> exact h
  | step t i =>
    show (v.advance cfg t i).listener = _
    rw [advance_listener]; exact h
  | hear w stamp => cases he
  | listen i =>
    show (v.listen cfg i).listener = _
    unfold VSys.listen
    rw [h]
    exact h
  | collect r => exact h
  | drop => unfold VSys.step; simp only; split <;> exact h
  | addUser a seed => cases he
  | other o => cases he

/-- At most one manager has the listening thread. -/
def Listens (s : ESys) : Prop :=
  ∀ j k a b, s.mgrs j = some a → s.mgrs k = some b → a.sys.listener ≠ .idle → b.sys.listener ≠ .idle → j = k

theorem idle_all {s : ESys} (h : s.idle = true) {k : Nat} {a : EMgr} (hk : k < s.count) (ha : s.mgrs k = some a) :
    a.sys.listener = .idle := by
  unfold ESys.idle at h
  have := List.all_eq_true.1 h k (List.mem_range.2 hk)
  rw [ha] at this
  simp only [EMgr.idle] at this
  cases hx : a.sys.listener with
  | idle => rfl
  | push m x => rw [hx] at this; cases this
  | flush r e sy => rw [hx] at this; cases this
  | sync r => rw [hx] at this; cases this

theorem listens_step {H : List EEvent} {s : ESys} (hi : Inv cfg H s) (hl : Listens s) (e : EEvent) :
    Listens (s.step cfg e) := by
  cases e with
  | create ns engineID g seed =>
    show Listens (s.create cfg ns engineID g seed)
    unfold ESys.create
    split
    · exact hl
    · intro j k a b ha hb h1 h2
      simp only at ha hb
      split at ha
      · injection ha with ha; subst ha; exact (h1 rfl).elim
      · split at hb
        · injection hb with hb; subst hb; exact (h2 rfl).elim
        · exact hl j k a b ha hb h1 h2
  | act k e =>
    unfold step
    simp only
    cases hk : s.mgrs k with
    | none => exact hl
    | some c =>
      simp only
      split
      · rename_i he
        have key : ((s.view c).step (cfg.at c.ns) e).listener ≠ .idle → c.sys.listener ≠ .idle :=
          fun h1 h2 => h1 (step_idle he h2)
        intro i j a b ha hb h1 h2
        simp only at ha hb
        split at ha
        · injection ha with ha
          subst ha
          split at hb
          · omega
          · rename_i hik hjk
            rw [hik]
            exact hl k j c b hk hb (key h1) h2
        · split at hb
          · rename_i hik hjk
            injection hb with hb
            subst hb
            rw [hjk]
            exact hl i k a c ha hk h1 (key h2)
          · exact hl i j a b ha hb h1 h2
      · exact hl
  | hear w stamp =>
    unfold step
    simp only
    split
    · rename_i hidle
      have hall : ∀ k a, s.mgrs k = some a → a.sys.listener = .idle := fun k a ha =>
        idle_all hidle ((hi.bound k).1 (by rw [ha]; rfl)) ha
      split
      · exact hl
      · rename_i m x usm _
        have hpush : ∀ k a, s.mgrs k = some a → (EMgr.toPush a m x).sys.listener ≠ .idle → (a.sys.mgr.msgs m).isSome := by
          intro k a ha h
          unfold EMgr.toPush at h
          split at h
          · exact (h (hall k a ha)).elim
          · rename_i hg
            unfold VMgr.gone at hg
            cases hx : a.sys.mgr.msgs m with
            | none => rw [hx] at hg; exact (hg rfl).elim
            | some y => rfl
        intro j k a b ha hb h1 h2
        simp only [Option.map_eq_some_iff] at ha hb
        obtain ⟨a1, ha1, rfl⟩ := ha
        obtain ⟨b1, hb1, rfl⟩ := hb
        by_contra hjk
        have h3 := hpush j a1 ha1 h1
        have h4 := hpush k b1 hb1 h2
        rw [hi.apart j k a1 b1 m hjk ha1 hb1 h3] at h4
        cases h4
    · exact hl
  | addUser u seed => exact hl

theorem listens (hok : cfg.crypto.Ok) (r : Nat) (H : List EEvent) : Listens ((ESys.new r).run cfg H) := by
  induction H using List.reverseRecOn with
  | nil => intro j k a b ha; cases ha
  | append_singleton H e ih =>
    have hr : (ESys.new r).run cfg (H ++ [e]) = ((ESys.new r).run cfg H).step cfg e := by
      unfold run; rw [List.foldl_append]; rfl
    rw [hr]
    exact listens_step (inv hok r H) ih e

/-- A datagram, for one of the managers. -/
theorem hear_view {H : List EEvent} {s : ESys} (hi : Inv cfg H s) (hidle : s.idle = true) {k : Nat} {a : EMgr}
    (ha : s.mgrs k = some a) (w : Bytes) (stamp : ℚ) :
    ∃ a', (s.step cfg (.hear w stamp)).mgrs k = some a' ∧ a'.ns = a.ns ∧
      (s.step cfg (.hear w stamp)).view a' = (s.view a).step (cfg.at a.ns) (.hear w stamp) := by
  have hk : k < s.count := (hi.bound k).1 (by rw [ha]; rfl)
  have hli : (s.view a).listener = .idle := idle_all hidle hk ha
  have hgone : ∀ m, s.gone m = true → a.sys.mgr.gone m = true := by
    intro m hm
    unfold ESys.gone at hm
    have := List.all_eq_true.1 hm k (List.mem_range.2 hk)
    rw [ha] at this
    exact this
  have hrec := receive_gone (cfg.at a.ns) s.pool s.gone a.sys.mgr.gone hgone w stamp
  obtain ⟨husm, -⟩ := receive_usm (cfg.at a.ns) s.pool s.gone a.sys.mgr.gone w stamp
  have hh := hear_receive (cfg.at a.ns) (s.view a).mgr w stamp
  have e1 : (s.view a).mgr.pool = s.pool := rfl
  have e2 : (s.view a).mgr.gone = a.sys.mgr.gone := rfl
  have e3 : ∀ g, receive (cfg.at a.ns) s.pool g w stamp = receive cfg s.pool g w stamp := fun _ => rfl
  rw [e1, e2] at hh
  simp only [e3] at husm hrec hh
  rw [hrec, husm] at hh
  rw [step_hear hli hh]
  unfold step
  simp only [hidle, if_true]
  generalize receive cfg s.pool s.gone w stamp = y at *
  obtain ⟨res, usm⟩ := y
  cases res with
  | none => exact ⟨a, ha, rfl, rfl⟩
  | some mx =>
    obtain ⟨m, x⟩ := mx
    refine ⟨EMgr.toPush a m x, by simp only [ha, Option.map_some], ?_, ?_⟩
    · unfold EMgr.toPush; split <;> rfl
    · unfold ESys.view EMgr.toPush
      simp only
      by_cases hg : a.sys.mgr.gone m = true
      · rw [if_pos hg, if_pos hg]
        rfl
      · rw [if_neg hg, if_neg hg]
        rfl

/-! ## The theorems -/

/-- **C109.** Whatever the managers of an engine do, each of them is at any time in a state that it could be in if it
were the only one: its history is made of its own steps, the datagrams and new users, in the order in which they came, and
of steps that other managers may do at any time. So what was proved of a manager of which that is the history (C33,
C52 to C56, C67 to C72, C79 to C82, C87, C88, C93, C94, C102, C103) holds of every manager of an engine. -/
theorem C109_refines (hok : cfg.crypto.Ok) (r : Nat) (H : List EEvent) (k : Nat) (a : EMgr)
    (ha : ((ESys.new r).run cfg H).mgrs k = some a) :
    ∃ h0 m0 h, Spec.CreatedOn (cfg.at a.ns) h0 m0 ∧ Spec.Alone (cfg.at a.ns) m0 h (((ESys.new r).run cfg H).view a) ∧
      (h.filter fun e => !Spec.isOther e).Sublist (H.filterMap (Spec.concern k)) :=
  (inv hok r H).runs k a ha

/-- **C109.** A datagram that arrives while the listening thread is free is, for every manager of the engine, what it would be for it alone:
none of them misses it because of the others. -/
theorem C109_hear (hok : cfg.crypto.Ok) (r : Nat) (H : List EEvent) (k : Nat) (a : EMgr)
    (ha : ((ESys.new r).run cfg H).mgrs k = some a)
    (hidle : ∀ j b, ((ESys.new r).run cfg H).mgrs j = some b → b.sys.listener = .idle) (w : Bytes) (stamp : ℚ) :
    ∃ a', ((ESys.new r).run cfg (H ++ [.hear w stamp])).mgrs k = some a' ∧ a'.ns = a.ns ∧
      ((ESys.new r).run cfg (H ++ [.hear w stamp])).view a' =
        (((ESys.new r).run cfg H).view a).step (cfg.at a.ns) (.hear w stamp) := by
  have hr : (ESys.new r).run cfg (H ++ [.hear w stamp]) = ((ESys.new r).run cfg H).step cfg (.hear w stamp) := by
    unfold run; rw [List.foldl_append]; rfl
  rw [hr]
  refine hear_view (inv hok r H) ?_ ha w stamp
  unfold ESys.idle
  refine List.all_eq_true.2 fun j _ => ?_
  cases hb : ((ESys.new r).run cfg H).mgrs j with
  | none => rfl
  | some b => simp only [EMgr.idle, hidle j b hb]

/-- **C109.** A step of a manager is what it would be for it alone, and leaves the other managers as they are. -/
theorem C109_act (cfg : VCfg) (r : Nat) (H : List EEvent) (k : Nat) (a : EMgr) (e : VEvent) (he : e.own = true)
    (ha : ((ESys.new r).run cfg H).mgrs k = some a) :
    (∃ a', ((ESys.new r).run cfg (H ++ [.act k e])).mgrs k = some a' ∧ a'.ns = a.ns ∧
      ((ESys.new r).run cfg (H ++ [.act k e])).view a' = (((ESys.new r).run cfg H).view a).step (cfg.at a.ns) e) ∧
    ∀ j, j ≠ k → ((ESys.new r).run cfg (H ++ [.act k e])).mgrs j = ((ESys.new r).run cfg H).mgrs j := by
  have hr : (ESys.new r).run cfg (H ++ [.act k e]) = ((ESys.new r).run cfg H).step cfg (.act k e) := by
    unfold run; rw [List.foldl_append]; rfl
  rw [hr]
  unfold step
  simp only [ha, he, if_true]
  exact ⟨⟨_, rfl, rfl, rfl⟩, fun j hj => by rw [if_neg hj]⟩

/-- **C109.** An engine ID is registered with the security module exactly as often as managers and requests name it. -/
theorem C109_registered (hok : cfg.crypto.Ok) (r : Nat) (H : List EEvent) (e : Bytes) :
    Spec.times (((ESys.new r).run cfg H).pool.usm.reg e) = Spec.named ((ESys.new r).run cfg H) e :=
  (inv hok r H).total e

/-- **C109.** An engine ID named by a manager or one of its requests is registered under the manager's namespace. -/
theorem C109_namespace (hok : cfg.crypto.Ok) (r : Nat) (H : List EEvent) (k : Nat) (a : EMgr)
    (ha : ((ESys.new r).run cfg H).mgrs k = some a) (e : Bytes) (he : 0 < Spec.holders a.sys.mgr e) :
    (((ESys.new r).run cfg H).pool.usm.reg e).map Prod.snd = some a.ns := by
  obtain ⟨h0, m0, h, hc, ⟨held, hr⟩, -⟩ := (inv hok r H).runs k a ha
  have hS := VSys.sane hc h
  have hr : after (cfg.at a.ns) m0 h = (((ESys.new r).run cfg H).view a).withHeld held := hr
  rw [hr] at hS
  have hl : Usm.Ledger held a.ns ((ESys.new r).run cfg H).pool.usm (Spec.holders a.sys.mgr) := hS.accounts.ledger
  cases hb : held e with
  | none => rw [hl.ours e hb he]; rfl
  | some x => rw [hl.more e x.1 x.2 hb, ← hl.same e x.1 x.2 hb he]; rfl

/-- **C109.** Managers with different namespaces, and their requests, never name the same engine ID. -/
theorem C109_apart (hok : cfg.crypto.Ok) (r : Nat) (H : List EEvent) (j k : Nat) (a b : EMgr)
    (ha : ((ESys.new r).run cfg H).mgrs j = some a) (hb : ((ESys.new r).run cfg H).mgrs k = some b) (e : Bytes)
    (he : 0 < Spec.holders a.sys.mgr e) (he' : 0 < Spec.holders b.sys.mgr e) : a.ns = b.ns := by
  have h1 := C109_namespace hok r H j a ha e he
  rw [C109_namespace hok r H k b hb e he'] at h1
  injection h1 with h1
  exact h1.symm

/-- What registering answers. -/
theorem assign_answer {b : Backend} {c : Crypto} (hok : c.Ok) (ops : List Spec.UsmOp) (e : Bytes) (ns : String)
    (seed : Bytes → Nat) :
    ((Usm.after b c ops).users.assign c e ns seed).1 = match (Usm.after b c ops).reg e with
      | none => .ok true
      | some (_, ns') => .ok (decide (ns' = ns)) := by
  have ok := Usm.after_users hok b ops
  have h1 := (ok.step hok (.register e ns seed)).1
  have h2 := ok.engine e
  have h3 : ((Usm.after b c ops).users.apply c (.register e ns seed)).1 = ((Usm.after b c ops).users.assign c e ns seed).1 := rfl
  rw [← h3, h1]
  unfold Usm.reg
  simp only [Spec.Reg.step, Spec.Reg.register]
  cases hg : (Usm.after b c ops).users.engines.get e with
  | none => rw [hg] at h2; rw [h2]; rfl
  | some x =>
    rw [hg] at h2
    rw [h2]
    simp only [Option.map_some]
    split <;> simp_all

/-- **C109.** A manager is refused with `DiscoveryError` if a manager with another namespace, or one of its requests, names its engine. -/
theorem C109_create_refused (hok : cfg.crypto.Ok) (r : Nat) (H : List EEvent) (ns : String) (e : Bytes) (g : Nat)
    (seed : Bytes → Nat) (k : Nat) (a : EMgr) (ha : ((ESys.new r).run cfg H).mgrs k = some a)
    (he : 0 < Spec.holders a.sys.mgr e) (hne : a.ns ≠ ns) :
    VMgr.create (cfg.at ns) ((ESys.new r).run cfg H).pool.usm (some e) g ((ESys.new r).run cfg H).pool.cache
      ((ESys.new r).run cfg H).pool.nextMsg seed = .error .discoveryError ∧
    ((ESys.new r).run cfg (H ++ [.create ns (some e) g seed])).count = ((ESys.new r).run cfg H).count ∧
    ((ESys.new r).run cfg (H ++ [.create ns (some e) g seed])).mgrs = ((ESys.new r).run cfg H).mgrs := by
  have hr : (ESys.new r).run cfg (H ++ [.create ns (some e) g seed]) =
      ((ESys.new r).run cfg H).create cfg ns (some e) g seed := by
    unfold run; rw [List.foldl_append]; rfl
  rw [hr]
  have hns := C109_namespace hok r H k a ha e he
  obtain ⟨ops, hops⟩ := (inv hok r H).module
  generalize (ESys.new r).run cfg H = s at *
  have hans := assign_answer (b := cfg.backend) hok ops e ns seed
  rw [← hops] at hans
  cases hx : s.pool.usm.reg e with
  | none => rw [hx] at hns; cases hns
  | some x =>
    obtain ⟨n, ns'⟩ := x
    rw [hx] at hns hans
    have hns : ns' = a.ns := by simpa using hns
    have hans : (s.pool.usm.users.assign cfg.crypto e ns seed).1 = .ok false := by
      rw [hans]; simp [hns, hne]
    have hc : VMgr.create (cfg.at ns) s.pool.usm (some e) g s.pool.cache s.pool.nextMsg seed = .error .discoveryError := by
      unfold VMgr.create changeEngine
      rw [if_neg (by simp)]
      have e1 : (cfg.at ns).crypto = cfg.crypto := rfl
      have e2 : (cfg.at ns).ns = ns := rfl
      simp only [e1, e2]
      generalize s.pool.usm.users.assign cfg.crypto e ns seed = y at *
      obtain ⟨res, users⟩ := y
      simp only at hans
      subst hans
      rfl
    refine ⟨hc, ?_, ?_⟩
    · unfold ESys.create; rw [hc]
    · unfold ESys.create; rw [hc]

/-- **C109.** Otherwise it is created. -/
theorem C109_create (hok : cfg.crypto.Ok) (r : Nat) (H : List EEvent) (ns : String) (engineID : Option Bytes) (g : Nat)
    (seed : Bytes → Nat) (hn : ∀ e k a, engineID = some e → ((ESys.new r).run cfg H).mgrs k = some a →
      0 < Spec.holders a.sys.mgr e → a.ns = ns) :
    ((ESys.new r).run cfg (H ++ [.create ns engineID g seed])).count = ((ESys.new r).run cfg H).count + 1 ∧
    ∃ a, ((ESys.new r).run cfg (H ++ [.create ns engineID g seed])).mgrs ((ESys.new r).run cfg H).count = some a ∧
      a.ns = ns ∧ a.sys.mgr.engineID = engineID := by
  have hr : (ESys.new r).run cfg (H ++ [.create ns engineID g seed]) =
      ((ESys.new r).run cfg H).create cfg ns engineID g seed := by
    unfold run; rw [List.foldl_append]; rfl
  rw [hr]
  have hi := inv hok r H
  have hname := fun k a ha e he => C109_namespace hok r H k a ha e he
  obtain ⟨ops, hops⟩ := hi.module
  generalize (ESys.new r).run cfg H = s at *
  have hpos : Usm.Positive s.pool.usm.reg := by rw [hops]; exact Usm.after_positive _ _ hok ops
  have hc : ∃ usm, changeEngine (cfg.at ns) s.pool.usm none engineID seed = (.ok (), usm) := by
    unfold changeEngine
    cases engineID with
    | none => exact ⟨_, rfl⟩
    | some e =>
      rw [if_neg (by simp)]
      have hans := assign_answer (b := cfg.backend) hok ops e ns seed
      rw [← hops] at hans
      have hans : (s.pool.usm.users.assign cfg.crypto e ns seed).1 = .ok true := by
        rw [hans]
        cases hx : s.pool.usm.reg e with
        | none => rfl
        | some x =>
          obtain ⟨n, ns'⟩ := x
          have h0 := hpos e n ns' hx
          have h1 := hi.total e
          rw [hx] at h1
          have h1 : n = (Spec.named s e : Nat) := h1
          have h2 : Spec.named s e ≠ 0 := by omega
          unfold Spec.named at h2
          obtain ⟨k, -, hk⟩ := Finset.exists_ne_zero_of_sum_ne_zero h2
          cases ha : s.mgrs k with
          | none => rw [ha] at hk; exact (hk rfl).elim
          | some a =>
            rw [ha] at hk
            have hp : 0 < Spec.holders a.sys.mgr e := Nat.pos_of_ne_zero hk
            have h3 := hname k a ha e hp
            rw [hx, hn e k a rfl ha hp] at h3
            simpa using h3
      have e1 : (cfg.at ns).crypto = cfg.crypto := rfl
      have e2 : (cfg.at ns).ns = ns := rfl
      simp only [e1, e2]
      generalize s.pool.usm.users.assign cfg.crypto e ns seed = y at *
      obtain ⟨res, users⟩ := y
      simp only at hans
      subst hans
      exact ⟨_, rfl⟩
  obtain ⟨usm, hc⟩ := hc
  unfold ESys.create VMgr.create
  rw [hc]
  exact ⟨rfl, _, by simp only [if_true]; rfl, rfl, rfl⟩

/-- **C109.** When all managers were collected, no engine ID is registered. -/
theorem C109_released (hok : cfg.crypto.Ok) (r : Nat) (H : List EEvent)
    (hd : ∀ k a, ((ESys.new r).run cfg H).mgrs k = some a → a.sys.dropped = true) (e : Bytes) :
    ((ESys.new r).run cfg H).pool.usm.reg e = none := by
  have hi := inv hok r H
  have hz : Spec.named ((ESys.new r).run cfg H) e = 0 := by
    unfold Spec.named
    refine Finset.sum_eq_zero fun k _ => ?_
    cases ha : ((ESys.new r).run cfg H).mgrs k with
    | none => rfl
    | some a =>
      obtain ⟨h0, m0, h, hc, ⟨held, hr⟩, -⟩ := hi.runs k a ha
      have hr : after (cfg.at a.ns) m0 h = (((ESys.new r).run cfg H).view a).withHeld held := hr
      have hS := VSys.sane hc h
      rw [hr] at hS
      obtain ⟨h1, h2⟩ := hS.gone (hd k a ha)
      have h1 : ∀ r < a.sys.mgr.nextReq, a.sys.mgr.dead r = true := h1
      have h2 : a.sys.mgr.engineID = none := h2
      show Spec.holders a.sys.mgr e = 0
      unfold Spec.holders Spec.naming
      rw [h2, List.filter_eq_nil_iff.2]
      · simp
      · intro i hi'
        cases hq : a.sys.mgr.reqs i with
        | none => simp
        | some q =>
          have : q.engineID = none := hS.accounts.dead i q (h1 i (List.mem_range.1 hi')) hq
          simp [this]
  have ht := hi.total e
  obtain ⟨ops, hops⟩ := hi.module
  have hpos : Usm.Positive ((ESys.new r).run cfg H).pool.usm.reg := by
    rw [hops]; exact Usm.after_positive _ _ hok ops
  rw [hz] at ht
  cases hx : ((ESys.new r).run cfg H).pool.usm.reg e with
  | none => rfl
  | some x =>
    have h1 := hpos e x.1 x.2 hx
    rw [hx] at ht
    have h2 : x.1 = 0 := ht
    omega

/-- **C109.** A datagram is handed to one manager at most: the listening thread is never busy in two. -/
theorem C109_one (hok : cfg.crypto.Ok) (r : Nat) (H : List EEvent) (j k : Nat) (a b : EMgr)
    (ha : ((ESys.new r).run cfg H).mgrs j = some a) (hb : ((ESys.new r).run cfg H).mgrs k = some b)
    (h1 : a.sys.listener ≠ .idle) (h2 : b.sys.listener ≠ .idle) : j = k :=
  listens hok r H j k a b ha hb h1 h2

end ESys

open Spec Demo in
/-- Non-vacuity of C109: two managers of one engine, both of which name engine [1], and a request of each; the message IDs are
1 and 2. The response to the second arrives: it is pushed to the second manager alone. Then all is collected. A third
manager, with another namespace, cannot have engine [1] meanwhile. -/
theorem C109_example :
    let h : List EEvent := [.addUser sampleUser fun _ => 0, .create "" (some [1]) 1 fun _ => 0,
      .create "" (some [1]) 1 fun _ => 0, .create "x" (some [1]) 1 fun _ => 0, .act 0 (Demo.issue 0 10 1),
      .act 1 (Demo.issue 0 10 1)]
    let h' : List EEvent := [.hear (datagram noAuthNoPriv 2 [1] [97] aResponse) 0]
    let h'' : List EEvent := [.act 1 (deliver 0), .act 0 (.collect 0), .act 0 .drop, .act 1 (.collect 0), .act 1 .drop]
    let s := (ESys.new 1).run demoCfg h
    let s' := (ESys.new 1).run demoCfg (h ++ h')
    let s'' := (ESys.new 1).run demoCfg (h ++ h' ++ h'')
    ((s.mgrs 0).map fun a => (a.ns, Spec.holders a.sys.mgr [1])) = some ("", 2) ∧ s.count = 2 ∧ s.pool.usm.reg [1] = some (4, "") ∧ Spec.named s [1] = 4 ∧
    (s'.mgrs 0).map (fun a => a.sys.listener) = some .idle ∧
    (s'.mgrs 1).map (fun a => a.sys.listener) = some (.push 1 (received noAuthNoPriv 2 [1] [97] aResponse)) ∧
    (s''.mgrs 0).map (fun a => a.sys.dropped) = some true ∧ (s''.mgrs 1).map (fun a => a.sys.dropped) = some true ∧
    s''.pool.usm.reg [1] = none := by
  decide +kernel

end Snmp
