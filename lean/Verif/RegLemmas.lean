import Verif.ManagerV3
import Verif.Props.Usm
/-! # Engine registrations: counts and namespaces, and what changes them -/

namespace Snmp

/-- The same registrations. -/
def Usm.SameReg (u u' : Usm) : Prop := ∀ e, u'.reg e = u.reg e

theorem Usm.SameReg.refl (u : Usm) : u.SameReg u := fun _ => rfl

theorem Usm.SameReg.of_users {u u' : Usm} (h : u'.users = u.users) : u.SameReg u' := by
  intro e; unfold Usm.reg; rw [h]

theorem Usm.SameReg.of_engines {u u' : Usm} (h : u'.users.engines = u.users.engines) : u.SameReg u' := by
  intro e; unfold Usm.reg; rw [h]

theorem Usm.setPriv_reg (u : Usm) (i n : Bytes) (k : PrivKey) : u.SameReg (u.setPriv i n k) := by
  unfold setPriv
  split
  · exact .refl u
  · rename_i e he
    split
    · exact .refl u
    · intro j
      unfold reg
      simp only
      rw [Dict.get_set]
      split
      · rename_i hj; subst hj; rw [he]; rfl
      · rfl

theorem Usm.prepareOutgoing_reg (u : Usm) (b : Backend) (c : Crypto) (m : V3Message) (i n : Bytes) (t : ℚ) :
    u.SameReg (u.prepareOutgoing b c m i n t).2 := by
  unfold Usm.prepareOutgoing
  split
  · split
    · exact .refl u
    · split
      · exact .refl u
      · simp only
        split
        · split
          · exact .refl u
          · split
            · exact .refl u
            · split
              · exact .refl u
              · exact Usm.setPriv_reg _ _ _ _
        · exact .refl u
  · exact .refl u

theorem Usm.processIncoming_reg (u : Usm) (b : Backend) (c : Crypto) (m : V3Message) (t : ℚ) :
    u.SameReg (u.processIncoming b c m t).2 := .of_users (Usm.processIncoming_users u b c m t)

theorem RemoteEngine.addUser_reg {c : Crypto} {e e' : RemoteEngine} {i n : Bytes} {cr : Credentials} {seed : Nat}
    (h : e.addUser c i n cr seed = .ok e') : e'.count = e.count ∧ e'.namespace = e.namespace := by
  unfold RemoteEngine.addUser at h
  cases hl : cr.localize c i seed with
  | error _ => rw [hl] at h; cases h
  | ok l => rw [hl] at h; cases h; exact ⟨rfl, rfl⟩

theorem addToEngines_reg (c : Crypto) (ns : String) (n : Bytes) (cr : Credentials) (seed : Bytes → Nat)
    (d : Dict Bytes RemoteEngine) (e : Bytes) :
    ((UserRegistry.addToEngines c ns n cr seed d).2.get e).map (fun r => (r.count, r.namespace)) =
      (d.get e).map fun r => (r.count, r.namespace) := by
  induction d with
  | nil => rfl
  | cons p d ih =>
    obtain ⟨i, en⟩ := p
    unfold UserRegistry.addToEngines
    split
    · split
      · rfl
      · rename_i en' he
        obtain ⟨h1, h2⟩ := RemoteEngine.addUser_reg he
        simp only [Dict.get]
        split
        · simp [h1, h2]
        · exact ih
    · simp only [Dict.get]
      split
      · rfl
      · exact ih

theorem Usm.addUser_reg (u : Usm) (c : Crypto) (a : UserArgs) (seed : Bytes → Nat) :
    u.SameReg { u with users := (u.users.addUser c a seed).2 } := by
  intro e
  unfold Usm.reg UserRegistry.addUser
  cases u.users.namespaces.get a.namespace
  all_goals
    simp only
    split
    · rfl
    · split
      · rfl
      · exact addToEngines_reg _ _ _ _ _ _ _

theorem addUsers_reg (c : Crypto) (i : Bytes) (seed : Bytes → Nat) (d : Dict Bytes UserConfig)
    {e e' : RemoteEngine} (h : RemoteEngine.addUsers c i seed d e = .ok e') :
    e'.count = e.count ∧ e'.namespace = e.namespace := by
  induction d generalizing e with
  | nil => cases h; exact ⟨rfl, rfl⟩
  | cons p d ih =>
    obtain ⟨n, cfg⟩ := p
    unfold RemoteEngine.addUsers at h
    cases hx : e.addUser c i n cfg.credentials (seed n) with
    | error _ => rw [hx] at h; cases h
    | ok x =>
      rw [hx] at h
      obtain ⟨h1, h2⟩ := ih h
      obtain ⟨h3, h4⟩ := RemoteEngine.addUser_reg hx
      exact ⟨h1.trans h3, h2.trans h4⟩

theorem assign_reg (c : Crypto) (u : Usm) (i : Bytes) (ns : String) (seed : Bytes → Nat) :
    ((u.users.assign c i ns seed).1 = .ok true ∧ (∀ n ns', u.reg i = some (n, ns') → ns' = ns) ∧
      ∀ e, Usm.reg { u with users := (u.users.assign c i ns seed).2 } e =
        if e = i then Usm.bump (u.reg i) ns else u.reg e) ∨
    ((u.users.assign c i ns seed).1 ≠ .ok true ∧
      u.SameReg { u with users := (u.users.assign c i ns seed).2 }) := by
  unfold UserRegistry.assign
  cases h : u.users.engines.get i with
  | none =>
    simp only
    split
    · exact .inr ⟨by simp, .refl u⟩
    · rename_i peer hp
      refine .inl ⟨rfl, ?_, ?_⟩
      · intro n ns' hr; unfold Usm.reg at hr; rw [h] at hr; cases hr
      · intro e
        have hc : peer.count = 1 ∧ peer.namespace = ns := by
          unfold RemoteEngine.new at hp
          split at hp
          · cases hp; exact ⟨rfl, rfl⟩
          · exact addUsers_reg c i seed _ hp
        unfold Usm.reg
        simp only
        rw [Dict.get_set, h]
        split
        · simp [Usm.bump, hc]
        · rfl
  | some peer =>
    simp only [RemoteEngine.assign]
    by_cases hn : ns = peer.namespace
    · rw [if_pos hn]
      refine .inl ⟨rfl, ?_, ?_⟩
      · intro n ns' hr; unfold Usm.reg at hr; rw [h] at hr; cases hr; exact hn.symm
      · intro e
        unfold Usm.reg
        simp only
        rw [Dict.get_set, h]
        split
        · simp [Usm.bump]
        · rfl
    · rw [if_neg hn]
      refine .inr ⟨by simp, ?_⟩
      intro e
      unfold Usm.reg
      simp only
      rw [Dict.get_set]
      split
      · rename_i he; subst he; rw [h]
      · rfl

theorem release_reg (u : Usm) (i : Bytes) (ns : String) {n : Int} (h : u.reg i = some (n, ns)) (hn : 0 < n) :
    (∃ b, (u.users.release i ns).1 = .ok b) ∧
      ∀ e, Usm.reg { u with users := (u.users.release i ns).2 } e =
        if e = i then Usm.unbump (u.reg i) else u.reg e := by
  unfold UserRegistry.release
  rw [h]
  unfold Usm.reg at h
  cases hg : u.users.engines.get i with
  | none => rw [hg] at h; cases h
  | some peer =>
    rw [hg] at h
    simp only [Option.map_some, Option.some.injEq, Prod.mk.injEq] at h
    obtain ⟨h1, h2⟩ := h
    simp only [RemoteEngine.release, h1, h2]
    rw [if_pos trivial, if_pos hn]
    by_cases h0 : n - 1 = 0
    · simp only [h0]
      refine ⟨⟨_, rfl⟩, fun e => ?_⟩
      unfold Usm.reg
      simp only [decide_true]
      rw [Dict.get_del]
      split <;> simp [Usm.unbump, h0]
    · simp only [h0]
      refine ⟨⟨_, rfl⟩, fun e => ?_⟩
      unfold Usm.reg
      simp only [decide_false]
      rw [Dict.get_set]
      split <;> simp [Usm.unbump, h0]

/-- `n` references to each engine are held under namespace `ns`, on top of the registrations `base`. -/
structure Usm.Ledger (base : Bytes → Option (Int × String)) (ns : String) (u : Usm) (n : Bytes → Nat) : Prop where
  free : ∀ e, base e = none → n e = 0 → u.reg e = none
  ours : ∀ e, base e = none → 0 < n e → u.reg e = some ((n e : Int), ns)
  more : ∀ e k ns', base e = some (k, ns') → u.reg e = some (k + n e, ns')
  same : ∀ e k ns', base e = some (k, ns') → 0 < n e → ns' = ns

/-- Counts of registrations are positive. -/
def Usm.Positive (base : Bytes → Option (Int × String)) : Prop := ∀ e k ns, base e = some (k, ns) → 0 < k

theorem Usm.Ledger.same_reg {base : Bytes → Option (Int × String)} {ns : String} {u u' : Usm} {n : Bytes → Nat}
    (h : Usm.Ledger base ns u n) (hs : u.SameReg u') : Usm.Ledger base ns u' n :=
  ⟨fun e a b => by rw [hs]; exact h.free e a b, fun e a b => by rw [hs]; exact h.ours e a b,
    fun e k ns' a => by rw [hs]; exact h.more e k ns' a, h.same⟩

theorem Usm.Ledger.congr {base : Bytes → Option (Int × String)} {ns : String} {u : Usm} {n n' : Bytes → Nat}
    (h : Usm.Ledger base ns u n) (hs : ∀ e, n' e = n e) : Usm.Ledger base ns u n' := by
  have : n' = n := funext hs
  rw [this]; exact h

theorem Usm.Ledger.add {base : Bytes → Option (Int × String)} {ns : String} {u u' : Usm} {n : Bytes → Nat}
    (h : Usm.Ledger base ns u n) {i : Bytes} (hn : ∀ k ns', u.reg i = some (k, ns') → ns' = ns)
    (hr : ∀ e, u'.reg e = if e = i then Usm.bump (u.reg i) ns else u.reg e) :
    Usm.Ledger base ns u' (fun e => n e + if e = i then 1 else 0) := by
  refine ⟨?_, ?_, ?_, ?_⟩
  · intro e hb he
    by_cases hi : e = i
    · simp [hi] at he
    · rw [hr, if_neg hi]; exact h.free e hb (by simpa [hi] using he)
  · intro e hb he
    by_cases hi : e = i
    · subst hi
      rw [hr, if_pos rfl]
      rcases Nat.eq_zero_or_pos (n e) with h0 | h0
      · rw [h.free e hb h0]; simp [Usm.bump, h0]
      · rw [h.ours e hb h0]; simp [Usm.bump]
    · rw [hr, if_neg hi]
      simp only [hi, if_false, Nat.add_zero] at he ⊢
      exact h.ours e hb he
  · intro e k ns' hb
    by_cases hi : e = i
    · subst hi
      rw [hr, if_pos rfl, h.more e k ns' hb]
      simp [Usm.bump, Int.add_assoc]
    · rw [hr, if_neg hi]
      simp only [hi, if_false, Nat.add_zero]
      exact h.more e k ns' hb
  · intro e k ns' hb he
    by_cases hi : e = i
    · subst hi; exact hn _ _ (h.more e k ns' hb)
    · exact h.same e k ns' hb (by simpa [hi] using he)

theorem Usm.Ledger.held {base : Bytes → Option (Int × String)} {ns : String} {u : Usm} {n : Bytes → Nat}
    (h : Usm.Ledger base ns u n) (hp : Usm.Positive base) {i : Bytes} (hi : 0 < n i) :
    ∃ k, 0 < k ∧ u.reg i = some (k, ns) := by
  cases hb : base i with
  | none => exact ⟨n i, by omega, h.ours i hb hi⟩
  | some x =>
    obtain ⟨k, ns'⟩ := x
    have := h.same i k ns' hb hi
    subst this
    exact ⟨_, by have := hp i k ns' hb; omega, h.more i k ns' hb⟩

theorem Usm.Ledger.sub {base : Bytes → Option (Int × String)} {ns : String} {u u' : Usm} {n : Bytes → Nat}
    (h : Usm.Ledger base ns u n) (hp : Usm.Positive base) {i : Bytes} (hi : 0 < n i)
    (hr : ∀ e, u'.reg e = if e = i then Usm.unbump (u.reg i) else u.reg e) :
    Usm.Ledger base ns u' (fun e => n e - if e = i then 1 else 0) := by
  refine ⟨?_, ?_, ?_, ?_⟩
  · intro e hb he
    by_cases hi' : e = i
    · subst hi'
      rw [hr, if_pos rfl, h.ours e hb hi]
      simp only [if_true] at he
      unfold Usm.unbump
      simp only
      rw [if_pos (by omega)]
    · rw [hr, if_neg hi']; exact h.free e hb (by simpa [hi'] using he)
  · intro e hb he
    by_cases hi' : e = i
    · subst hi'
      rw [hr, if_pos rfl, h.ours e hb hi]
      simp only [if_true] at he ⊢
      unfold Usm.unbump
      simp only
      rw [if_neg (by omega)]
      congr 2; omega
    · rw [hr, if_neg hi']
      simp only [hi', if_false, Nat.sub_zero] at he ⊢
      exact h.ours e hb he
  · intro e k ns' hb
    by_cases hi' : e = i
    · subst hi'
      have := hp e k ns' hb
      rw [hr, if_pos rfl, h.more e k ns' hb]
      simp only [if_true]
      unfold Usm.unbump
      simp only
      rw [if_neg (by omega)]
      congr 2; omega
    · rw [hr, if_neg hi']
      simp only [hi', if_false, Nat.sub_zero]
      exact h.more e k ns' hb
  · intro e k ns' hb he
    exact h.same e k ns' hb (by omega)

/-- One reference. -/
def one (x : Option Bytes) (e : Bytes) : Nat := if x = some e then 1 else 0

/-- The registry refuses to register the engine `e`, with the exception `err`. -/
def Usm.Refused (cfg : VCfg) (u : Usm) (e : Bytes) (seed : Bytes → Nat) (err : PyErr) : Prop :=
  (u.users.assign cfg.crypto e cfg.ns seed).1 = .error err ∨
  (u.users.assign cfg.crypto e cfg.ns seed).1 = .ok false ∧ err = .discoveryError

/-- An assignment to `engineID` by a holder of `old`. -/
theorem changeEngine_spec {base : Bytes → Option (Int × String)} {cfg : VCfg} {u : Usm} {n : Bytes → Nat}
    {old : Option Bytes} (h : Usm.Ledger base cfg.ns u (fun e => n e + one old e)) (hp : Usm.Positive base)
    (new : Option Bytes) (seed : Bytes → Nat) :
    ((changeEngine cfg u old new seed).1 = .ok () ∧
      Usm.Ledger base cfg.ns (changeEngine cfg u old new seed).2 (fun e => n e + one new e)) ∨
    ((∃ err, (changeEngine cfg u old new seed).1 = .error err ∧ ∃ e, new = some e ∧ u.Refused cfg e seed err) ∧ new ≠ none ∧ new ≠ old ∧
      u.SameReg (changeEngine cfg u old new seed).2) := by
  unfold changeEngine
  by_cases hn : new = old
  · rw [if_pos hn]; exact .inl ⟨rfl, by rw [hn]; exact h⟩
  · rw [if_neg hn]
    simp only
    have key : ∀ u1, Usm.Ledger base cfg.ns u1 (fun e => n e + one old e + one new e) →
        ((match old with
          | none => ((.ok () : Res Unit), u1)
          | some e =>
            match u1.users.release e cfg.ns with
            | (.error err, users) => (.error err, { u1 with users })
            | (.ok _, users) => (.ok (), { u1 with users })).1 = .ok () ∧
          Usm.Ledger base cfg.ns (match old with
          | none => ((.ok () : Res Unit), u1)
          | some e =>
            match u1.users.release e cfg.ns with
            | (.error err, users) => (.error err, { u1 with users })
            | (.ok _, users) => (.ok (), { u1 with users })).2 (fun e => n e + one new e)) := by
      intro u1 h1
      cases old with
      | none => exact ⟨rfl, h1.congr fun e => by simp [one]⟩
      | some i =>
        have hi : 0 < n i + one (some i) i + one new i := by simp [one]
        obtain ⟨k, hk, hreg⟩ := h1.held hp hi
        obtain ⟨⟨b, hb⟩, hr⟩ := release_reg u1 i cfg.ns hreg hk
        have hs := h1.sub hp hi hr
        cases hx : u1.users.release i cfg.ns with
        | mk res users =>
          rw [hx] at hb hs
          simp only at hb hs
          subst hb
          simp only [hx]
          refine ⟨trivial, hs.congr fun e => ?_⟩
          unfold one
          by_cases he : e = i
          · subst he; simp
          · simp [he, Ne.symm he]
    cases new with
    | none => exact .inl (key u (h.congr fun e => by simp [one]))
    | some i =>
      rcases assign_reg cfg.crypto u i cfg.ns seed with ⟨h1, h2, h3⟩ | ⟨h1, h2⟩
      · cases hx : u.users.assign cfg.crypto i cfg.ns seed with
        | mk res users =>
          rw [hx] at h1 h3
          simp only at h1 h3
          subst h1
          simp only [hx]
          refine .inl (key _ ((h.add h2 h3).congr fun e => ?_))
          simp [one, eq_comm]
      · right
        cases hx : u.users.assign cfg.crypto i cfg.ns seed with
        | mk res users =>
          rw [hx] at h1 h2
          simp only at h1 h2
          simp only [hx]
          cases res with
          | error err => exact ⟨⟨_, rfl, i, rfl, .inl (by rw [hx])⟩, by simp, hn, h2⟩
          | ok b =>
            cases b with
            | true => exact absurd rfl h1
            | false => exact ⟨⟨_, rfl, i, rfl, .inr ⟨by rw [hx], rfl⟩⟩, by simp, hn, h2⟩

end Snmp
