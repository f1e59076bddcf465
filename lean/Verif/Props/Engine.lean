import Verif.Engine
import Verif.Props.Transport
import Verif.Props.Users
/-!
# C61, C75, C76, C77: the engine
-/

namespace Snmp

/-- The domain a call asks for, given the default. -/
def Spec.domain (default : Domain) : DomainArg → Option Domain
  | .absent => some default
  | .domain d => some d
  | .other => none

/-- The protocol version a call asks for, given the default: a number is one of those on the wire. -/
def Spec.version (default : Version) : VersionArg → Option Version
  | .absent => some default
  | .version v => some v
  | .number 0 => some .v1
  | .number 1 => some .v2c
  | .number 3 => some .v3
  | .number _ => none

/-- The calls of `engine.usm.addUser` in a history. -/
def Spec.usersAdded (h : List Engine.Event) : List Spec.RegOp :=
  h.filterMap fun ev => match ev with
    | .addUser a seed => some (.addUser a seed)
    | _ => none

/-- What holds in every engine. -/
structure Engine.Inv (e : Engine) : Prop where
  transports : ∀ d a t, (e.transports.get d).bind (·.get a) = some t ↔ (t, d, some a) ∈ e.connected
  fresh : ∀ x ∈ e.connected, x.1 < e.next
  nodup : (e.connected.map (·.1)).Nodup
  v1 : e.processors.get .v1 = e.mpv1
  v2c : e.processors.get .v2c = e.mpv2c
  v3 : e.processors.get .v3 = e.mpv3

theorem Engine.inv_create (v : Version) (d : Domain) (m : SecurityModel) (c : Bytes) (w : Bool) :
    (Engine.create v d m c w).Inv :=
  ⟨by simp [Engine.create, Dict.get], by simp [Engine.create], by simp [Engine.create], rfl, rfl, rfl⟩

theorem Engine.Inv.nodup_cons {e : Engine} (hi : e.Inv) (d : Domain) (a : Option Address) :
    (((e.next, d, a) :: e.connected).map (·.1)).Nodup := by
  rw [List.map_cons, List.nodup_cons]
  refine ⟨fun h => ?_, hi.nodup⟩
  obtain ⟨x, hx, h⟩ := List.mem_map.1 h
  have := hi.fresh x hx
  simp only at h
  omega

/-- The fields that only the choice of the transport changes. -/
structure Engine.SameTransports (e e' : Engine) : Prop where
  transports : e'.transports = e.transports
  connected : e'.connected = e.connected
  next : e.next ≤ e'.next

theorem Engine.SameTransports.refl (e : Engine) : e.SameTransports e := ⟨rfl, rfl, Nat.le_refl _⟩

theorem Engine.SameTransports.trans {a b c : Engine} (h : a.SameTransports b) (h' : b.SameTransports c) :
    a.SameTransports c :=
  ⟨h'.1.trans h.1, h'.2.trans h.2, Nat.le_trans h.3 h'.3⟩

/-- The processors, and the options that hold them. -/
structure Engine.SameProcs (e e' : Engine) : Prop where
  processors : e'.processors = e.processors
  mpv1 : e'.mpv1 = e.mpv1
  mpv2c : e'.mpv2c = e.mpv2c
  mpv3 : e'.mpv3 = e.mpv3

theorem Engine.SameProcs.refl (e : Engine) : e.SameProcs e := ⟨rfl, rfl, rfl, rfl⟩

theorem Engine.Inv.of {e e' : Engine} (h : e.Inv) (ht : e.SameTransports e') (hp : e.SameProcs e') : e'.Inv := by
  refine ⟨?_, ?_, ?_, ?_, ?_, ?_⟩
  · rw [ht.transports, ht.connected]; exact h.transports
  · rw [ht.connected]; exact fun x hx => Nat.lt_of_lt_of_le (h.fresh x hx) ht.next
  · rw [ht.connected]; exact h.nodup
  · rw [hp.processors, hp.mpv1]; exact h.v1
  · rw [hp.processors, hp.mpv2c]; exact h.v2c
  · rw [hp.processors, hp.mpv3]; exact h.v3

theorem Engine.getUsm_same (e : Engine) : e.SameTransports e.getUsm.2 ∧ e.SameProcs e.getUsm.2 ∧
    e.getUsm.1 = e.usm.getD .new ∧ e.getUsm.2.usm = some (e.usm.getD .new) := by
  unfold Engine.getUsm
  cases h : e.usm with
  | some u => exact ⟨.refl e, .refl e, rfl, by simpa using h⟩
  | none => exact ⟨⟨rfl, rfl, Nat.le_refl _⟩, ⟨rfl, rfl, rfl, rfl⟩, rfl, rfl⟩

/-- The defaults, which nothing changes. -/
structure Engine.SameDefaults (e e' : Engine) : Prop where
  version : e'.defaultVersion = e.defaultVersion
  domain : e'.defaultDomain = e.defaultDomain
  model : e'.defaultSecurityModel = e.defaultSecurityModel
  community : e'.defaultCommunity = e.defaultCommunity
  autowait : e'.autowaitDefault = e.autowaitDefault

theorem Engine.SameDefaults.refl (e : Engine) : e.SameDefaults e := ⟨rfl, rfl, rfl, rfl, rfl⟩

theorem Engine.SameDefaults.trans {a b c : Engine} (h : a.SameDefaults b) (h' : b.SameDefaults c) :
    a.SameDefaults c :=
  ⟨h'.1.trans h.1, h'.2.trans h.2, h'.3.trans h.3, h'.4.trans h.4, h'.5.trans h.5⟩

theorem Engine.getUsm_defaults (e : Engine) : e.SameDefaults e.getUsm.2 := by
  unfold Engine.getUsm
  cases e.usm <;> exact ⟨rfl, rfl, rfl, rfl, rfl⟩

/-- What `transportFor` does. -/
theorem Engine.transportFor_spec {e : Engine} (hi : e.Inv) (d : Domain) (a : Address) (bind : Option PyErr) :
    (e.transportFor d a bind).2.Inv ∧ e.SameProcs (e.transportFor d a bind).2 ∧
    (e.transportFor d a bind).2.usm = e.usm ∧
    e.SameDefaults (e.transportFor d a bind).2 ∧
    (∀ t, (e.transportFor d a bind).1 = .ok t → (t, d, some a) ∈ (e.transportFor d a bind).2.connected ∧
      ((∃ t', (t', d, some a) ∈ e.connected) → (e.transportFor d a bind).2.connected = e.connected) ∧
      ((¬∃ t', (t', d, some a) ∈ e.connected) →
        (e.transportFor d a bind).2.connected = (t, d, some a) :: e.connected)) ∧
    (∀ err, (e.transportFor d a bind).1 = .error err →
      bind = some err ∧ (e.transportFor d a bind).2.connected = e.connected) := by
  unfold Engine.transportFor
  cases hd : e.transports.get d with
  | none =>
    have hno : ¬∃ t', (t', d, some a) ∈ e.connected := by
      rintro ⟨t', h⟩
      have := (hi.transports d a t').2 h
      rw [hd] at this
      cases this
    simp only [Dict.get]
    cases bind with
    | some err =>
      refine ⟨⟨?_, hi.fresh, hi.nodup, hi.v1, hi.v2c, hi.v3⟩, ⟨rfl, rfl, rfl, rfl⟩, by trivial, ⟨rfl, rfl, rfl, rfl, rfl⟩, ?_, ?_⟩
      · intro d' a' t
        simp only
        rw [Dict.get_set]
        by_cases h : d' = d
        · subst h
          rw [if_pos rfl, ← hi.transports, hd]
          simp [Dict.get]
        · rw [if_neg h]
          exact hi.transports d' a' t
      · intro t h; cases h
      · intro err' h; cases h; exact ⟨rfl, rfl⟩
    | none =>
      refine ⟨⟨?_, ?_, ?_, hi.v1, hi.v2c, hi.v3⟩, ⟨rfl, rfl, rfl, rfl⟩, by trivial, ⟨rfl, rfl, rfl, rfl, rfl⟩, ?_, ?_⟩
      · intro d' a' t
        simp only
        rw [Dict.get_set, Dict.get_set]
        by_cases h : d' = d
        · subst h
          rw [if_pos rfl]
          simp only [Option.bind_some, Dict.set, Dict.get]
          by_cases ha : a = a'
          · subst ha
            rw [if_pos rfl]
            simp only [Option.some.injEq, List.mem_cons, Prod.mk.injEq, and_true]
            exact ⟨fun h => .inl h.symm, fun h => h.elim (·.symm) fun h => absurd ⟨t, h⟩ hno⟩
          · rw [if_neg ha]
            have : (t, d', some a') ∉ e.connected := by
              rw [← hi.transports, hd]; simp
            simp [this, Ne.symm ha]
        · rw [if_neg h, if_neg h, hi.transports]
          simp [h]
      · intro x hx
        rcases List.mem_cons.1 hx with rfl | hx
        · exact Nat.lt_succ_self _
        · exact Nat.lt_succ_of_lt (hi.fresh x hx)
      · exact hi.nodup_cons d (some a)
      · intro t h; cases h
        exact ⟨List.mem_cons_self .., fun h => absurd h hno, fun _ => rfl⟩
      · intro err h; cases h
  | some ts =>
    simp only
    cases ha : ts.get a with
    | some t =>
      refine ⟨hi, .refl e, by trivial, ⟨rfl, rfl, rfl, rfl, rfl⟩, ?_, ?_⟩
      · intro t' h; cases h
        have hm : (t, d, some a) ∈ e.connected := by
          rw [← hi.transports, hd]; exact ha
        exact ⟨hm, fun _ => rfl, fun h => absurd ⟨t, hm⟩ h⟩
      · intro err h; cases h
    | none =>
      have hno : ¬∃ t', (t', d, some a) ∈ e.connected := by
        rintro ⟨t', h⟩
        have := (hi.transports d a t').2 h
        rw [hd] at this
        simp only [Option.bind_some] at this
        rw [ha] at this
        cases this
      cases bind with
      | some err =>
        refine ⟨hi, .refl e, by trivial, ⟨rfl, rfl, rfl, rfl, rfl⟩, ?_, ?_⟩
        · intro t' h; cases h
        · intro err' h; cases h; exact ⟨rfl, rfl⟩
      | none =>
        refine ⟨⟨?_, ?_, ?_, hi.v1, hi.v2c, hi.v3⟩, ⟨rfl, rfl, rfl, rfl⟩, by trivial, ⟨rfl, rfl, rfl, rfl, rfl⟩, ?_, ?_⟩
        · intro d' a' t
          simp only
          rw [Dict.get_set]
          by_cases h : d' = d
          · subst h
            rw [if_pos rfl]
            simp only [Option.bind_some]
            rw [Dict.get_set]
            by_cases ha' : a' = a
            · subst ha'
              rw [if_pos rfl]
              simp only [Option.some.injEq, List.mem_cons, Prod.mk.injEq, and_true]
              exact ⟨fun h => .inl h.symm, fun h => h.elim (·.symm) fun h => absurd ⟨t, h⟩ hno⟩
            · rw [if_neg ha']
              have := hi.transports d' a' t
              rw [hd] at this
              simp only [Option.bind_some] at this
              rw [this]
              simp [ha']
          · rw [if_neg h, hi.transports]
            simp [h]
        · intro x hx
          rcases List.mem_cons.1 hx with rfl | hx
          · exact Nat.lt_succ_self _
          · exact Nat.lt_succ_of_lt (hi.fresh x hx)
        · exact hi.nodup_cons d (some a)
        · intro t h; cases h
          exact ⟨List.mem_cons_self .., fun h => absurd h hno, fun _ => rfl⟩
        · intro err h; cases h

theorem Engine.transportFor_domains (e : Engine) (d : Domain) (a : Address) (bind : Option PyErr) (d' : Domain)
    (h : (e.transports.get d').isSome = true) : ((e.transportFor d a bind).2.transports.get d').isSome = true := by
  unfold Engine.transportFor
  cases hd : e.transports.get d with
  | none =>
    simp only [Dict.get]
    cases bind <;> simp only [Dict.get_set] <;> by_cases hx : d' = d <;> simp [hx, h]
  | some ts =>
    simp only
    cases ts.get a with
    | some t => exact h
    | none => cases bind <;> simp only [Dict.get_set] <;> by_cases hx : d' = d <;> simp [hx, hd, h]

/-- The processors that are registered stay. -/
def Engine.KeepsProcs (e e' : Engine) : Prop :=
  ∀ v p, e.processors.get v = some p → e'.processors.get v = some p

theorem Engine.SameProcs.keeps {e e' : Engine} (h : e.SameProcs e') : e.KeepsProcs e' := by
  intro v p hp
  rw [h.processors]; exact hp

theorem Engine.v1Manager_spec {e : Engine} (hi : e.Inv) (c : Option Bytes) :
    (e.v1Manager c).2.Inv ∧ e.SameTransports (e.v1Manager c).2 ∧ e.KeepsProcs (e.v1Manager c).2 ∧
    (e.v1Manager c).2.usm = e.usm ∧ e.SameDefaults (e.v1Manager c).2 ∧ (e.v1Manager c).1 = .ok (.v1 (c.getD e.defaultCommunity)) ∧
    ∃ p, (e.v1Manager c).2.processors.get .v1 = some p := by
  unfold Engine.v1Manager
  cases h : e.mpv1 with
  | some p => exact ⟨hi, .refl e, fun _ _ h => h, rfl, .refl e, rfl, p, by rw [hi.v1, h]⟩
  | none =>
    refine ⟨⟨hi.transports, fun x hx => Nat.lt_succ_of_lt (hi.fresh x hx), hi.nodup, ?_, ?_, ?_⟩,
      ⟨rfl, rfl, Nat.le_succ _⟩, ?_, rfl, ⟨rfl, rfl, rfl, rfl, rfl⟩, rfl, e.next, ?_⟩
    · simp [Dict.get_set]
    · simp [Dict.get_set, hi.v2c]
    · simp [Dict.get_set, hi.v3]
    · intro v p hp
      simp only [Dict.get_set]
      by_cases hv : v = .v1
      · subst hv; rw [hi.v1, h] at hp; cases hp
      · rw [if_neg hv]; exact hp
    · simp [Dict.get_set]

theorem Engine.v2cManager_spec {e : Engine} (hi : e.Inv) (c : Option Bytes) :
    (e.v2cManager c).2.Inv ∧ e.SameTransports (e.v2cManager c).2 ∧ e.KeepsProcs (e.v2cManager c).2 ∧
    (e.v2cManager c).2.usm = e.usm ∧ e.SameDefaults (e.v2cManager c).2 ∧ (e.v2cManager c).1 = .ok (.v2c (c.getD e.defaultCommunity)) ∧
    ∃ p, (e.v2cManager c).2.processors.get .v2c = some p := by
  unfold Engine.v2cManager
  cases h : e.mpv2c with
  | some p => exact ⟨hi, .refl e, fun _ _ h => h, rfl, .refl e, rfl, p, by rw [hi.v2c, h]⟩
  | none =>
    refine ⟨⟨hi.transports, fun x hx => Nat.lt_succ_of_lt (hi.fresh x hx), hi.nodup, ?_, ?_, ?_⟩,
      ⟨rfl, rfl, Nat.le_succ _⟩, ?_, rfl, ⟨rfl, rfl, rfl, rfl, rfl⟩, rfl, e.next, ?_⟩
    · simp [Dict.get_set, hi.v1]
    · simp [Dict.get_set]
    · simp [Dict.get_set, hi.v3]
    · intro v p hp
      simp only [Dict.get_set]
      by_cases hv : v = .v2c
      · subst hv; rw [hi.v2c, h] at hp; cases hp
      · rw [if_neg hv]; exact hp
    · simp [Dict.get_set]

theorem Engine.v3Create_same (c : Crypto) (e : Engine) (u : UserRegistry) (engineID : Option Bytes) (ns : String)
    (seed : Bytes → Nat) :
    e.SameTransports (e.v3Create c u engineID ns seed).2 ∧ e.SameProcs (e.v3Create c u engineID ns seed).2 ∧
    e.SameDefaults (e.v3Create c u engineID ns seed).2 := by
  unfold Engine.v3Create
  split
  · exact ⟨.refl e, .refl e, .refl e⟩
  · split <;> exact ⟨⟨rfl, rfl, Nat.le_refl _⟩, ⟨rfl, rfl, rfl, rfl⟩, ⟨rfl, rfl, rfl, rfl, rfl⟩⟩

theorem Engine.withV3_spec {e : Engine} (hi : e.Inv) :
    e.withV3.Inv ∧ e.SameTransports e.withV3 ∧ e.KeepsProcs e.withV3 ∧ e.withV3.usm = e.usm ∧
    e.SameDefaults e.withV3 ∧
    ∃ p, e.withV3.processors.get .v3 = some p := by
  unfold Engine.withV3
  cases h : e.mpv3 with
  | some p => exact ⟨hi, .refl e, fun _ _ h => h, rfl, .refl e, p, by rw [hi.v3, h]⟩
  | none =>
    refine ⟨⟨hi.transports, fun x hx => Nat.lt_succ_of_lt (hi.fresh x hx), hi.nodup, ?_, ?_, ?_⟩,
      ⟨rfl, rfl, Nat.le_succ _⟩, ?_, rfl, ⟨rfl, rfl, rfl, rfl, rfl⟩, e.next, ?_⟩
    · simp [Dict.get_set, hi.v1]
    · simp [Dict.get_set, hi.v2c]
    · simp [Dict.get_set]
    · intro v p hp
      simp only [Dict.get_set]
      by_cases hv : v = .v3
      · subst hv; rw [hi.v3, h] at hp; cases hp
      · rw [if_neg hv]; exact hp
    · simp [Dict.get_set]


theorem Engine.v3Looked_same (e : Engine) (a : ManagerArgs) :
    e.SameTransports (e.v3Looked a) ∧ e.SameProcs (e.v3Looked a) ∧ e.SameDefaults (e.v3Looked a) ∧
    (e.v3Looked a).usm.getD .new = e.usm.getD .new := by
  have h := e.getUsm_same
  unfold Engine.v3Looked
  split
  · exact ⟨.refl e, .refl e, .refl e, rfl⟩
  · exact ⟨h.1, h.2.1, e.getUsm_defaults, by rw [h.2.2.2]; rfl⟩

/-- The registry after the engine ID, if there is one, was registered. -/
def Engine.registered (c : Crypto) (u : UserRegistry) (engineID : Option Bytes) (ns : String)
    (seed : Bytes → Nat) : UserRegistry :=
  match engineID with
  | none => u
  | some id => (u.assign c id ns seed).2

theorem Engine.v3Create_usm (c : Crypto) (e : Engine) (u : UserRegistry) (hu : e.usm = some u)
    (engineID : Option Bytes) (ns : String) (seed : Bytes → Nat) :
    (e.v3Create c u engineID ns seed).2.usm = some (Engine.registered c u engineID ns seed) := by
  unfold Engine.v3Create Engine.registered
  cases engineID with
  | none => exact hu
  | some id =>
    simp only
    generalize u.assign c id ns seed = y
    obtain ⟨r, u'⟩ := y
    rcases r with _ | b
    · rfl
    · cases b <;> rfl

theorem Engine.v3Manager_spec (c : Crypto) {e : Engine} (hi : e.Inv) (a : ManagerArgs) (seed : Bytes → Nat) :
    (e.v3Manager c a seed).2.Inv ∧ e.SameTransports (e.v3Manager c a seed).2 ∧
    e.KeepsProcs (e.v3Manager c a seed).2 ∧ e.SameDefaults (e.v3Manager c a seed).2 ∧
    ((e.v3Manager c a seed).2.usm.getD .new = e.usm.getD .new ∨
      (e.v3Manager c a seed).2.usm.getD .new =
        Engine.registered c (e.usm.getD .new) a.engineID a.namespace seed) ∧
    ∀ x, (e.v3Manager c a seed).1 = .ok x →
      (∃ name level, Engine.v3Name (e.usm.getD .new) a = .ok name ∧
        Engine.v3Level (e.usm.getD .new) a name = .ok level ∧
        x = .v3 a.namespace name level a.engineID) ∧
      ∃ p, (e.v3Manager c a seed).2.processors.get .v3 = some p := by
  obtain ⟨hw, wt, wp, wu, wd, p, hp⟩ := Engine.withV3_spec hi
  obtain ⟨lt, lp, ld, lu⟩ := e.withV3.v3Looked_same a
  have hl : (e.withV3.v3Looked a).Inv := hw.of lt lp
  have lk : e.KeepsProcs (e.withV3.v3Looked a) := fun v q h => lp.keeps v q (wp v q h)
  have lu' : (e.withV3.v3Looked a).usm.getD .new = e.usm.getD .new := by rw [lu, wu]
  unfold Engine.v3Manager
  cases e.modelOf a with
  | error err => exact ⟨hi, .refl e, fun _ _ h => h, .refl e, .inl rfl, fun x h => by cases h⟩
  | ok m =>
    cases m
    simp only
    cases hn : Engine.v3Name (e.usm.getD .new) a with
    | error err =>
      exact ⟨hl, wt.trans lt, lk, wd.trans ld, .inl lu', fun x h => by cases h⟩
    | ok name =>
      simp only
      cases hv : Engine.v3Level (e.usm.getD .new) a name with
      | error err =>
        exact ⟨hl, wt.trans lt, lk, wd.trans ld, .inl lu', fun x h => by cases h⟩
      | ok level =>
        simp only [Engine.v3Finish]
        obtain ⟨gt, gp, gu, gs⟩ := (e.withV3.v3Looked a).getUsm_same
        have gd := (e.withV3.v3Looked a).getUsm_defaults
        generalize hg : (e.withV3.v3Looked a).getUsm = g at *
        obtain ⟨u, g⟩ := g
        simp only at gt gp gu gs gd ⊢
        rw [lu'] at gu gs
        subst gu
        obtain ⟨ct, cp, cd⟩ := Engine.v3Create_same c { g with modules := true } (e.usm.getD .new) a.engineID
          a.namespace seed
        have cu := Engine.v3Create_usm c { g with modules := true } (e.usm.getD .new) gs a.engineID
          a.namespace seed
        generalize Engine.v3Create c { g with modules := true } (e.usm.getD .new) a.engineID a.namespace seed = y
          at *
        obtain ⟨r, y⟩ := y
        have gt' : (e.withV3.v3Looked a).SameTransports y :=
          gt.trans (⟨ct.1, ct.2, ct.3⟩ : Engine.SameTransports g y)
        have gp' : (e.withV3.v3Looked a).SameProcs y :=
          ⟨cp.1.trans gp.1, cp.2.trans gp.2, cp.3.trans gp.3, cp.4.trans gp.4⟩
        have gd' : (e.withV3.v3Looked a).SameDefaults y :=
          gd.trans (⟨cd.1, cd.2, cd.3, cd.4, cd.5⟩ : Engine.SameDefaults g y)
        refine ⟨hl.of gt' gp', wt.trans (lt.trans gt'), fun v q h => gp'.keeps v q (lk v q h),
          wd.trans (ld.trans gd'), .inr (by simp only at cu ⊢; rw [cu]; rfl), ?_⟩
        intro x hx
        rcases r with err | u
        · cases hx
        · cases hx
          exact ⟨⟨name, level, rfl, hv, rfl⟩, p, gp'.keeps _ _ (lp.keeps _ _ hp)⟩

theorem Engine.configFor_spec (c : Crypto) {e : Engine} (hi : e.Inv) (a : ManagerArgs) (seed : Bytes → Nat)
    (v : Version) :
    (e.configFor c a seed v).2.Inv ∧ e.SameTransports (e.configFor c a seed v).2 ∧
    e.KeepsProcs (e.configFor c a seed v).2 ∧ e.SameDefaults (e.configFor c a seed v).2 ∧
    ((e.configFor c a seed v).2.usm.getD .new = e.usm.getD .new ∨
      (e.configFor c a seed v).2.usm.getD .new =
        Engine.registered c (e.usm.getD .new) a.engineID a.namespace seed) ∧
    ∀ x, (e.configFor c a seed v).1 = .ok x →
      (match v with
      | .v1 => x = .v1 (a.community.getD e.defaultCommunity)
      | .v2c => x = .v2c (a.community.getD e.defaultCommunity)
      | .v3 => ∃ name level, Engine.v3Name (e.usm.getD .new) a = .ok name ∧
        Engine.v3Level (e.usm.getD .new) a name = .ok level ∧
        x = .v3 a.namespace name level a.engineID) ∧
      ∃ p, (e.configFor c a seed v).2.processors.get v = some p := by
  cases v with
  | v1 =>
    obtain ⟨h1, h2, h3, h4, h5, h6, h7⟩ := Engine.v1Manager_spec hi a.community
    refine ⟨h1, h2, h3, h5, .inl (congrArg (·.getD .new) h4), fun x hx => ⟨?_, h7⟩⟩
    rw [show (e.configFor c a seed .v1).1 = _ from h6] at hx
    cases hx; rfl
  | v2c =>
    obtain ⟨h1, h2, h3, h4, h5, h6, h7⟩ := Engine.v2cManager_spec hi a.community
    refine ⟨h1, h2, h3, h5, .inl (congrArg (·.getD .new) h4), fun x hx => ⟨?_, h7⟩⟩
    rw [show (e.configFor c a seed .v2c).1 = _ from h6] at hx
    cases hx; rfl
  | v3 => exact Engine.v3Manager_spec c hi a seed

/-- What a call of `Manager` does, whatever the outcome, and what it returns. -/
theorem Engine.manager_spec (c : Crypto) (pton : Domain → String → Bool) {e : Engine} (hi : e.Inv)
    (a : ManagerArgs) (bind : Option PyErr) (seed : Bytes → Nat) :
    (e.manager c pton a bind seed).2.Inv ∧ e.KeepsProcs (e.manager c pton a bind seed).2 ∧
    e.SameDefaults (e.manager c pton a bind seed).2 ∧
    ((e.manager c pton a bind seed).2.usm.getD .new = e.usm.getD .new ∨
      (e.manager c pton a bind seed).2.usm.getD .new =
        Engine.registered c (e.usm.getD .new) a.engineID a.namespace seed) ∧
    (∀ x ∈ e.connected, x ∈ (e.manager c pton a bind seed).2.connected) ∧
    (∀ d, (e.transports.get d).isSome = true →
      ((e.manager c pton a bind seed).2.transports.get d).isSome = true) ∧
    ∀ m, (e.manager c pton a bind seed).1 = .ok m →
      ∃ d v, e.domainOf a = .ok d ∧ e.versionOf a = .ok v ∧
        normalizeAddress pton d a.address (some .listener) = .ok m.address ∧
        normalizeAddress pton d a.localAddress (some .sender) = .ok m.localAddress ∧
        m.autowait = a.autowait.getD e.autowaitDefault ∧
        (m.transport, d, some m.localAddress) ∈ (e.manager c pton a bind seed).2.connected ∧
        ((∃ t, (t, d, some m.localAddress) ∈ e.connected) →
          (e.manager c pton a bind seed).2.connected = e.connected) ∧
        ((¬∃ t, (t, d, some m.localAddress) ∈ e.connected) →
          (e.manager c pton a bind seed).2.connected = (m.transport, d, some m.localAddress) :: e.connected) ∧
        (match v with
        | .v1 => m.config = .v1 (a.community.getD e.defaultCommunity)
        | .v2c => m.config = .v2c (a.community.getD e.defaultCommunity)
        | .v3 => ∃ name level, Engine.v3Name (e.usm.getD .new) a = .ok name ∧
          Engine.v3Level (e.usm.getD .new) a name = .ok level ∧
          m.config = .v3 a.namespace name level a.engineID) ∧
        ∃ p, (e.manager c pton a bind seed).2.processors.get v = some p := by
  have same : e.Inv ∧ e.KeepsProcs e ∧ e.SameDefaults e ∧ (e.usm.getD .new = e.usm.getD .new ∨
      e.usm.getD .new = Engine.registered c (e.usm.getD .new) a.engineID a.namespace seed) ∧
      (∀ x ∈ e.connected, x ∈ e.connected) ∧
      (∀ d, (e.transports.get d).isSome = true → (e.transports.get d).isSome = true) :=
    ⟨hi, fun _ _ h => h, .refl e, .inl rfl, fun _ h => h, fun _ h => h⟩
  unfold Engine.manager
  cases hd : e.domainOf a with
  | error err => exact ⟨same.1, same.2.1, same.2.2.1, same.2.2.2.1, same.2.2.2.2.1, same.2.2.2.2.2,
      fun m h => by cases h⟩
  | ok d =>
    simp only
    cases ha : normalizeAddress pton d a.address (some .listener) with
    | error err => exact ⟨same.1, same.2.1, same.2.2.1, same.2.2.2.1, same.2.2.2.2.1, same.2.2.2.2.2,
        fun m h => by cases h⟩
    | ok address =>
      simp only
      cases hl : normalizeAddress pton d a.localAddress (some .sender) with
      | error err => exact ⟨same.1, same.2.1, same.2.2.1, same.2.2.2.1, same.2.2.2.2.1, same.2.2.2.2.2,
          fun m h => by cases h⟩
      | ok localAddress =>
        simp only
        obtain ⟨ti, tp, tu, td, tok, terr⟩ := Engine.transportFor_spec hi d localAddress bind
        have tk := Engine.transportFor_domains e d localAddress bind
        generalize e.transportFor d localAddress bind = y at *
        obtain ⟨r, y⟩ := y
        simp only at ti tp tu td tok terr tk
        have told : ∀ x ∈ e.connected, x ∈ y.connected := by
          intro x hx
          rcases r with err | t
          · rw [(terr err rfl).2]; exact hx
          · obtain ⟨-, h2, h3⟩ := tok t rfl
            by_cases h : ∃ t', (t', d, some localAddress) ∈ e.connected
            · rw [h2 h]; exact hx
            · rw [h3 h]; exact List.mem_cons_of_mem _ hx
        rcases r with err | t
        · exact ⟨ti, tp.keeps, td, .inl (by simp only [tu]), told, tk, fun m h => by cases h⟩
        · simp only
          cases hv : y.versionOf a with
          | error err => exact ⟨ti, tp.keeps, td, .inl (by simp only [tu]), told, tk, fun m h => by cases h⟩
          | ok v =>
            simp only
            obtain ⟨ci, ct, cp, cd, cu, cok⟩ := Engine.configFor_spec c ti a seed v
            generalize y.configFor c a seed v = z at *
            obtain ⟨rz, z⟩ := z
            simp only at ci ct cp cd cu cok ⊢
            rw [tu] at cu
            obtain ⟨h1, h2, h3⟩ := tok t rfl
            refine ⟨ci, fun w q h => cp w q (tp.keeps w q h), td.trans cd, cu,
              fun x hx => by rw [ct.connected]; exact told x hx,
              fun d' h => by rw [ct.transports]; exact tk d' h, ?_⟩
            intro m hm
            rcases rz with err | x
            · cases hm
            · cases hm
              obtain ⟨k1, k2⟩ := cok x rfl
              refine ⟨d, v, rfl, ?_, ha, hl, ?_, by rw [ct.connected]; exact h1,
                fun h => by rw [ct.connected]; exact h2 h, fun h => by rw [ct.connected]; exact h3 h, ?_, k2⟩
              · rw [← hv]; unfold Engine.versionOf; rw [td.version]
              · rw [td.autowait]
              · rw [tu, td.community] at k1; exact k1

theorem Engine.connectTransport_spec {e : Engine} (hi : e.Inv) (d : Domain) :
    (e.connectTransport d).2.Inv ∧ e.SameProcs (e.connectTransport d).2 ∧
    e.SameDefaults (e.connectTransport d).2 ∧ (e.connectTransport d).2.usm = e.usm ∧
    (∀ x ∈ e.connected, x ∈ (e.connectTransport d).2.connected) ∧
    (∀ d', (e.transports.get d').isSome = true → ((e.connectTransport d).2.transports.get d').isSome = true) ∧
    ((e.connectTransport d).2.transports.get d).isSome = true := by
  unfold Engine.connectTransport
  cases hd : e.transports.get d with
  | some t => exact ⟨hi, .refl e, .refl e, rfl, fun _ h => h, fun _ h => h, by simp [hd]⟩
  | none =>
    refine ⟨⟨?_, ?_, hi.nodup_cons d none, hi.v1, hi.v2c, hi.v3⟩, ⟨rfl, rfl, rfl, rfl⟩,
      ⟨rfl, rfl, rfl, rfl, rfl⟩, rfl, fun x h => List.mem_cons_of_mem _ h, ?_, ?_⟩
    · intro d' a t
      simp only [Dict.get_set]
      by_cases h : d' = d
      · subst h
        have := hi.transports d' a t
        rw [hd, Option.bind_none] at this
        simp only [reduceCtorEq] at this
        simp only [if_true, Option.bind_some, Dict.get, List.mem_cons, Prod.mk.injEq, reduceCtorEq, and_false,
          false_or]
        exact this
      · rw [if_neg h, hi.transports]
        simp
    · intro x hx
      rcases List.mem_cons.1 hx with rfl | hx
      · exact Nat.lt_succ_self _
      · exact Nat.lt_succ_of_lt (hi.fresh x hx)
    · intro d' h
      simp only [Dict.get_set]
      by_cases hx : d' = d <;> simp [hx, h]
    · simp [Dict.get_set]

/-- The users known to the engine are those that were added; registered engines make no difference. -/
def Engine.Knows (c : Crypto) (e : Engine) (ops : List Spec.RegOp) : Prop :=
  ∃ ops', e.usm.getD .new = UserRegistry.after c ops' ∧
    (Spec.Reg.after c ops').user = (Spec.Reg.after c ops).user ∧
    (Spec.Reg.after c ops').defaultUser = (Spec.Reg.after c ops).defaultUser

theorem Engine.Knows.registered {c : Crypto} {e e' : Engine} {ops : List Spec.RegOp} (h : e.Knows c ops)
    (engineID : Option Bytes) (ns : String) (seed : Bytes → Nat)
    (hu : e'.usm.getD .new = e.usm.getD .new ∨
      e'.usm.getD .new = Engine.registered c (e.usm.getD .new) engineID ns seed) : e'.Knows c ops := by
  obtain ⟨ops', h1, h2, h3⟩ := h
  rcases hu with hu | hu
  · exact ⟨ops', hu.trans h1, h2, h3⟩
  · cases engineID with
    | none => exact ⟨ops', hu.trans h1, h2, h3⟩
    | some id =>
      refine ⟨ops' ++ [.register id ns seed], ?_, ?_, ?_⟩
      · rw [UserRegistry.after_snoc, hu, h1]; rfl
      · rw [Spec.Reg.after_snoc, ← h2]
        simp only [Spec.Reg.step, Spec.Reg.register]
        split
        · rfl
        · split <;> rfl
      · rw [Spec.Reg.after_snoc, ← h3]
        simp only [Spec.Reg.step, Spec.Reg.register]
        split
        · rfl
        · split <;> rfl

theorem Spec.Reg.addUser_user (c : Crypto) (s s' : Spec.Reg) (a : UserArgs) (hu : s.user = s'.user)
    (hd : s.defaultUser = s'.defaultUser) : (s.addUser c a).2.user = (s'.addUser c a).2.user ∧
    (s.addUser c a).2.defaultUser = (s'.addUser c a).2.defaultUser := by
  unfold Spec.Reg.addUser
  rw [hu, hd]
  split
  · exact ⟨hu, hd⟩
  · simp only
    split
    · exact ⟨hu, hd⟩
    · split
      · split <;> exact ⟨hu, hd⟩
      · exact ⟨rfl, rfl⟩

/-- What one call leaves. -/
structure Engine.Later (e e' : Engine) : Prop where
  procs : e.KeepsProcs e'
  defaults : e.SameDefaults e'
  connected : ∀ x ∈ e.connected, x ∈ e'.connected
  domains : ∀ d, (e.transports.get d).isSome = true → (e'.transports.get d).isSome = true

theorem Engine.Later.refl (e : Engine) : e.Later e := ⟨fun _ _ h => h, .refl e, fun _ h => h, fun _ h => h⟩

theorem Engine.Later.trans {a b c : Engine} (h : a.Later b) (h' : b.Later c) : a.Later c :=
  ⟨fun v p hp => h'.1 v p (h.1 v p hp), h.2.trans h'.2, fun x hx => h'.3 x (h.3 x hx),
    fun d hd => h'.4 d (h.4 d hd)⟩

theorem Engine.step_spec (c : Crypto) (pton : Domain → String → Bool) {e : Engine} (hi : e.Inv)
    {ops : List Spec.RegOp} (hk : e.Knows c ops) (ev : Engine.Event) :
    (e.step c pton ev).Inv ∧ e.Later (e.step c pton ev) ∧
    (e.step c pton ev).Knows c (ops ++ Spec.usersAdded [ev]) := by
  cases ev with
  | manager a bind seed =>
    obtain ⟨h1, h2, h3, h4, h5, h6, -⟩ := Engine.manager_spec c pton hi a bind seed
    refine ⟨h1, ⟨h2, h3, h5, h6⟩, ?_⟩
    have := hk.registered a.engineID a.namespace seed h4
    simpa [Spec.usersAdded, Engine.step] using this
  | connectTransport d =>
    obtain ⟨h1, h2, h3, h4, h5, h6, -⟩ := Engine.connectTransport_spec hi d
    refine ⟨h1, ⟨h2.keeps, h3, h5, h6⟩, ?_⟩
    have := hk.registered (e' := (e.connectTransport d).2) none "" (fun _ => 0) (.inl (by rw [h4]))
    simpa [Spec.usersAdded, Engine.step] using this
  | addUser a seed =>
    obtain ⟨h1, h2, h3, h4⟩ := e.getUsm_same
    have h5 := e.getUsm_defaults
    obtain ⟨ops', k1, k2, k3⟩ := hk
    have hs : e.step c pton (.addUser a seed) =
        { e.getUsm.2 with usm := some ((e.usm.getD .new).addUser c a seed).2 } := by
      simp only [Engine.step]; rw [h3]
    rw [hs]
    have ht : e.SameTransports { e.getUsm.2 with usm := some ((e.usm.getD .new).addUser c a seed).2 } :=
      ⟨h1.1, h1.2, h1.3⟩
    have hp : e.SameProcs { e.getUsm.2 with usm := some ((e.usm.getD .new).addUser c a seed).2 } :=
      ⟨h2.1, h2.2, h2.3, h2.4⟩
    refine ⟨hi.of ht hp, ⟨hp.keeps, ⟨h5.1, h5.2, h5.3, h5.4, h5.5⟩, fun x hx => by rw [ht.connected]; exact hx,
      fun d hd => by rw [ht.transports]; exact hd⟩, ops' ++ [.addUser a seed], ?_, ?_⟩
    · rw [UserRegistry.after_snoc, ← k1]; rfl
    · have := Spec.Reg.addUser_user c _ _ a k2 k3
      rw [Spec.Reg.after_snoc]
      simp only [Spec.usersAdded, List.filterMap_cons, List.filterMap_nil]
      rw [Spec.Reg.after_snoc]
      exact this

theorem Engine.run_spec (c : Crypto) (pton : Domain → String → Bool) (h : List Engine.Event) {e : Engine}
    (hi : e.Inv) {ops : List Spec.RegOp} (hk : e.Knows c ops) :
    (e.run c pton h).Inv ∧ e.Later (e.run c pton h) ∧ (e.run c pton h).Knows c (ops ++ Spec.usersAdded h) := by
  induction h generalizing e ops with
  | nil => exact ⟨hi, .refl e, by simpa [Spec.usersAdded, Engine.run] using hk⟩
  | cons ev h ih =>
    obtain ⟨h1, h2, h3⟩ := Engine.step_spec c pton hi hk ev
    obtain ⟨k1, k2, k3⟩ := ih h1 h3
    refine ⟨k1, h2.trans k2, ?_⟩
    have : ops ++ Spec.usersAdded (ev :: h) = ops ++ Spec.usersAdded [ev] ++ Spec.usersAdded h := by
      simp [Spec.usersAdded, List.filterMap_cons]
      split <;> simp
    rw [this]; exact k3

/-- An engine at the beginning, created with any arguments. -/
def Spec.Fresh (e : Engine) : Prop := ∃ v d m c w, e = Engine.create v d m c w

theorem Spec.Fresh.run {e : Engine} (hf : Spec.Fresh e) (c : Crypto) (pton : Domain → String → Bool)
    (h : List Engine.Event) : (e.run c pton h).Inv ∧ e.SameDefaults (e.run c pton h) ∧
    (e.run c pton h).Knows c (Spec.usersAdded h) := by
  obtain ⟨v, d, m, co, w, rfl⟩ := hf
  have hk : (Engine.create v d m co w).Knows c [] := ⟨[], rfl, rfl, rfl⟩
  obtain ⟨h1, h2, h3⟩ := Engine.run_spec c pton h (Engine.inv_create v d m co w) hk
  exact ⟨h1, h2.defaults, by simpa using h3⟩

theorem Engine.domainOf_iff (e : Engine) (a : ManagerArgs) (d : Domain) :
    e.domainOf a = .ok d ↔ Spec.domain e.defaultDomain a.domain = some d := by
  unfold Engine.domainOf Spec.domain
  cases a.domain <;> simp

theorem Engine.versionOf_iff (e : Engine) (a : ManagerArgs) (v : Version) :
    e.versionOf a = .ok v ↔ Spec.version e.defaultVersion a.version = some v := by
  unfold Engine.versionOf Spec.version
  cases a.version with
  | absent => simp
  | version w => simp
  | number n =>
    simp only [orRaise, Version.ofValue]
    by_cases h0 : n = 0
    · subst h0; simp
    · by_cases h1 : n = 1
      · subst h1; simp
      · by_cases h3 : n = 3
        · subst h3; simp
        · simp [h0, h1, h3]

/-! ## C61 -/

/-- C61: over any history there is at most one transport opened for a domain and local address. -/
theorem C61_unique (c : Crypto) (pton : Domain → String → Bool) (e : Engine) (hf : Spec.Fresh e)
    (h : List Engine.Event) :
    ((e.run c pton h).connected.map (·.1)).Nodup ∧
    ∀ t t' d a, (t, d, some a) ∈ (e.run c pton h).connected → (t', d, some a) ∈ (e.run c pton h).connected →
      t = t' := by
  have hi := (hf.run c pton h).1
  refine ⟨hi.nodup, fun t t' d a h1 h2 => ?_⟩
  have h1 := (hi.transports d a t).2 h1
  rw [(hi.transports d a t').2 h2] at h1
  cases h1; rfl

/-- C61: a manager that is returned talks to the address asked for through the transport for its domain and
local address; that transport is the one opened before for them, if there is one, and is opened otherwise. -/
theorem C61_transport (c : Crypto) (pton : Domain → String → Bool) (e : Engine) (hf : Spec.Fresh e)
    (h : List Engine.Event) (a : ManagerArgs) (bind : Option PyErr) (seed : Bytes → Nat) (m : ManagerInfo)
    (hm : ((e.run c pton h).manager c pton a bind seed).1 = .ok m) :
    ∃ d, Spec.domain e.defaultDomain a.domain = some d ∧
      normalizeAddress pton d a.address (some .listener) = .ok m.address ∧
      normalizeAddress pton d a.localAddress (some .sender) = .ok m.localAddress ∧
      (∀ t, (t, d, some m.localAddress) ∈ (e.run c pton h).connected →
        m.transport = t ∧
        ((e.run c pton h).manager c pton a bind seed).2.connected = (e.run c pton h).connected) ∧
      ((∀ t, (t, d, some m.localAddress) ∉ (e.run c pton h).connected) →
        ((e.run c pton h).manager c pton a bind seed).2.connected =
          (m.transport, d, some m.localAddress) :: (e.run c pton h).connected) := by
  obtain ⟨hi, hd, -⟩ := hf.run c pton h
  obtain ⟨hi', -, -, -, -, -, hok⟩ := Engine.manager_spec c pton hi a bind seed
  obtain ⟨d, v, h1, -, h3, h4, -, h6, h7, h8, -⟩ := hok m hm
  rw [Engine.domainOf_iff, hd.domain] at h1
  refine ⟨d, h1, h3, h4, fun t ht => ?_, fun hno => h8 (fun ⟨t, ht⟩ => hno t ht)⟩
  have h7 := h7 ⟨t, ht⟩
  rw [h7] at h6
  have h6 := (hi.transports d _ _).2 h6
  rw [(hi.transports d _ _).2 ht] at h6
  cases h6
  exact ⟨rfl, h7⟩

/-- C61: the manager is of the version asked for and uses what was asked for or else the defaults: of the
engine, of the namespace's default user, and of that user. -/
theorem C61_config (c : Crypto) (hc : c.Ok) (pton : Domain → String → Bool) (e : Engine) (hf : Spec.Fresh e)
    (h : List Engine.Event) (a : ManagerArgs) (bind : Option PyErr) (seed : Bytes → Nat) (m : ManagerInfo)
    (hm : ((e.run c pton h).manager c pton a bind seed).1 = .ok m) :
    m.autowait = a.autowait.getD e.autowaitDefault ∧
    ∃ v, Spec.version e.defaultVersion a.version = some v ∧
      match v with
      | .v1 => m.config = .v1 (a.community.getD e.defaultCommunity)
      | .v2c => m.config = .v2c (a.community.getD e.defaultCommunity)
      | .v3 => ∃ name level, m.config = .v3 a.namespace name level a.engineID ∧
          (match a.userName with
          | some n => name = n
          | none => (Spec.Reg.after c (Spec.usersAdded h)).defaultUser a.namespace = some name) ∧
          (match a.securityLevel with
          | some l => level = l
          | none => ∃ cr, (Spec.Reg.after c (Spec.usersAdded h)).user a.namespace name = some (cr, level)) := by
  obtain ⟨hi, hd, hk⟩ := hf.run c pton h
  obtain ⟨ops, k1, k2, k3⟩ := hk
  obtain ⟨hi', -, -, -, -, -, hok⟩ := Engine.manager_spec c pton hi a bind seed
  obtain ⟨d, v, -, h2, -, -, h5, -, -, -, h9, -⟩ := hok m hm
  rw [Engine.versionOf_iff, hd.version] at h2
  refine ⟨by rw [h5, hd.autowait], v, h2, ?_⟩
  cases v with
  | v1 => simp only at h9 ⊢; rw [h9, hd.community]
  | v2c => simp only at h9 ⊢; rw [h9, hd.community]
  | v3 =>
    obtain ⟨name, level, h10, h11, h12⟩ := h9
    refine ⟨name, level, h12, ?_, ?_⟩
    · unfold Engine.v3Name at h10
      cases hn : a.userName with
      | some n => rw [hn] at h10; cases h10; rfl
      | none =>
        rw [hn, k1] at h10
        simp only at h10 ⊢
        have := C40_getDefaultUser c hc ops a.namespace
        rw [← k3, ← this]
        generalize (UserRegistry.after c ops).getDefaultUser a.namespace = r at *
        rcases r with err | o
        · cases h10
        · cases o with
          | none => cases h10
          | some n => cases h10; rfl
    · unfold Engine.v3Level at h11
      cases hl : a.securityLevel with
      | some l => rw [hl] at h11; cases h11; rfl
      | none =>
        rw [hl, k1] at h11
        simp only at h11 ⊢
        have := C40_getDefaultSecurityLevel c hc ops a.namespace name
        rw [h11, k2] at this
        cases hu : (Spec.Reg.after c (Spec.usersAdded h)).user a.namespace name with
        | none => rw [hu] at this; cases this
        | some x =>
          obtain ⟨cr, l⟩ := x
          rw [hu] at this
          cases this
          exact ⟨cr, rfl⟩

/-- C61: the processor for the manager's version is registered with the dispatcher when the manager is
returned, and is never replaced afterwards. -/
theorem C61_processors (c : Crypto) (pton : Domain → String → Bool) (e : Engine) (hf : Spec.Fresh e)
    (h h' : List Engine.Event) (a : ManagerArgs) (bind : Option PyErr) (seed : Bytes → Nat) (m : ManagerInfo)
    (hm : ((e.run c pton h).manager c pton a bind seed).1 = .ok m) :
    ∃ p, (e.run c pton (h ++ [.manager a bind seed])).processors.get m.config.version = some p ∧
      (e.run c pton (h ++ [.manager a bind seed] ++ h')).processors.get m.config.version = some p := by
  obtain ⟨hi, hd, hk⟩ := hf.run c pton h
  obtain ⟨hi', -, -, hu, -, -, hok⟩ := Engine.manager_spec c pton hi a bind seed
  have hk' := hk.registered a.engineID a.namespace seed hu
  obtain ⟨d, v, -, -, -, -, -, -, -, -, h9, p, hp⟩ := hok m hm
  have hv : m.config.version = v := by
    cases v with
    | v1 => simp only at h9; rw [h9]; rfl
    | v2c => simp only at h9; rw [h9]; rfl
    | v3 => obtain ⟨_, _, _, _, h9⟩ := h9; rw [h9]; rfl
  have hr : e.run c pton (h ++ [.manager a bind seed]) = ((e.run c pton h).manager c pton a bind seed).2 := by
    simp [Engine.run, Engine.step]
  have hr' : e.run c pton (h ++ [.manager a bind seed] ++ h') =
      (((e.run c pton h).manager c pton a bind seed).2).run c pton h' := by
    rw [← hr]; simp [Engine.run]
  refine ⟨p, by rw [hr, hv]; exact hp, ?_⟩
  rw [hr', hv]
  exact (Engine.run_spec c pton h' hi' hk').2.1.procs v p hp

/-- The sample addresses are valid. -/
def Spec.anyHost : Domain → String → Bool := fun _ s => s ≠ ""

/-- A call for an SNMPv3 manager, and one for SNMPv2c on the same local address. -/
def Spec.sampleManagers : List Engine.Event :=
  [.addUser Spec.sampleUser (fun _ => 0),
   .manager { address := .host (.str "192.0.2.7") } none (fun _ => 0),
   .manager { address := .host (.str "192.0.2.8"), version := .number 1 } none (fun _ => 0)]

/-- C61 is about something: the third manager reuses the transport of the second call, is of version SNMPv1,
and the first uses the default user at its level. -/
example :
    let e := (Engine.create .v3 .udpIPv4 .usm [112] true)
    ((e.run Spec.toyCrypto Spec.anyHost (Spec.sampleManagers.take 2)).manager Spec.toyCrypto Spec.anyHost
      { address := .host (.str "192.0.2.9"), version := .number 0 } none (fun _ => 0)).1 =
        .ok ⟨0, ⟨"192.0.2.9", 161⟩, ⟨"0.0.0.0", 0⟩, true, .v1 [112]⟩ ∧
    ((e.run Spec.toyCrypto Spec.anyHost (Spec.sampleManagers.take 1)).manager Spec.toyCrypto Spec.anyHost
      { address := .host (.str "192.0.2.9") } none (fun _ => 0)).1 =
        .ok ⟨0, ⟨"192.0.2.9", 161⟩, ⟨"0.0.0.0", 0⟩, true, .v3 "" [97] authPriv none⟩ := by
  decide +kernel

/-! ## C75 -/

/-- C75: after `connectTransport` was called for a domain, another transport for it is refused with `ValueError`
for ever. -/
theorem C75_partial (c : Crypto) (pton : Domain → String → Bool) (e : Engine) (hf : Spec.Fresh e)
    (h h' : List Engine.Event) (d : Domain) :
    ((e.run c pton (h ++ [.connectTransport d] ++ h')).connectTransport d).1 = .error .valueError := by
  obtain ⟨hi, -, hk⟩ := hf.run c pton h
  obtain ⟨h1, -, -, h4, -, -, h7⟩ := Engine.connectTransport_spec hi d
  have hk' := hk.registered (e' := ((e.run c pton h).connectTransport d).2) none "" (fun _ => 0)
    (.inl (by rw [h4]))
  have hr : e.run c pton (h ++ [.connectTransport d] ++ h') =
      (((e.run c pton h).connectTransport d).2).run c pton h' := by
    simp [Engine.run, Engine.step]
  rw [hr]
  have := (Engine.run_spec c pton h' h1 hk').2.1.domains d h7
  generalize (((e.run c pton h).connectTransport d).2).run c pton h' = e' at *
  unfold Engine.connectTransport
  cases hx : e'.transports.get d with
  | none => rw [hx] at this; cases this
  | some t => rfl

/-- C75 is false of the code: a manager made after `connectTransport` for its domain does not use the
transport that was given; a second one is opened. -/
theorem C75_false :
    ∃ m t, ((((Engine.create .v2c .udpIPv4 .usm [112] true).run Spec.toyCrypto Spec.anyHost
      [.connectTransport .udpIPv4]).manager Spec.toyCrypto Spec.anyHost
        { address := .host (.str "192.0.2.9") } none (fun _ => 0)).1 = .ok m) ∧
      ((Engine.create .v2c .udpIPv4 .usm [112] true).connectTransport .udpIPv4).1 = .ok t ∧
      m.transport ≠ t := by
  refine ⟨⟨1, ⟨"192.0.2.9", 161⟩, ⟨"0.0.0.0", 0⟩, true, .v2c [112]⟩, 0, ?_, ?_, ?_⟩ <;> decide +kernel

/-! ## C76 -/

/-- C76: without a user in the namespace, asking for an SNMPv3 manager without naming one raises
`NoDefaultUser`, or `ValueError`. -/
theorem C76_partial (c : Crypto) (hc : c.Ok) (pton : Domain → String → Bool) (e : Engine) (hf : Spec.Fresh e)
    (h : List Engine.Event) (a : ManagerArgs) (seed : Bytes → Nat) (hn : a.userName = none)
    (hm : a.securityModel = .absent)
    (hno : (Spec.Reg.after c (Spec.usersAdded h)).defaultUser a.namespace = none) :
    ((e.run c pton h).v3Manager c a seed).1 = .error .noDefaultUser ∨
    ((e.run c pton h).v3Manager c a seed).1 = .error .valueError := by
  obtain ⟨hi, hd, hk⟩ := hf.run c pton h
  obtain ⟨ops, k1, k2, k3⟩ := hk
  generalize e.run c pton h = e' at *
  unfold Engine.v3Manager Engine.modelOf
  rw [hm]
  cases e'.defaultSecurityModel
  simp only
  have := C40_getDefaultUser c hc ops a.namespace
  rw [k3, hno] at this
  rw [k1]
  have hnm : Engine.v3Name (UserRegistry.after c ops) a = .error .noDefaultUser ∨
      Engine.v3Name (UserRegistry.after c ops) a = .error .valueError := by
    unfold Engine.v3Name
    rw [hn]
    simp only
    unfold UserRegistry.getDefaultUser UserRegistry.getNamespace at *
    cases hg : (UserRegistry.after c ops).namespaces.get a.namespace with
    | none => right; rfl
    | some n =>
      left
      rw [hg] at this
      have hdn : n.defaultUserName = none := this
      simp [orRaise, Except.bind, hdn]
  rcases hnm with hnm | hnm
  · rw [hnm]; exact .inl rfl
  · rw [hnm]; exact .inr rfl

/-- C76 is false of the code: the new engine raises `ValueError` (the namespace is unknown), not
`NoDefaultUser`. -/
theorem C76_false :
    ((Engine.create .v3 .udpIPv4 .usm [112] true).manager Spec.toyCrypto Spec.anyHost
      { address := .host (.str "192.0.2.9") } none (fun _ => 0)).1 = .error .valueError := by
  decide +kernel

/-- After a user could not be added, it is `NoDefaultUser`. -/
example : (((Engine.create .v3 .udpIPv4 .usm [112] true).run Spec.toyCrypto Spec.anyHost
    [.addUser { userName := [97], authProtocol := some .hmacSha } (fun _ => 0)]).manager Spec.toyCrypto
      Spec.anyHost { address := .host (.str "192.0.2.9") } none (fun _ => 0)).1 = .error .noDefaultUser := by
  decide +kernel

/-! ## C77 -/

/-- C77: an address or local address that is not usable for the domain is refused with `ValueError` or
`TypeError`, and the engine is unchanged; a version that does not exist is refused with `ValueError`. -/
theorem C77_partial (c : Crypto) (pton : Domain → String → Bool) (e : Engine) (a : ManagerArgs)
    (bind : Option PyErr) (seed : Bytes → Nat) (d : Domain) (hd : Spec.domain e.defaultDomain a.domain = some d) :
    ((∀ x, normalizeAddress pton d a.address (some .listener) ≠ .ok x) ∨
      (∀ x, normalizeAddress pton d a.localAddress (some .sender) ≠ .ok x) →
      (e.manager c pton a bind seed = (.error .valueError, e) ∨
        e.manager c pton a bind seed = (.error .typeError, e))) ∧
    ((∃ x, normalizeAddress pton d a.address (some .listener) = .ok x) →
      (∃ x, normalizeAddress pton d a.localAddress (some .sender) = .ok x) → bind = none →
      Spec.version e.defaultVersion a.version = none →
      (e.manager c pton a bind seed).1 = .error .valueError) := by
  have hd' := (Engine.domainOf_iff e a d).2 hd
  have herr : ∀ arg usage err, normalizeAddress pton d arg usage = .error err →
      err = .valueError ∨ err = .typeError := by
    intro arg usage err h
    obtain ⟨h1, h2⟩ := C59_other pton d usage arg
    by_cases hx : Spec.Addressable arg
    · obtain ⟨host, port, hask⟩ := h1 hx
      obtain ⟨k1, k2⟩ := C59_asked pton d usage arg host port hask
      by_cases hok : Spec.AddressOk pton d usage host port
      · rw [k1 hok] at h; cases h
      · rw [k2 hok] at h; cases h; exact .inl rfl
    · rcases h2 hx with h2 | h2
      · rw [h2] at h; cases h; exact .inr rfl
      · rw [h2] at h; cases h; exact .inl rfl
  constructor
  · intro hbad
    unfold Engine.manager
    rw [hd']
    simp only
    cases ha : normalizeAddress pton d a.address (some .listener) with
    | error err =>
      rcases herr _ _ _ ha with rfl | rfl
      · exact .inl rfl
      · exact .inr rfl
    | ok x =>
      simp only
      cases hl : normalizeAddress pton d a.localAddress (some .sender) with
      | error err =>
        rcases herr _ _ _ hl with rfl | rfl
        · exact .inl rfl
        · exact .inr rfl
      | ok y => exact absurd hbad (by rintro (h | h); exacts [h x ha, h y hl])
  · rintro ⟨x, ha⟩ ⟨y, hl⟩ rfl hv
    unfold Engine.manager
    rw [hd']
    simp only [ha, hl]
    have hds : e.SameDefaults (e.transportFor d y none).2 := by
      unfold Engine.transportFor
      cases e.transports.get d with
      | none => exact ⟨rfl, rfl, rfl, rfl, rfl⟩
      | some ts =>
        simp only
        cases ts.get y <;> exact ⟨rfl, rfl, rfl, rfl, rfl⟩
    have hok : ∃ t, (e.transportFor d y none).1 = .ok t := by
      unfold Engine.transportFor
      cases e.transports.get d with
      | none => exact ⟨_, rfl⟩
      | some ts =>
        simp only
        cases ts.get y <;> exact ⟨_, rfl⟩
    generalize e.transportFor d y none = z at *
    obtain ⟨r, z⟩ := z
    obtain ⟨t, rfl⟩ := hok
    simp only at hds ⊢
    have hvz : z.versionOf a = .error .valueError := by
      cases hz : z.versionOf a with
      | ok v =>
        have := (Engine.versionOf_iff z a v).1 hz
        rw [hds.version, hv] at this
        cases this
      | error err =>
        unfold Engine.versionOf at hz
        split at hz
        · cases hz
        · cases hz
        · unfold orRaise at hz
          split at hz
          · cases hz
          · cases hz; rfl
    rw [hvz]

/-- C77 is false of the code: a domain that is not supported raises `UnboundLocalError`, whatever the other
arguments are; and a version that does not exist leaves a socket open. -/
theorem C77_false :
    (∀ (c : Crypto) (pton : Domain → String → Bool) (e : Engine) (a : ManagerArgs) (bind : Option PyErr)
      (seed : Bytes → Nat), a.domain = .other →
      e.manager c pton a bind seed = (.error .unboundLocalError, e)) ∧
    (let r := (Engine.create .v3 .udpIPv4 .usm [112] true).manager Spec.toyCrypto Spec.anyHost
      { address := .host (.str "192.0.2.9"), version := .number 2 } none (fun _ => 0)
    r.1 = .error .valueError ∧ r.2.connected = [(0, .udpIPv4, some ⟨"0.0.0.0", 0⟩)]) := by
  refine ⟨?_, by decide +kernel⟩
  intro c pton e a bind seed h
  unfold Engine.manager Engine.domainOf
  rw [h]

end Snmp
