import Verif.Spec.Users
import Mathlib.Data.List.Induction
import Mathlib.Tactic.Ring
/-!
# Properties C38-C42: users, engines, keys
-/

set_option linter.unusedSimpArgs false

namespace Snmp

/-- What the library does for a call (snmp/security/usm/implementation.py:48-100). -/
def UserRegistry.apply (c : Crypto) (r : UserRegistry) : Spec.RegOp → Res Bool × UserRegistry
  | .addUser a seed =>
    ((r.addUser c a seed).1.bind fun _ => .ok true, (r.addUser c a seed).2)
  | .register i ns seed => r.assign c i ns seed
  | .unregister i ns => r.release i ns

/-- The registry after a sequence of calls. -/
def UserRegistry.after (c : Crypto) (h : List Spec.RegOp) : UserRegistry :=
  h.foldl (fun r op => (r.apply c op).2) .new

theorem UserRegistry.after_snoc (c : Crypto) (h : List Spec.RegOp) (op : Spec.RegOp) :
    UserRegistry.after c (h ++ [op]) = ((UserRegistry.after c h).apply c op).2 := by
  simp [UserRegistry.after]

theorem Spec.Reg.after_snoc (c : Crypto) (h : List Spec.RegOp) (op : Spec.RegOp) :
    Spec.Reg.after c (h ++ [op]) = ((Spec.Reg.after c h).step c op).2 := by
  simp [Spec.Reg.after]

/-! ## C42: keys -/

theorem feed_eq (secret : Bytes) (n : Nat) (ctx : Bytes) :
    feed secret n ctx = ctx ++ (List.replicate n secret).flatten := by
  induction n generalizing ctx with
  | zero => simp [feed]
  | succ n ih => simp [feed, ih, List.replicate_succ]

theorem flatten_replicate_get (s : Bytes) (n i : Nat) (h : i < n * s.length) :
    ((List.replicate n s).flatten)[i]? = s[i % s.length]? := by
  induction n generalizing i with
  | zero => omega
  | succ n ih =>
    rw [List.replicate_succ, List.flatten_cons]
    by_cases hi : i < s.length
    · rw [List.getElem?_append_left hi, Nat.mod_eq_of_lt hi]
    · rw [List.getElem?_append_right (by omega), ih (i - s.length) (by rw [Nat.succ_mul] at h; omega)]
      rw [← Nat.mod_eq_sub_mod (by omega)]

/-- C42: the key of a non-empty secret is the hash of exactly 2^20 octets, the i-th of which is octet
`i mod length` of the secret. -/
theorem C42_stretch (c : Crypto) (p : AuthProto) (secret : Bytes) (h : secret ≠ []) :
    ∃ x : Bytes, p.computeKey c secret = .ok (c.hash p x) ∧ x.length = 1048576 ∧
      ∀ i, i < 1048576 → x[i]? = secret[i % secret.length]? := by
  have hl : 0 < secret.length := List.length_pos_iff.2 h
  refine ⟨_, by unfold AuthProto.computeKey; rw [if_neg (by omega)], ?_, ?_⟩
  · rw [feed_eq]
    simp only [List.nil_append, List.length_append, List.length_flatten, List.map_replicate,
      List.sum_replicate_nat, List.length_take]
    have h1 := Nat.div_add_mod (2 ^ 20) secret.length
    have h2 := Nat.mod_lt (2 ^ 20) hl
    rw [Nat.min_eq_left (by omega), Nat.mul_comm, h1]
    norm_num
  · intro i hi
    rw [feed_eq, List.nil_append]
    have h1 := Nat.div_add_mod (2 ^ 20) secret.length
    have h2 := Nat.mod_lt (2 ^ 20) hl
    have hlen : ((List.replicate (2 ^ 20 / secret.length) secret).flatten).length =
        2 ^ 20 / secret.length * secret.length := by
      simp [List.length_flatten]
    by_cases hc : i < 2 ^ 20 / secret.length * secret.length
    · rw [List.getElem?_append_left (by rw [hlen]; exact hc), flatten_replicate_get _ _ _ hc]
    · rw [List.getElem?_append_right (by rw [hlen]; omega), hlen]
      rw [Nat.mul_comm] at h1
      have hlt : i - 2 ^ 20 / secret.length * secret.length < 2 ^ 20 % secret.length := by
        omega
      rw [List.getElem?_take, if_pos hlt]
      congr 1
      have : i = (i - 2 ^ 20 / secret.length * secret.length) +
          2 ^ 20 / secret.length * secret.length := by omega
      conv_rhs => rw [this, Nat.add_mul_mod_self_right]
      rw [Nat.mod_eq_of_lt (by omega)]

/-- C42: localisation hashes key, engine ID, key; an empty secret raises ZeroDivisionError. -/
theorem C42_localize (c : Crypto) (p : AuthProto) (key engineID : Bytes) :
    p.localizeKey c key engineID = c.hash p (key ++ engineID ++ key) ∧
    p.computeKey c [] = .error .zeroDivisionError := ⟨rfl, rfl⟩

/-- The stretched octets of a three-octet secret. -/
example (c : Crypto) : ∃ x : Bytes, AuthProto.hmacMd5.computeKey c [1, 2, 3] = .ok (c.hash .hmacMd5 x) ∧
    x[4]? = some 2 ∧ x[1048575]? = some 1 := by
  obtain ⟨x, h1, -, h3⟩ := C42_stretch c .hmacMd5 [1, 2, 3] (by simp)
  exact ⟨x, h1, h3 4 (by omega), h3 1048575 (by omega)⟩

/-! ## Refinement -/

/-- What `Credentials.new` establishes. -/
def CredOk (cr : Credentials) : Prop :=
  (cr.auth = none → cr.priv = none) ∧
  cr.maxSecurityLevel = match cr.auth, cr.priv with
    | none, _ => noAuthNoPriv
    | some _, none => authNoPriv
    | some _, some _ => authPriv

theorem Credentials.new_ok {c : Crypto} {a : UserArgs} {cr : Credentials}
    (h : Credentials.new c a.authProtocol a.authSecret a.privProtocol a.privSecret a.secret = .ok cr) :
    CredOk cr ∧ cr.maxSecurityLevel = Spec.supported a := by
  unfold Credentials.new at h
  unfold Spec.supported
  cases ha : a.authProtocol with
  | none =>
    rw [ha] at h
    injection h with h; subst h
    exact ⟨⟨fun _ => rfl, rfl⟩, rfl⟩
  | some p =>
    rw [ha] at h
    cases hp : a.privProtocol with
    | none =>
      rw [hp] at h
      simp only at h
      cases hk : p.computeKey c (orSecret a.authSecret a.secret) with
      | error e => rw [hk] at h; cases h
      | ok k =>
        rw [hk] at h
        injection h with h; subst h
        exact ⟨⟨(fun h => by cases h), rfl⟩, rfl⟩
    | some q =>
      rw [hp] at h
      simp only at h
      cases hk : p.computeKey c (orSecret a.privSecret a.secret) with
      | error e => rw [hk] at h; cases h
      | ok k =>
        rw [hk] at h
        cases hk2 : p.computeKey c (orSecret a.authSecret a.secret) with
        | error e => rw [hk2] at h; cases h
        | ok k2 =>
          rw [hk2] at h
          injection h with h; subst h
          exact ⟨⟨(fun h => by cases h), rfl⟩, rfl⟩

theorem CredOk.ext {a b : Credentials} (ha : CredOk a) (hb : CredOk b) :
    a.eq b = true ↔ a = b := by
  obtain ⟨a1, a2, a3⟩ := a
  obtain ⟨b1, b2, b3⟩ := b
  simp only [Credentials.eq, Bool.and_eq_true, decide_eq_true_eq, Credentials.mk.injEq]
  constructor
  · rintro ⟨rfl, rfl⟩
    refine ⟨rfl, rfl, ?_⟩
    have h1 := ha.2; have h2 := hb.2
    simp only at h1 h2
    rw [h1, h2]
  · exact fun h => ⟨h.1, h.2.1⟩

theorem localize_ok {c : Crypto} (hc : c.Ok) (cr : Credentials) (engineID : Bytes)
    (seed : Nat) : ∃ l, cr.localize c engineID seed = .ok l ∧ Spec.Localised c cr engineID l := by
  unfold Credentials.localize Spec.Localised
  cases ha : cr.auth with
  | none => exact ⟨_, rfl, rfl, rfl⟩
  | some p =>
    obtain ⟨a, k⟩ := p
    simp only
    cases hp : cr.priv with
    | none => exact ⟨_, rfl, rfl, rfl⟩
    | some q =>
      obtain ⟨q, k'⟩ := q
      simp only
      have hlen : 16 ≤ (a.localizeKey c k' engineID).length := by
        unfold AuthProto.localizeKey
        rw [hc.hash_length]
        cases a <;> decide
      unfold PrivKey.new
      rw [if_neg (by cases q <;> simp only [PrivProto.keyLen] <;> omega)]
      cases q with
      | aesCfb128 => exact ⟨_, rfl, rfl, seed, rfl⟩
      | desCbc => exact ⟨_, rfl, rfl, seed, rfl⟩

/-- The users of an engine object are the localised users of its namespace. -/
def EngineOk (c : Crypto) (s : Spec.Reg) (engineID : Bytes) (e : RemoteEngine) : Prop :=
  ∀ name, match s.user e.namespace name with
    | none => e.users.get name = none
    | some (cr, _) => ∃ l, e.users.get name = some l ∧ Spec.Localised c cr engineID l

/-- The relation between the registry and the specification. -/
structure RegOk (c : Crypto) (s : Spec.Reg) (r : UserRegistry) : Prop where
  user : ∀ ns name, ((r.namespaces.get ns).bind fun n => n.users.get name) =
    (s.user ns name).map fun u => ⟨u.1, u.2⟩
  dflt : ∀ ns, ((r.namespaces.get ns).bind fun n => n.defaultUserName) = s.defaultUser ns
  engine : ∀ id, s.engine id = (r.engines.get id).map fun e => (e.namespace, e.count.toNat)
  count : ∀ id e, r.engines.get id = some e → 1 ≤ e.count
  local_ : ∀ id e, r.engines.get id = some e → EngineOk c s id e
  nodup : ∀ ns n, r.namespaces.get ns = some n → n.users.keys.Nodup
  hasDefault : ∀ ns name u, s.user ns name = some u → s.defaultUser ns ≠ none
  cred : ∀ ns name cr l, s.user ns name = some (cr, l) →
    CredOk cr ∧ cr.maxSecurityLevel.lt l = false

theorem addUsers_spec {c : Crypto} (hc : c.Ok) (engineID : Bytes) (seed : Bytes → Nat)
    (d : Dict Bytes UserConfig) (hnd : d.keys.Nodup) (e : RemoteEngine) :
    ∃ e', RemoteEngine.addUsers c engineID seed d e = .ok e' ∧ e'.namespace = e.namespace ∧
      e'.count = e.count ∧ ∀ name, match d.get name with
        | none => e'.users.get name = e.users.get name
        | some u => ∃ l, e'.users.get name = some l ∧ Spec.Localised c u.credentials engineID l := by
  induction d generalizing e with
  | nil => exact ⟨e, rfl, rfl, rfl, fun name => rfl⟩
  | cons p d ih =>
    obtain ⟨name0, u0⟩ := p
    have hnd' : name0 ∉ Dict.keys d ∧ (Dict.keys d).Nodup := List.nodup_cons.1 hnd
    obtain ⟨l0, hl0, hloc⟩ := localize_ok hc u0.credentials engineID (seed name0)
    obtain ⟨e', h1, h2, h3, h4⟩ := ih hnd'.2 { e with users := e.users.set name0 l0 }
    refine ⟨e', ?_, h2, h3, ?_⟩
    · simp only [RemoteEngine.addUsers, RemoteEngine.addUser, hl0]
      exact h1
    · intro name
      have h4n := h4 name
      simp only [Dict.get]
      by_cases hn : name0 = name
      · subst hn
        rw [if_pos rfl]
        rw [(Dict.get_eq_none d name0).2 hnd'.1] at h4n
        simp only [Dict.get_set, ↓reduceIte] at h4n
        exact ⟨l0, h4n, hloc⟩
      · rw [if_neg hn]
        revert h4n
        cases Dict.get d name with
        | none =>
          simp only
          intro h
          rw [h, Dict.get_set, if_neg (Ne.symm hn)]
        | some u => exact fun h => h

theorem addToEngines_spec {c : Crypto} (hc : c.Ok) (ns : String) (userName : Bytes)
    (cr : Credentials) (seed : Bytes → Nat) (d : Dict Bytes RemoteEngine) :
    ∃ d', UserRegistry.addToEngines c ns userName cr seed d = (.ok (), d') ∧
      ∀ id, match d.get id with
        | none => d'.get id = none
        | some e => ∃ e', d'.get id = some e' ∧ e'.namespace = e.namespace ∧ e'.count = e.count ∧
          (e.namespace ≠ ns → e' = e) ∧
          (e.namespace = ns → ∃ l, Spec.Localised c cr id l ∧ e'.users = e.users.set userName l) := by
  induction d with
  | nil => exact ⟨[], rfl, fun id => rfl⟩
  | cons p d ih =>
    obtain ⟨id0, e0⟩ := p
    obtain ⟨d', h1, h2⟩ := ih
    simp only [UserRegistry.addToEngines]
    by_cases hns : e0.namespace = ns
    · rw [if_pos hns]
      obtain ⟨l0, hl0, hloc⟩ := localize_ok hc cr id0 (seed id0)
      simp only [RemoteEngine.addUser, hl0, Except.bind, h1]
      refine ⟨_, rfl, fun id => ?_⟩
      simp only [Dict.get]
      by_cases hid : id0 = id
      · subst hid
        rw [if_pos rfl, if_pos rfl]
        exact ⟨_, rfl, rfl, rfl, fun h => absurd hns h, fun _ => ⟨l0, hloc, rfl⟩⟩
      · rw [if_neg hid, if_neg hid]; exact h2 id
    · rw [if_neg hns]
      simp only [h1]
      refine ⟨_, rfl, fun id => ?_⟩
      simp only [Dict.get]
      by_cases hid : id0 = id
      · subst hid
        rw [if_pos rfl, if_pos rfl]
        exact ⟨_, rfl, rfl, rfl, fun _ => rfl, fun h => absurd h hns⟩
      · rw [if_neg hid, if_neg hid]; exact h2 id

theorem RegOk.empty (c : Crypto) : RegOk c .empty .new := by
  constructor <;> intros <;> first | rfl | (rename_i h; cases h)

/-- The tail of `addUser`, once the namespace exists. -/
def addUserTail (c : Crypto) (r : UserRegistry) (config : NamespaceConfig) (a : UserArgs)
    (seed : Bytes → Nat) : Res Unit × UserRegistry :=
  match Credentials.new c a.authProtocol a.authSecret a.privProtocol a.privSecret a.secret with
  | .error e => (.error e, r)
  | .ok credentials =>
    match config.addUser a.userName credentials a.defaultSecurityLevel a.default with
    | .error e => (.error e, r)
    | .ok config =>
      let r := { r with namespaces := r.namespaces.set a.namespace config }
      let (res, engines) :=
        UserRegistry.addToEngines c a.namespace a.userName credentials seed r.engines
      (res, { r with engines })

theorem addUser_tail (c : Crypto) (s : Spec.Reg) (r : UserRegistry) (a : UserArgs)
    (seed : Bytes → Nat) (h : RegOk c s r) : ∃ config r', r'.namespaces.get a.namespace = some config ∧
      RegOk c s r' ∧ r'.engines = r.engines ∧ r.addUser c a seed = addUserTail c r' config a seed := by
  cases hns : r.namespaces.get a.namespace with
  | some config =>
    refine ⟨config, r, hns, h, rfl, ?_⟩
    simp only [UserRegistry.addUser, hns, addUserTail]
    rfl
  | none =>
    refine ⟨⟨none, []⟩, { r with namespaces := r.namespaces.set a.namespace ⟨none, []⟩ }, ?_, ?_, rfl, ?_⟩
    · simp [Dict.get_set]
    · refine ⟨fun ns name => ?_, fun ns => ?_, h.engine, h.count, h.local_, fun ns n hn => ?_,
        h.hasDefault, h.cred⟩
      · rw [← h.user ns name]
        simp only [Dict.get_set]
        by_cases hn : ns = a.namespace
        · subst hn; rw [if_pos rfl, hns]; rfl
        · rw [if_neg hn]
      · rw [← h.dflt ns]
        simp only [Dict.get_set]
        by_cases hn : ns = a.namespace
        · subst hn; rw [if_pos rfl, hns]; rfl
        · rw [if_neg hn]
      · simp only [Dict.get_set] at hn
        split at hn
        · injection hn with hn; subst hn; simp [Dict.keys]
        · exact h.nodup ns n hn
    · simp only [UserRegistry.addUser, hns, addUserTail]
      rfl

theorem config_of {c : Crypto} {s : Spec.Reg} {r : UserRegistry} (h : RegOk c s r) {ns : String}
    {config : NamespaceConfig} (hns : r.namespaces.get ns = some config) :
    config.defaultUserName = s.defaultUser ns ∧
    ∀ name, config.users.get name = (s.user ns name).map fun u => ⟨u.1, u.2⟩ := by
  constructor
  · have := h.dflt ns; rw [hns] at this; exact this
  · intro name; have := h.user ns name; rw [hns] at this; exact this

theorem addUserTail_spec {c : Crypto} (hc : c.Ok) {s : Spec.Reg} {r : UserRegistry}
    (h : RegOk c s r) (a : UserArgs) (seed : Bytes → Nat) {config : NamespaceConfig}
    (hns : r.namespaces.get a.namespace = some config) :
    ((addUserTail c r config a seed).1.bind fun _ => .ok true) = (s.addUser c a).1 ∧
    RegOk c (s.addUser c a).2 (addUserTail c r config a seed).2 ∧
    ((s.addUser c a).2.user = s.user ∧ (∃ e, (s.addUser c a).1 = .error e) →
      (addUserTail c r config a seed).2 = r) := by
  unfold addUserTail Spec.Reg.addUser
  cases hcr : Credentials.new c a.authProtocol a.authSecret a.privProtocol a.privSecret a.secret with
  | error e => exact ⟨rfl, h, fun _ => rfl⟩
  | ok cr =>
    obtain ⟨hok, hmax⟩ := Credentials.new_ok hcr
    obtain ⟨hd, hu⟩ := config_of h hns
    simp only
    generalize hlev : a.defaultSecurityLevel.getD (Spec.supported a) = level
    have hnewcfg : UserConfig.new cr a.defaultSecurityLevel =
        if (Spec.supported a).lt level then .error .valueError else .ok ⟨cr, level⟩ := by
      unfold UserConfig.new
      cases hl : a.defaultSecurityLevel with
      | none =>
        rw [hl] at hlev
        simp only [Option.getD_none] at hlev
        subst hlev
        rw [hmax]
        rw [if_neg]
        intro hh
        revert hh
        cases Spec.supported a with
        | mk x y => cases x <;> cases y <;> decide
      | some l =>
        rw [hl] at hlev
        simp only [Option.getD_some] at hlev
        subst hlev
        rw [hmax]
    unfold NamespaceConfig.addUser
    rw [hnewcfg]
    by_cases hlt : (Spec.supported a).lt level = true
    · rw [if_pos hlt, if_pos hlt]
      exact ⟨rfl, h, fun _ => rfl⟩
    · rw [if_neg hlt, if_neg hlt]
      simp only [Except.bind]
      have hlt' : cr.maxSecurityLevel.lt level = false := by
        rw [hmax]; simpa using hlt
      rw [hu a.userName, hd]
      obtain ⟨d', hd1, hd2⟩ := addToEngines_spec hc a.namespace a.userName cr seed r.engines
      -- the registry after a successful addition
      have good : ∀ s' : Spec.Reg,
          (∀ ns name, s'.user ns name =
            if ns = a.namespace ∧ name = a.userName then some (cr, level) else s.user ns name) →
          (∀ ns, s'.defaultUser ns = if ns = a.namespace ∧
            (a.default = true ∨ s.defaultUser ns = none) then some a.userName else s.defaultUser ns) →
          s'.engine = s.engine →
          RegOk c s' ⟨d', r.namespaces.set a.namespace
            ⟨if (a.default || (s.defaultUser a.namespace).isNone) = true then some a.userName
              else s.defaultUser a.namespace, config.users.set a.userName ⟨cr, level⟩⟩⟩ := by
        intro s' hs1 hs2 hs3
        refine ⟨fun ns name => ?_, fun ns => ?_, fun id => ?_, fun id e he => ?_, fun id e he => ?_,
          fun ns n hn => ?_, fun ns name u hus => ?_, fun ns name cr' l hus => ?_⟩
        · simp only [Dict.get_set, hs1]
          by_cases hn : ns = a.namespace
          · subst hn
            simp only [↓reduceIte, Option.bind_some, Dict.get_set, true_and]
            by_cases hname : name = a.userName
            · simp [hname]
            · rw [if_neg hname, if_neg hname]; exact hu name
          · rw [if_neg hn, if_neg (fun hh => hn hh.1)]; exact h.user ns name
        · simp only [Dict.get_set, hs2]
          by_cases hn : ns = a.namespace
          · subst hn
            simp only [↓reduceIte, Option.bind_some, true_and, Bool.or_eq_true, Option.isNone_iff_eq_none]
          · rw [if_neg hn, if_neg (fun hh => hn hh.1)]; exact h.dflt ns
        · rw [hs3, h.engine]
          have := hd2 id
          cases hg : r.engines.get id with
          | none => rw [hg] at this; simp only at this; simp [this]
          | some e =>
            rw [hg] at this
            obtain ⟨e', q1, q2, q3, -⟩ := this
            simp only [q1, q2, q3, Option.map_some]
        · have := hd2 id
          cases hg : r.engines.get id with
          | none => rw [hg] at this; simp only at this he; rw [this] at he; cases he
          | some e0 =>
            rw [hg] at this
            obtain ⟨e', q1, q2, q3, -⟩ := this
            simp only at he
            rw [q1] at he; injection he with he; subst he
            rw [q3]; exact h.count id e0 hg
        · have := hd2 id
          cases hg : r.engines.get id with
          | none => rw [hg] at this; simp only at this he; rw [this] at he; cases he
          | some e0 =>
            rw [hg] at this
            obtain ⟨e', q1, q2, q3, q4, q5⟩ := this
            simp only at he
            rw [q1] at he; injection he with he; subst he
            have hold := h.local_ id e0 hg
            intro name
            have holdn := hold name
            rw [hs1, q2]
            by_cases hn : e0.namespace = a.namespace
            · obtain ⟨l, hl1, hl2⟩ := q5 hn
              by_cases hname : name = a.userName
              · rw [if_pos ⟨hn, hname⟩]
                exact ⟨l, by rw [hl2, hname, Dict.get_set, if_pos rfl], hl1⟩
              · rw [if_neg (fun hh => hname hh.2), hl2, Dict.get_set, if_neg hname]
                exact holdn
            · rw [if_neg (fun hh => hn hh.1), q4 hn]
              exact holdn
        · simp only [Dict.get_set] at hn
          split at hn
          · injection hn with hn; subst hn
            exact Dict.nodup_set _ _ _ (h.nodup _ _ hns)
          · exact h.nodup ns n hn
        · rw [hs1] at hus
          rw [hs2]
          by_cases hc1 : ns = a.namespace ∧ (a.default = true ∨ s.defaultUser ns = none)
          · rw [if_pos hc1]; simp
          · rw [if_neg hc1]
            by_cases hc2 : ns = a.namespace ∧ name = a.userName
            · exact fun hh => hc1 ⟨hc2.1, .inr hh⟩
            · rw [if_neg hc2] at hus; exact h.hasDefault ns name u hus
        · rw [hs1] at hus
          split at hus
          · injection hus with hus
            injection hus with h1 h2
            subst h1; subst h2
            exact ⟨hok, hlt'⟩
          · exact h.cred ns name cr' l hus
      cases hold : s.user a.namespace a.userName with
      | none =>
        simp only [Option.map_none, hd1]
        refine ⟨by trivial, good _ (fun ns name => rfl) (fun ns => rfl) rfl, ?_⟩
        rintro ⟨-, e, he⟩; cases he
      | some old =>
        obtain ⟨cr0, l0⟩ := old
        simp only [Option.map_some]
        obtain ⟨hok0, -⟩ := h.cred _ _ _ _ hold
        have hcond : ((!(UserConfig.eq ⟨cr, level⟩ ⟨cr0, l0⟩) ||
            (a.default && decide (some a.userName ≠ s.defaultUser a.namespace))) = true) ↔
            ((cr0, l0) ≠ (cr, level) ∨
              (a.default = true ∧ s.defaultUser a.namespace ≠ some a.userName)) := by
          have he : UserConfig.eq ⟨cr, level⟩ ⟨cr0, l0⟩ = true ↔ (cr0, l0) = (cr, level) := by
            simp only [UserConfig.eq, Bool.and_eq_true, decide_eq_true_eq, hok.ext hok0,
              Prod.mk.injEq]
            constructor <;> rintro ⟨rfl, rfl⟩ <;> exact ⟨rfl, rfl⟩
          rw [Bool.or_eq_true, Bool.and_eq_true, decide_eq_true_eq, Bool.not_eq_true',
            ← Bool.not_eq_true, he]
          constructor <;> (rintro (h1 | ⟨h1, h2⟩); exact .inl h1; exact .inr ⟨h1, h2.symm⟩)
        by_cases hcol : (cr0, l0) ≠ (cr, level) ∨
              (a.default = true ∧ s.defaultUser a.namespace ≠ some a.userName)
        · rw [if_pos hcol, if_pos (hcond.2 hcol)]
          exact ⟨rfl, h, fun _ => rfl⟩
        · rw [if_neg hcol, if_neg (fun hh => hcol (hcond.1 hh))]
          simp only [hd1]
          rw [not_or, not_and, not_not, not_not] at hcol
          refine ⟨by trivial, good s (fun ns name => ?_) (fun ns => ?_) rfl, ?_⟩
          · split
            · rename_i hh; rw [hh.1, hh.2, hold, hcol.1]
            · rfl
          · split
            · rename_i hh
              rcases hh.2 with h1 | h1
              · rw [hh.1]; exact hcol.2 h1
              · rw [hh.1] at h1; exact absurd h1 (h.hasDefault _ _ _ hold)
            · rfl
          · rintro ⟨-, e, he⟩; cases he

theorem set_get_self {K V : Type} [DecidableEq K] (d : Dict K V) {k : K} {v : V}
    (h : d.get k = some v) : d.set k v = d := by
  induction d with
  | nil => cases h
  | cons p d ih =>
    obtain ⟨k', v'⟩ := p
    simp only [Dict.get] at h
    simp only [Dict.set]
    by_cases hk : k' = k
    · rw [if_pos hk] at h ⊢; injection h with h; rw [h, hk]
    · rw [if_neg hk] at h ⊢; rw [ih h]

theorem RegOk.set_engine {c : Crypto} {s : Spec.Reg} {r : UserRegistry} (h : RegOk c s r)
    {id : Bytes} {e : RemoteEngine} (he : EngineOk c s id e) (hcount : 1 ≤ e.count)
    {s' : Spec.Reg} (hs : s' = ⟨s.user, s.defaultUser, fun i =>
      if i = id then some (e.namespace, e.count.toNat) else s.engine i⟩) :
    RegOk c s' { r with engines := r.engines.set id e } := by
  subst hs
  refine ⟨h.user, h.dflt, fun i => ?_, fun i e' hi => ?_, fun i e' hi => ?_, h.nodup, h.hasDefault,
    h.cred⟩
  · simp only [Dict.get_set]
    by_cases hi : i = id
    · simp [hi]
    · rw [if_neg hi, if_neg hi]; exact h.engine i
  · simp only [Dict.get_set] at hi
    split at hi
    · injection hi with hi; subst hi; exact hcount
    · exact h.count i e' hi
  · simp only [Dict.get_set] at hi
    split at hi
    · rename_i hid
      injection hi with hi; subst hi; subst hid; exact he
    · exact h.local_ i e' hi

theorem RegOk.step {c : Crypto} (hc : c.Ok) {s : Spec.Reg} {r : UserRegistry} (h : RegOk c s r)
    (op : Spec.RegOp) :
    (r.apply c op).1 = (s.step c op).1 ∧ RegOk c (s.step c op).2 (r.apply c op).2 := by
  cases op with
  | addUser a seed =>
    obtain ⟨config, r', h1, h2, -, h3⟩ := addUser_tail c s r a seed h
    simp only [UserRegistry.apply, Spec.Reg.step, h3]
    obtain ⟨q1, q2, -⟩ := addUserTail_spec hc h2 a seed h1
    exact ⟨q1, q2⟩
  | register id ns seed =>
    simp only [UserRegistry.apply, Spec.Reg.step, UserRegistry.assign, Spec.Reg.register]
    have he := h.engine id
    cases hg : r.engines.get id with
    | none =>
      rw [hg] at he
      rw [he]
      simp only [Option.map_none]
      have hnew : ∃ e, RemoteEngine.new c id ns (r.namespaces.get ns) seed = .ok e ∧
          e.namespace = ns ∧ e.count = 1 ∧ EngineOk c s id e := by
        unfold RemoteEngine.new
        cases hns : r.namespaces.get ns with
        | none =>
          refine ⟨_, rfl, rfl, rfl, fun name => ?_⟩
          have := h.user ns name
          rw [hns] at this
          have hnone : s.user ns name = none := by
            cases hu : s.user ns name with
            | none => rfl
            | some u => rw [hu] at this; cases this
          simp only [hnone, Dict.get]
        | some config =>
          obtain ⟨e', q1, q2, q3, q4⟩ := addUsers_spec hc id seed config.users (h.nodup ns config hns)
            ⟨1, ns, []⟩
          refine ⟨e', q1, q2, q3, fun name => ?_⟩
          have hu := (config_of h hns).2 name
          have := q4 name
          rw [hu] at this
          rw [q2]
          simp only
          cases hx : s.user ns name with
          | none => rw [hx] at this; simpa [Dict.get] using this
          | some u => rw [hx] at this; exact this
      obtain ⟨e, q1, q2, q3, q4⟩ := hnew
      rw [q1]
      refine ⟨by trivial, h.set_engine q4 (by omega) ?_⟩
      rw [q2, q3]; rfl
    | some e =>
      rw [hg] at he
      rw [he]
      simp only [Option.map_some, RemoteEngine.assign]
      have hcnt := h.count id e hg
      by_cases hns : ns = e.namespace
      · rw [if_pos hns, if_pos hns.symm]
        refine ⟨by trivial, h.set_engine (e := { e with count := e.count + 1 }) (h.local_ id e hg)
          (by simp only; omega) ?_⟩
        simp only [hns]
        rw [show (e.count + 1).toNat = e.count.toNat + 1 by omega]
      · rw [if_neg hns, if_neg (Ne.symm hns)]
        refine ⟨by trivial, ?_⟩
        simp only
        rw [set_get_self _ hg]
        exact h
  | unregister id ns =>
    simp only [UserRegistry.apply, Spec.Reg.step, UserRegistry.release, Spec.Reg.unregister]
    have he := h.engine id
    cases hg : r.engines.get id with
    | none => rw [hg] at he; rw [he]; exact ⟨rfl, h⟩
    | some e =>
      rw [hg] at he
      rw [he]
      have hcnt := h.count id e hg
      simp only [Option.map_some, RemoteEngine.release]
      by_cases hns : e.namespace = ns
      · rw [if_pos hns, if_pos hns, if_pos (by omega)]
        by_cases hone : e.count - 1 = 0
        · rw [if_pos (show e.count.toNat = 1 by omega)]
          simp only [hone, decide_true]
          refine ⟨by trivial, h.user, h.dflt, fun i => ?_, fun i e' hi => ?_, fun i e' hi => ?_, h.nodup,
            h.hasDefault, h.cred⟩
          · simp only [Dict.get_del]
            split
            · rfl
            · exact h.engine i
          · simp only [Dict.get_del] at hi
            split at hi
            · cases hi
            · exact h.count i e' hi
          · simp only [Dict.get_del] at hi
            split at hi
            · cases hi
            · exact h.local_ i e' hi
        · rw [if_neg (show ¬ e.count.toNat = 1 by omega)]
          simp only [hone, decide_false]
          refine ⟨by trivial, h.set_engine (e := { e with count := e.count - 1 }) (h.local_ id e hg)
            (by simp only; omega) ?_⟩
          simp only [hns]
          rw [show (e.count - 1).toNat = e.count.toNat - 1 by omega]
      · rw [if_neg hns, if_neg hns]
        have hz : decide (e.count = 0) = false := by simp; omega
        simp only [hz]
        refine ⟨by trivial, ?_⟩
        rw [set_get_self _ hg]
        exact h

theorem RegOk.after {c : Crypto} (hc : c.Ok) (h : List Spec.RegOp) :
    RegOk c (Spec.Reg.after c h) (UserRegistry.after c h) := by
  induction h using List.reverseRecOn with
  | nil => exact .empty c
  | append_singleton h op ih =>
    rw [UserRegistry.after_snoc, Spec.Reg.after_snoc]
    exact (ih.step hc op).2

/-! ## C38 -/

/-- C38: after any history of calls, looking up a user of an engine gives the credentials configured
for that name in the namespace the engine is registered under, localised to the engine; it fails with
InvalidEngineID exactly if the engine is not registered, and with InvalidUserName exactly if the name
is not configured in its namespace. -/
theorem C38_lookup (c : Crypto) (hc : c.Ok) (h : List Spec.RegOp) (engineID name : Bytes) :
    match (Spec.Reg.after c h).engine engineID with
    | none => (UserRegistry.after c h).getCredentials engineID name = .error .invalidEngineID
    | some (ns, _) =>
      match (Spec.Reg.after c h).user ns name with
      | none => (UserRegistry.after c h).getCredentials engineID name = .error .invalidUserName
      | some (cr, _) => ∃ l, (UserRegistry.after c h).getCredentials engineID name = .ok l ∧
          Spec.Localised c cr engineID l := by
  have ok := RegOk.after hc h
  rw [ok.engine engineID]
  unfold UserRegistry.getCredentials
  cases hg : (UserRegistry.after c h).engines.get engineID with
  | none => rfl
  | some e =>
    have hl := ok.local_ engineID e hg name
    simp only [Option.map_some, orRaise, Except.bind, RemoteEngine.getCredentials]
    revert hl
    cases (Spec.Reg.after c h).user e.namespace name with
    | none => intro hl; simp only at hl ⊢; rw [hl]
    | some u =>
      rintro ⟨l, h1, h2⟩
      exact ⟨l, by rw [h1], h2⟩

/-- C38-C41: every call returns or raises what the specification says. -/
theorem C38_results (c : Crypto) (hc : c.Ok) (h : List Spec.RegOp) (op : Spec.RegOp) :
    ((UserRegistry.after c h).apply c op).1 = ((Spec.Reg.after c h).step c op).1 :=
  ((RegOk.after hc h).step hc op).1

/-- Primitives that satisfy the contract (and nothing else). -/
def Spec.toyCrypto : Crypto where
  hash p x := List.replicate p.digestSize (x.foldl (· + ·) 0)
  hmac p k x := List.replicate p.digestSize ((k ++ x).foldl (· + ·) 0)
  aes k b := b.map (· + k.headD 0)
  desEnc _ b := b.reverse
  desDec _ b := b.reverse
  beyond _ := List.replicate 8 7

theorem Spec.toyCrypto_ok : Spec.toyCrypto.Ok := by
  constructor <;> intros <;> simp_all [Spec.toyCrypto]

/-- A user with authentication and privacy. -/
def Spec.sampleUser : UserArgs where
  userName := [97]
  authProtocol := some .hmacSha
  privProtocol := some .desCbc
  secret := [5, 6]

/-- Registration before and after the user is added. -/
def Spec.sampleCalls : List Spec.RegOp :=
  [.register [1] "" (fun _ => 0), .addUser Spec.sampleUser (fun _ => 0),
   .register [2] "" (fun _ => 0), .register [1] "x" (fun _ => 0)]

example (c : Crypto) : (Spec.Reg.after c Spec.sampleCalls).engine [1] = some ("", 1) ∧
    (Spec.Reg.after c Spec.sampleCalls).engine [2] = some ("", 1) ∧
    ((Spec.Reg.after c Spec.sampleCalls).user "" [97]).isSome = true := by
  refine ⟨?_, ?_, ?_⟩ <;>
  simp [Spec.Reg.after, Spec.sampleCalls, Spec.sampleUser, Spec.Reg.step, Spec.Reg.register, Spec.Reg.addUser,
    Spec.Reg.empty, Credentials.new, AuthProto.computeKey, orSecret, Except.bind, Spec.supported,
    SecurityLevel.lt, authPriv]

/-! ## C39 -/

/-- The calls in a history that register, and that release, the engine under the namespace. -/
def Spec.registrations (engineID : Bytes) (ns : String) (h : List Spec.RegOp) : Nat :=
  h.countP fun op => match op with
    | .register i n _ => i = engineID && n = ns
    | _ => false
/-- See `Spec.registrations`. -/
def Spec.releases (engineID : Bytes) (ns : String) (h : List Spec.RegOp) : Nat :=
  h.countP fun op => match op with
    | .unregister i n => i = engineID && n = ns
    | _ => false

/-- C39: after any history, registering an engine succeeds exactly if it is not registered or
registered under the same namespace. -/
theorem C39_register (c : Crypto) (hc : c.Ok) (h : List Spec.RegOp) (engineID : Bytes) (ns : String)
    (seed : Bytes → Nat) :
    ((UserRegistry.after c h).apply c (.register engineID ns seed)).1 =
      match (Spec.Reg.after c h).engine engineID with
      | none => .ok true
      | some (ns', _) => .ok (decide (ns' = ns)) := by
  rw [C38_results c hc]
  simp only [Spec.Reg.step, Spec.Reg.register]
  cases (Spec.Reg.after c h).engine engineID with
  | none => rfl
  | some e =>
    obtain ⟨ns', n⟩ := e
    simp only
    by_cases hn : ns' = ns <;> simp [hn]

/-- C39: a registered engine stays registered under its namespace, whatever else is called, as long as
it has not been released under that namespace as many times as it was registered. -/
theorem C39_held (c : Crypto) (h h' : List Spec.RegOp) (engineID : Bytes) (ns : String) (n : Nat)
    (hreg : (Spec.Reg.after c h).engine engineID = some (ns, n))
    (hheld : ∀ p, p <+: h' →
      Spec.releases engineID ns p < n + Spec.registrations engineID ns p) :
    (Spec.Reg.after c (h ++ h')).engine engineID =
      some (ns, n + Spec.registrations engineID ns h' - Spec.releases engineID ns h') := by
  induction h' using List.reverseRecOn with
  | nil => simpa [Spec.registrations, Spec.releases] using hreg
  | append_singleton h' op ih =>
    have ih := ih fun p hp => hheld p (hp.trans (List.prefix_append _ _))
    have h1 := hheld h' (List.prefix_append _ _)
    have h2 := hheld (h' ++ [op]) (List.prefix_refl _)
    rw [← List.append_assoc, Spec.Reg.after_snoc]
    generalize Spec.Reg.after c (h ++ h') = s at ih ⊢
    unfold Spec.registrations Spec.releases at *
    rw [List.countP_append, List.countP_append] at h2 ⊢
    cases op with
    | addUser a seed =>
      simp only [Spec.Reg.step]
      have : (s.addUser c a).2.engine = s.engine := by
        unfold Spec.Reg.addUser
        split
        · rfl
        · simp only; split
          · rfl
          · split
            · split <;> rfl
            · rfl
      rw [this, ih]
      simp
    | register i n' seed =>
      simp only [Spec.Reg.step, Spec.Reg.register]
      by_cases hi : i = engineID
      · subst hi
        rw [ih]
        simp only
        by_cases hn : ns = n'
        · subst hn
          simp only [↓reduceIte, List.countP_singleton, decide_true, Bool.and_self]
          congr 2
          simp only [Bool.false_eq_true, ↓reduceIte]
          omega
        · rw [if_neg hn, ih]
          simp [List.countP_singleton, Ne.symm hn]
      · have hne : ¬ engineID = i := fun hh => hi hh.symm
        cases hs : s.engine i with
        | none => simp [hne, ih, List.countP_singleton, hi]
        | some e =>
          obtain ⟨n2, k⟩ := e
          simp only
          split <;> simp [hne, ih, List.countP_singleton, hi]
    | unregister i n' =>
      simp only [Spec.Reg.step, Spec.Reg.unregister]
      by_cases hi : i = engineID
      · subst hi
        rw [ih]
        simp only
        by_cases hn : ns = n'
        · subst hn
          simp only [List.countP_singleton, decide_true, Bool.and_self, ↓reduceIte,
            Bool.false_eq_true] at h2 ⊢
          rw [if_neg (by omega)]
          simp only [↓reduceIte]
          congr 2
        · rw [if_neg hn, ih]
          simp [List.countP_singleton, Ne.symm hn]
      · have hne : ¬ engineID = i := fun hh => hi hh.symm
        cases hs : s.engine i with
        | none => simp [hne, ih, List.countP_singleton, hi]
        | some e =>
          obtain ⟨n2, k⟩ := e
          simp only
          split
          · split <;> simp [hne, ih, List.countP_singleton, hi]
          · simp [hne, ih, List.countP_singleton, hi]

/-- C39: the last release removes the registration; then every lookup fails and any namespace can
register the engine. -/
theorem C39_last (c : Crypto) (hc : c.Ok) (h : List Spec.RegOp) (engineID : Bytes) (ns : String)
    (hreg : (Spec.Reg.after c h).engine engineID = some (ns, 1)) :
    ((UserRegistry.after c h).apply c (.unregister engineID ns)).1 = .ok true ∧
    (∀ name, (UserRegistry.after c (h ++ [.unregister engineID ns])).getCredentials engineID name =
      .error .invalidEngineID) ∧
    (∀ ns' seed, ((UserRegistry.after c (h ++ [.unregister engineID ns])).apply c
      (.register engineID ns' seed)).1 = .ok true) := by
  have hnone : (Spec.Reg.after c (h ++ [.unregister engineID ns])).engine engineID = none := by
    rw [Spec.Reg.after_snoc]
    simp only [Spec.Reg.step, Spec.Reg.unregister]
    rw [hreg]; simp
  refine ⟨?_, fun name => ?_, fun ns' seed => ?_⟩
  · rw [C38_results c hc]
    simp only [Spec.Reg.step, Spec.Reg.unregister]
    rw [hreg]; simp
  · have := C38_lookup c hc (h ++ [.unregister engineID ns]) engineID name
    rw [hnone] at this
    exact this
  · rw [C39_register c hc]
    simp [hnone]

/-- C39: a registration or release under another namespace than the one the engine is registered
under changes nothing at all. -/
theorem C39_refused (c : Crypto) (hc : c.Ok) (h : List Spec.RegOp) (engineID : Bytes)
    (ns ns' : String) (n : Nat) (seed : Bytes → Nat)
    (hreg : (Spec.Reg.after c h).engine engineID = some (ns, n)) (hne : ns' ≠ ns) :
    (UserRegistry.after c h).apply c (.register engineID ns' seed) =
      (.ok false, UserRegistry.after c h) ∧
    (UserRegistry.after c h).apply c (.unregister engineID ns') =
      (.ok false, UserRegistry.after c h) := by
  have ok := RegOk.after hc h
  have he := ok.engine engineID
  generalize UserRegistry.after c h = r at ok he ⊢
  rw [hreg] at he
  cases hg : r.engines.get engineID with
  | none => rw [hg] at he; cases he
  | some e =>
    rw [hg] at he
    simp only [Option.map_some, Option.some.injEq, Prod.mk.injEq] at he
    have hcnt := ok.count _ _ hg
    constructor
    · simp only [UserRegistry.apply, UserRegistry.assign, hg, RemoteEngine.assign]
      rw [if_neg (by rw [← he.1]; exact hne)]
      simp only [set_get_self _ hg]
    · simp only [UserRegistry.apply, UserRegistry.release, hg, RemoteEngine.release]
      rw [if_neg (by rw [← he.1]; exact Ne.symm hne)]
      have hz : decide (e.count = 0) = false := by simp; omega
      simp only [hz, set_get_self _ hg]

/-- Registered twice and released once: still registered. -/
example (c : Crypto) : (Spec.Reg.after c ([.register [1] "" fun _ => 0] ++
    [.register [1] "" fun _ => 0, .register [1] "x" fun _ => 0, .unregister [1] ""])).engine [1] =
    some ("", 1) := by
  simp [Spec.Reg.after, Spec.Reg.step, Spec.Reg.register, Spec.Reg.unregister, Spec.Reg.empty]

/-! ## C40 -/

/-- What `getDefaultUser` shows: the default user, if there is one. -/
theorem C40_getDefaultUser (c : Crypto) (hc : c.Ok) (h : List Spec.RegOp) (ns : String) :
    ((UserRegistry.after c h).getDefaultUser ns).toOption.join =
      (Spec.Reg.after c h).defaultUser ns := by
  have := (RegOk.after hc h).dflt ns
  rw [← this]
  unfold UserRegistry.getDefaultUser UserRegistry.getNamespace
  cases (UserRegistry.after c h).namespaces.get ns <;> rfl

/-- What `getDefaultSecurityLevel` shows: the level configured for the user, if there is one. -/
theorem C40_getDefaultSecurityLevel (c : Crypto) (hc : c.Ok) (h : List Spec.RegOp) (ns : String)
    (name : Bytes) : ((UserRegistry.after c h).getDefaultSecurityLevel name ns).toOption =
      ((Spec.Reg.after c h).user ns name).map Prod.snd := by
  have := (RegOk.after hc h).user ns name
  unfold UserRegistry.getDefaultSecurityLevel UserRegistry.getNamespace NamespaceConfig.findUser
  revert this
  cases (UserRegistry.after c h).namespaces.get ns with
  | none =>
    intro this
    cases hu : (Spec.Reg.after c h).user ns name with
    | none => rfl
    | some u => rw [hu] at this; cases this
  | some n =>
    simp only [Option.bind_some, orRaise, Except.bind]
    intro this
    rw [this]
    cases (Spec.Reg.after c h).user ns name <;> rfl

/-- C40: adding a user raises UserNameCollision exactly if its arguments are usable and the name
exists in the namespace with another configuration, or is asked to become the default user without
being it. -/
theorem C40_collision (c : Crypto) (hc : c.Ok) (h : List Spec.RegOp) (a : UserArgs)
    (seed : Bytes → Nat) :
    ((UserRegistry.after c h).apply c (.addUser a seed)).1 = .error .userNameCollision ↔
      ∃ cr old, Credentials.new c a.authProtocol a.authSecret a.privProtocol a.privSecret a.secret =
          .ok cr ∧
        (Spec.supported a).lt (a.defaultSecurityLevel.getD (Spec.supported a)) = false ∧
        (Spec.Reg.after c h).user a.namespace a.userName = some old ∧
        (old ≠ (cr, a.defaultSecurityLevel.getD (Spec.supported a)) ∨
          (a.default = true ∧ (Spec.Reg.after c h).defaultUser a.namespace ≠ some a.userName)) := by
  rw [C38_results c hc]
  simp only [Spec.Reg.step, Spec.Reg.addUser]
  have hcre : ∀ e, Credentials.new c a.authProtocol a.authSecret a.privProtocol a.privSecret a.secret =
      .error e → e = .zeroDivisionError := by
    have hk : ∀ (p : AuthProto) x e, p.computeKey c x = .error e → e = .zeroDivisionError := by
      intro p x e he
      unfold AuthProto.computeKey at he
      split at he
      · injection he with he; exact he.symm
      · cases he
    intro e he
    unfold Credentials.new at he
    split at he
    · cases he
    · split at he
      · rename_i p _ _ _
        cases hx : p.computeKey c (orSecret a.authSecret a.secret) with
        | error e' => rw [hx] at he; injection he with he; rw [← he]; exact hk _ _ _ hx
        | ok k => rw [hx] at he; cases he
      · rename_i p _ _ _ _
        cases hx : p.computeKey c (orSecret a.privSecret a.secret) with
        | error e' => rw [hx] at he; injection he with he; rw [← he]; exact hk _ _ _ hx
        | ok k =>
          rw [hx] at he
          cases hy : p.computeKey c (orSecret a.authSecret a.secret) with
          | error e' => rw [hy] at he; injection he with he; rw [← he]; exact hk _ _ _ hy
          | ok k => rw [hy] at he; cases he
  cases hcr : Credentials.new c a.authProtocol a.authSecret a.privProtocol a.privSecret a.secret with
  | error e => rw [hcre e hcr]; simp
  | ok cr =>
    simp only
    by_cases hlt : (Spec.supported a).lt (a.defaultSecurityLevel.getD (Spec.supported a)) = true
    · rw [if_pos hlt]; simp [hlt]
    · rw [if_neg hlt]
      have hlt' : (Spec.supported a).lt (a.defaultSecurityLevel.getD (Spec.supported a)) = false := by
        simpa using hlt
      cases hu : (Spec.Reg.after c h).user a.namespace a.userName with
      | none => simp
      | some old =>
        simp only
        split
        · rename_i hcol
          simp only [true_iff]
          exact ⟨cr, old, rfl, hlt', rfl, hcol⟩
        · rename_i hcol
          simp only [reduceCtorEq, false_iff]
          rintro ⟨cr', old', h1, -, h2, h3⟩
          injection h1 with h1; injection h2 with h2
          subst h1; subst h2
          exact hcol h3

/-- C40: if adding a user raises, whatever the reason, no user, default user, engine or credential
changes. -/
theorem C40_unchanged (c : Crypto) (hc : c.Ok) (h : List Spec.RegOp) (a : UserArgs)
    (seed : Bytes → Nat) (e : PyErr)
    (herr : ((UserRegistry.after c h).apply c (.addUser a seed)).1 = .error e) :
    Spec.Reg.after c (h ++ [.addUser a seed]) = Spec.Reg.after c h ∧
    (∀ engineID name, (UserRegistry.after c (h ++ [.addUser a seed])).getCredentials engineID name =
      (UserRegistry.after c h).getCredentials engineID name) ∧
    (∀ ns, ((UserRegistry.after c (h ++ [.addUser a seed])).getDefaultUser ns).toOption.join =
      ((UserRegistry.after c h).getDefaultUser ns).toOption.join) ∧
    (∀ ns name, ((UserRegistry.after c (h ++ [.addUser a seed])).getDefaultSecurityLevel
      name ns).toOption = ((UserRegistry.after c h).getDefaultSecurityLevel name ns).toOption) := by
  have hres := C38_results c hc h (.addUser a seed)
  rw [herr] at hres
  have hspec : ((Spec.Reg.after c h).addUser c a).2 = Spec.Reg.after c h := by
    simp only [Spec.Reg.step] at hres
    revert hres
    unfold Spec.Reg.addUser
    split
    · intros; rfl
    · simp only; split
      · intros; rfl
      · split
        · split
          · intros; rfl
          · intros; rfl
        · intro hh; cases hh
  have hsame : Spec.Reg.after c (h ++ [.addUser a seed]) = Spec.Reg.after c h := by
    rw [Spec.Reg.after_snoc]; exact hspec
  refine ⟨hsame, ?_, ?_, ?_⟩
  · intro engineID name
    obtain ⟨config, r', h1, h2, h3, h4⟩ := addUser_tail c _ _ a seed (RegOk.after hc h)
    obtain ⟨-, -, q3⟩ := addUserTail_spec hc h2 a seed h1
    have := q3 ⟨by rw [hspec], e, by simpa [Spec.Reg.step] using hres.symm⟩
    rw [UserRegistry.after_snoc]
    simp only [UserRegistry.apply, h4, this, UserRegistry.getCredentials, h3]
  · intro ns; rw [C40_getDefaultUser c hc, C40_getDefaultUser c hc, hsame]
  · intro ns name
    rw [C40_getDefaultSecurityLevel c hc, C40_getDefaultSecurityLevel c hc, hsame]

/-- C40: re-adding an existing user with the same configuration, and without asking to make a
non-default user default, succeeds and changes no configuration; lookups give the same keys as before
(C38), only the privacy salt is drawn anew. -/
theorem C40_readd (c : Crypto) (hc : c.Ok) (h : List Spec.RegOp) (a : UserArgs) (seed : Bytes → Nat)
    (cr : Credentials)
    (hcr : Credentials.new c a.authProtocol a.authSecret a.privProtocol a.privSecret a.secret = .ok cr)
    (hsame : (Spec.Reg.after c h).user a.namespace a.userName =
      some (cr, a.defaultSecurityLevel.getD (Spec.supported a)))
    (hd : a.default = true → (Spec.Reg.after c h).defaultUser a.namespace = some a.userName) :
    ((UserRegistry.after c h).apply c (.addUser a seed)).1 = .ok true ∧
    Spec.Reg.after c (h ++ [.addUser a seed]) = Spec.Reg.after c h := by
  have hl := ((RegOk.after hc h).cred _ _ _ _ hsame).2
  rw [(Credentials.new_ok hcr).2] at hl
  have key : (Spec.Reg.after c h).addUser c a = (.ok true, Spec.Reg.after c h) := by
    unfold Spec.Reg.addUser
    rw [hcr]
    simp only [hsame]
    rw [if_neg (by rw [hl]; simp), if_neg]
    rintro (h1 | ⟨h1, h2⟩)
    · exact h1 rfl
    · exact h2 (hd h1)
  rw [C38_results c hc, Spec.Reg.after_snoc]
  simp only [Spec.Reg.step, key, and_self]

/-- C40: a user added under a new name becomes the default user of its namespace exactly if it says so
or the namespace has none; every other namespace keeps its default user. -/
theorem C40_default (c : Crypto) (h : List Spec.RegOp) (a : UserArgs) (seed : Bytes → Nat)
    (hnew : (Spec.Reg.after c h).user a.namespace a.userName = none)
    (hok : ((Spec.Reg.after c h).step c (.addUser a seed)).1 = .ok true) :
    (Spec.Reg.after c (h ++ [.addUser a seed])).defaultUser a.namespace =
      (if a.default = true ∨ (Spec.Reg.after c h).defaultUser a.namespace = none then some a.userName
        else (Spec.Reg.after c h).defaultUser a.namespace) ∧
    ∀ ns, ns ≠ a.namespace → (Spec.Reg.after c (h ++ [.addUser a seed])).defaultUser ns =
      (Spec.Reg.after c h).defaultUser ns := by
  rw [Spec.Reg.after_snoc]
  revert hok
  simp only [Spec.Reg.step]
  unfold Spec.Reg.addUser
  split
  · intro hh; cases hh
  · simp only
    split
    · intro hh; cases hh
    · rw [hnew]
      simp only
      intro _
      exact ⟨by simp, fun ns hns => by simp [hns]⟩

/-- C40: no later call changes the configuration of a user. -/
theorem C40_permanent (c : Crypto) (h h' : List Spec.RegOp) (ns : String) (name : Bytes)
    (u : Credentials × SecurityLevel) (hu : (Spec.Reg.after c h).user ns name = some u) :
    (Spec.Reg.after c (h ++ h')).user ns name = some u := by
  induction h' using List.reverseRecOn with
  | nil => rw [List.append_nil]; exact hu
  | append_singleton h' op ih =>
    rw [← List.append_assoc, Spec.Reg.after_snoc]
    generalize Spec.Reg.after c (h ++ h') = s at ih ⊢
    cases op with
    | addUser a seed =>
      simp only [Spec.Reg.step]
      unfold Spec.Reg.addUser
      split
      · exact ih
      · simp only
        split
        · exact ih
        · split
          · split <;> exact ih
          · rename_i hnone
            simp only
            rw [if_neg]
            · exact ih
            · rintro ⟨rfl, rfl⟩; rw [hnone] at ih; cases ih
    | register i n seed =>
      simp only [Spec.Reg.step, Spec.Reg.register]
      split
      · exact ih
      · split <;> exact ih
    | unregister i n =>
      simp only [Spec.Reg.step, Spec.Reg.unregister]
      split
      · exact ih
      · split
        · split <;> exact ih
        · exact ih

/-- The sample user again with another secret collides; again as it was is accepted. -/
example : ((Spec.Reg.after Spec.toyCrypto Spec.sampleCalls).step Spec.toyCrypto (.addUser
      { userName := [97], authProtocol := some .hmacSha } fun _ => 0)).1 = .error .zeroDivisionError ∧
    ((Spec.Reg.after Spec.toyCrypto Spec.sampleCalls).step Spec.toyCrypto (.addUser
      { userName := [97] } fun _ => 0)).1 = .error .userNameCollision := by
  constructor <;>
  simp [Spec.Reg.after, Spec.sampleCalls, Spec.sampleUser, Spec.Reg.step, Spec.Reg.register, Spec.Reg.addUser,
    Spec.Reg.empty, Credentials.new, AuthProto.computeKey, orSecret, Except.bind, Spec.supported,
    SecurityLevel.lt, authPriv, noAuthNoPriv]

/-! ## C41 -/

/-- C41: after any history the default level of every configured user is at most what its credentials
support. -/
theorem C41_bounded (c : Crypto) (hc : c.Ok) (h : List Spec.RegOp) (ns : String) (name : Bytes)
    (cr : Credentials) (l : SecurityLevel)
    (hu : (Spec.Reg.after c h).user ns name = some (cr, l)) :
    ((UserRegistry.after c h).getDefaultSecurityLevel name ns) = .ok l ∧
    cr.maxSecurityLevel.lt l = false ∧
    (l.auth = true → cr.auth.isSome) ∧ (l.auth = true → l.priv = true → cr.priv.isSome) := by
  have ok := RegOk.after hc h
  obtain ⟨hok, hl⟩ := ok.cred _ _ _ _ hu
  refine ⟨?_, hl, ?_⟩
  · have := C40_getDefaultSecurityLevel c hc h ns name
    rw [hu] at this
    cases hx : (UserRegistry.after c h).getDefaultSecurityLevel name ns with
    | error e => rw [hx] at this; cases this
    | ok l' => rw [hx] at this; injection this with this; rw [this]
  · obtain ⟨h1, h2⟩ := hok
    rw [h2] at hl
    revert hl
    obtain ⟨x, y⟩ := l
    cases hca : cr.auth <;> cases hcp : cr.priv <;> cases x <;> cases y <;>
      simp [SecurityLevel.lt, noAuthNoPriv, authNoPriv, authPriv]

/-- C41: adding a new user, if it does not raise, makes its default level the one given or, if none is
given, the highest its protocols allow. -/
theorem C41_set (c : Crypto) (hc : c.Ok) (h : List Spec.RegOp) (a : UserArgs) (seed : Bytes → Nat)
    (b : Bool) (hok : ((UserRegistry.after c h).apply c (.addUser a seed)).1 = .ok b) :
    (UserRegistry.after c (h ++ [.addUser a seed])).getDefaultSecurityLevel a.userName a.namespace =
      .ok (a.defaultSecurityLevel.getD (Spec.supported a)) := by
  rw [C38_results c hc] at hok
  have hu : ∃ cr, (Spec.Reg.after c (h ++ [.addUser a seed])).user a.namespace a.userName =
      some (cr, a.defaultSecurityLevel.getD (Spec.supported a)) := by
    rw [Spec.Reg.after_snoc]
    simp only [Spec.Reg.step, Spec.Reg.addUser] at hok ⊢
    cases hcr : Credentials.new c a.authProtocol a.authSecret a.privProtocol a.privSecret a.secret with
    | error e => rw [hcr] at hok; cases hok
    | ok cr =>
      rw [hcr] at hok
      simp only at hok ⊢
      by_cases hlt : (Spec.supported a).lt (a.defaultSecurityLevel.getD (Spec.supported a)) = true
      · rw [if_pos hlt] at hok; cases hok
      · rw [if_neg hlt] at hok ⊢
        cases hu : (Spec.Reg.after c h).user a.namespace a.userName with
        | none => exact ⟨cr, by simp⟩
        | some old =>
          rw [hu] at hok
          simp only at hok ⊢
          split at hok
          · cases hok
          · rename_i hcol
            rw [if_neg hcol]
            refine ⟨cr, ?_⟩
            rw [hu]
            by_contra hne
            exact hcol (Or.inl fun hh => hne (by rw [hh]))
  obtain ⟨cr, hu⟩ := hu
  exact (C41_bounded c hc _ _ _ _ _ hu).1

/-- C41: asking for a default level above what the protocols allow raises ValueError (if the keys can
be computed at all) and adds nothing. -/
theorem C41_unsupported (c : Crypto) (hc : c.Ok) (h : List Spec.RegOp) (a : UserArgs)
    (seed : Bytes → Nat) (cr : Credentials) (l : SecurityLevel)
    (hcr : Credentials.new c a.authProtocol a.authSecret a.privProtocol a.privSecret a.secret = .ok cr)
    (hl : a.defaultSecurityLevel = some l) (hlt : (Spec.supported a).lt l = true) :
    ((UserRegistry.after c h).apply c (.addUser a seed)).1 = .error .valueError ∧
    Spec.Reg.after c (h ++ [.addUser a seed]) = Spec.Reg.after c h := by
  have h1 : ((UserRegistry.after c h).apply c (.addUser a seed)).1 = .error .valueError := by
    rw [C38_results c hc]
    simp only [Spec.Reg.step, Spec.Reg.addUser, hcr, hl, Option.getD_some, hlt, ↓reduceIte]
  exact ⟨h1, (C40_unchanged c hc h a seed _ h1).1⟩

/-- A user without protocols cannot default to authentication. -/
example : Credentials.new Spec.toyCrypto none none none none [] = .ok ⟨none, none, noAuthNoPriv⟩ ∧
    (Spec.supported { userName := [97] }).lt authNoPriv = true := ⟨rfl, by decide⟩

end Snmp
