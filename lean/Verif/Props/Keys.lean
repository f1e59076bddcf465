import Verif.Props.Users
/-!
# Property C97: the keys of a user; C40: what the queries raise
-/

namespace Snmp

/-! ## C40: the queries, with their exceptions -/

/-- Somebody tried to add a user to the namespace. -/
def Spec.Mentioned (ns : String) (h : List Spec.RegOp) : Prop :=
  ∃ a seed, Spec.RegOp.addUser a seed ∈ h ∧ a.namespace = ns

theorem addUserTail_known (c : Crypto) (r : UserRegistry) (config : NamespaceConfig) (a : UserArgs)
    (seed : Bytes → Nat) (ns : String) (hr : (r.namespaces.get a.namespace).isSome) :
    ((addUserTail c r config a seed).2.namespaces.get ns).isSome = (r.namespaces.get ns).isSome := by
  unfold addUserTail
  split
  · rfl
  · split
    · rfl
    · simp only [Dict.get_set]
      split
      · rename_i e; rw [e, hr]; rfl
      · rfl

theorem UserRegistry.addUser_known (c : Crypto) (r : UserRegistry) (a : UserArgs)
    (seed : Bytes → Nat) (ns : String) :
    ((r.addUser c a seed).2.namespaces.get ns).isSome =
      ((r.namespaces.get ns).isSome || decide (a.namespace = ns)) := by
  cases hns : r.namespaces.get a.namespace with
  | some config =>
    have : r.addUser c a seed = addUserTail c r config a seed := by
      simp only [UserRegistry.addUser, hns, addUserTail]; rfl
    rw [this, addUserTail_known _ _ _ _ _ _ (by rw [hns]; rfl)]
    by_cases h : a.namespace = ns
    · subst h; rw [hns]; rfl
    · simp [h]
  | none =>
    have : r.addUser c a seed = addUserTail c
        { r with namespaces := r.namespaces.set a.namespace ⟨none, []⟩ } ⟨none, []⟩ a seed := by
      simp only [UserRegistry.addUser, hns, addUserTail]; rfl
    rw [this, addUserTail_known _ _ _ _ _ _ (by simp [Dict.get_set])]
    simp only [Dict.get_set]
    by_cases h : a.namespace = ns
    · subst h; simp
    · rw [if_neg (fun e => h e.symm)]; simp [h]

theorem UserRegistry.known (c : Crypto) (h : List Spec.RegOp) (ns : String) :
    ((UserRegistry.after c h).namespaces.get ns).isSome = true ↔ Spec.Mentioned ns h := by
  induction h using List.reverseRecOn with
  | nil =>
    constructor
    · intro hh; cases hh
    · rintro ⟨a, seed, hh, -⟩; cases hh
  | append_singleton h op ih =>
    rw [UserRegistry.after_snoc]
    have old : Spec.Mentioned ns h → Spec.Mentioned ns (h ++ [op]) := fun ⟨a, s, h1, h2⟩ =>
      ⟨a, s, List.mem_append_left _ h1, h2⟩
    have other : (∀ a s, op ≠ .addUser a s) → Spec.Mentioned ns (h ++ [op]) → Spec.Mentioned ns h := by
      rintro hne ⟨a, s, h1, h2⟩
      rcases List.mem_append.1 h1 with h1 | h1
      · exact ⟨a, s, h1, h2⟩
      · exact absurd (List.mem_singleton.1 h1).symm (hne a s)
    cases op with
    | addUser a seed =>
      simp only [UserRegistry.apply]
      rw [UserRegistry.addUser_known, Bool.or_eq_true, ih, decide_eq_true_eq]
      constructor
      · rintro (h1 | h1)
        · exact old h1
        · exact ⟨a, seed, by simp, h1⟩
      · rintro ⟨b, s, h1, h2⟩
        rcases List.mem_append.1 h1 with h1 | h1
        · exact Or.inl ⟨b, s, h1, h2⟩
        · have := List.mem_singleton.1 h1
          injection this with e1 _
          exact Or.inr (e1 ▸ h2)
    | register i n seed =>
      have : ((UserRegistry.after c h).apply c (.register i n seed)).2.namespaces =
          (UserRegistry.after c h).namespaces := by
        simp only [UserRegistry.apply, UserRegistry.assign]
        split
        · split <;> rfl
        · rfl
      rw [this, ih]
      exact ⟨old, other fun _ _ => by simp⟩
    | unregister i n =>
      have : ((UserRegistry.after c h).apply c (.unregister i n)).2.namespaces =
          (UserRegistry.after c h).namespaces := by
        simp only [UserRegistry.apply, UserRegistry.release]
        split
        · rfl
        · split <;> rfl
      rw [this, ih]
      exact ⟨old, other fun _ _ => by simp⟩

/-- C40: asking for the default level of a user gives the configured level; it raises InvalidUserName
if the namespace has been mentioned but the user does not exist there, and ValueError if nobody ever
tried to add a user to the namespace. Asking for the default user of a namespace gives that user or
nothing, and raises ValueError in the same case. -/
theorem C40_queries (c : Crypto) (hc : c.Ok) (h : List Spec.RegOp) (ns : String) (name : Bytes) :
    (Spec.Mentioned ns h →
      (UserRegistry.after c h).getDefaultUser ns = .ok ((Spec.Reg.after c h).defaultUser ns) ∧
      (UserRegistry.after c h).getDefaultSecurityLevel name ns =
        match (Spec.Reg.after c h).user ns name with
        | some (_, l) => .ok l
        | none => .error .invalidUserName) ∧
    (¬ Spec.Mentioned ns h →
      (UserRegistry.after c h).getDefaultUser ns = .error .valueError ∧
      (UserRegistry.after c h).getDefaultSecurityLevel name ns = .error .valueError) := by
  have hk := UserRegistry.known c h ns
  have ok := RegOk.after hc h
  constructor
  · intro hm
    cases hg : (UserRegistry.after c h).namespaces.get ns with
    | none => rw [hg] at hk; cases hk.2 hm
    | some config =>
      obtain ⟨h1, h2⟩ := config_of ok hg
      unfold UserRegistry.getDefaultUser UserRegistry.getDefaultSecurityLevel
        UserRegistry.getNamespace NamespaceConfig.findUser
      rw [hg]
      simp only [orRaise, Except.bind, h1, h2, true_and]
      cases (Spec.Reg.after c h).user ns name <;> rfl
  · intro hm
    cases hg : (UserRegistry.after c h).namespaces.get ns with
    | some config => rw [hg] at hk; exact absurd (hk.1 rfl) hm
    | none =>
      unfold UserRegistry.getDefaultUser UserRegistry.getDefaultSecurityLevel
        UserRegistry.getNamespace
      rw [hg]
      exact ⟨rfl, rfl⟩

/-- A refused user leaves the namespace mentioned. -/
example : Spec.Mentioned "" Spec.sampleCalls ∧ ¬ Spec.Mentioned "x" Spec.sampleCalls := by
  constructor
  · exact ⟨Spec.sampleUser, fun _ => 0, by simp [Spec.sampleCalls], rfl⟩
  · rintro ⟨a, s, h1, h2⟩
    simp only [Spec.sampleCalls, List.mem_cons, reduceCtorEq, List.not_mem_nil, or_false,
      false_or] at h1
    injection h1 with e
    rw [e] at h2
    revert h2
    decide

/-! ## C97 -/

/-- The secret given for one purpose, or the common one if none (or an empty one) is given. -/
def Spec.chosen (own : Option Bytes) (common : Bytes) : Bytes :=
  if own = none ∨ own = some [] then common else own.getD []

/-- 2^20 octets, repeating the secret (RFC 3414, A.2). -/
def Spec.stretched (secret : Bytes) : Bytes :=
  (List.range 1048576).map fun i => secret.getD (i % secret.length) 0

/-- The localised key of a secret (RFC 3414, A.2 and 2.6). -/
def Spec.localKey (c : Crypto) (p : AuthProto) (secret engineID : Bytes) : Bytes :=
  let K := c.hash p (Spec.stretched secret)
  c.hash p (K ++ engineID ++ K)

/-- The keys that go with the arguments of addUser at an engine. Both keys are made with the hash of
the authentication protocol; a privacy protocol without an authentication protocol is ignored. -/
def Spec.RfcKeys (c : Crypto) (a : UserArgs) (engineID : Bytes) (l : LocalizedCredentials) : Prop :=
  match a.authProtocol with
  | none => l.auth = none ∧ l.priv = none
  | some p =>
    l.auth = some ⟨p, Spec.localKey c p (Spec.chosen a.authSecret a.secret) engineID⟩ ∧
    let K := Spec.localKey c p (Spec.chosen a.privSecret a.secret) engineID
    match a.privProtocol with
    | none => l.priv = none
    | some .aesCfb128 => ∃ salt, l.priv = some ⟨.aesCfb128, K.take 16, [], salt⟩
    | some .desCbc => ∃ salt, l.priv = some ⟨.desCbc, K.take 8, (K.take 16).drop 8, salt⟩

/-- Some protocol of the user has an empty secret. -/
def Spec.Empty (a : UserArgs) : Prop :=
  a.authProtocol ≠ none ∧ (Spec.chosen a.authSecret a.secret = [] ∨
    (a.privProtocol ≠ none ∧ Spec.chosen a.privSecret a.secret = []))

theorem orSecret_chosen (own : Option Bytes) (common : Bytes) :
    orSecret own common = Spec.chosen own common := by
  unfold orSecret Spec.chosen
  match own with
  | none => simp
  | some [] => simp
  | some (x :: xs) => simp

theorem computeKey_stretched (c : Crypto) (p : AuthProto) (secret : Bytes) (h : secret ≠ []) :
    p.computeKey c secret = .ok (c.hash p (Spec.stretched secret)) := by
  obtain ⟨x, h1, h2, h3⟩ := C42_stretch c p secret h
  suffices hx : x = Spec.stretched secret by rw [h1, hx]
  refine List.ext_getElem? fun i => ?_
  unfold Spec.stretched
  by_cases hi : i < 1048576
  · rw [h3 i hi]
    have hl : 0 < secret.length := List.length_pos_iff.2 h
    have hm := Nat.mod_lt i hl
    rw [List.getElem?_map, List.getElem?_range hi, Option.map_some, List.getD_eq_getElem?_getD,
      List.getElem?_eq_getElem hm, Option.getD_some]
  · rw [List.getElem?_eq_none (by omega), List.getElem?_eq_none (by simp; omega)]

theorem Credentials.new_keys (c : Crypto) (a : UserArgs) :
    (Spec.Empty a → Credentials.new c a.authProtocol a.authSecret a.privProtocol a.privSecret a.secret
      = .error .zeroDivisionError) ∧
    (¬ Spec.Empty a → ∃ cr,
      Credentials.new c a.authProtocol a.authSecret a.privProtocol a.privSecret a.secret = .ok cr ∧
      ∀ engineID l, Spec.Localised c cr engineID l → Spec.RfcKeys c a engineID l) := by
  unfold Credentials.new Spec.Empty
  cases hp : a.authProtocol with
  | none =>
    refine ⟨fun h => absurd rfl h.1, fun _ => ⟨_, rfl, fun i l h => ?_⟩⟩
    unfold Spec.RfcKeys; rw [hp]; exact h
  | some p =>
    have z : p.computeKey c [] = .error .zeroDivisionError := rfl
    cases hq : a.privProtocol with
    | none =>
      simp only [ne_eq, reduceCtorEq, not_false_eq_true, true_and, not_true_eq_false, false_and,
        or_false, orSecret_chosen]
      constructor
      · intro h; rw [h, z]; rfl
      · intro h
        rw [computeKey_stretched c p _ h]
        refine ⟨_, rfl, fun i l hl => ?_⟩
        unfold Spec.RfcKeys; rw [hp, hq]; exact hl
    | some q =>
      simp only [ne_eq, reduceCtorEq, not_false_eq_true, true_and, orSecret_chosen, not_or]
      constructor
      · intro h
        by_cases hb : Spec.chosen a.privSecret a.secret = []
        · rw [hb, z]; rfl
        · rw [computeKey_stretched c p _ hb, h.resolve_right hb, z]; rfl
      · rintro ⟨h1, h2⟩
        rw [computeKey_stretched c p _ h2, computeKey_stretched c p _ h1]
        refine ⟨_, rfl, fun i l hl => ?_⟩
        unfold Spec.RfcKeys
        rw [hp, hq]
        obtain ⟨hl1, salt, hl2⟩ := hl
        refine ⟨hl1, ?_⟩
        cases q with
        | aesCfb128 => exact ⟨salt, hl2⟩
        | desCbc => exact ⟨salt, hl2⟩

theorem Spec.Reg.added (c : Crypto) (s : Spec.Reg) (a : UserArgs) (b : Bool)
    (hok : (s.addUser c a).1 = .ok b) : ∃ cr l,
      Credentials.new c a.authProtocol a.authSecret a.privProtocol a.privSecret a.secret = .ok cr ∧
      (s.addUser c a).2.user a.namespace a.userName = some (cr, l) := by
  simp only [Spec.Reg.addUser] at hok ⊢
  cases hcr : Credentials.new c a.authProtocol a.authSecret a.privProtocol a.privSecret a.secret with
  | error e => rw [hcr] at hok; cases hok
  | ok cr =>
    refine ⟨cr, a.defaultSecurityLevel.getD (Spec.supported a), rfl, ?_⟩
    rw [hcr] at hok
    simp only at hok ⊢
    by_cases hlt : (Spec.supported a).lt (a.defaultSecurityLevel.getD (Spec.supported a)) = true
    · rw [if_pos hlt] at hok; cases hok
    · rw [if_neg hlt] at hok ⊢
      cases hu : s.user a.namespace a.userName with
      | none => simp
      | some old =>
        rw [hu] at hok
        simp only at hok ⊢
        split at hok
        · cases hok
        · rename_i hcol
          rw [if_neg hcol, hu]
          by_contra hne
          exact hcol (Or.inl fun hh => hne (by rw [hh]))

/-- C97: once addUser has accepted a user, then whatever is called afterwards, an engine that is
registered under the namespace of the user (before or after) has for that name exactly the keys RFC
3414 derives from the given secrets and the engine ID. -/
theorem C97_keys (c : Crypto) (hc : c.Ok) (h h' : List Spec.RegOp) (a : UserArgs)
    (seed : Bytes → Nat) (b : Bool) (engineID : Bytes) (n : Nat)
    (hok : ((UserRegistry.after c h).apply c (.addUser a seed)).1 = .ok b)
    (he : (Spec.Reg.after c (h ++ [.addUser a seed] ++ h')).engine engineID = some (a.namespace, n)) :
    ∃ l, (UserRegistry.after c (h ++ [.addUser a seed] ++ h')).getCredentials engineID a.userName =
        .ok l ∧ Spec.RfcKeys c a engineID l := by
  rw [C38_results c hc] at hok
  obtain ⟨cr, l, h1, h2⟩ := Spec.Reg.added c _ a b hok
  have hu : (Spec.Reg.after c (h ++ [.addUser a seed] ++ h')).user a.namespace a.userName =
      some (cr, l) := C40_permanent c _ h' _ _ _ (by rw [Spec.Reg.after_snoc]; exact h2)
  have hl := C38_lookup c hc (h ++ [.addUser a seed] ++ h') engineID a.userName
  rw [he] at hl
  simp only at hl
  rw [hu] at hl
  obtain ⟨l', h3, h4⟩ := hl
  refine ⟨l', h3, ?_⟩
  have hk := Credentials.new_keys c a
  by_cases hem : Spec.Empty a
  · rw [hk.1 hem] at h1; cases h1
  · obtain ⟨cr', h5, h6⟩ := hk.2 hem
    rw [h1] at h5
    injection h5 with h5
    exact h6 _ _ (h5 ▸ h4)

/-- C97: addUser raises ZeroDivisionError exactly if a protocol of the user has no secret or an empty
one; then nothing is configured. -/
theorem C97_empty (c : Crypto) (hc : c.Ok) (h : List Spec.RegOp) (a : UserArgs)
    (seed : Bytes → Nat) :
    (((UserRegistry.after c h).apply c (.addUser a seed)).1 = .error .zeroDivisionError ↔
      Spec.Empty a) ∧
    (Spec.Empty a → Spec.Reg.after c (h ++ [.addUser a seed]) = Spec.Reg.after c h) := by
  have hk := Credentials.new_keys c a
  have key : ((UserRegistry.after c h).apply c (.addUser a seed)).1 = .error .zeroDivisionError ↔
      Spec.Empty a := by
    rw [C38_results c hc]
    simp only [Spec.Reg.step, Spec.Reg.addUser]
    constructor
    · intro h1
      by_contra hem
      obtain ⟨cr', h5, -⟩ := hk.2 hem
      rw [h5] at h1
      simp only at h1
      split at h1
      · cases h1
      · split at h1
        · split at h1 <;> cases h1
        · cases h1
    · intro hem; rw [hk.1 hem]
  exact ⟨key, fun hem => (C40_unchanged c hc h a seed _ (key.2 hem)).1⟩

/-- A user with its own privacy secret and an empty authentication secret. -/
def Spec.ownSecret : UserArgs where
  userName := [97]
  authProtocol := some .hmacSha
  authSecret := some []
  privProtocol := some .aesCfb128
  privSecret := some [7]
  secret := [5, 6]

/-- A user with its own privacy secret: the hypotheses of `C97_keys` hold, and the secrets chosen are
its own and the common one. -/
example : ∃ a : UserArgs, a.privProtocol = some .aesCfb128 ∧
    ((UserRegistry.after Spec.toyCrypto [.register [1] "" fun _ => 0]).apply Spec.toyCrypto
      (.addUser a fun _ => 0)).1 = .ok true ∧
    (Spec.Reg.after Spec.toyCrypto ([.register [1] "" fun _ => 0] ++ [.addUser a fun _ => 0] ++
      [.register [1] "" fun _ => 0])).engine [1] = some (a.namespace, 2) ∧
    Spec.chosen a.authSecret a.secret = [5, 6] ∧ Spec.chosen a.privSecret a.secret = [7] ∧
    ¬ Spec.Empty a := by
  refine ⟨Spec.ownSecret, rfl, ?_, ?_, ?_, ?_, ?_⟩
  · rw [C38_results _ Spec.toyCrypto_ok]
    simp [Spec.ownSecret, Spec.Reg.after, Spec.Reg.step, Spec.Reg.register, Spec.Reg.addUser,
      Spec.Reg.empty, Credentials.new, AuthProto.computeKey, orSecret, Except.bind, Spec.supported,
      SecurityLevel.lt, authPriv]
  · simp [Spec.ownSecret, Spec.Reg.after, Spec.Reg.step, Spec.Reg.register, Spec.Reg.addUser,
      Spec.Reg.empty, Credentials.new, AuthProto.computeKey, orSecret, Except.bind, Spec.supported,
      SecurityLevel.lt, authPriv]
  · simp [Spec.ownSecret, Spec.chosen]
  · simp [Spec.ownSecret, Spec.chosen]
  · simp [Spec.ownSecret, Spec.Empty, Spec.chosen]

end Snmp
