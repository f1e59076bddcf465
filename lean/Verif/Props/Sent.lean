import Verif.Props.Usm
import Verif.Props.Processor
import Verif.ManagerCommunityLemmas
/-!
# C24, C31, C44, C46 continued, and C78: what is on the wire
-/

namespace Snmp

/-! ## C24: the classes of PDU -/

/-- The PDU classes of SNMPv1 the library knows (RFC 1157; traps are left out). -/
def Spec.V1Class (t : PduType) : Prop :=
  t = .getRequest ∨ t = .getNextRequest ∨ t = .response ∨ t = .setRequest

/-- C24: the SNMPv1 processor's parser accepts a message exactly if its PDU is one of the four classes of
SNMPv1; that of the SNMPv2c processor accepts all eight classes. -/
theorem C24_classes (m : Message) (hver : m.version = .v1 ∨ m.version = .v2c) (hp : Spec.PduSendable m.pdu)
    (e : Bytes) (he : m.encode = .ok e) :
    ((∃ r tail, Message.decode v1Types (.bytes e) = .ok (r, tail)) ↔ Spec.V1Class m.pdu.type) ∧
    (¬Spec.V1Class m.pdu.type → Message.decode v1Types (.bytes e) = .error .parseError) ∧
    ∃ r tail, Message.decode v2Types (.bytes e) = .ok (r, tail) := by
  have hin : ∀ types, m.pdu.type ∈ types → ∃ r tail, Message.decode types (.bytes e) = .ok (r, tail) := by
    intro types ht
    obtain ⟨r, tail, h, -⟩ := C24_roundtrip types m hver hp ht e he (.bytes e) (Asn1Data.valid_bytes e) rfl
    exact ⟨r, tail, h⟩
  have hout : ¬Spec.V1Class m.pdu.type → Message.decode v1Types (.bytes e) = .error .parseError := by
    intro hc
    obtain ⟨body, hb, hbe⟩ := asn1Encode_ok he
    unfold Message.serialize at hb
    obtain ⟨a, ha, hb⟩ := bind_ok hb
    obtain ⟨b, hb', hb⟩ := bind_ok hb
    obtain ⟨x, hx, hb⟩ := bind_ok hb
    injection hb with hb
    obtain ⟨y, -, hye⟩ := asn1Encode_ok hx
    refine C24_other_pdu v1Types m.version.value ?_ m.community m.pdu.type.tag ?_ y a b x e ha hb' hye
      (by rw [hb]; exact hbe) (.bytes e) (Asn1Data.valid_bytes e) rfl
    · rcases hver with h | h <;> rw [h]
      · exact .inl rfl
      · exact .inr rfl
    · intro t ht heq
      refine hc ?_
      have : ∀ t ∈ v1Types, Spec.V1Class t := by
        intro t ht
        simpa [v1Types, Spec.V1Class] using ht
      have hinj : t = m.pdu.type := by
        revert heq
        generalize m.pdu.type = u
        cases t <;> cases u <;> simp [PduType.tag]
      rw [← hinj]
      exact this t ht
  refine ⟨⟨?_, ?_⟩, hout, hin v2Types (by cases m.pdu.type <;> decide)⟩
  · rintro ⟨r, tail, h⟩
    refine Classical.byContradiction fun hc => ?_
    rw [hout hc] at h
    cases h
  · intro h
    refine hin v1Types ?_
    rcases h with h | h | h | h <;> rw [h] <;> decide

/-! ## C31: the ID that goes into the message -/

/-- The allocation loop: with a generator of the processor's kind, the ID has the processor's width, and the
generator stays of that kind. -/
theorem cacheLoop_width {E M : Type} (p : Proto E M) (hb : 1 ≤ p.bits) (n : Nat) (c : Cache E) (e : E)
    (draws : Nat → Nat) (hg : GenOk p c.gen) (hd : ∀ q, DrawOk p (draws q)) :
    GenOk p (Cache.cacheLoop p.bits p.signed n c e draws).2.gen ∧
    ∀ id, (Cache.cacheLoop p.bits p.signed n c e draws).1 = .ok id → NBit p.bits p.signed id := by
  induction n generalizing c draws with
  | zero => exact ⟨hg, fun id h => by cases h⟩
  | succ n ih =>
    unfold Cache.cacheLoop
    rcases Cache.attempt_cases p.bits p.signed c e (draws 0) with ⟨-, h⟩ | ⟨-, -, h⟩ | ⟨-, -, h⟩
    · rw [h]
      exact ih _ _ ⟨draws 0, 0, (hd 0).1, (hd 0).2, rfl⟩ fun q => hd (q + 1)
    · rw [h]
      exact ⟨hg.next, fun id h => by cases h; exact hg.value hb⟩
    · rw [h]
      exact ih _ _ hg.next fun q => hd (q + 1)

/-! ## C44: the signature has the length the RFCs ask for -/

/-- RFC 3414 (MD5, SHA-1: 96 bits) and RFC 7860 (SHA-2). -/
def Spec.macLength : AuthProto → Nat
  | .hmacMd5 => 96 / 8
  | .hmacSha => 96 / 8
  | .hmacSha224 => 128 / 8
  | .hmacSha256 => 192 / 8
  | .hmacSha384 => 256 / 8
  | .hmacSha512 => 384 / 8

/-- C44: the signature field of what is sent under authentication has the length of the user's protocol. -/
theorem C44_length (u : Usm) (b : Backend) (c : Crypto) (hc : c.Ok) (m : V3Message) (s : ScopedPDU)
    (engineID name : Bytes) (t : ℚ) (w : Bytes)
    (hh : Spec.HeaderOk m.header) (hs : m.scopedPDU = some s) (hpdu : Spec.PduSendable s.pdu)
    (hauth : m.header.flags.level.auth = true)
    (h : (u.prepareOutgoing b c m engineID name t).1 = .ok w) :
    ∃ user auth r p, u.users.getCredentials engineID name = .ok user ∧ user.auth = some auth ∧
      V3Message.decode (.bytes w) = .ok r ∧ UsmParams.decode r.securityParameters = .ok p ∧
      p.signature.length = Spec.macLength auth.proto := by
  obtain ⟨user, auth, m', salt, h1, h2, h3, h4⟩ := prepareOutgoing_ok hauth h
  obtain ⟨hhd, hpg⟩ := Protected.good h3 hs hpdu
  obtain ⟨params, before, after, q1, q2, q3, loc, q4, q5⟩ := finish_ok hc
    (by rw [hhd]; exact ⟨hh.1, hh.2, hh.3⟩) hpg h4
  refine ⟨user, auth, _, _, h1, h2, q4, q5, ?_⟩
  simp only
  rw [sign_length hc]
  cases auth.proto <;> rfl

/-! ## C46: the module keeps the counter -/

/-- A privacy object `k` after `n` more encryptions. -/
def PrivKey.Advanced (k k' : PrivKey) (n : Nat) : Prop :=
  k'.proto = k.proto ∧ k'.salt % saltWrap k.proto = (k.salt + n) % saltWrap k.proto

theorem Usm.getCredentials_setPriv (u : Usm) (i n i' n' : Bytes) (k : PrivKey)
    (user : LocalizedCredentials) (hu : u.users.getCredentials i n = .ok user) :
    (u.setPriv i' n' k).users.getCredentials i n =
      .ok (if i = i' ∧ n = n' then ⟨user.auth, some k⟩ else user) := by
  unfold UserRegistry.getCredentials at hu ⊢
  unfold Usm.setPriv
  cases he : u.users.engines.get i' with
  | none =>
    simp only
    rw [if_neg (fun h => by rw [h.1, he] at hu; cases hu)]
    exact hu
  | some e =>
    simp only
    cases hg : e.users.get n' with
    | none =>
      simp only
      rw [if_neg (fun h => by
        rw [h.1, he] at hu
        simp only [orRaise, Except.bind, RemoteEngine.getCredentials] at hu
        rw [h.2, hg] at hu; cases hu)]
      exact hu
    | some cr =>
      simp only
      rw [Dict.get_set]
      by_cases hi : i = i'
      · subst hi
        rw [he] at hu
        simp only [orRaise, Except.bind, RemoteEngine.getCredentials, if_true, true_and] at hu ⊢
        rw [Dict.get_set]
        by_cases hn : n = n'
        · subst hn
          rw [hg] at hu
          cases hu
          simp
        · simp only [if_neg hn]
          exact hu
      · rw [if_neg hi, if_neg (fun h => hi h.1)]
        exact hu

theorem Usm.prepareOutgoing_moved (u : Usm) (b : Backend) (c : Crypto) (m : V3Message) (i n : Bytes) (t : ℚ) :
    ((u.prepareOutgoing b c m i n t).2 = u ∧ (m.header.flags.level.auth = true →
      m.header.flags.level.priv = true → ∀ w, (u.prepareOutgoing b c m i n t).1 ≠ .ok w)) ∨
    ∃ user k data boots time, u.users.getCredentials i n = .ok user ∧ user.priv = some k ∧
      (u.prepareOutgoing b c m i n t).2 = u.setPriv i n (k.encrypt b c data boots time).2 := by
  unfold Usm.prepareOutgoing
  by_cases ha : m.header.flags.level.auth = true
  · simp only [if_pos ha]
    cases hcred : u.users.getCredentials i n with
    | error e => exact .inl ⟨rfl, fun _ _ w h => by cases h⟩
    | ok user =>
      simp only
      cases hau : user.auth with
      | none => exact .inl ⟨rfl, fun _ _ w h => by cases h⟩
      | some auth =>
        simp only
        by_cases hp : m.header.flags.level.priv = true
        · simp only [if_pos hp]
          cases hpk : user.priv with
          | none => exact .inl ⟨rfl, fun _ _ w h => by cases h⟩
          | some pk =>
            simp only
            cases hs : m.scopedPDU with
            | none => exact .inl ⟨rfl, fun _ _ w h => by cases h⟩
            | some s =>
              simp only
              cases hd : s.encode with
              | error e => exact .inl ⟨rfl, fun _ _ w h => by cases h⟩
              | ok data => exact .inr ⟨user, pk, data, _, _, rfl, hpk, rfl⟩
        · simp only [if_neg hp]
          exact .inl ⟨by trivial, fun _ h => absurd h hp⟩
  · simp only [if_neg ha]
    exact .inl ⟨by trivial, fun h => absurd h ha⟩

/-- One event that is not a configuration call advances the counter of a user by one or not at all; by one, if
it sends an encrypted message for that user. -/
theorem Usm.apply_priv (b : Backend) (c : Crypto) (u : Usm) (op : Spec.UsmOp)
    (hop : ∀ x, op ≠ .config x) (engineID name : Bytes) (user : LocalizedCredentials) (k : PrivKey)
    (hu : u.users.getCredentials engineID name = .ok user) (hk : user.priv = some k) :
    ∃ user' k' d, (u.apply b c op).users.getCredentials engineID name = .ok user' ∧
      user'.priv = some k' ∧ k.Advanced k' d ∧ d ≤ 1 ∧
      ∀ m t w, op = .send m engineID name t → m.header.flags.level.auth = true →
        m.header.flags.level.priv = true → (u.prepareOutgoing b c m engineID name t).1 = .ok w → d = 1 := by
  cases op with
  | config x => exact absurd rfl (hop x)
  | receive m t =>
    refine ⟨user, k, 0, ?_, hk, ⟨rfl, rfl⟩, by omega, fun _ _ _ h => by cases h⟩
    show (u.processIncoming b c m t).2.users.getCredentials engineID name = _
    rw [Usm.processIncoming_users]; exact hu
  | send m i n t =>
    show ∃ user' k' d, (u.prepareOutgoing b c m i n t).2.users.getCredentials engineID name = .ok user' ∧ _
    rcases Usm.prepareOutgoing_moved u b c m i n t with ⟨h1, h2⟩ | ⟨user1, pk, data, boots, time, h1, h2, h3⟩
    · rw [h1]
      refine ⟨user, k, 0, hu, hk, ⟨rfl, rfl⟩, by omega, ?_⟩
      intro m' t' w h h3 h4 h5
      cases h
      exact absurd h5 (h2 h3 h4 w)
    · rw [h3, Usm.getCredentials_setPriv u engineID name i n _ user hu]
      by_cases hin : engineID = i ∧ name = n
      · rw [if_pos hin]
        obtain ⟨rfl, rfl⟩ := hin
        rw [h1] at hu
        cases hu
        rw [hk] at h2
        cases h2
        refine ⟨_, _, 1, rfl, rfl, ?_, by omega, fun _ _ _ _ _ _ _ => rfl⟩
        rw [PrivKey.encrypt_state]
        exact ⟨rfl, by simp⟩
      · rw [if_neg hin]
        refine ⟨user, k, 0, rfl, hk, ⟨rfl, rfl⟩, by omega, ?_⟩
        intro m' t' w h
        cases h
        exact absurd ⟨rfl, rfl⟩ hin

/-- The module after further events. -/
def Usm.then (b : Backend) (c : Crypto) (u : Usm) (l : List Spec.UsmOp) : Usm := l.foldl (Usm.apply b c) u

theorem Usm.then_priv (b : Backend) (c : Crypto) (u : Usm) (l : List Spec.UsmOp)
    (hl : ∀ op ∈ l, ∀ x, op ≠ .config x) (engineID name : Bytes) (user : LocalizedCredentials) (k : PrivKey)
    (hu : u.users.getCredentials engineID name = .ok user) (hk : user.priv = some k) :
    ∃ user' k' d, (u.then b c l).users.getCredentials engineID name = .ok user' ∧
      user'.priv = some k' ∧ k.Advanced k' d ∧ d ≤ l.length := by
  induction l generalizing u user k with
  | nil => exact ⟨user, k, 0, hu, hk, ⟨rfl, rfl⟩, Nat.le_refl _⟩
  | cons op l ih =>
    obtain ⟨user1, k1, d1, h1, h2, h3, h4, -⟩ := Usm.apply_priv b c u op (hl op (by simp)) engineID name user k hu hk
    obtain ⟨user2, k2, d2, h5, h6, h7, h8⟩ := ih (u.apply b c op) (fun o ho => hl o (by simp [ho])) user1 k1 h1 h2
    refine ⟨user2, k2, d1 + d2, h5, h6, ⟨h7.1.trans h3.1, ?_⟩, by simp only [List.length_cons]; omega⟩
    have h9 := h7.2
    rw [h3.1] at h9
    rw [h9, Nat.add_mod, h3.2, ← Nat.add_mod, Nat.add_assoc]

theorem Spec.salt_of (u : Usm) (b : Backend) (c : Crypto) (hc : c.Ok) (m : V3Message) (s : ScopedPDU)
    (engineID name : Bytes) (t : ℚ) (w : Bytes)
    (hh : Spec.HeaderOk m.header) (hs : m.scopedPDU = some s) (hpdu : Spec.PduSendable s.pdu)
    (hauth : m.header.flags.level.auth = true) (hpriv : m.header.flags.level.priv = true)
    (h : (u.prepareOutgoing b c m engineID name t).1 = .ok w) (user : LocalizedCredentials) (k : PrivKey)
    (hu : u.users.getCredentials engineID name = .ok user) (hk : user.priv = some k) :
    ∃ r p, V3Message.decode (.bytes w) = .ok r ∧ UsmParams.decode r.securityParameters = .ok p ∧
      match k.proto with
      | .aesCfb128 => p.salt = natToBytes 8 ((k.salt + 1) % 2 ^ 64)
      | .desCbc => ∃ bb, p.salt = bb ++ natToBytes 4 ((k.salt + 1) % 2 ^ 32) := by
  obtain ⟨user', auth, m', salt, h1, h2, h3, h4⟩ := prepareOutgoing_ok hauth h
  rw [hu] at h1
  cases h1
  obtain ⟨hhd, hpg⟩ := Protected.good h3 hs hpdu
  obtain ⟨params, before, after, q1, q2, q3, loc, q4, q5⟩ := finish_ok hc
    (by rw [hhd]; exact ⟨hh.1, hh.2, hh.3⟩) hpg h4
  refine ⟨_, _, q4, q5, ?_⟩
  rcases h3 with ⟨h, -⟩ | ⟨-, k', s', data, ct, hk', -, -, henc, -⟩
  · rw [hpriv] at h; cases h
  · rw [hk] at hk'
    cases hk'
    have := PrivKey.encrypt_salt henc
    revert this
    cases k.proto with
    | aesCfb128 => exact fun h => h.1
    | desCbc => rintro ⟨bb, -, h, -⟩; exact ⟨bb, h⟩

/-- C46: a security module, after any history, and any further messages sent and received (by any users, to and
from any engines) without reconfiguration. Two encrypted messages for the same engine and user carry different
salts, if fewer than 2^64 (AES) or 2^32 (DES) events lie between them. -/
theorem C46_module (b : Backend) (c : Crypto) (hc : c.Ok) (h l : List Spec.UsmOp)
    (hl : ∀ op ∈ l, ∀ x, op ≠ .config x) (engineID name : Bytes) (m m' : V3Message) (s s' : ScopedPDU) (t t' : ℚ)
    (w w' : Bytes) (hh : Spec.HeaderOk m.header) (hh' : Spec.HeaderOk m'.header)
    (hs : m.scopedPDU = some s) (hs' : m'.scopedPDU = some s') (hpdu : Spec.PduSendable s.pdu)
    (hpdu' : Spec.PduSendable s'.pdu) (ha : m.header.flags.level = authPriv)
    (ha' : m'.header.flags.level = authPriv)
    (hnear : ∀ user k, (Usm.after b c h).users.getCredentials engineID name = .ok user → user.priv = some k →
      l.length + 1 < match k.proto with | .aesCfb128 => 2 ^ 64 | .desCbc => 2 ^ 32)
    (hw : ((Usm.after b c h).prepareOutgoing b c m engineID name t).1 = .ok w)
    (hw' : ((Usm.after b c (h ++ .send m engineID name t :: l)).prepareOutgoing b c m' engineID name t').1 =
      .ok w') :
    ∃ r p r' p', V3Message.decode (.bytes w) = .ok r ∧ UsmParams.decode r.securityParameters = .ok p ∧
      V3Message.decode (.bytes w') = .ok r' ∧ UsmParams.decode r'.securityParameters = .ok p' ∧
      p.salt ≠ p'.salt := by
  have hlast : Usm.after b c (h ++ .send m engineID name t :: l) =
      ((Usm.after b c h).apply b c (.send m engineID name t)).then b c l := by
    simp [Usm.after, Usm.then]
  rw [hlast] at hw'
  generalize hu0 : Usm.after b c h = u at *
  have hauth : m.header.flags.level.auth = true := by rw [ha]; rfl
  have hpriv : m.header.flags.level.priv = true := by rw [ha]; rfl
  have hauth' : m'.header.flags.level.auth = true := by rw [ha']; rfl
  have hpriv' : m'.header.flags.level.priv = true := by rw [ha']; rfl
  obtain ⟨user, auth, mm, salt, h1, h2, h3, h4⟩ := prepareOutgoing_ok hauth hw
  rcases h3 with ⟨hx, -⟩ | ⟨-, k, s0, data, ct, hk, -, -, henc, -⟩
  · rw [hpriv] at hx; cases hx
  have hn := hnear user k h1 hk
  obtain ⟨user1, k1, d1, u1, u2, u3, -, u5⟩ := Usm.apply_priv b c u (.send m engineID name t)
    (fun x h => by cases h) engineID name user k h1 hk
  have hd1 := u5 m t w rfl hauth hpriv hw
  subst hd1
  obtain ⟨user2, k2, d2, v1, v2, v3, v4⟩ := Usm.then_priv b c _ l hl engineID name user1 k1 u1 u2
  obtain ⟨r, p, q1, q2, q3⟩ := Spec.salt_of u b c hc m s engineID name t w hh hs hpdu hauth hpriv hw user k h1 hk
  obtain ⟨r', p', q1', q2', q3'⟩ := Spec.salt_of _ b c hc m' s' engineID name t' w' hh' hs' hpdu' hauth' hpriv'
    hw' user2 k2 v1 v2
  refine ⟨r, p, r', p', q1, q2, q1', q2', ?_⟩
  have hp2 : k2.proto = k.proto := v3.1.trans u3.1
  have hsalt : k2.salt % PrivKey.saltWrap k.proto = (k.salt + (1 + d2)) % PrivKey.saltWrap k.proto := by
    have h9 := v3.2
    rw [u3.1] at h9
    rw [h9, Nat.add_mod, u3.2, ← Nat.add_mod, Nat.add_assoc]
  rw [hp2] at q3'
  cases hpr : k.proto with
  | aesCfb128 =>
    rw [hpr] at q3 q3' hn hsalt
    simp only [PrivKey.saltWrap] at q3 q3' hn hsalt
    rw [q3, q3']
    intro heq
    have := natToBytes_injective 8 _ _ (Nat.mod_lt _ (by decide)) (Nat.mod_lt _ (by decide)) heq
    omega
  | desCbc =>
    rw [hpr] at q3 q3' hn hsalt
    simp only [PrivKey.saltWrap] at q3 q3' hn hsalt
    obtain ⟨bb, q3⟩ := q3
    obtain ⟨bb', q3'⟩ := q3'
    rw [q3, q3']
    intro heq
    have heq := (List.append_inj' heq (by rw [natToBytes_length, natToBytes_length])).2
    have := natToBytes_injective 4 _ _ (Nat.mod_lt _ (by decide)) (Nat.mod_lt _ (by decide)) heq
    omega

/-- C46_module: the hypotheses are met, with two encrypted messages and one more between them. -/
example (b : Backend) (c : Crypto) (hc : c.Ok) :
    ∃ w, ((Usm.after b c Spec.setup).prepareOutgoing b c (Spec.request true) [1] [97] 0).1 = .ok w ∧
      Spec.HeaderOk (Spec.request true).header ∧
      (Spec.request true).header.flags.level = authPriv ∧
      ∀ op ∈ [Spec.UsmOp.send (Spec.request true) [1] [97] 1], ∀ x, op ≠ .config x := by
  obtain ⟨w, hw⟩ := request_sent b c hc true 0
  refine ⟨w, hw, ⟨by show (0 : Int) ≤ 7; decide, by show (484 : Int) ≤ 1472; decide, fun _ => rfl⟩, rfl, ?_⟩
  intro op ho x h
  rw [List.mem_singleton] at ho
  rw [ho] at h
  cases h

/-! ## C31: the ID in the message, and C78: the message asked for -/

/-- The confirmed class of RFC 3411: a response is expected. -/
def Spec.Confirmed (t : PduType) : Prop :=
  t = .getRequest ∨ t = .getNextRequest ∨ t = .getBulkRequest ∨ t = .setRequest ∨ t = .informRequest

theorem confirmed_iff (t : PduType) : t.isConfirmed = true ↔ Spec.Confirmed t := by
  unfold Spec.Confirmed; cases t <;> decide

/-- The allocation loop: the ID was free. -/
theorem cacheLoop_free {E : Type} (bits : Nat) (signed : Bool) (n : Nat) (c : Cache E) (e : E)
    (draws : Nat → Nat) (id : Int) (c' : Cache E) (h : Cache.cacheLoop bits signed n c e draws = (.ok id, c')) :
    id ≠ 0 ∧ c.outstanding id = none ∧ c'.outstanding = fun i => if i = id then some e else c.outstanding i := by
  induction n generalizing c draws with
  | zero => cases h
  | succ n ih =>
    unfold Cache.cacheLoop at h
    rcases Cache.attempt_cases bits signed c e (draws 0) with ⟨-, h1⟩ | ⟨h0, h2, h1⟩ | ⟨-, -, h1⟩
    · rw [h1] at h
      exact ih { c with gen := NumGen.new bits signed (draws 0) } (fun k => draws (k + 1)) h
    · rw [h1] at h
      cases h
      exact ⟨h0, h2, rfl⟩
    · rw [h1] at h
      exact ih { c with gen := c.gen.next } (fun k => draws (k + 1)) h

/-- C31: the message made for a PDU of the confirmed class carries an ID between 1 and 2^31 - 1 that no
outstanding message has, and the message is then outstanding under it, next to the others. Any other PDU gets an
ID between 0 and 2^31 - 1, and nothing is outstanding for it. The generator is a 31-bit one, of any age. -/
theorem C31_allocated (maxSize : Int) (c : Cache V3Entry) (r k : Nat) (hr : Spec.Draw 31 r)
    (hg : c.gen = (NumGen.new 31 false r).after k) (draws : Nat → Nat) (hd : ∀ q, Spec.Draw 31 (draws q))
    (pdu : Pdu) (handle : Nat) (engineID name : Bytes) (level : SecurityLevel) (model : SecurityModel)
    (context : Bytes) (m : V3Message) (c' : Cache V3Entry) (registered : Option Int)
    (h : prepareOutgoingV3 maxSize c pdu handle engineID name level model context draws = (.ok m, c', registered)) :
    0 ≤ m.header.id ∧ m.header.id ≤ 2147483647 ∧
    (Spec.Confirmed pdu.type → 1 ≤ m.header.id ∧ c.outstanding m.header.id = none ∧
      registered = some m.header.id ∧
      c'.outstanding = fun i => if i = m.header.id then
        some ⟨engineID, context, handle, name, model, level⟩ else c.outstanding i) ∧
    (¬Spec.Confirmed pdu.type → registered = none ∧ c'.outstanding = c.outstanding) ∧
    ∃ r' k', Spec.Draw 31 r' ∧ c'.gen = (NumGen.new 31 false r').after k' := by
  have hgo : GenOk v3Proto c.gen := ⟨r, k, hr.1, hr.2, hg⟩
  rw [← confirmed_iff]
  unfold prepareOutgoingV3 at h
  by_cases hc : pdu.type.isConfirmed = true
  · rw [if_pos hc] at h
    have hw := cacheLoop_width v3Proto (by decide) 10 c ⟨engineID, context, handle, name, model, level⟩ draws hgo hd
    have hf := cacheLoop_free 31 false 10 c ⟨engineID, context, handle, name, model, level⟩ draws
    simp only [v3Proto] at hw
    unfold Cache.cache at h
    generalize Cache.cacheLoop 31 false 10 c ⟨engineID, context, handle, name, model, level⟩ draws = y at *
    obtain ⟨res, c1⟩ := y
    cases res with
    | error e => cases h
    | ok id =>
      cases h
      obtain ⟨h1, h2, h3⟩ := hf id c' rfl
      have h4 := hw.2 id rfl
      unfold NBit at h4
      simp only [Bool.false_eq_true, if_false] at h4
      have h4' : id < 2147483648 := h4.2
      obtain ⟨r', k', h5, h6, h7⟩ := hw.1
      refine ⟨h4.1, by simp only; omega, fun _ => ⟨by simp only; omega, h2, rfl, h3⟩, fun h => absurd hc h, r', k', ⟨h5, h6⟩, h7⟩
  · rw [if_neg hc] at h
    cases h
    have h4 := hgo.value (by decide)
    unfold NBit at h4
    simp only [v3Proto, Bool.false_eq_true, if_false] at h4
    obtain ⟨r', k', h5, h6, h7⟩ := hgo.next
    exact ⟨h4.1, by simp only; omega, fun h => absurd h hc, fun _ => ⟨rfl, rfl⟩, r', k', ⟨h5, h6⟩, h7⟩

theorem finish_plain {c : Crypto} {m : V3Message} {engineID name : Bytes} {w : Bytes} (hh : m.header.Good)
    (hp : m.PayloadGood) (h : Usm.finish c m engineID 0 0 name [] [] none = .ok w) :
    ∃ loc index whole, V3Message.decode (.bytes w) = .ok (m.received loc) ∧
      UsmParams.decode (.sub loc) = .ok ⟨engineID, 0, 0, name, [], index, whole, []⟩ := by
  unfold Usm.finish at h
  obtain ⟨params, h1, h⟩ := bind_ok h
  obtain ⟨params', h2, h⟩ := bind_ok h
  obtain ⟨rfl, hpl⟩ := octetStringNew_ok h2
  obtain ⟨plain, h3, h⟩ := bind_ok h
  injection h with h
  subst h
  obtain ⟨pre, post, hl, hf, hd⟩ := V3Message.decode_exact
    (m := { m with securityParameters := .bytes params }) hh hp hpl h3
  obtain ⟨hw, hcopy⟩ := view_of_append hl.encoded
  obtain ⟨ppre, ppost, hul, hux⟩ := UsmParams.decode_exact h1
  obtain ⟨-, hdec⟩ := hux (.sub _) (Asn1Data.valid_sub hw) hcopy
  exact ⟨_, _, _, hd, hdec⟩

/-- The message that is made, before it is protected. -/
theorem prepareOutgoingV3_msg {maxSize : Int} {cache cache' : Cache V3Entry} {pdu : Pdu} {handle : Nat}
    {engineID name : Bytes} {level : SecurityLevel} {context : Bytes} {draws : Nat → Nat} {m : V3Message}
    {registered : Option Int} (hm : prepareOutgoingV3 maxSize cache pdu handle engineID name level .usm context draws =
      (.ok m, cache', registered)) :
    m = { header := ⟨m.header.id, maxSize, ⟨level, pdu.type.isConfirmed⟩, .usm⟩
          scopedPDU := some ⟨pdu, engineID, context⟩ } := by
  unfold prepareOutgoingV3 at hm
  by_cases hcf : pdu.type.isConfirmed = true
  · rw [if_pos hcf] at hm
    generalize cache.cache 31 false ⟨engineID, context, handle, name, .usm, level⟩ draws = y at hm
    obtain ⟨res, c1⟩ := y
    cases res with
    | error e => cases hm
    | ok id => cases hm; rw [hcf]
  · rw [if_neg hcf] at hm
    cases hm
    rw [Bool.not_eq_true] at hcf
    rw [hcf]

/-- C78: the bytes produced for a request decode to a message with the security level, the security model, the
maximum size, and the engine and user name asked for; marked as reportable exactly if the PDU is of the confirmed
class. Without privacy, the PDU, the context engine ID and the context name can be read in it; with privacy no
PDU is readable. Without authentication the engine's boots and time are given as zero, with authentication as the
module's current estimate. -/
theorem C78 (u : Usm) (b : Backend) (c : Crypto) (hc : c.Ok) (maxSize : Int) (hmax : 484 ≤ maxSize)
    (cache cache' : Cache V3Entry) (r k : Nat) (hr : Spec.Draw 31 r)
    (hg : cache.gen = (NumGen.new 31 false r).after k) (draws : Nat → Nat) (hd : ∀ q, Spec.Draw 31 (draws q))
    (pdu : Pdu) (hpdu : Spec.PduSendable pdu) (handle : Nat) (engineID name : Bytes) (level : SecurityLevel)
    (hlevel : level.priv = true → level.auth = true) (context : Bytes) (m : V3Message) (registered : Option Int)
    (hm : prepareOutgoingV3 maxSize cache pdu handle engineID name level .usm context draws =
      (.ok m, cache', registered)) (t : ℚ) (w : Bytes)
    (hw : (u.prepareOutgoing b c m engineID name t).1 = .ok w) :
    ∃ x p, V3Message.decode (.bytes w) = .ok x ∧ UsmParams.decode x.securityParameters = .ok p ∧
      x.header.flags.level = level ∧ x.header.securityModel = .usm ∧ x.header.maxSize = maxSize ∧
      (x.header.flags.reportable = true ↔ Spec.Confirmed pdu.type) ∧
      (Spec.Confirmed pdu.type → registered = some x.header.id) ∧
      p.engineID = engineID ∧ p.userName = name ∧
      (level.priv = false → ∃ s, x.scopedPDU = some s ∧ s.contextEngineID = engineID ∧ s.contextName = context ∧
        Spec.SamePdu pdu s.pdu) ∧
      (level.priv = true → x.scopedPDU = none ∧ x.encryptedPDU.isSome = true) ∧
      (level.auth = false → p.engineBoots = 0 ∧ p.engineTime = 0 ∧ p.signature = [] ∧ p.salt = []) ∧
      (level.auth = true → (p.engineBoots, p.engineTime) = u.timekeeper.getEngineTime engineID t) := by
  obtain ⟨i1, i2, i3, -, -⟩ := C31_allocated maxSize cache r k hr hg draws hd pdu handle engineID name level .usm
    context m cache' registered hm
  have hmsg := prepareOutgoingV3_msg hm
  have hs : m.scopedPDU = some ⟨pdu, engineID, context⟩ := by rw [hmsg]
  have hlv : m.header.flags.level = level := by rw [hmsg]
  have hrep : m.header.flags.reportable = pdu.type.isConfirmed := by rw [hmsg]
  have hmod : m.header.securityModel = .usm := by rw [hmsg]
  have hms : m.header.maxSize = maxSize := by rw [hmsg]
  have hh : m.header.Good := ⟨i1, by rw [hms]; exact hmax, by rw [hlv]; exact hlevel⟩
  by_cases ha : level.auth = true
  · obtain ⟨user, auth, m', salt, h1, h2, h3, h4⟩ := prepareOutgoing_ok (by rw [hlv]; exact ha) hw
    obtain ⟨hhd, hpg⟩ := Protected.good h3 hs hpdu
    obtain ⟨params, before, after, q1, q2, q3, loc, q4, q5⟩ := finish_ok hc (by rw [hhd]; exact hh) hpg h4
    refine ⟨_, _, q4, q5, ?_, ?_, ?_, ?_, ?_, rfl, rfl, ?_, ?_, ?_, fun _ => rfl⟩
    · show m'.header.flags.level = _
      rw [hhd]; exact hlv
    · exact (congrArg HeaderData.securityModel hhd).trans hmod
    · exact (congrArg HeaderData.maxSize hhd).trans hms
    · simp only [V3Message.received, hhd, hrep]; exact confirmed_iff _
    · intro h; simp only [V3Message.received, hhd]; exact (i3 h).2.2.1
    · intro hp
      rcases h3 with ⟨-, rfl, -⟩ | ⟨h, -⟩
      · simp only [V3Message.received, hlv, hp, hs]
        exact ⟨_, rfl, rfl, rfl, hpdu.canon⟩
      · rw [hlv, hp] at h; cases h
    · intro hp
      rcases h3 with ⟨h, -⟩ | ⟨-, kk, s', data, ct, -, -, -, -, hl, rfl⟩
      · rw [hlv, hp] at h; cases h
      · simp [V3Message.received, hlv, hp]
    · intro h
      rw [h] at ha
      cases ha
  · have hp : level.priv = false := by
      cases hq : level.priv with
      | false => rfl
      | true => exact absurd (hlevel hq) ha
    unfold Usm.prepareOutgoing at hw
    rw [if_neg (by rw [hlv]; exact ha)] at hw
    have hpg : m.PayloadGood := by
      unfold V3Message.PayloadGood
      rw [if_neg (by rw [hlv, hp]; decide)]
      exact ⟨_, hs, hpdu.good⟩
    obtain ⟨loc, index, whole, q4, q5⟩ := finish_plain (c := c) hh hpg hw
    refine ⟨_, _, q4, q5, hlv, hmod, hms, ?_, fun h => (i3 h).2.2.1, rfl, rfl, ?_,
      ?_, fun _ => ⟨rfl, rfl, rfl, rfl⟩, fun h => absurd h ha⟩
    · show m.header.flags.reportable = true ↔ _
      rw [hrep]; exact confirmed_iff _
    · intro _
      simp only [V3Message.received, hlv, hp, hs]
      exact ⟨_, rfl, rfl, rfl, hpdu.canon⟩
    · intro h
      rw [h] at hp
      cases hp

/-- The datagram `w` hides the scoped PDU `s`: what is in it is the encoding of `s` encrypted under the user's privacy
key, with the engine's boots and time and the salt that are given in the datagram. -/
def Spec.Hides (b : Backend) (c : Crypto) (user : LocalizedCredentials) (s : ScopedPDU) (w : Bytes) : Prop :=
  ∃ x p k data ct, V3Message.decode (.bytes w) = .ok x ∧ UsmParams.decode x.securityParameters = .ok p ∧
    user.priv = some k ∧ s.encode = .ok data ∧ x.encryptedPDU = some ct ∧
    (k.encrypt b c data p.engineBoots p.engineTime).1 = .ok (ct, p.salt)

/-- C78: with authentication, the datagram carries a valid signature under the key of the user named; with privacy, the
PDU in it is encrypted under the user's privacy key. -/
theorem C78_protected (u : Usm) (b : Backend) (c : Crypto) (hc : c.Ok) (maxSize : Int) (hmax : 484 ≤ maxSize)
    (cache cache' : Cache V3Entry) (r k : Nat) (hr : Spec.Draw 31 r)
    (hg : cache.gen = (NumGen.new 31 false r).after k) (draws : Nat → Nat) (hd : ∀ q, Spec.Draw 31 (draws q))
    (pdu : Pdu) (hpdu : Spec.PduSendable pdu) (handle : Nat) (engineID name : Bytes) (level : SecurityLevel)
    (hlevel : level.priv = true → level.auth = true) (context : Bytes) (m : V3Message) (registered : Option Int)
    (hm : prepareOutgoingV3 maxSize cache pdu handle engineID name level .usm context draws =
      (.ok m, cache', registered)) (t : ℚ) (w : Bytes) (ha : level.auth = true)
    (hw : (u.prepareOutgoing b c m engineID name t).1 = .ok w) :
    ∃ user, u.users.getCredentials engineID name = .ok user ∧ Spec.Authentic c user w level.priv ∧
      (level.priv = true → Spec.Hides b c user ⟨pdu, engineID, context⟩ w) := by
  obtain ⟨i1, -⟩ := C31_allocated maxSize cache r k hr hg draws hd pdu handle engineID name level .usm
    context m cache' registered hm
  have hmsg := prepareOutgoingV3_msg hm
  have hs : m.scopedPDU = some ⟨pdu, engineID, context⟩ := by rw [hmsg]
  have hlv : m.header.flags.level = level := by rw [hmsg]
  have hms : m.header.maxSize = maxSize := by rw [hmsg]
  have hh : m.header.Good := ⟨i1, by rw [hms]; exact hmax, by rw [hlv]; exact hlevel⟩
  have hauth : m.header.flags.level.auth = true := by rw [hlv]; exact ha
  obtain ⟨user, auth, m', salt, params, before, signature, after, h1, h2, h3, -, -, h4, h5, h6, h7⟩ :=
    C44_signed u b c hc m _ engineID name t w ⟨hh.1, hh.2.1, hh.2.2⟩ hs hpdu hauth hw
  refine ⟨user, h1, ⟨auth, before, signature, after, h2, h4, h7, h6, by rw [h6]; exact h5, ?_⟩, ?_⟩
  · intro hp
    rcases h3 with ⟨h, -⟩ | ⟨-, kk, s', data, ct, hk, -⟩
    · rw [hlv, hp] at h; cases h
    · rw [hk]; rfl
  · intro hp
    obtain ⟨user', auth', m', salt, k1, k2, k3, k4⟩ := prepareOutgoing_ok hauth hw
    rw [h1] at k1; cases k1
    obtain ⟨hhd, hpg⟩ := Protected.good k3 hs hpdu
    obtain ⟨params, before, after, q1, q2, q3, loc, q4, q5⟩ := finish_ok hc (by rw [hhd]; exact hh) hpg k4
    rcases k3 with ⟨h, -⟩ | ⟨-, kk, s', data, ct, hk, hs', he, hen, -, rfl⟩
    · rw [hlv, hp] at h; cases h
    · rw [hs] at hs'; cases hs'
      refine ⟨_, _, kk, data, ct, q4, q5, hk, he, ?_, hen⟩
      simp [V3Message.received, hlv, hp]

/-- C31_allocated, C78, C78_protected: the hypotheses are met by a get request, with or without privacy. -/
example (b : Backend) (c : Crypto) (hc : c.Ok) (priv : Bool) :
    ∃ (cache cache' : Cache V3Entry) (m : V3Message) (registered : Option Int) (w : Bytes), Spec.Draw 31 1 ∧
      cache.gen = (NumGen.new 31 false 1).after 0 ∧
      prepareOutgoingV3 1472 cache ⟨.getRequest, 1, 0, 0, [⟨[1, 3, 6], .null⟩]⟩ 5 [1] [97] ⟨true, priv⟩ .usm []
        (fun _ => 1) = (.ok m, cache', registered) ∧
      ((Usm.after b c Spec.setup).prepareOutgoing b c m [1] [97] 0).1 = .ok w := by
  obtain ⟨cr, l, h1, h2, h3, h4⟩ := setup_user c
  have hx : ∃ w, ((Usm.after b c Spec.setup).prepareOutgoing b c
      { header := ⟨(NumGen.new 31 false 1).next.previous, 1472, ⟨⟨true, priv⟩, true⟩, .usm⟩
        scopedPDU := some ⟨⟨.getRequest, 1, 0, 0, [⟨[1, 3, 6], .null⟩]⟩, [1], []⟩ } [1] [97] 0).1 = .ok w := by
    refine C37_partial b c hc Spec.setup [1] [97] "" 1 cr l h1 h2 _ _
      [48, 26, 4, 1, 1, 4, 0, 160, 19, 2, 1, 1, 2, 1, 0, 2, 1, 0, 48, 8, 48, 6, 6, 2, 43, 6, 5, 0] 0
      ⟨by show (0 : Int) ≤ (NumGen.new 31 false 1).next.previous; decide +kernel, by show (484 : Int) ≤ 1472; decide, fun _ => rfl⟩ rfl
      request_sendable (by decide +kernel) ?_ rfl ⟨h3, fun _ => h4⟩ ?_ ?_
    · exact ⟨by show (NumGen.new 31 false 1).next.previous < _; decide +kernel, by show (1472 : Int) < _; norm_num, by decide, by decide⟩
    · exact ⟨le_refl _, by show (0 : Int) < _; norm_num⟩
    · exact ⟨le_refl _, by show (0 : Int) < _; norm_num⟩
  obtain ⟨w, hw⟩ := hx
  exact ⟨⟨NumGen.new 31 false 1, fun _ => none⟩, _, _, _, w, ⟨by decide, by decide⟩, rfl, rfl, hw⟩

end Snmp
