import Verif.Props.Accept
import Verif.Props.Interop
import Verif.Props.Keys
import Verif.Props.Received
import Verif.Props.Sent
/-!
# C101: messages protected as RFC 3414 says are accepted and read
-/

namespace Snmp

/-! ## Specification -/

/-- `before ++ signature ++ after` is, by X.690, RFC 3412 section 6 and RFC 3414 section 2.4, an SNMPv3 message with that header,
those security parameters and that payload (in the clear or encrypted), and `before` is what comes before the contents of the
signature field. -/
def Spec.IsSecured (h : HeaderData) (engineID : Bytes) (boots time : Int) (user salt : Bytes) (data : ScopedPDU ⊕ Bytes)
    (before signature after : Bytes) : Prop :=
  ∃ version header engine b t name f s payload l1 l2 l3 l4 : Bytes,
    Spec.IsInteger 0x02 3 version ∧ Spec.IsHeader h header ∧
    Spec.Element 0x04 engineID engine ∧ Spec.IsInteger 0x02 boots b ∧ Spec.IsInteger 0x02 time t ∧
    Spec.Element 0x04 user name ∧ Spec.LengthForm signature.length l4 ∧ f = 0x04 :: l4 ++ signature ∧
    Spec.Element 0x04 salt s ∧
    (match data with
      | .inl plain => Spec.IsScoped plain payload
      | .inr encrypted => Spec.Element 0x04 encrypted payload) ∧
    Spec.LengthForm (engine ++ b ++ t ++ name ++ f ++ s).length l3 ∧
    Spec.LengthForm (0x30 :: l3 ++ (engine ++ b ++ t ++ name ++ f ++ s)).length l2 ∧
    Spec.LengthForm (version ++ header ++ (0x04 :: l2 ++ (0x30 :: l3 ++ (engine ++ b ++ t ++ name ++ f ++ s))) ++ payload).length
      l1 ∧
    before = 0x30 :: l1 ++ version ++ header ++ (0x04 :: l2) ++ (0x30 :: l3) ++ engine ++ b ++ t ++ name ++ (0x04 :: l4) ∧
    after = s ++ payload

/-- The datagram `w` is a message with header `h` and scoped PDU `s` that the engine `engineID`, at this boot and time, protected,
at the level in the header, for the user with these secrets and protocols (RFC 3414 section 3.1). With authentication, the
signature is the truncated MAC of the message in which it is zeroed, under the localised key; with privacy, the scoped PDU is
encrypted under the localised key, with a salt of the sender's choice. -/
def Spec.IsProtected (c : Crypto) (a : UserArgs) (h : HeaderData) (engineID : Bytes) (boots time : Nat) (s : ScopedPDU)
    (w : Bytes) : Prop :=
  ∃ before signature after salt data, w = before ++ signature ++ after ∧
    Spec.IsSecured h engineID boots time a.userName salt data before signature after ∧
    (h.flags.level.auth = true → ∃ p, a.authProtocol = some p ∧
      signature = (c.hmac p (Spec.localKey c p (Spec.chosen a.authSecret a.secret) engineID)
        (before ++ List.replicate (Spec.macLength p) 0 ++ after)).take (Spec.macLength p)) ∧
    (h.flags.level.priv = false → data = .inl s) ∧
    (h.flags.level.priv = true → ∃ p p' plain pad, a.authProtocol = some p ∧ a.privProtocol = some p' ∧ salt.length = 8 ∧
      Spec.IsScoped s plain ∧ (p' = .desCbc → (plain ++ pad).length % 8 = 0) ∧
      data = .inr (Spec.peerEncrypt c p' (Spec.localKey c p (Spec.chosen a.privSecret a.secret) engineID)
        boots time salt plain pad))

/-- Sizes that any UDP datagram respects, and what the standards ask of the header and of the scoped PDU, up to the object
identifiers 2.40 and above (C99). -/
structure Spec.PeerMessage (h : HeaderData) (s : ScopedPDU) (w : Bytes) : Prop where
  id : 0 ≤ h.id ∧ h.id ≤ 2147483647
  size : 484 ≤ h.maxSize ∧ h.maxSize ≤ 2147483647
  level : h.flags.level.priv = true → h.flags.level.auth = true
  engine : s.contextEngineID.length ≤ 65535
  name : s.contextName.length ≤ 65535
  pdu : Spec.PduReadable s.pdu
  length : w.length ≤ 65535

/-! ## Layout -/

theorem Spec.IsSecured.layout {h : HeaderData} {engineID : Bytes} {boots time : Int} {user salt : Bytes} {data : ScopedPDU ⊕ Bytes}
    {before signature after : Bytes} (hx : Spec.IsSecured h engineID boots time user salt data before signature after) :
    ∃ params, Spec.IsUsm engineID boots time user signature salt params ∧
      Spec.IsV3 h params data (before ++ signature ++ after) ∧
      Spec.signatureField (before ++ signature ++ after) = some (signature, after.length) := by
  obtain ⟨version, header, engine, b, t, name, f, s, payload, l1, l2, l3, l4, h1, h2, h3, h4, h5, h6, h7, rfl, h8, h9, h10, h11,
    h12, rfl, rfl⟩ := hx
  set f := 0x04 :: l4 ++ signature with hf
  set fields := engine ++ b ++ t ++ name ++ f ++ s with hfields
  set params := 0x30 :: l3 ++ fields with hparams
  set body := version ++ header ++ (0x04 :: l2 ++ params) ++ payload with hbody
  have hw : 0x30 :: l1 ++ version ++ header ++ (0x04 :: l2) ++ (0x30 :: l3) ++ engine ++ b ++ t ++ name ++ (0x04 :: l4) ++
      signature ++ (s ++ payload) = 0x30 :: (l1 ++ body) := by
    simp [hf, hfields, hparams, hbody]
  have e1 : Spec.Element 0x30 body (0x30 :: (l1 ++ body)) := ⟨l1, h12, rfl⟩
  have e2 : Spec.Element 0x04 params (0x04 :: (l2 ++ params)) := ⟨l2, h11, rfl⟩
  have e3 : Spec.Element 0x30 fields params := ⟨l3, h10, rfl⟩
  have e4 : Spec.Element 0x04 signature f := ⟨l4, h7, rfl⟩
  rw [hw]
  refine ⟨params, ⟨engine, b, t, name, f, s, h3, h4, h5, h6, e4, h8, e3⟩,
    ⟨version, header, _, payload, h1, h2, e2, by cases data <;> exact h9, ?_⟩, ?_⟩
  · exact e1
  · have int : ∀ {v : Int} {e : Bytes}, Spec.IsInteger 0x02 v e → ∃ c, Reads IntType.integer32.tag c e := by
      rintro v e ⟨c, -, -, h⟩
      exact ⟨c, reads_element (by decide +kernel) h⟩
    obtain ⟨cv, rv⟩ := int h1
    obtain ⟨cb, rb⟩ := int h4
    obtain ⟨ct, rt⟩ := int h5
    obtain ⟨_, _, _, _, _, -, -, -, -, -, hhd⟩ := h2
    have rh := sequence_reads hhd
    have r1 := sequence_reads e1 []
    have r2 := octets_reads e2
    have r3 := sequence_reads e3 []
    have r4 := octets_reads e4
    have r5 := octets_reads h3
    have r6 := octets_reads h6
    have r7 := octets_reads h8
    rw [List.append_nil] at r1 r3
    unfold Spec.signatureField Spec.inside Spec.skip
    simp only [r1, Option.map_some, Option.bind_eq_bind, Option.bind_some]
    have q1 := rv (header ++ (0x04 :: (l2 ++ params)) ++ payload)
    rw [show version ++ (header ++ (0x04 :: (l2 ++ params)) ++ payload) = body by simp [hbody]] at q1
    have q2 := rh ((0x04 :: (l2 ++ params)) ++ payload)
    rw [← List.append_assoc] at q2
    simp only [q1, q2, r2 payload, Option.map_some, Option.bind_some, r3]
    have q3 := r5 (b ++ t ++ name ++ f ++ s)
    rw [show engine ++ (b ++ t ++ name ++ f ++ s) = fields by simp [hfields]] at q3
    have q4 := rb (t ++ name ++ f ++ s)
    rw [show b ++ (t ++ name ++ f ++ s) = b ++ t ++ name ++ f ++ s by simp] at q4
    have q5 := rt (name ++ f ++ s)
    rw [show t ++ (name ++ f ++ s) = t ++ name ++ f ++ s by simp] at q5
    have q6 := r6 (f ++ s)
    rw [← List.append_assoc] at q6
    simp only [q3, q4, q5, q6, r4 s, Option.map_some, Option.bind_some, List.length_append]
    rfl

theorem Spec.Element.le {i : UInt8} {c e : Bytes} (h : Spec.Element i c e) : c.length ≤ e.length := by
  obtain ⟨l, -, rfl⟩ := h
  simp
  omega

theorem Spec.IsUsm.le {engineID : Bytes} {boots time : Int} {user signature salt e : Bytes}
    (h : Spec.IsUsm engineID boots time user signature salt e) :
    engineID.length ≤ e.length ∧ user.length ≤ e.length ∧ signature.length ≤ e.length ∧ salt.length ≤ e.length := by
  obtain ⟨a, b, c, d, f, g, k1, k2, k3, k4, k5, k6, k7⟩ := h
  have := k1.le; have := k4.le; have := k5.le; have := k6.le; have := k7.le
  simp only [List.length_append] at *
  omega

theorem Spec.IsV3.le {h : HeaderData} {params : Bytes} {data : ScopedPDU ⊕ Bytes} {e : Bytes} (hx : Spec.IsV3 h params data e) :
    params.length ≤ e.length ∧ ∀ b, data = .inr b → b.length ≤ e.length := by
  obtain ⟨v, hd, s, d, k1, k2, k3, k4, k5⟩ := hx
  have a1 := k3.le; have a2 := k5.le
  simp only [List.length_append] at *
  refine ⟨by omega, ?_⟩
  rintro b rfl
  have := Spec.Element.le k4
  omega

/-! ## C101 -/

/-- What a datagram protected for user `a` decodes to. -/
theorem protected_decodes {c : Crypto} {a : UserArgs} {h : HeaderData} {engineID : Bytes} {boots time : Nat} {s : ScopedPDU}
    {w : Bytes} (hm : Spec.PeerMessage h s w) (hb : boots ≤ 2147483647) (ht : time ≤ 2147483647)
    (hx : Spec.IsProtected c a h engineID boots time s w) :
    ∃ m p, V3Message.decode (.bytes w) = .ok m ∧ UsmParams.decode m.securityParameters = .ok p ∧ m.header = h ∧
      p.engineID = engineID ∧ p.engineBoots = boots ∧ p.engineTime = time ∧ p.userName = a.userName ∧
      (h.flags.level.priv = false → m.scopedPDU = some s) ∧
      (h.flags.level.priv = true → ∃ pr p' plain pad, a.authProtocol = some pr ∧ a.privProtocol = some p' ∧ p.salt.length = 8 ∧
        Spec.IsScoped s plain ∧ (p' = .desCbc → (plain ++ pad).length % 8 = 0) ∧
        m.encryptedPDU = some (Spec.peerEncrypt c p' (Spec.localKey c pr (Spec.chosen a.privSecret a.secret) engineID)
          boots time p.salt plain pad)) ∧
      (h.flags.level.auth = true → ∀ user, Spec.RfcKeys c a engineID user →
        (h.flags.level.priv = true → user.priv.isSome = true) → c.Ok → Spec.Authentic c user w h.flags.level.priv) := by
  obtain ⟨before, signature, after, salt, data, rfl, h1, h2, h3, h4⟩ := hx
  obtain ⟨params, k1, k2, k3⟩ := h1.layout
  obtain ⟨l1, l2, l3, l4⟩ := k1.le
  obtain ⟨l5, l6⟩ := k2.le
  have hlen := hm.length
  have hdata : Spec.DataReadable data ∧ h.flags.level.priv = data.isRight := by
    cases hp : h.flags.level.priv with
    | false =>
      rw [h3 hp] at k2 ⊢
      exact ⟨⟨hm.engine, hm.name, hm.pdu⟩, rfl⟩
    | true =>
      obtain ⟨_, _, _, _, -, -, -, -, -, hd⟩ := h4 hp
      rw [hd] at l6 ⊢
      refine ⟨?_, rfl⟩
      have := l6 _ rfl
      show List.length _ ≤ 65535
      omega
  have i32 : ∀ n : Int, 0 ≤ n → n ≤ 2147483647 → Spec.Int32 n := fun n h1 h2 => ⟨by omega, h2⟩
  obtain ⟨m, m1, m2, m3, m4, m5⟩ := C99_v3_partial h params data ⟨hm.id.1, hm.size.1, hm.level⟩ (i32 _ hm.id.1 hm.id.2)
    (i32 _ (by have := hm.size.1; omega) hm.size.2) (by omega) hdata.1 hdata.2 _ k2
  obtain ⟨sp, _, _, _, _, hs, hwf, -⟩ := V3Message.decode_fields m1
  obtain ⟨p, p1, p2, p3, p4, p5, p6, p7⟩ := C99_usm engineID a.userName signature salt boots time (by omega)
    (i32 _ (by omega) (by omega)) (i32 _ (by omega) (by omega)) (by omega) (by omega) (by omega) params k1 m.securityParameters
    (by rw [hs]; exact Asn1Data.valid_sub hwf) m3
  refine ⟨m, p, m1, p1, m2, p2, p3, p4, p5, ?_, ?_, ?_⟩
  · intro hp; rw [m4, h3 hp]; rfl
  · intro hp
    obtain ⟨pr, p', plain, pad, q1, q2, q3, q4, q5, q6⟩ := h4 hp
    refine ⟨pr, p', plain, pad, q1, q2, by rw [p7]; exact q3, q4, q5, ?_⟩
    rw [m5, p7, q6]; rfl
  · intro ha user hu hpriv hc
    obtain ⟨pr, q1, q2⟩ := h2 ha
    unfold Spec.RfcKeys at hu
    rw [q1] at hu
    have hml : Spec.macLength pr = pr.n := by cases pr <;> rfl
    have hsl : signature.length = pr.n := by
      rw [q2, List.length_take, hc.hmac_length, hml]
      cases pr <;> rfl
    refine ⟨_, before, signature, after, hu.1, rfl, k3, hsl, ?_, hpriv⟩
    rw [hsl, ← hml]
    exact q2

/-- The keys that go with the arguments are usable for privacy iff a privacy protocol is given. -/
theorem RfcKeys.priv {c : Crypto} (hc : c.Ok) {a : UserArgs} {engineID : Bytes} {user : LocalizedCredentials}
    (h : Spec.RfcKeys c a engineID user) {pr : AuthProto} {p' : PrivProto} (h1 : a.authProtocol = some pr)
    (h2 : a.privProtocol = some p') : ∃ k k0 seed, user.priv = some k ∧
      PrivKey.new p' (Spec.localKey c pr (Spec.chosen a.privSecret a.secret) engineID) seed = .ok k0 ∧
      ∀ b ct boots time salt, k.decrypt b c ct boots time salt = k0.decrypt b c ct boots time salt := by
  unfold Spec.RfcKeys at h
  rw [h1, h2] at h
  simp only at h
  have hl : 16 ≤ (Spec.localKey c pr (Spec.chosen a.privSecret a.secret) engineID).length := by
    unfold Spec.localKey
    rw [hc.hash_length]
    cases pr <;> decide
  generalize Spec.localKey c pr (Spec.chosen a.privSecret a.secret) engineID = K at *
  cases p' with
  | aesCfb128 =>
    obtain ⟨-, salt, h⟩ := h
    refine ⟨_, ⟨.aesCfb128, K.take 16, [], 0⟩, 0, h, ?_, fun _ _ _ _ _ => rfl⟩
    unfold PrivKey.new
    rw [if_neg (by simp only [PrivProto.keyLen]; omega)]
  | desCbc =>
    obtain ⟨-, salt, h⟩ := h
    refine ⟨_, ⟨.desCbc, K.take 8, (K.take 16).drop 8, 0⟩, 0, h, ?_, fun _ _ _ _ _ => rfl⟩
    unfold PrivKey.new
    rw [if_neg (by simp only [PrivProto.keyLen]; omega)]

/-- A module that finds the keys of user `a` accepts and reads what is protected for `a`, inside the time window. -/
theorem Usm.accepts (u : Usm) (b : Backend) {c : Crypto} (hc : c.Ok) {a : UserArgs} {h : HeaderData} {engineID : Bytes}
    {boots time : Nat} {s : ScopedPDU} {w : Bytes} (hm : Spec.PeerMessage h s w) (hb : boots ≤ 2147483647)
    (ht : time ≤ 2147483647) (hx : Spec.IsProtected c a h engineID boots time s w)
    (hdes : h.flags.level.priv = true → a.privProtocol = some .desCbc → b ≠ .openssl true) (t : ℚ)
    (hu : h.flags.level.auth = true →
      (∃ user, u.users.getCredentials engineID a.userName = .ok user ∧ Spec.RfcKeys c a engineID user) ∧
      (u.timekeeper.updateAndVerify engineID boots time t).1 = true) :
    ∃ m r, V3Message.decode (.bytes w) = .ok m ∧ (u.processIncoming b c m t).1 = .ok r ∧ r.header = h ∧
      r.scopedPDU = some s ∧ r.securityEngineID = some engineID ∧ r.securityName = some a.userName := by
  obtain ⟨m, p, m1, p1, m2, p2, p3, p4, p5, q1, q2, q3⟩ := protected_decodes hm hb ht hx
  refine ⟨m, ?_⟩
  cases hauth : h.flags.level.auth with
  | false =>
    have hpriv : h.flags.level.priv = false := by
      cases hp : h.flags.level.priv with
      | false => rfl
      | true => rw [hm.level hp] at hauth; cases hauth
    unfold Usm.processIncoming
    simp only [p1, m2, hauth, Bool.not_false, ↓reduceIte, Except.ok.injEq]
    exact ⟨_, m1, rfl, rfl, q1 hpriv, by rw [← p2], by rw [← p5]⟩
  | true =>
    obtain ⟨⟨user, u1, u2⟩, u3⟩ := hu hauth
    have hpr : h.flags.level.priv = true → user.priv.isSome = true := by
      intro hp
      obtain ⟨pr, p', _, _, k1, k2, -⟩ := q2 hp
      obtain ⟨k, _, _, e, -⟩ := RfcKeys.priv hc u2 k1 k2
      rw [e]; rfl
    have ha := q3 hauth user u2 hpr hc
    have hpay : Spec.PayloadIs b c user m p s := by
      unfold Spec.PayloadIs
      rw [m2]
      split
      · rename_i hp
        obtain ⟨pr, p', plain, pad, k1, k2, k3, k4, k5, k6⟩ := q2 hp
        obtain ⟨k, k0, seed, e1, e2, e3⟩ := RfcKeys.priv hc u2 k1 k2
        obtain ⟨trail, e4⟩ := C90_receives_partial c hc b p' (by rintro rfl; exact hdes hp k2) _ seed k0 e2 boots time
          (by omega) (by omega) p.salt k3 plain pad k5
        refine ⟨k, _, plain ++ trail, e1, k6, ?_, C99_plaintext_partial s hm.engine hm.name hm.pdu plain trail k4⟩
        rw [e3, p3, p4]
        exact e4
      · rename_i hp
        exact q1 (by simpa using hp)
    obtain ⟨r, r1, r2⟩ := (Usm.accepted_iff u b hc t m1 (by rw [m2]; exact hauth) p1 (by rw [p2, p5]; exact u1) s).2
      ⟨by rw [m2]; exact ha, by rw [p2, p3, p4]; exact u3, hpay⟩
    obtain ⟨p', user', k1, k2, k3, k4⟩ := C43_authentic u b c t w m m1 (by rw [m2]; exact hauth) (.inl ⟨r, r1⟩)
    rw [p1] at k1; cases k1
    obtain ⟨k5, k6, k7⟩ := k4 r r1
    exact ⟨r, m1, r1, k5.trans m2, r2, by rw [k6, p2], by rw [k7, p5]⟩

/-- The module finds the keys of a user that was accepted, for an engine in the user's namespace. -/
theorem keys_found {c : Crypto} (hc : c.Ok) (b : Backend) {hist : List Spec.UsmOp} {a : UserArgs} {h1 h2 : List Spec.RegOp}
    {seed : Bytes → Nat} {r : Bool} {n : Nat} {engineID : Bytes} (e1 : Spec.configs hist = h1 ++ [.addUser a seed] ++ h2)
    (e2 : ((UserRegistry.after c h1).apply c (.addUser a seed)).1 = .ok r)
    (e3 : (Spec.Reg.after c (Spec.configs hist)).engine engineID = some (a.namespace, n)) :
    ∃ user, (Usm.after b c hist).users.getCredentials engineID a.userName = .ok user ∧ Spec.RfcKeys c a engineID user := by
  rw [C38_results c hc] at e2
  obtain ⟨cr, l, g1, g2⟩ := Spec.Reg.added c _ a r e2
  have hus : (Spec.Reg.after c (Spec.configs hist)).user a.namespace a.userName = some (cr, l) := by
    rw [e1]
    exact C40_permanent c _ h2 _ _ _ (by rw [Spec.Reg.after_snoc]; exact g2)
  obtain ⟨user, g3, g4⟩ := Usm.configured_credentials hc b hist e3 hus
  refine ⟨user, g3, ?_⟩
  have hk := Credentials.new_keys c a
  by_cases hem : Spec.Empty a
  · rw [hk.1 hem] at g1; cases g1
  · obtain ⟨cr', h5, h6⟩ := hk.2 hem
    rw [g1] at h5
    injection h5 with h5
    exact h6 _ _ (h5 ▸ g4)

/-- **C101**. After any history of a security module in which `addUser` accepted the user `a` and the engine is registered in its
namespace, a datagram that this engine protected as RFC 3414 (RFC 7860, RFC 3826) says for this user, inside the time window,
is accepted, and what is delivered is the scoped PDU that the engine meant, with its header, under its name and that of the
user. Without authentication neither configuration nor window matter. Missing: DES with an OpenSSL that holds the last block
back (C90), and object identifiers 2.40 and above (C99, in `Spec.PeerMessage`). -/
theorem C101_partial (b : Backend) (c : Crypto) (hc : c.Ok) (hist : List Spec.UsmOp) (hw : Spec.FromWire hist)
    (a : UserArgs) (h : HeaderData) (engineID : Bytes) (boots time : Nat) (s : ScopedPDU) (w : Bytes)
    (hm : Spec.PeerMessage h s w) (hb : boots ≤ 2147483647) (ht : time ≤ 2147483647)
    (hx : Spec.IsProtected c a h engineID boots time s w)
    (hdes : h.flags.level.priv = true → a.privProtocol = some .desCbc → b ≠ .openssl true) (t : ℚ)
    (hu : h.flags.level.auth = true →
      (∃ h1 seed h2 r n, Spec.configs hist = h1 ++ [.addUser a seed] ++ h2 ∧
        ((UserRegistry.after c h1).apply c (.addUser a seed)).1 = .ok r ∧
        (Spec.Reg.after c (Spec.configs hist)).engine engineID = some (a.namespace, n)) ∧
      Spec.InWindow (Spec.HeardFrom c hist engineID) ((Usm.after b c hist).timekeeper.getEngineTime engineID t) boots time) :
    ∃ m r, V3Message.decode (.bytes w) = .ok m ∧ ((Usm.after b c hist).processIncoming b c m t).1 = .ok r ∧ r.header = h ∧
      r.scopedPDU = some s ∧ r.securityEngineID = some engineID ∧ r.securityName = some a.userName := by
  refine Usm.accepts _ b hc hm hb ht hx hdes t fun hauth => ?_
  obtain ⟨⟨h1, seed, h2, r, n, e1, e2, e3⟩, e4⟩ := hu hauth
  obtain ⟨ev, v1, v2⟩ := Usm.after_time hc b hist hw
  refine ⟨keys_found hc b e1 e2 e3, ?_⟩
  rw [v1, C35_window, v2]
  rw [v1] at e4
  exact e4

/-! ## Example -/

/-- An empty response of the engine [1]. -/
def Spec.peerScoped : ScopedPDU := ⟨⟨.response, 1, 0, 0, []⟩, [1], []⟩

/-- Its octets. -/
def Spec.peerPlain : Bytes := [0x30, 0x12, 4, 1, 1, 4, 0, 0xa2, 0x0b, 2, 1, 1, 2, 1, 0, 2, 1, 0, 0x30, 0]

theorem Spec.peerPlain_is : Spec.IsScoped Spec.peerScoped Spec.peerPlain := by
  refine ⟨[4, 1, 1], [4, 0], [0xa2, 0x0b, 2, 1, 1, 2, 1, 0, 2, 1, 0, 0x30, 0], ⟨[1], .inl ⟨by decide, rfl⟩, rfl⟩,
    ⟨[0], .inl ⟨by decide, rfl⟩, rfl⟩, ?_, ⟨[0x12], .inl ⟨by decide, rfl⟩, rfl⟩⟩
  exact ⟨[2, 1, 1], [2, 1, 0], [2, 1, 0], [], [0x30, 0],
    ⟨[1], by simp, rfl, [1], .inl ⟨by decide, rfl⟩, rfl⟩,
    ⟨[0], by simp, rfl, [1], .inl ⟨by decide, rfl⟩, rfl⟩,
    ⟨[0], by simp, rfl, [1], .inl ⟨by decide, rfl⟩, rfl⟩, rfl,
    ⟨[0], .inl ⟨by decide, rfl⟩, rfl⟩, ⟨[0x0b], .inl ⟨by decide, rfl⟩, rfl⟩⟩

/-- The header that goes with it. -/
def Spec.peerHeader (priv : Bool) : HeaderData := ⟨7, 1472, ⟨⟨true, priv⟩, false⟩, .usm⟩

theorem Spec.peerHeader_is (priv : Bool) : Spec.IsHeader (Spec.peerHeader priv)
    [0x30, 0x0d, 2, 1, 7, 2, 2, 5, 0xc0, 4, 1, if priv then 3 else 1, 2, 1, 3] := by
  refine ⟨[2, 1, 7], [2, 2, 5, 0xc0], [4, 1, if priv then 3 else 1], [2, 1, 3], if priv then 3 else 1,
    ⟨[7], by simp, rfl, [1], .inl ⟨by decide, rfl⟩, rfl⟩, ⟨[5, 0xc0], by simp, rfl, [2], .inl ⟨by decide, rfl⟩, rfl⟩,
    ⟨[1], .inl ⟨by simp, rfl⟩, rfl⟩, ?_, ⟨[3], by simp, rfl, [1], .inl ⟨by decide, rfl⟩, rfl⟩,
    ⟨[0x0d], .inl ⟨by simp, rfl⟩, rfl⟩⟩
  cases priv <;> rfl

/-- Everything before the contents of the signature field, for a payload of `n` octets. -/
def Spec.peerBefore (priv : Bool) (n : Nat) : Bytes :=
  0x30 :: [UInt8.ofNat (58 + n)] ++ [2, 1, 3] ++ [0x30, 0x0d, 2, 1, 7, 2, 2, 5, 0xc0, 4, 1, if priv then 3 else 1, 2, 1, 3] ++
    (0x04 :: [0x26]) ++ (0x30 :: [0x24]) ++ [4, 1, 1] ++ [2, 1, 5] ++ [2, 1, 9] ++ [4, 1, 97] ++ (0x04 :: [12])

theorem Spec.peerSecured (priv : Bool) (data : ScopedPDU ⊕ Bytes) (payload salt signature : Bytes) (hs : salt.length = 8)
    (hg : signature.length = 12) (hp : payload.length ≤ 60) (hd : match data with
      | .inl plain => Spec.IsScoped plain payload
      | .inr encrypted => Spec.Element 0x04 encrypted payload) :
    Spec.IsSecured (Spec.peerHeader priv) [1] (5 : Nat) (9 : Nat) [97] salt data (Spec.peerBefore priv payload.length) signature
      (0x04 :: ([8] ++ salt) ++ payload) := by
  refine ⟨[2, 1, 3], _, [4, 1, 1], [2, 1, 5], [2, 1, 9], [4, 1, 97], 0x04 :: [12] ++ signature, 0x04 :: ([8] ++ salt), payload,
    [UInt8.ofNat (58 + payload.length)], [0x26], [0x24], [12], ⟨[3], by simp, rfl, [1], .inl ⟨by decide, rfl⟩, rfl⟩,
    Spec.peerHeader_is priv, ⟨[1], .inl ⟨by decide, rfl⟩, rfl⟩, ⟨[5], by simp, rfl, [1], .inl ⟨by decide, rfl⟩, rfl⟩,
    ⟨[9], by simp, rfl, [1], .inl ⟨by decide, rfl⟩, rfl⟩, ⟨[1], .inl ⟨by decide, rfl⟩, rfl⟩, .inl ⟨by omega, by rw [hg]; rfl⟩,
    rfl, ⟨[8], .inl ⟨by omega, by rw [hs]; rfl⟩, rfl⟩, by cases data <;> exact hd, .inl ?_, .inl ?_, .inl ?_, rfl, rfl⟩
  · simp [hs, hg]
  · simp [hs, hg]
  · simp only [List.cons_append, List.length_cons, List.nil_append, List.length_append, hg, hs]
    refine ⟨by omega, ?_⟩
    congr 1
    congr 1
    omega

/-- The keys and the message of the example are such that the hypotheses of C101 hold, with and without privacy, for any
cryptography. -/
theorem Spec.peerProtected (c : Crypto) (hc : c.Ok) (priv : Bool) :
    ∃ w, Spec.IsProtected c Spec.sampleUser (Spec.peerHeader priv) [1] 5 9 Spec.peerScoped w ∧
      Spec.PeerMessage (Spec.peerHeader priv) Spec.peerScoped w := by
  have main : ∀ (data : ScopedPDU ⊕ Bytes) (payload salt : Bytes), salt.length = 8 → payload.length ≤ 60 → (match data with
      | .inl plain => Spec.IsScoped plain payload
      | .inr encrypted => Spec.Element 0x04 encrypted payload) → (priv = false → data = .inl Spec.peerScoped) →
      (priv = true → ∃ pad, (Spec.peerPlain ++ pad).length % 8 = 0 ∧
        data = .inr (Spec.peerEncrypt c .desCbc (Spec.localKey c .hmacSha [5, 6] [1]) 5 9 salt Spec.peerPlain pad)) →
      ∃ w, Spec.IsProtected c Spec.sampleUser (Spec.peerHeader priv) [1] 5 9 Spec.peerScoped w ∧
      Spec.PeerMessage (Spec.peerHeader priv) Spec.peerScoped w := by
    intro data payload salt h1 h2 h3 h4 h5
    set after := 0x04 :: ([8] ++ salt) ++ payload with hafter
    set before := Spec.peerBefore priv payload.length with hbefore
    set signature := (c.hmac .hmacSha (Spec.localKey c .hmacSha [5, 6] [1]) (before ++ List.replicate 12 0 ++ after)).take 12
      with hsig
    have hl : signature.length = 12 := by rw [hsig, List.length_take, hc.hmac_length]; rfl
    refine ⟨_, ⟨before, signature, after, salt, data, rfl, Spec.peerSecured priv data payload salt signature h1 hl h2 h3,
      fun _ => ⟨.hmacSha, rfl, hsig⟩, h4, fun hp => ?_⟩, ?_⟩
    · obtain ⟨pad, g1, g2⟩ := h5 hp
      exact ⟨.hmacSha, .desCbc, Spec.peerPlain, pad, rfl, rfl, h1, Spec.peerPlain_is, fun _ => g1, g2⟩
    · refine ⟨⟨by show (0 : Int) ≤ 7; decide, by show (7 : Int) ≤ _; decide⟩, ⟨by show (484 : Int) ≤ 1472; decide, by show (1472 : Int) ≤ _; decide⟩,
        fun _ => rfl, by decide, by decide, ?_, ?_⟩
      · exact ⟨⟨by decide, by decide⟩, ⟨by decide, by decide⟩, ⟨by decide, by decide⟩, by decide, by decide, fun _ => by decide,
          fun v hv => by cases hv⟩
      · simp only [hafter, hbefore, Spec.peerBefore, List.length_append, List.length_cons, List.length_nil, hl, h1]
        omega
  cases priv with
  | false =>
    exact main (.inl Spec.peerScoped) Spec.peerPlain (List.replicate 8 7) rfl (by decide) Spec.peerPlain_is (fun _ => rfl) nofun
  | true =>
    have hk : 16 ≤ (Spec.localKey c .hmacSha [5, 6] [1]).length := by
      unfold Spec.localKey; rw [hc.hash_length]; decide
    have hct : (Spec.peerEncrypt c .desCbc (Spec.localKey c .hmacSha [5, 6] [1]) 5 9 (List.replicate 8 7) Spec.peerPlain
        [0, 0, 0, 0]).length = 24 := by
      unfold Spec.peerEncrypt cbcEncrypt
      refine cbcEncryptN_length (hc.desEnc_length _) 3 _ _ ?_ rfl
      unfold Spec.peerIV
      simp only [xorBytes_length, List.length_drop, List.length_take, List.length_replicate]
      omega
    generalize hE : Spec.peerEncrypt c .desCbc (Spec.localKey c .hmacSha [5, 6] [1]) 5 9 (List.replicate 8 7) Spec.peerPlain
        [0, 0, 0, 0] = E at *
    refine main (.inr E) (0x04 :: ([24] ++ E)) (List.replicate 8 7) rfl (by simp [hct]) ⟨[24], .inl ⟨by omega, by rw [hct]; rfl⟩, rfl⟩ nofun
      (fun _ => ⟨[0, 0, 0, 0], by decide, by rw [hE]⟩)

/-- Non-vacuity of C101: for the user and engine of `Spec.setup` a datagram meets the hypotheses, with and without privacy,
whatever the cryptography. -/
theorem C101_example (b : Backend) (c : Crypto) (hc : c.Ok) (priv : Bool) (t : ℚ) : Spec.FromWire Spec.setup ∧
    (∃ w, Spec.IsProtected c Spec.sampleUser (Spec.peerHeader priv) [1] 5 9 Spec.peerScoped w ∧
      Spec.PeerMessage (Spec.peerHeader priv) Spec.peerScoped w) ∧
    (∃ h1 seed h2 r n, Spec.configs Spec.setup = h1 ++ [.addUser Spec.sampleUser seed] ++ h2 ∧
        ((UserRegistry.after c h1).apply c (.addUser Spec.sampleUser seed)).1 = .ok r ∧
        (Spec.Reg.after c (Spec.configs Spec.setup)).engine [1] = some (Spec.sampleUser.namespace, n)) ∧
    Spec.InWindow (Spec.HeardFrom c Spec.setup [1]) ((Usm.after b c Spec.setup).timekeeper.getEngineTime [1] t) 5 9 := by
  refine ⟨fun m t hm => by simp [Spec.setup] at hm, Spec.peerProtected c hc priv, ?_, by decide, .inl ?_⟩
  · obtain ⟨cr, l, h1, -⟩ := setup_user c
    refine ⟨[], fun _ => 0, [.register [1] "" fun _ => 0], true, 1, rfl, ?_, h1⟩
    rw [C38_results c hc]
    simp [Spec.sampleUser, Spec.Reg.after, Spec.Reg.step, Spec.Reg.addUser, Spec.Reg.empty, Credentials.new, AuthProto.computeKey,
      orSecret, Except.bind, Spec.supported, SecurityLevel.lt, authPriv]
  · rintro ⟨a, w, m, t, d, e, -⟩
    have : Spec.UsmOp.receive m t ∈ Spec.setup := by rw [e]; simp
    simp [Spec.setup] at this

/-- Primitives that satisfy the contract, with a constant hash. -/
def Spec.oneCrypto : Crypto := { Spec.toyCrypto with hash := fun p _ => List.replicate p.digestSize 1 }

theorem Spec.oneCrypto_ok : Spec.oneCrypto.Ok := by
  constructor <;> intros <;> simp_all [Spec.toyCrypto, Spec.oneCrypto]

/-- The payload of the witness: one response encrypted with DES. -/
def Spec.peerCipher : Bytes :=
  Spec.peerEncrypt Spec.oneCrypto .desCbc (List.replicate 20 1) 5 9 (List.replicate 8 7) Spec.peerPlain [0, 0, 0, 0]

/-- The datagram of the witness. -/
def Spec.peerWire : Bytes :=
  Spec.peerBefore true 26 ++
    ((Spec.oneCrypto.hmac .hmacSha (List.replicate 20 1) (Spec.peerBefore true 26 ++ List.replicate 12 0 ++
      (0x04 :: ([8] ++ List.replicate 8 7) ++ (0x04 :: ([24] ++ Spec.peerCipher))))).take 12) ++
    (0x04 :: ([8] ++ List.replicate 8 7) ++ (0x04 :: ([24] ++ Spec.peerCipher)))


/-- What C101 does not cover is false: with an OpenSSL that holds the last block back, there is a correctly protected datagram
with DES, inside the time window, that is refused. -/
theorem C101_false : ∃ (c : Crypto) (w : Bytes), c.Ok ∧
    Spec.IsProtected c Spec.sampleUser (Spec.peerHeader true) [1] 5 9 Spec.peerScoped w ∧
    Spec.PeerMessage (Spec.peerHeader true) Spec.peerScoped w ∧
    (∃ h1 seed h2 r n, Spec.configs Spec.setup = h1 ++ [.addUser Spec.sampleUser seed] ++ h2 ∧
        ((UserRegistry.after c h1).apply c (.addUser Spec.sampleUser seed)).1 = .ok r ∧
        (Spec.Reg.after c (Spec.configs Spec.setup)).engine [1] = some (Spec.sampleUser.namespace, n)) ∧
    (∀ t, Spec.InWindow (Spec.HeardFrom c Spec.setup [1])
      ((Usm.after (.openssl true) c Spec.setup).timekeeper.getEngineTime [1] t) 5 9) ∧
    ∀ m r t, V3Message.decode (.bytes w) = .ok m →
      ((Usm.after (.openssl true) c Spec.setup).processIncoming (.openssl true) c m t).1 = .ok r →
      r.scopedPDU ≠ some Spec.peerScoped := by
  have hkey : Spec.localKey Spec.oneCrypto .hmacSha [5, 6] [1] = List.replicate 20 1 := rfl
  have hc := Spec.oneCrypto_ok
  have hlen : Spec.peerCipher.length = 24 := by decide +kernel
  have hpay : (0x04 :: ([24] ++ Spec.peerCipher)).length = 26 := by simp [hlen]
  have hprot : Spec.IsProtected Spec.oneCrypto Spec.sampleUser (Spec.peerHeader true) [1] 5 9 Spec.peerScoped Spec.peerWire := by
    refine ⟨_, _, _, List.replicate 8 7, .inr Spec.peerCipher, rfl, ?_, fun _ => ⟨.hmacSha, rfl, ?_⟩, nofun, fun _ => ?_⟩
    · have := Spec.peerSecured true (.inr Spec.peerCipher) (0x04 :: ([24] ++ Spec.peerCipher)) (List.replicate 8 7)
        ((Spec.oneCrypto.hmac .hmacSha (List.replicate 20 1) (Spec.peerBefore true 26 ++ List.replicate 12 0 ++
          (0x04 :: ([8] ++ List.replicate 8 7) ++ (0x04 :: ([24] ++ Spec.peerCipher))))).take 12) rfl
        (by rw [List.length_take, hc.hmac_length]; rfl) (by omega) ⟨[24], .inl ⟨by omega, by rw [hlen]; rfl⟩, rfl⟩
      rw [hpay] at this
      exact this
    · rfl
    · exact ⟨.hmacSha, .desCbc, Spec.peerPlain, [0, 0, 0, 0], rfl, rfl, rfl, Spec.peerPlain_is, fun _ => by decide, rfl⟩
  refine ⟨Spec.oneCrypto, Spec.peerWire, hc, hprot, ?_, (C101_example (.openssl true) Spec.oneCrypto hc true 0).2.2.1,
    fun t => (C101_example (.openssl true) Spec.oneCrypto hc true t).2.2.2, ?_⟩
  · refine ⟨⟨by decide, by decide⟩, ⟨by decide, by decide⟩, fun _ => rfl, by decide, by decide, ?_, by decide +kernel⟩
    exact ⟨⟨by decide, by decide⟩, ⟨by decide, by decide⟩, ⟨by decide, by decide⟩, by decide, by decide, fun _ => by decide,
          fun v hv => by cases hv⟩
  · intro m r t hdec hok hs
    have hm : m.header = Spec.peerHeader true ∧ m.encryptedPDU = some Spec.peerCipher ∧
        ∃ p, UsmParams.decode m.securityParameters = .ok p ∧ p.engineID = [1] ∧ p.userName = [97] ∧ p.salt = List.replicate 8 7 ∧
          p.engineBoots = 5 ∧ p.engineTime = 9 := by
      have key : ∀ m, V3Message.decode (.bytes Spec.peerWire) = .ok m → m.header = Spec.peerHeader true ∧ m.encryptedPDU = some Spec.peerCipher ∧
        (match UsmParams.decode m.securityParameters with
          | .ok p => p.engineID = [1] ∧ p.userName = [97] ∧ p.salt = List.replicate 8 7 ∧ p.engineBoots = 5 ∧ p.engineTime = 9
          | .error _ => False) := by
        have : (match V3Message.decode (.bytes Spec.peerWire) with
          | .ok m => decide (m.header = Spec.peerHeader true) && decide (m.encryptedPDU = some Spec.peerCipher) &&
            (match UsmParams.decode m.securityParameters with
              | .ok p => decide (p.engineID = [1] ∧ p.userName = [97] ∧ p.salt = List.replicate 8 7 ∧ p.engineBoots = 5 ∧ p.engineTime = 9)
              | .error _ => false)
          | .error _ => false) = true := by decide +kernel
        intro m hm
        rw [hm] at this
        simp only [Bool.and_eq_true, decide_eq_true_eq] at this
        refine ⟨this.1.1, this.1.2, ?_⟩
        have h2 := this.2
        split at h2 <;> simp_all
      obtain ⟨k1, k2, k3⟩ := key m hdec
      refine ⟨k1, k2, ?_⟩
      split at k3
      · rename_i p hp; exact ⟨p, hp, k3⟩
      · cases k3
    obtain ⟨m1, m2, p, m3, m4, m5, m6, m7, m8⟩ := hm
    obtain ⟨-, -, ⟨h1, seed, h2, x, n, e1, e2, e3⟩, -⟩ := C101_example (.openssl true) Spec.oneCrypto hc true t
    obtain ⟨user, u1, u2⟩ := keys_found hc (.openssl true) e1 e2 e3
    obtain ⟨-, -, hpl⟩ := (Usm.accepted_iff _ (.openssl true) hc t hdec (by rw [m1]; rfl) m3 (by rw [m4, m5]; exact u1)
      Spec.peerScoped).1 ⟨r, hok, hs⟩
    unfold Spec.PayloadIs at hpl
    rw [m1, if_pos (by rfl), m2, m6, m7, m8] at hpl
    obtain ⟨k, ct, plain, e1, e2, e3, e4⟩ := hpl
    cases e2
    obtain ⟨-, salt, hk⟩ := u2
    rw [hk] at e1
    cases e1
    have e5 : (⟨.desCbc, List.replicate 8 1, List.replicate 8 1, 0⟩ : PrivKey).decrypt (.openssl true) Spec.oneCrypto
      Spec.peerCipher 5 9 (List.replicate 8 7) = .ok plain := e3
    have e6 : (match (⟨.desCbc, List.replicate 8 1, List.replicate 8 1, 0⟩ : PrivKey).decrypt (.openssl true) Spec.oneCrypto
      Spec.peerCipher 5 9 (List.replicate 8 7) with
      | .ok plain => (decodePlaintext plain).isOk
      | .error _ => false) = false := by decide +kernel
    rw [e5] at e6
    simp only [e4] at e6
    cases e6

end Snmp
