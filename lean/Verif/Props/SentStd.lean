import Verif.Props.Octets
/-!
# C103: what the library sends is what the standards say
-/

namespace Snmp

/-! ## Specification -/

/-- An engine that follows the standards reads the datagram `w` as a message with header `h` and scoped PDU `s`, protected for the
user with these secrets and protocols: the octets are a message by X.690, RFC 3412 and RFC 3414; if the header says so, the
signature is the truncated MAC of the message in which it is zeroed, under the localised key, and the payload, decrypted with the localised
key and the salt as RFC 3414 or RFC 3826 says, begins with the encoding of the scoped PDU. -/
def Spec.PeerReads (c : Crypto) (a : UserArgs) (h : HeaderData) (engineID : Bytes) (boots time : Nat) (s : ScopedPDU)
    (w : Bytes) : Prop :=
  ∃ before signature after salt data, w = before ++ signature ++ after ∧
    Spec.IsSecured h engineID boots time a.userName salt data before signature after ∧
    (h.flags.level.auth = true → ∃ p, a.authProtocol = some p ∧
      signature = (c.hmac p (Spec.localKey c p (Spec.chosen a.authSecret a.secret) engineID)
        (before ++ List.replicate (Spec.macLength p) 0 ++ after)).take (Spec.macLength p)) ∧
    (h.flags.level.priv = false → data = .inl s) ∧
    (h.flags.level.priv = true → ∃ p p' ct plain trail, a.authProtocol = some p ∧ a.privProtocol = some p' ∧ data = .inr ct ∧
      salt.length = 8 ∧ Spec.IsScoped s plain ∧
      Spec.peerDecrypt c p' (Spec.localKey c p (Spec.chosen a.privSecret a.secret) engineID) boots time salt ct =
        some (plain ++ trail))

/-! ## Layout -/

theorem limit_le : 65536 ≤ Spec.lengthLimit := by
  unfold Spec.lengthLimit
  exact le_trans (by norm_num : 65536 ≤ 256 ^ 2) (Nat.pow_le_pow_right (by decide) (by decide))

/-- The signed message, in terms of a layout that does not depend on the signature. -/
theorem finish_layout {c : Crypto} {m : V3Message} {engineID name salt : Bytes}
    {boots time : Int} {auth : AuthKey} {w : Bytes} (hh : m.header.Good) (hp : m.PayloadGood)
    (h : Usm.finish c m engineID boots time name auth.proto.padding salt (some auth) = .ok w) :
    ∃ before after, w = before ++ auth.sign c (before ++ auth.proto.padding ++ after) ++ after ∧
      ∀ p : Bytes, p.length = auth.proto.n → ∃ params, (UsmParams.new engineID boots time name (.bytes p) salt).encode = .ok params ∧
        ({ m with securityParameters := .bytes params } : V3Message).encode = .ok (before ++ p ++ after) := by
  unfold Usm.finish at h
  obtain ⟨params, h1, h⟩ := bind_ok h
  obtain ⟨params', h2, h⟩ := bind_ok h
  obtain ⟨rfl, hpl⟩ := octetStringNew_ok h2
  obtain ⟨plain, h3, h⟩ := bind_ok h
  simp only at h
  obtain ⟨view, h4, h⟩ := bind_ok h
  obtain ⟨loc, h5, h⟩ := bind_ok h
  injection h with hrep
  obtain ⟨pre, post, hl, hf, -⟩ := V3Message.decode_exact
    (m := { m with securityParameters := .bytes params }) hh hp hpl h3
  rw [hf] at h4
  injection h4 with h4
  subst h4
  obtain ⟨hw, hcopy⟩ := view_of_append hl.encoded
  obtain ⟨ppre, ppost, hul, hux⟩ := UsmParams.decode_exact h1
  obtain ⟨hfs, -⟩ := hux (.sub _) (Asn1Data.valid_sub hw) hcopy
  simp only [Asn1Data.toSub, Subbytes.view_none] at hfs
  rw [hfs] at h5
  injection h5 with h5
  have hsig0 : (UsmParams.new engineID boots time name (.bytes auth.proto.padding) salt).signature =
      auth.proto.padding := rfl
  rw [hsig0] at h5
  have hplain : plain = (pre ++ ppre) ++ auth.proto.padding ++ (ppost ++ post) := by
    have e1 := hl.encoded
    have e2 := hul.encoded
    rw [hsig0] at e2
    rw [e1]
    show pre ++ params ++ post = _
    rw [e2]
    simp
  have hpad : auth.proto.padding.length = auth.proto.n := by simp [AuthProto.padding]
  refine ⟨pre ++ ppre, ppost ++ post, ?_, fun p hp => ?_⟩
  · rw [← hplain, ← hrep, ← h5]
    obtain ⟨hw2, -⟩ := view_of_append hplain
    have hv : (⟨plain, pre.length + ppre.length,
        pre.length + ppre.length + auth.proto.padding.length⟩ : Subbytes) =
        ⟨plain, (pre ++ ppre).length, (pre ++ ppre).length + auth.proto.padding.length⟩ := by
      simp
    rw [hv]
    obtain ⟨be, af, q1, q2, q3⟩ := C02_replace _ hw2 (auth.sign c plain)
    rw [q3]
    simp only at q1 q2
    have hc2 := (view_of_append hplain).2
    rw [hc2] at q1
    rw [hplain] at q1
    have := List.append_inj (s₁ := be) (s₂ := pre ++ ppre) (t₁ := auth.proto.padding ++ af)
      (t₂ := auth.proto.padding ++ (ppost ++ post)) (by simpa using q1.symm) q2
    rw [this.1, List.append_cancel_left this.2]
  · refine ⟨_, hul.replaced p (by rw [hsig0, hpad]; exact hp), ?_⟩
    have := hl.replaced (.bytes (ppre ++ p ++ ppost)) (by
      show (ppre ++ p ++ ppost).length = params.length
      rw [hul.encoded, hsig0]; simp [hp, hpad])
    rw [show pre ++ ppre ++ p ++ (ppost ++ post) = pre ++ (ppre ++ p ++ ppost) ++ post by simp]
    exact this

/-- The octets of a message with a signature field of `n` octets. -/
theorem encoded_secured {m : V3Message} {engineID name salt : Bytes} {boots time : Int} {n : Nat}
    {before after : Bytes} {data : ScopedPDU ⊕ Bytes} {payload : Bytes}
    (hoct : ∀ params e, ({ m with securityParameters := .bytes params } : V3Message).encode = .ok e →
      e = Spec.sequence (Spec.integer 3 ++ Spec.headerOctets m.header ++ Spec.octetString params ++ payload))
    (hpay : match data with
      | .inl plain => Spec.IsScoped plain payload
      | .inr encrypted => Spec.Element 0x04 encrypted payload)
    (h : ∀ p : Bytes, p.length = n → ∃ params, (UsmParams.new engineID boots time name (.bytes p) salt).encode = .ok params ∧
        ({ m with securityParameters := .bytes params } : V3Message).encode = .ok (before ++ p ++ after))
    (signature : Bytes) (hs : signature.length = n) (hl : (before ++ signature ++ after).length ≤ 65535) :
    ∃ before' after', before' ++ signature ++ after' = before ++ signature ++ after ∧ (0 < n → before' = before ∧ after' = after) ∧
      Spec.IsSecured m.header engineID boots time name salt data before' signature after' := by
  obtain ⟨before', after', k⟩ := Spec.secured_is m.header engineID boots time name salt data payload n hpay
  have eq : ∀ p : Bytes, p.length = n → before ++ p ++ after = before' ++ p ++ after' := by
    intro p hp
    obtain ⟨params, h1, h2⟩ := h p hp
    have h3 := C98_usm _ _ h1
    have h4 := hoct _ _ h2
    rw [← (k p hp).1, h4, h3]
    rfl
  refine ⟨before', after', (eq signature hs).symm, fun hn => ?_, (k signature hs).2 ?_⟩
  · obtain ⟨h1, h2⟩ := layout_unique hn eq
    exact ⟨h1.symm, h2.symm⟩
  · rw [← eq signature hs]
    have := limit_le
    omega

theorem encrypt_length {k : PrivKey} {b : Backend} {c : Crypto} (hc : c.Ok) {data : Bytes} {boots time : Int} {ct salt : Bytes}
    (hk : k.proto = .desCbc → k.preIV.length = 8)
    (h : (k.encrypt b c data boots time).1 = .ok (ct, salt)) : data.length ≤ ct.length := by
  have e := PrivKey.encrypt_salt h
  cases hp : k.proto with
  | aesCfb128 =>
    rw [hp] at e
    obtain ⟨h0, iv, h1, h2⟩ := e
    obtain ⟨hl, -⟩ := packIV_length h1
    have hr : c.readIV 16 iv = iv := by rw [c.readIV_full (by omega), List.take_of_length_le (by omega)]
    have hn := cfbEncryptN_length (hc.aes_length k.key) ((data.length + 15) / 16) iv data hl (by omega)
    rw [h2]
    cases b with
    | pycryptodome => unfold PrivKey.aesEncrypt cfbEncrypt; simp only [hn]; exact le_refl _
    | openssl x => unfold PrivKey.aesEncrypt opensslBuffer cfbEncrypt; simp only [hr, List.length_append, hn]; omega
  | desCbc =>
    rw [hp] at e
    obtain ⟨bb, h1, h2, h3⟩ := e
    have hs : salt.length = 8 := by rw [h2, List.length_append, natToBytes_length, toBytesBE_length h1]
    have hiv : (xorBytes k.preIV salt).length = 8 := by rw [xorBytes_length, hk hp, hs]; rfl
    have hr : c.readIV 8 (xorBytes k.preIV salt) = xorBytes k.preIV salt := by
      rw [c.readIV_full (by omega), List.take_of_length_le (by omega)]
    have hn := cbcEncryptN_length (hc.desEnc_length k.key) (data.length / 8 + 1) (xorBytes k.preIV salt) (desPad data) hiv (desPad_length data)
    have hdl : (desPad data).length / 8 = data.length / 8 + 1 := by rw [desPad_length]; omega
    cases b with
    | pycryptodome =>
      unfold PrivKey.desEncrypt cbcEncrypt at h3
      simp only at h3
      rw [if_neg (by omega), hdl] at h3
      injection h3 with h3
      rw [← h3, hn]; omega
    | openssl x =>
      unfold PrivKey.desEncrypt opensslBuffer cbcEncrypt at h3
      simp only [hr, hdl] at h3
      injection h3 with h3
      rw [← h3, List.length_append, hn]; omega

/-- Encryption with PyCryptodome is that of the standards. -/
theorem encrypt_standard {k : PrivKey} {c : Crypto} {p : PrivProto} {key data : Bytes} {boots time : Nat} {ct salt : Bytes}
    {seed : Nat} (hk : PrivKey.new p key seed = .ok k) (h : (k.encrypt .pycryptodome c data boots time).1 = .ok (ct, salt)) :
    ∃ pad, (p = .desCbc → (data ++ pad).length % 8 = 0) ∧ ct = Spec.peerEncrypt c p key boots time salt data pad := by
  obtain ⟨p1, -, a1, d1⟩ := PrivKey.new_ok hk
  have e := PrivKey.encrypt_salt h
  rw [p1] at e
  cases p with
  | aesCfb128 =>
    obtain ⟨h0, iv, h1, h2⟩ := e
    refine ⟨[], nofun, ?_⟩
    have hs : salt.length = 8 := by rw [h0, natToBytes_length]
    have hiv : natToBytes 4 boots ++ natToBytes 4 time ++ salt = iv := by
      unfold packIV toBytesBE at h1
      rw [if_neg (by omega)] at h1
      split at h1
      · split at h1
        · injection h1 with h1
        · cases h1
      · cases h1
    rw [h2, (a1 rfl).1, ← hiv]
    rfl
  | desCbc =>
    obtain ⟨bb, h1, h2, h3⟩ := e
    unfold PrivKey.desEncrypt at h3
    simp only at h3
    split at h3
    · cases h3
    · injection h3 with h3
      refine ⟨List.replicate (8 - data.length % 8) 0, fun _ => ?_, ?_⟩
      · have := desPad_length data
        unfold desPad at this
        rw [this]; omega
      · rw [← h3, (d1 rfl).1, (d1 rfl).2.1]
        rfl

/-- What a module that finds the keys of user `a` sends in this user's name. -/
theorem Usm.sends_core (u : Usm) (b : Backend) {c : Crypto} (hc : c.Ok) {a : UserArgs} {m : V3Message} {s : ScopedPDU}
    {engineID : Bytes} {t : ℚ} {w : Bytes} (hh : Spec.HeaderOk m.header) (hs : m.scopedPDU = some s)
    (hpdu : Spec.PduSendable s.pdu) (hf : ∀ v ∈ s.pdu.bindings, Spec.BindingFaithful v)
    (h : (u.prepareOutgoing b c m engineID a.userName t).1 = .ok w) (hl : w.length ≤ 65535) (boots time : Nat)
    (ht : (if m.header.flags.level.auth then u.timekeeper.getEngineTime engineID t else (0, 0)) = ((boots : Int), (time : Int)))
    (hu : m.header.flags.level.auth = true → ∀ user, u.users.getCredentials engineID a.userName = .ok user →
      Spec.RfcKeys c a engineID user) :
    ∃ before signature after salt data, w = before ++ signature ++ after ∧
      Spec.IsSecured m.header engineID boots time a.userName salt data before signature after ∧
      (m.header.flags.level.auth = true → ∃ p, a.authProtocol = some p ∧
        signature = (c.hmac p (Spec.localKey c p (Spec.chosen a.authSecret a.secret) engineID)
          (before ++ List.replicate (Spec.macLength p) 0 ++ after)).take (Spec.macLength p)) ∧
      (m.header.flags.level.priv = false → data = .inl { s with pdu := s.pdu.canon }) ∧
      (m.header.flags.level.priv = true → ∃ p p' ct plain k seed, a.authProtocol = some p ∧ a.privProtocol = some p' ∧ data = .inr ct ∧
        Spec.IsScoped { s with pdu := s.pdu.canon } plain ∧
        PrivKey.new p' (Spec.localKey c p (Spec.chosen a.privSecret a.secret) engineID) seed = .ok k ∧
        (k.encrypt b c plain boots time).1 = .ok (ct, salt)) := by
  have hlim := limit_le
  have hsc : ∀ {params payload : Bytes}, (Spec.sequence (Spec.integer 3 ++ Spec.headerOctets m.header ++ Spec.octetString params ++
      payload)).length ≤ 65535 → payload.length < Spec.lengthLimit := by
    intro params payload hle
    have := Spec.tlv_length 0x30 (Spec.integer 3 ++ Spec.headerOctets m.header ++ Spec.octetString params ++ payload)
    have h2 : (Spec.tlv 0x30 (Spec.integer 3 ++ Spec.headerOctets m.header ++ Spec.octetString params ++ payload)).length ≤ 65535 := hle
    rw [List.length_append] at this
    omega
  have plainOct : ∀ (m' : V3Message), m'.header = m.header → m'.scopedPDU = some s → m.header.flags.level.priv = false →
      ∀ params e, ({ m' with securityParameters := .bytes params } : V3Message).encode = .ok e →
      e = Spec.sequence (Spec.integer 3 ++ Spec.headerOctets m'.header ++ Spec.octetString params ++ Spec.scopedOctets s) := by
    intro m' e1 e2 e3 params e he
    obtain ⟨s', h1, h2⟩ := (C98_v3_partial _ e he (by intro s' hs'; rw [e2] at hs'; cases hs'; exact hf)).2 (by rw [← e3, ← e1])
    rw [e2] at h1; cases h1
    exact h2
  by_cases hauth : m.header.flags.level.auth = true
  · rw [if_pos hauth] at ht
    obtain ⟨user, auth, m', salt, h1, h2, h3, h4⟩ := prepareOutgoing_ok hauth h
    rw [ht] at h3 h4
    obtain ⟨hhd, hpg⟩ := Protected.good h3 hs hpdu
    have hk := hu hauth user h1
    obtain ⟨before, after, g1, g2⟩ := finish_layout (by rw [hhd]; exact ⟨hh.1, hh.2, hh.3⟩) hpg h4
    have hsl := sign_length hc auth (before ++ auth.proto.padding ++ after)
    have hn : 0 < auth.proto.n := by cases auth.proto <;> decide
    -- the keys
    have hap : a.authProtocol = some auth.proto ∧
        auth.key = Spec.localKey c auth.proto (Spec.chosen a.authSecret a.secret) engineID := by
      unfold Spec.RfcKeys at hk
      cases hp : a.authProtocol with
      | none => rw [hp] at hk; rw [hk.1] at h2; cases h2
      | some p =>
        rw [hp] at hk
        have := hk.1
        rw [h2] at this
        injection this with this
        rw [this]
        exact ⟨rfl, rfl⟩
    have hml : Spec.macLength auth.proto = auth.proto.n := by cases auth.proto <;> rfl
    have signed : auth.sign c (before ++ auth.proto.padding ++ after) =
        (c.hmac auth.proto (Spec.localKey c auth.proto (Spec.chosen a.authSecret a.secret) engineID)
          (before ++ List.replicate (Spec.macLength auth.proto) 0 ++ after)).take (Spec.macLength auth.proto) := by
      rw [hml, ← hap.2]; rfl
    obtain ⟨params, -, henc⟩ := g2 _ hsl
    rw [← g1] at henc
    rcases h3 with ⟨hpr, rfl, rfl⟩ | ⟨hpr, k, s', plain, ct, k1, k2, k3, k4, k5, rfl⟩
    · have hoct := plainOct m' rfl hs hpr
      have hpay := Spec.scoped_is (s := s) (fun v hv => (hf v hv).encodable) (hsc (by rw [← hoct _ _ henc]; exact hl))
      obtain ⟨be, af, q1, q2, q3⟩ := encoded_secured (data := .inl { s with pdu := s.pdu.canon }) hoct hpay g2 _ hsl (by rw [← g1]; exact hl)
      obtain ⟨rfl, rfl⟩ := q2 hn
      exact ⟨be, _, af, [], _, g1, q3, fun _ => ⟨_, hap.1, signed⟩, fun _ => rfl, fun hp => by rw [hpr] at hp; cases hp⟩
    · rw [hs] at k2; cases k2
      have hoct : ∀ params e, ({ m with encryptedPDU := some ct, securityParameters := .bytes params } : V3Message).encode = .ok e →
          e = Spec.sequence (Spec.integer 3 ++ Spec.headerOctets m.header ++ Spec.octetString params ++ Spec.octetString ct) := by
        intro params e he
        obtain ⟨d, e1, e2⟩ := (C98_v3_partial _ e he (by intro s' hs'; rw [hs] at hs'; cases hs'; exact hf)).1 hpr
        cases e1
        exact e2
      have hpay := Spec.string_is (hsc (params := params) (payload := Spec.octetString ct) (by rw [← hoct _ _ henc]; exact hl))
      obtain ⟨be, af, q1, q2, q3⟩ := encoded_secured (m := { m with encryptedPDU := some ct }) (data := .inr ct) hoct hpay g2 _ hsl
        (by rw [← g1]; exact hl)
      obtain ⟨rfl, rfl⟩ := q2 hn
      have hpp : ∃ p', a.privProtocol = some p' := by
        unfold Spec.RfcKeys at hk
        rw [hap.1] at hk
        cases hp : a.privProtocol with
        | none => rw [hp] at hk; rw [hk.2] at k1; cases k1
        | some p' => exact ⟨p', rfl⟩
      obtain ⟨p', hpp⟩ := hpp
      have hkey : ∃ seed, PrivKey.new p' (Spec.localKey c auth.proto (Spec.chosen a.privSecret a.secret) engineID) seed = .ok k := by
        unfold Spec.RfcKeys at hk
        rw [hap.1, hpp] at hk
        have hl : 16 ≤ (Spec.localKey c auth.proto (Spec.chosen a.privSecret a.secret) engineID).length := by
          unfold Spec.localKey
          rw [hc.hash_length]
          cases auth.proto <;> decide
        simp only at hk
        generalize Spec.localKey c auth.proto (Spec.chosen a.privSecret a.secret) engineID = K at *
        cases p' with
        | aesCfb128 =>
          obtain ⟨-, seed, hk⟩ := hk
          rw [k1] at hk; cases hk
          refine ⟨seed, ?_⟩
          unfold PrivKey.new
          rw [if_neg (by simp only [PrivProto.keyLen]; omega)]
        | desCbc =>
          obtain ⟨-, seed, hk⟩ := hk
          rw [k1] at hk; cases hk
          refine ⟨seed, ?_⟩
          unfold PrivKey.new
          rw [if_neg (by simp only [PrivProto.keyLen]; omega)]
      obtain ⟨seed, hkey⟩ := hkey
      have hple := encrypt_length hc (fun hp => by
        obtain ⟨e1, -, -, e2⟩ := PrivKey.new_ok hkey
        exact (e2 (e1.symm.trans hp)).2.2) k4
      have hplain := ScopedPDU.encode_rfc hf k3
      refine ⟨be, _, af, salt, _, g1, q3, fun _ => ⟨_, hap.1, signed⟩, (fun hp => by rw [hpr] at hp; cases hp), fun _ =>
        ⟨_, p', ct, plain, k, seed, hap.1, hpp, rfl, ?_, hkey, k4⟩⟩
      rw [hplain]
      refine Spec.scoped_is (fun v hv => (hf v hv).encodable) ?_
      rw [← hplain]
      omega
  · rw [if_neg hauth] at ht
    have hpr : m.header.flags.level.priv = false := by
      cases hp : m.header.flags.level.priv with
      | false => rfl
      | true => exact absurd (hh.level hp) hauth
    unfold Usm.prepareOutgoing at h
    rw [if_neg hauth] at h
    simp only at h
    unfold Usm.finish at h
    obtain ⟨params, h1, h⟩ := bind_ok h
    obtain ⟨params', h2, h⟩ := bind_ok h
    obtain ⟨rfl, hpl⟩ := octetStringNew_ok h2
    obtain ⟨plain, h3, h⟩ := bind_ok h
    injection h with h
    subst h
    simp only [Prod.mk.injEq] at ht
    rw [show (UsmParams.new engineID 0 0 a.userName (.bytes []) []) = UsmParams.new engineID boots time a.userName (.bytes []) [] by
      rw [← ht.1, ← ht.2]] at h1
    have hoct := plainOct m rfl hs hpr
    have hpay := Spec.scoped_is (s := s) (fun v hv => (hf v hv).encodable) (hsc (by rw [← hoct _ _ h3]; exact hl))
    obtain ⟨be, af, q1, q2, q3⟩ := encoded_secured (n := 0) (before := []) (after := plain) (data := .inl { s with pdu := s.pdu.canon }) hoct
      hpay (by intro p hp; obtain rfl := List.length_eq_zero_iff.1 hp; exact ⟨params, h1, h3⟩) [] rfl (by simpa using hl)
    exact ⟨be, [], af, [], _, by simpa using q1.symm, q3, fun h => absurd h hauth, fun _ => rfl, fun hp => by rw [hpr] at hp; cases hp⟩

/-- **C103**, for a module in any state that finds the keys of user `a`. -/
theorem Usm.sends_standard (u : Usm) (b : Backend) {c : Crypto} (hc : c.Ok) {a : UserArgs} {m : V3Message} {s : ScopedPDU}
    {engineID : Bytes} {t : ℚ} {w : Bytes} (hh : Spec.HeaderOk m.header) (hs : m.scopedPDU = some s)
    (hpdu : Spec.PduSendable s.pdu) (hf : ∀ v ∈ s.pdu.bindings, Spec.BindingFaithful v)
    (h : (u.prepareOutgoing b c m engineID a.userName t).1 = .ok w) (hl : w.length ≤ 65535) (boots time : Nat)
    (ht : (if m.header.flags.level.auth then u.timekeeper.getEngineTime engineID t else (0, 0)) = ((boots : Int), (time : Int)))
    (hu : m.header.flags.level.auth = true → ∀ user, u.users.getCredentials engineID a.userName = .ok user →
      Spec.RfcKeys c a engineID user) :
    Spec.PeerReads c a m.header engineID boots time { s with pdu := s.pdu.canon } w ∧
    ((m.header.flags.level.priv = true → b = .pycryptodome) → Spec.IsProtected c a m.header engineID boots time
      { s with pdu := s.pdu.canon } w) := by
  obtain ⟨before, signature, after, salt, data, h1, h2, h3, h4, h5⟩ := u.sends_core b hc hh hs hpdu hf h hl boots time ht hu
  have hsalt : m.header.flags.level.priv = true → salt.length = 8 := by
    intro hp
    obtain ⟨p, p', ct, plain, k, seed, -, -, -, -, k5, k6⟩ := h5 hp
    exact (C90_sends_partial c hc b p' _ seed k k5 boots time plain ct salt k6).1
  refine ⟨⟨before, signature, after, salt, data, h1, h2, h3, h4, fun hp => ?_⟩,
    fun hb => ⟨before, signature, after, salt, data, h1, h2, h3, h4, fun hp => ?_⟩⟩
  · obtain ⟨p, p', ct, plain, k, seed, k1, k2, k3, k4, k5, k6⟩ := h5 hp
    obtain ⟨-, ⟨trail, e⟩, -⟩ := C90_sends_partial c hc b p' _ seed k k5 boots time plain ct salt k6
    exact ⟨p, p', ct, plain, trail, k1, k2, k3, hsalt hp, k4, e⟩
  · obtain ⟨p, p', ct, plain, k, seed, k1, k2, k3, k4, k5, k6⟩ := h5 hp
    rw [hb hp] at k6
    obtain ⟨pad, e1, e2⟩ := encrypt_standard k5 k6
    exact ⟨p, p', plain, pad, k1, k2, hsalt hp, k4, e1, by rw [k3, e2]⟩

/-- **C103**. After any history of a security module in which `addUser` accepted the user `a` and the engine is registered in
its namespace, whatever the module makes of a message to this engine in the name of this user is, with the current estimate of the
engine's boots and time (zero without authentication), a datagram that an engine that follows the standards reads as this message:
same header, same contexts, same PDU. With PyCryptodome, and without privacy, it is to the octet what the standards say. Missing: object
identifiers such as 1.8, which the library encodes wrongly (C98), and the length of the ciphertext with OpenSSL (C90). -/
theorem C103_partial (b : Backend) (c : Crypto) (hc : c.Ok) (hist : List Spec.UsmOp) (a : UserArgs) (m : V3Message) (s : ScopedPDU)
    (hh : Spec.HeaderOk m.header) (hs : m.scopedPDU = some s) (hpdu : Spec.PduSendable s.pdu)
    (hf : ∀ v ∈ s.pdu.bindings, Spec.BindingFaithful v) (engineID : Bytes) (t : ℚ) (w : Bytes)
    (h : ((Usm.after b c hist).prepareOutgoing b c m engineID a.userName t).1 = .ok w) (hl : w.length ≤ 65535) (boots time : Nat)
    (ht : (if m.header.flags.level.auth then (Usm.after b c hist).timekeeper.getEngineTime engineID t else (0, 0)) =
      ((boots : Int), (time : Int)))
    (hu : m.header.flags.level.auth = true →
      ∃ h1 seed h2 r n, Spec.configs hist = h1 ++ [.addUser a seed] ++ h2 ∧
        ((UserRegistry.after c h1).apply c (.addUser a seed)).1 = .ok r ∧
        (Spec.Reg.after c (Spec.configs hist)).engine engineID = some (a.namespace, n)) :
    ∃ s', s'.contextEngineID = s.contextEngineID ∧ s'.contextName = s.contextName ∧ Spec.SamePdu s.pdu s'.pdu ∧
      Spec.PeerReads c a m.header engineID boots time s' w ∧
      ((m.header.flags.level.priv = true → b = .pycryptodome) → Spec.IsProtected c a m.header engineID boots time s' w) := by
  obtain ⟨k1, k2⟩ := (Usm.after b c hist).sends_standard b hc hh hs hpdu hf h hl boots time ht (by
    intro ha user hg
    obtain ⟨h1, seed, h2, r, n, e1, e2, e3⟩ := hu ha
    obtain ⟨user', g1, g2⟩ := keys_found hc b e1 e2 e3
    rw [hg] at g1
    injection g1 with g1
    rw [g1]; exact g2)
  exact ⟨{ s with pdu := s.pdu.canon }, rfl, rfl, hpdu.canon, k1, k2⟩

end Snmp
