import Verif.Props.Priv
/-!
# Privacy with peers that follow the RFCs: C90

`Spec.peerEncrypt` and `Spec.peerDecrypt` are what another implementation does: RFC 3414 section 8 for DES, RFC 3826
for AES. They do not use the code of the library.
-/

namespace Snmp

/-- The localised privacy key of a user, cut as the RFCs say, and the initialisation vector of a message: for AES the
key is the first 16 octets and the vector is boots, time and salt (RFC 3826 section 3.1.2.1); for DES the key is the
first 8 octets and the vector is the exclusive or of the next 8 octets with the salt (RFC 3414 section 8.1.1.1). -/
def Spec.peerIV (p : PrivProto) (key : Bytes) (boots time : Nat) (salt : Bytes) : Bytes :=
  match p with
  | .aesCfb128 => natToBytes 4 boots ++ natToBytes 4 time ++ salt
  | .desCbc => xorBytes ((key.take 16).drop 8) salt

/-- Encryption by a peer. DES works on whole blocks: the peer appends `pad`, of whatever value (RFC 3414 section
8.1.1.2: "the actual pad value is irrelevant"); AES needs none. -/
def Spec.peerEncrypt (c : Crypto) (p : PrivProto) (key : Bytes) (boots time : Nat) (salt data pad : Bytes) : Bytes :=
  match p with
  | .aesCfb128 => cfbEncrypt (c.aes (key.take 16)) (Spec.peerIV p key boots time salt) data
  | .desCbc => cbcEncrypt (c.desEnc (key.take 8)) (Spec.peerIV p key boots time salt) (data ++ pad)

/-- Decryption by a peer. DES refuses what is not a number of whole blocks (RFC 3414 section 8.1.1.3). -/
def Spec.peerDecrypt (c : Crypto) (p : PrivProto) (key : Bytes) (boots time : Nat) (salt ct : Bytes) : Option Bytes :=
  match p with
  | .aesCfb128 => some (cfbDecrypt (c.aes (key.take 16)) (Spec.peerIV p key boots time salt) ct)
  | .desCbc =>
    if ct.length % 8 = 0 then some (cbcDecrypt (c.desDec (key.take 8)) (Spec.peerIV p key boots time salt) ct) else none

/-- The standard's functions are inverse to each other. -/
theorem Spec.peer_roundtrip (c : Crypto) (hc : c.Ok) (p : PrivProto) (key : Bytes) (hk : 16 ≤ key.length)
    (boots time : Nat) (salt : Bytes) (hs : salt.length = 8) (data pad : Bytes)
    (hpad : p = .desCbc → (data ++ pad).length % 8 = 0) :
    ∃ trail, Spec.peerDecrypt c p key boots time salt (Spec.peerEncrypt c p key boots time salt data pad) =
      some (data ++ trail) := by
  cases p with
  | aesCfb128 =>
    have hiv : (natToBytes 4 boots ++ natToBytes 4 time ++ salt).length = 16 := by
      simp [natToBytes_length, hs]
    have hE : ∀ b, b.length = 16 → (c.aes (key.take 16) b).length = 16 := hc.aes_length _
    have hl := cfbEncryptN_length hE ((data.length + 15) / 16) _ data hiv (by omega)
    obtain ⟨g, hg⟩ := cfb_roundtrip hE ((data.length + 15) / 16) ((data.length + 15) / 16) _ data [] hiv
      (by omega) (by omega)
    rw [List.append_nil] at hg
    refine ⟨g, ?_⟩
    simp only [Spec.peerDecrypt, Spec.peerEncrypt, Spec.peerIV, cfbDecrypt, cfbEncrypt]
    rw [hl, hg]
  | desCbc =>
    have h8 := hpad rfl
    have hiv : (xorBytes ((key.take 16).drop 8) salt).length = 8 := by
      rw [xorBytes_length, List.length_drop, List.length_take, hs]; omega
    have hE : ∀ b, b.length = 8 → (c.desEnc (key.take 8) b).length = 8 := hc.desEnc_length _
    have hDE : ∀ b, b.length = 8 → c.desDec (key.take 8) (c.desEnc (key.take 8) b) = b := hc.desDec_desEnc _
    have hd : (data ++ pad).length = 8 * ((data ++ pad).length / 8) := by omega
    have hl := cbcEncryptN_length hE ((data ++ pad).length / 8) _ (data ++ pad) hiv hd
    have h := cbc_roundtrip (D := c.desDec (key.take 8)) hE hDE ((data ++ pad).length / 8)
      ((data ++ pad).length / 8) (Nat.le_refl _) _ (data ++ pad) [] hiv hd
    rw [List.append_nil, Nat.sub_self] at h
    refine ⟨pad, ?_⟩
    rw [show Spec.peerEncrypt c .desCbc key boots time salt data pad = cbcEncryptN (c.desEnc (key.take 8))
      ((data ++ pad).length / 8) (xorBytes ((key.take 16).drop 8) salt) (data ++ pad) from rfl]
    simp only [Spec.peerDecrypt, Spec.peerIV, cbcDecrypt]
    rw [if_pos (by rw [hl]; omega), hl, Nat.mul_div_cancel_left _ (by decide : 0 < 8), h]
    simp [cbcDecryptN]

/-- **C90**, receiving. What a peer encrypts, with whatever padding and salt, is decrypted to the plaintext followed
by something, so that a scoped PDU in it decodes (`C90_scoped_partial`). Missing: DES with an OpenSSL that holds the
last block back (`C90_false`). -/
theorem C90_receives_partial (c : Crypto) (hc : c.Ok) (b : Backend) (p : PrivProto)
    (hb : p = .desCbc → b ≠ .openssl true) (key : Bytes) (seed : Nat) (k : PrivKey)
    (hk : PrivKey.new p key seed = .ok k) (boots time : Nat) (hboots : boots < 2 ^ 32) (htime : time < 2 ^ 32)
    (salt : Bytes) (hs : salt.length = 8) (data pad : Bytes)
    (hpad : p = .desCbc → (data ++ pad).length % 8 = 0) :
    ∃ trail, k.decrypt b c (Spec.peerEncrypt c p key boots time salt data pad) boots time salt =
      .ok (data ++ trail) := by
  obtain ⟨p1, -, a1, d1⟩ := PrivKey.new_ok hk
  unfold PrivKey.decrypt
  simp only [p1]
  cases p with
  | aesCfb128 =>
    have hiv : (natToBytes 4 boots ++ natToBytes 4 time ++ salt).length = 16 := by
      simp [natToBytes_length, hs]
    have hpack : packIV (boots : Int) (time : Int) salt = .ok (natToBytes 4 boots ++ natToBytes 4 time ++ salt) := by
      unfold packIV toBytesBE
      rw [if_neg (by omega), if_pos (by constructor <;> omega), if_pos (by constructor <;> omega)]
      rfl
    rw [hpack, (a1 rfl).1]
    simp only [translateErr, Except.bind, Spec.peerEncrypt, Spec.peerIV]
    generalize natToBytes 4 boots ++ natToBytes 4 time ++ salt = iv at hiv
    obtain ⟨g, hg⟩ := PrivKey.aes_roundtrip hc .pycryptodome b (key := key.take 16) hiv data
    exact ⟨g, by simpa only [PrivKey.aesEncrypt] using congrArg Except.ok hg⟩
  | desCbc =>
    obtain ⟨k1, k2, k3⟩ := d1 rfl
    have h8 := hpad rfl
    have hiv : (xorBytes ((key.take 16).drop 8) salt).length = 8 := by
      rw [xorBytes_length, ← k2, k3, hs]; rfl
    have hE : ∀ b, b.length = 8 → (c.desEnc (key.take 8) b).length = 8 := hc.desEnc_length _
    have hDE : ∀ b, b.length = 8 → c.desDec (key.take 8) (c.desEnc (key.take 8) b) = b := hc.desDec_desEnc _
    have hd : (data ++ pad).length = 8 * ((data ++ pad).length / 8) := by omega
    have hl := cbcEncryptN_length hE ((data ++ pad).length / 8) _ (data ++ pad) hiv hd
    have hround := fun m hm z => cbc_roundtrip (D := c.desDec (key.take 8)) hE hDE ((data ++ pad).length / 8) m hm _
      (data ++ pad) z hiv hd
    simp only [Spec.peerEncrypt, Spec.peerIV, cbcEncrypt, PrivKey.computeIV, k1, k2]
    generalize xorBytes ((key.take 16).drop 8) salt = iv at hiv hl hround ⊢
    generalize cbcEncryptN (c.desEnc (key.take 8)) ((data ++ pad).length / 8) iv (data ++ pad) = C at hl hround ⊢
    rw [if_neg (by omega)]
    cases b with
    | pycryptodome =>
      simp only [PrivKey.desDecrypt, cbcDecrypt]
      rw [if_neg (by omega), desPad_length, Nat.mul_div_cancel_left _ (by decide : 0 < 8)]
      unfold desPad
      rw [hround _ (by omega), List.append_assoc]
      exact ⟨_, rfl⟩
    | openssl hold =>
      cases hold with
      | true => exact absurd rfl (hb rfl)
      | false =>
        simp only [PrivKey.desDecrypt, cbcDecrypt, Bool.false_eq_true, if_false, opensslBuffer]
        rw [c.readIV_full (by omega), List.take_of_length_le (l := iv) (by omega)]
        have h1 := hround (C.length / 8) (by omega) []
        rw [List.append_nil] at h1
        rw [h1, List.append_assoc, List.append_assoc]
        exact ⟨_, rfl⟩

/-- **C90**, receiving, for a scoped PDU. -/
theorem C90_scoped_partial (c : Crypto) (hc : c.Ok) (b : Backend) (p : PrivProto)
    (hb : p = .desCbc → b ≠ .openssl true) (key : Bytes) (seed : Nat) (k : PrivKey)
    (hk : PrivKey.new p key seed = .ok k) (boots time : Nat) (hboots : boots < 2 ^ 32) (htime : time < 2 ^ 32)
    (salt : Bytes) (hs : salt.length = 8) (pad : Bytes) (s : ScopedPDU) (hsend : Spec.PduSendable s.pdu) (e : Bytes)
    (he : s.encode = .ok e) (hpad : p = .desCbc → (e ++ pad).length % 8 = 0) :
    ∃ plain r, k.decrypt b c (Spec.peerEncrypt c p key boots time salt e pad) boots time salt = .ok plain ∧
      decodePlaintext plain = .ok r ∧ r.contextEngineID = s.contextEngineID ∧ r.contextName = s.contextName ∧
      Spec.SamePdu s.pdu r.pdu := by
  obtain ⟨g, hg⟩ := C90_receives_partial c hc b p hb key seed k hk boots time hboots htime salt hs e pad hpad
  refine ⟨_, { s with pdu := s.pdu.canon }, hg, ?_, rfl, rfl, hsend.canon⟩
  unfold decodePlaintext
  rw [ScopedPDU.decode_exact hsend.good he (Asn1Data.valid_bytes (e ++ g)) (rest := g) rfl (.inl rfl)]
  rfl

/-- **C90**, sending. With the transmitted salt a peer decrypts what the library encrypts to the plaintext followed by
something. Missing is the size: RFC 3826 says that the ciphertext is as long as the plaintext, which holds with
PyCryptodome only (`C90_false`). -/
theorem C90_sends_partial (c : Crypto) (hc : c.Ok) (b : Backend) (p : PrivProto) (key : Bytes) (seed : Nat)
    (k : PrivKey) (hk : PrivKey.new p key seed = .ok k) (boots time : Nat) (data ct salt : Bytes)
    (h : (k.encrypt b c data boots time).1 = .ok (ct, salt)) :
    salt.length = 8 ∧ (∃ trail, Spec.peerDecrypt c p key boots time salt ct = some (data ++ trail)) ∧
    (b = .pycryptodome → ct.length = match p with
      | .aesCfb128 => data.length
      | .desCbc => 8 * (data.length / 8 + 1)) := by
  obtain ⟨p1, -, a1, d1⟩ := PrivKey.new_ok hk
  have e := PrivKey.encrypt_salt h
  simp only [p1] at e
  cases p with
  | aesCfb128 =>
    obtain ⟨h0, iv, h1, h2⟩ := e
    have hs : salt.length = 8 := by rw [h0, natToBytes_length]
    have hl := (packIV_length h1).1
    have hiv : natToBytes 4 boots ++ natToBytes 4 time ++ salt = iv := by
      unfold packIV toBytesBE at h1
      rw [if_neg (by omega)] at h1
      split at h1
      · split at h1
        · injection h1 with h1
        · cases h1
      · cases h1
    refine ⟨hs, ?_, ?_⟩
    · obtain ⟨g, hg⟩ := PrivKey.aes_roundtrip hc b .pycryptodome (key := key.take 16) hl data
      refine ⟨g, ?_⟩
      simp only [Spec.peerDecrypt, Spec.peerIV, hiv, h2, (a1 rfl).1]
      exact congrArg some hg
    · rintro rfl
      have hE : ∀ b, b.length = 16 → (c.aes k.key b).length = 16 := hc.aes_length _
      rw [h2]
      exact cfbEncryptN_length hE ((data.length + 15) / 16) iv data hl (by omega)
  | desCbc =>
    obtain ⟨bb, h1, h2, h3⟩ := e
    obtain ⟨k1, k2, k3⟩ := d1 rfl
    have hs : salt.length = 8 := by rw [h2, List.length_append, natToBytes_length, toBytesBE_length h1]
    have hiv : (xorBytes k.preIV salt).length = 8 := by rw [xorBytes_length, k3, hs]; rfl
    refine ⟨hs, ?_, ?_⟩
    · obtain ⟨ct', g, q1, q2, -, -, q3⟩ := PrivKey.des_roundtrip hc b (.openssl false) (by simp) (key := k.key) hiv data
      rw [h3] at q1; injection q1 with q1; subst q1
      simp only [PrivKey.desDecrypt, Bool.false_eq_true, if_false, opensslBuffer] at q3
      rw [c.readIV_full (by omega), List.take_of_length_le (by omega)] at q3
      injection q3 with q3
      have hE : ∀ b, b.length = 8 → (c.desEnc k.key b).length = 8 := hc.desEnc_length _
      have hD : ∀ b, b.length = 8 → (c.desDec k.key b).length = 8 := hc.desDec_length _
      have hlen : data.length ≤ (cbcDecrypt (c.desDec k.key) (xorBytes k.preIV salt) ct).length := by
        rw [cbcDecrypt, cbcDecryptN_length hD _ _ _ hiv (by omega)]
        have := PrivKey.des_roundtrip hc b (.openssl false) (by simp) (key := k.key) hiv data
        obtain ⟨ct', -, w1, -, w3, -⟩ := this
        rw [h3] at w1; injection w1 with w1; subst w1
        omega
      refine ⟨(cbcDecrypt (c.desDec k.key) (xorBytes k.preIV salt) ct).drop data.length, ?_⟩
      simp only [Spec.peerDecrypt, Spec.peerIV]
      rw [if_pos q2, ← k1, ← k2]
      refine congrArg some ?_
      have := congrArg (List.take data.length) q3
      rw [List.take_append_of_le_length hlen, List.take_left' rfl] at this
      exact (List.take_append_drop data.length _).symm.trans (congrArg (· ++ _) this)
    · rintro rfl
      simp only [PrivKey.desEncrypt] at h3
      rw [if_neg (by omega)] at h3
      replace h3 := Except.ok.inj h3
      have hE : ∀ b, b.length = 8 → (c.desEnc k.key b).length = 8 := hc.desEnc_length _
      rw [← h3, cbcEncrypt, desPad_length, Nat.mul_div_cancel_left _ (by decide : 0 < 8)]
      exact cbcEncryptN_length hE _ _ _ hiv (desPad_length data)

/-- What C90 does not cover is false. (1) With OpenSSL, AES makes 3 octets of plaintext 16 octets of ciphertext. (2) An
OpenSSL that holds the last block back loses the plaintext of a peer's DES message of one block. -/
theorem C90_false : ∃ (c : Crypto) (key : Bytes), c.Ok ∧ 16 ≤ key.length ∧
    (∃ k ct salt, PrivKey.new .aesCfb128 key 0 = .ok k ∧ (k.encrypt (.openssl true) c [1, 2, 3] 0 0).1 = .ok (ct, salt) ∧
      ct.length = 16) ∧
    (∃ k plain, PrivKey.new .desCbc key 0 = .ok k ∧
      k.decrypt (.openssl true) c
        (Spec.peerEncrypt c .desCbc key 0 0 (List.replicate 8 7) [1, 2, 3] [0, 0, 0, 0, 0]) 0 0 (List.replicate 8 7) =
        .ok plain ∧ ¬ [1, 2, 3] <+: plain) := by
  refine ⟨Spec.toyCrypto, List.replicate 16 1, Spec.toyCrypto_ok, by decide,
    ⟨⟨.aesCfb128, List.replicate 16 1, [], 0⟩, _, _, rfl, rfl, by decide +kernel⟩,
    ⟨⟨.desCbc, List.replicate 8 1, List.replicate 8 1, 0⟩, _, rfl, rfl, by decide +kernel⟩⟩

/-- Non-vacuity of C90: a padding to whole blocks always exists; encryption succeeds. -/
theorem C90_example (c : Crypto) (b : Backend) (p : PrivProto) (data : Bytes) :
    (∃ pad : Bytes, (data ++ pad).length % 8 = 0) ∧
    ∃ k, PrivKey.new p (List.replicate 16 1) 0 = .ok k ∧ ∃ ct salt, (k.encrypt b c data 3 5).1 = .ok (ct, salt) := by
  refine ⟨⟨List.replicate (8 - data.length % 8) 0, by simp; omega⟩, ?_⟩
  cases p with
  | aesCfb128 => exact ⟨_, rfl, _, _, rfl⟩
  | desCbc =>
    refine ⟨_, rfl, ?_⟩
    cases b with
    | openssl _ => exact ⟨_, _, rfl⟩
    | pycryptodome => exact ⟨_, _, rfl⟩

end Snmp
