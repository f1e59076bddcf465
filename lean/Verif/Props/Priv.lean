import Verif.PrivLemmas
import Verif.Props.Users
import Verif.Props.Message
/-!
# Privacy: C45, C46, C47, C62
-/

namespace Snmp

/-! ## C45 -/

/-- C45 for any byte string: with the same localised key on both sides, whatever the two salt
counters are, decryption with the transmitted salt gives the plaintext followed by something.
Excluded is DES from PyCryptodome to an OpenSSL that holds the last block back. -/
theorem C45_bytes_partial (c : Crypto) (hc : c.Ok) (enc dec : Backend) (p : PrivProto)
    (hb : p = .desCbc → dec = .openssl true → enc ≠ .pycryptodome)
    (key : Bytes) (seed seed' : Nat) (k k' : PrivKey)
    (hk : PrivKey.new p key seed = .ok k) (hk' : PrivKey.new p key seed' = .ok k')
    (boots time : Int) (hboots : 0 ≤ boots ∧ boots < 2 ^ 32) (htime : 0 ≤ time ∧ time < 2 ^ 32)
    (data : Bytes) :
    ∃ ct salt trail, (k.encrypt enc c data boots time).1 = .ok (ct, salt) ∧ salt.length = 8 ∧
      data.length ≤ ct.length ∧ ct.length ≤ data.length + 16 ∧
      k'.decrypt dec c ct boots time salt = .ok (data ++ trail) := by
  obtain ⟨p1, s1, a1, d1⟩ := PrivKey.new_ok hk
  obtain ⟨p2, s2, a2, d2⟩ := PrivKey.new_ok hk'
  unfold PrivKey.encrypt PrivKey.decrypt
  cases p with
  | aesCfb128 =>
    simp only [p1, p2]
    obtain ⟨k1, -⟩ := a1 rfl
    obtain ⟨k2, -⟩ := a2 rfl
    obtain ⟨iv, hiv, hl⟩ := packIV_ok (salt := natToBytes 8 ((k.salt + 1) %
      PrivKey.saltWrap .aesCfb128)) hboots htime (natToBytes_length _ _)
    rw [hiv, k1, k2]
    simp only [Except.bind]
    obtain ⟨g, hg⟩ := PrivKey.aes_roundtrip hc enc dec (key := key.take 16) hl data
    obtain ⟨l1, l2⟩ := PrivKey.aesEncrypt_length hc enc (key := key.take 16) hl data
    refine ⟨_, _, g, rfl, natToBytes_length _ _, l1, l2, ?_⟩
    rw [hiv]
    simp only [translateErr]
    rw [hg]
  | desCbc =>
    simp only [p1, p2]
    obtain ⟨k1, v1, l1⟩ := d1 rfl
    obtain ⟨k2, v2, l2⟩ := d2 rfl
    obtain ⟨bb, hbb, hbl⟩ := toBytesBE_ok (n := 4) hboots.1 (by simpa using hboots.2)
    rw [hbb]
    simp only [Except.bind, PrivKey.computeIV]
    have hsl : (bb ++ natToBytes 4 ((k.salt + 1) % PrivKey.saltWrap .desCbc)).length = 8 := by
      rw [List.length_append, natToBytes_length, hbl]
    generalize bb ++ natToBytes 4 ((k.salt + 1) % PrivKey.saltWrap .desCbc) = salt at hsl ⊢
    have hiv : (xorBytes k.preIV salt).length = 8 := by rw [xorBytes_length, l1, hsl]; rfl
    have hsame : xorBytes k'.preIV salt = xorBytes k.preIV salt := by rw [v1, v2]
    obtain ⟨ct, g, h1, h2, h3, h4, h5⟩ := PrivKey.des_roundtrip hc enc dec (hb rfl)
      (key := key.take 8) hiv data
    refine ⟨ct, salt, g, by rw [k1, h1], hsl, h3, h4, ?_⟩
    rw [if_neg (by omega), k2, hsame, h5]

/-- C45: a scoped PDU survives encryption by one side and decryption by the other. -/
theorem C45_partial (c : Crypto) (hc : c.Ok) (enc dec : Backend) (p : PrivProto)
    (hb : p = .desCbc → dec = .openssl true → enc ≠ .pycryptodome)
    (key : Bytes) (seed seed' : Nat) (k k' : PrivKey)
    (hk : PrivKey.new p key seed = .ok k) (hk' : PrivKey.new p key seed' = .ok k')
    (boots time : Int) (hboots : 0 ≤ boots ∧ boots < 2 ^ 32) (htime : 0 ≤ time ∧ time < 2 ^ 32)
    (s : ScopedPDU) (hs : Spec.PduSendable s.pdu) (e : Bytes) (he : s.encode = .ok e) :
    ∃ ct salt plain r, (k.encrypt enc c e boots time).1 = .ok (ct, salt) ∧
      k'.decrypt dec c ct boots time salt = .ok plain ∧ decodePlaintext plain = .ok r ∧
      r.contextEngineID = s.contextEngineID ∧ r.contextName = s.contextName ∧
      Spec.SamePdu s.pdu r.pdu := by
  obtain ⟨ct, salt, g, h1, -, -, -, h2⟩ := C45_bytes_partial c hc enc dec p hb key seed seed' k k' hk hk'
    boots time hboots htime e
  refine ⟨ct, salt, e ++ g, { s with pdu := s.pdu.canon }, h1, h2, ?_, rfl, rfl, hs.canon⟩
  unfold decodePlaintext
  rw [ScopedPDU.decode_exact hs.good he (Asn1Data.valid_bytes (e ++ g)) (rest := g) rfl (.inl rfl)]
  rfl

/-- The keys exist: any 16 bytes. -/
example (p : PrivProto) (seed : Nat) : ∃ k, PrivKey.new p (List.replicate 16 1) seed = .ok k := by
  cases p <;> exact ⟨_, rfl⟩

/-- C45 is false in the excluded case: the last block of eight bytes is lost. -/
theorem C45_false : ∃ (c : Crypto) (k : PrivKey) (data ct salt plain : Bytes), c.Ok ∧
    PrivKey.new .desCbc (List.replicate 16 1) 0 = .ok k ∧
    (k.encrypt .pycryptodome c data 0 0).1 = .ok (ct, salt) ∧
    k.decrypt (.openssl true) c ct 0 0 salt = .ok plain ∧ ¬ data <+: plain := by
  refine ⟨Spec.toyCrypto, ⟨.desCbc, List.replicate 8 1, List.replicate 8 1, 0⟩, [1, 2, 3], _, _, _,
    Spec.toyCrypto_ok, rfl, rfl, rfl, by decide +kernel⟩

/-! ## C46 -/

/-- The results of a sequence of calls `encrypt(data, boots, time)` on one object. -/
def Spec.encryptions (b : Backend) (c : Crypto) : PrivKey → List (Bytes × Int × Int) →
    List (Res (Bytes × Bytes))
  | _, [] => []
  | k, (data, boots, time) :: rest =>
    (k.encrypt b c data boots time).1 ::
      Spec.encryptions b c (k.encrypt b c data boots time).2 rest

theorem PrivKey.encrypt_state (k : PrivKey) (b : Backend) (c : Crypto) (data : Bytes)
    (boots time : Int) :
    (k.encrypt b c data boots time).2 = { k with salt := (k.salt + 1) % saltWrap k.proto } := by
  unfold PrivKey.encrypt
  cases k.proto <;> simp

/-- The salt of a successful call. -/
theorem PrivKey.encrypt_salt {k : PrivKey} {b : Backend} {c : Crypto} {data : Bytes}
    {boots time : Int} {ct salt : Bytes} (h : (k.encrypt b c data boots time).1 = .ok (ct, salt)) :
    match k.proto with
    | .aesCfb128 => salt = natToBytes 8 ((k.salt + 1) % 2 ^ 64) ∧
        ∃ iv, packIV boots time salt = .ok iv ∧ ct = aesEncrypt b c k.key iv data
    | .desCbc => ∃ bb, toBytesBE 4 boots = .ok bb ∧ salt = bb ++ natToBytes 4 ((k.salt + 1) % 2 ^ 32) ∧
        desEncrypt b c k.key (xorBytes k.preIV salt) data = .ok ct := by
  unfold PrivKey.encrypt at h
  cases hp : k.proto with
  | aesCfb128 =>
    simp only [hp, saltWrap] at h
    obtain ⟨iv, h1, h2⟩ := bind_ok h
    simp only [Except.ok.injEq, Prod.mk.injEq] at h2
    obtain ⟨h2, h3⟩ := h2
    subst h3
    exact ⟨rfl, iv, h1, h2.symm⟩
  | desCbc =>
    simp only [hp, saltWrap] at h
    obtain ⟨bb, h1, h2⟩ := bind_ok h
    obtain ⟨ct', h3, h4⟩ := bind_ok h2
    simp only [Except.ok.injEq, Prod.mk.injEq] at h4
    obtain ⟨h4, h5⟩ := h4
    subst h4; subst h5
    exact ⟨bb, h1, rfl, h3⟩

/-- The `i`-th call is made with the counter `i` further. -/
theorem Spec.encryptions_get (b : Backend) (c : Crypto) (k : PrivKey) (h : List (Bytes × Int × Int))
    (i : Nat) (r : Res (Bytes × Bytes)) (hi : (Spec.encryptions b c k h)[i]? = some r) :
    ∃ data boots time n, h[i]? = some (data, boots, time) ∧
      n % PrivKey.saltWrap k.proto = (k.salt + i) % PrivKey.saltWrap k.proto ∧
      r = (({ k with salt := n } : PrivKey).encrypt b c data boots time).1 := by
  induction h generalizing i k with
  | nil => simp [Spec.encryptions] at hi
  | cons x rest ih =>
    obtain ⟨data, boots, time⟩ := x
    cases i with
    | zero =>
      simp only [Spec.encryptions, List.getElem?_cons_zero, Option.some.injEq] at hi
      exact ⟨data, boots, time, k.salt, by simp, rfl, by rw [← hi]⟩
    | succ i =>
      simp only [Spec.encryptions, List.getElem?_cons_succ] at hi ⊢
      obtain ⟨d, bo, t, n, h1, h2, h3⟩ := ih _ i hi
      rw [PrivKey.encrypt_state] at h2 h3
      refine ⟨d, bo, t, n, h1, ?_, h3⟩
      simp only at h2
      rw [h2, Nat.mod_add_mod]
      congr 1; omega

/-- C46: on one privacy object the salts of any 2^64 (AES) or 2^32 (DES) consecutive successful calls
are pairwise distinct, whatever is encrypted, at whatever boots and times, and whether or not other
calls in between raise. -/
theorem C46_salts (b : Backend) (c : Crypto) (p : PrivProto) (key : Bytes) (seed : Nat) (k : PrivKey)
    (hk : PrivKey.new p key seed = .ok k) (h : List (Bytes × Int × Int)) (i j : Nat)
    (ct ct' salt salt' : Bytes)
    (hi : (Spec.encryptions b c k h)[i]? = some (.ok (ct, salt)))
    (hj : (Spec.encryptions b c k h)[j]? = some (.ok (ct', salt')))
    (hij : i < j) (hnear : j - i < match p with | .aesCfb128 => 2 ^ 64 | .desCbc => 2 ^ 32) :
    salt ≠ salt' := by
  obtain ⟨p1, -⟩ := PrivKey.new_ok hk
  obtain ⟨d, bo, t, n, -, h2, h3⟩ := Spec.encryptions_get b c k h i _ hi
  obtain ⟨d', bo', t', n', -, h2', h3'⟩ := Spec.encryptions_get b c k h j _ hj
  have e1 := PrivKey.encrypt_salt h3.symm
  have e2 := PrivKey.encrypt_salt h3'.symm
  rw [p1] at h2 h2'
  simp only [p1] at e1 e2
  cases p with
  | aesCfb128 =>
    simp only [PrivKey.saltWrap] at h2 h2' hnear
    intro heq
    have := natToBytes_injective 8 _ _ (Nat.mod_lt _ (by decide)) (Nat.mod_lt _ (by decide))
      (e1.1.symm.trans (heq.trans e2.1))
    omega
  | desCbc =>
    simp only [PrivKey.saltWrap] at h2 h2' hnear
    obtain ⟨bb, -, q1, -⟩ := e1
    obtain ⟨bb', -, q2, -⟩ := e2
    intro heq
    rw [q1, q2] at heq
    have h4 := (List.append_inj' heq (by rw [natToBytes_length, natToBytes_length])).2
    have := natToBytes_injective 4 _ _ (Nat.mod_lt _ (by decide)) (Nat.mod_lt _ (by decide)) h4
    omega

/-- C46: the bound is exact: exactly 2^64 (2^32) calls later the salt is back (for DES at the same
boots). -/
theorem C46_wraps (b : Backend) (c : Crypto) (p : PrivProto) (key : Bytes) (seed : Nat) (k : PrivKey)
    (hk : PrivKey.new p key seed = .ok k) (h : List (Bytes × Int × Int)) (i j : Nat)
    (d d' : Bytes) (boots time time' : Int) (ct ct' salt salt' : Bytes)
    (hhi : h[i]? = some (d, boots, time)) (hhj : h[j]? = some (d', boots, time'))
    (hi : (Spec.encryptions b c k h)[i]? = some (.ok (ct, salt)))
    (hj : (Spec.encryptions b c k h)[j]? = some (.ok (ct', salt')))
    (hij : j = i + match p with | .aesCfb128 => 2 ^ 64 | .desCbc => 2 ^ 32) :
    salt = salt' := by
  obtain ⟨p1, -⟩ := PrivKey.new_ok hk
  obtain ⟨d, bo, t, n, q, h2, h3⟩ := Spec.encryptions_get b c k h i _ hi
  obtain ⟨d', bo', t', n', q', h2', h3'⟩ := Spec.encryptions_get b c k h j _ hj
  rw [hhi] at q; rw [hhj] at q'
  simp only [Option.some.injEq, Prod.mk.injEq] at q q'
  obtain ⟨rfl, rfl, rfl⟩ := q
  obtain ⟨rfl, rfl, rfl⟩ := q'
  have e1 := PrivKey.encrypt_salt h3.symm
  have e2 := PrivKey.encrypt_salt h3'.symm
  rw [p1] at h2 h2'
  simp only [p1] at e1 e2
  cases p with
  | aesCfb128 =>
    simp only [PrivKey.saltWrap] at h2 h2' hij
    rw [e1.1, e2.1]
    congr 1
    omega
  | desCbc =>
    simp only [PrivKey.saltWrap] at h2 h2' hij
    obtain ⟨bb, r1, q1, -⟩ := e1
    obtain ⟨bb', r2, q2, -⟩ := e2
    rw [r1] at r2; injection r2 with r2
    rw [q1, q2, r2]
    congr 2
    omega

/-- The IV RFC 3826 and RFC 3414 make of boots, time and salt. -/
def Spec.iv (k : PrivKey) (boots time : Int) (salt : Bytes) : Bytes :=
  match k.proto with
  | .aesCfb128 => natToBytes 4 boots.toNat ++ natToBytes 4 time.toNat ++ salt
  | .desCbc => xorBytes k.preIV salt

/-- C46: the IV of a successful call is the one of the RFCs, so what is transmitted is the encryption
under it (followed by zeros of the OpenSSL buffer). -/
theorem C46_iv (b : Backend) (c : Crypto) (p : PrivProto) (key : Bytes) (seed : Nat) (k : PrivKey)
    (hk : PrivKey.new p key seed = .ok k) (data : Bytes) (boots time : Int) (ct salt : Bytes)
    (h : (k.encrypt b c data boots time).1 = .ok (ct, salt)) :
    ∃ zeros, ct = (match p with
      | .aesCfb128 => cfbEncrypt (c.aes k.key) (Spec.iv k boots time salt) data
      | .desCbc => cbcEncrypt (c.desEnc k.key) (Spec.iv k boots time salt) (desPad data)) ++
        List.replicate zeros 0 := by
  obtain ⟨p1, -, -, d1⟩ := PrivKey.new_ok hk
  have e := PrivKey.encrypt_salt h
  unfold Spec.iv
  simp only [p1] at e ⊢
  cases p with
  | aesCfb128 =>
    obtain ⟨-, iv, h1, h2⟩ := e
    have hl := (packIV_length h1).1
    have hiv : iv = natToBytes 4 boots.toNat ++ natToBytes 4 time.toNat ++ salt := by
      unfold packIV toBytesBE at h1
      split at h1
      · cases h1
      · split at h1
        · split at h1
          · injection h1 with h1; exact h1.symm
          · cases h1
        · cases h1
    rw [← hiv, h2]
    cases b with
    | openssl b =>
      simp only [PrivKey.aesEncrypt, opensslBuffer]
      rw [c.readIV_full (by omega), List.take_of_length_le (by omega)]
      exact ⟨_, rfl⟩
    | pycryptodome => exact ⟨0, by simp [PrivKey.aesEncrypt]⟩
  | desCbc =>
    obtain ⟨bb, h1, h2, h3⟩ := e
    have hl : (xorBytes k.preIV salt).length = 8 := by
      rw [xorBytes_length, (d1 rfl).2.2, h2, List.length_append, natToBytes_length,
        toBytesBE_length h1]; rfl
    cases b with
    | openssl b =>
      simp only [PrivKey.desEncrypt, opensslBuffer] at h3
      injection h3 with h3
      rw [c.readIV_full (by omega), List.take_of_length_le (by omega)] at h3
      exact ⟨_, h3.symm⟩
    | pycryptodome =>
      simp only [PrivKey.desEncrypt] at h3
      rw [if_neg (by omega)] at h3
      injection h3 with h3
      exact ⟨0, by simp [h3]⟩

/-- C46: different salts give different IVs. -/
theorem C46_ivs (p : PrivProto) (key : Bytes) (seed : Nat) (k : PrivKey)
    (hk : PrivKey.new p key seed = .ok k) (boots time boots' time' : Int) (salt salt' : Bytes)
    (hl : salt.length = 8) (hl' : salt'.length = 8) (h : salt ≠ salt') :
    Spec.iv k boots time salt ≠ Spec.iv k boots' time' salt' := by
  obtain ⟨p1, -, -, d1⟩ := PrivKey.new_ok hk
  unfold Spec.iv
  simp only [p1]
  cases p with
  | aesCfb128 => exact fun heq => h (List.append_inj' heq (by omega)).2
  | desCbc =>
    have hp := (d1 rfl).2.2
    intro heq
    simp only at heq
    have := xorBytes_cancel' (x := k.preIV) (k := salt) (by omega)
    rw [heq, xorBytes_cancel' (by omega)] at this
    exact h this.symm

/-- Two calls succeed and use the counter values after the seed, wrapping. -/
example : ∃ k ct ct', PrivKey.new .aesCfb128 (List.replicate 16 1) (2 ^ 64 - 2) = .ok k ∧
    Spec.encryptions .pycryptodome Spec.toyCrypto k [([1], 0, 0), ([1], 0, 0)] =
      [.ok (ct, List.replicate 8 255), .ok (ct', List.replicate 8 0)] :=
  ⟨_, _, _, rfl, rfl⟩

/-! ## C47 -/

/-- The primitives agree on everything but what lies in memory behind a byte string. -/
def Spec.SameButMemory (c c' : Crypto) : Prop :=
  c.hash = c'.hash ∧ c.hmac = c'.hmac ∧ c.aes = c'.aes ∧ c.desEnc = c'.desEnc ∧ c.desDec = c'.desDec

/-- C47: what is decrypted does not depend on memory outside the IV, and a salt of the wrong length is
refused (ValueError becomes DecryptionError in the security module) with AES, and with DES on
PyCryptodome if it is too short. What is missing: DES on OpenSSL with a short salt, and DES with a
long salt, which is cut instead of refused. -/
theorem C47_partial (p : PrivProto) (key : Bytes) (seed : Nat) (k : PrivKey)
    (hk : PrivKey.new p key seed = .ok k) (b : Backend) (c : Crypto) (data : Bytes) (boots time : Int)
    (salt : Bytes) :
    ((p = .aesCfb128 ∨ b = .pycryptodome ∨ 8 ≤ salt.length) → ∀ c', Spec.SameButMemory c c' →
      k.decrypt b c data boots time salt = k.decrypt b c' data boots time salt) ∧
    (p = .aesCfb128 → salt.length ≠ 8 → k.decrypt b c data boots time salt = .error .decryptionError) ∧
    (p = .desCbc → b = .pycryptodome → salt.length < 8 →
      ∃ e, k.decrypt b c data boots time salt = .error e ∧ (e = .decryptionError ∨ e = .valueError)) := by
  obtain ⟨p1, -, a1, d1⟩ := PrivKey.new_ok hk
  refine ⟨?_, ?_, ?_⟩
  · rintro hcase c' ⟨-, -, h3, -, h5⟩
    unfold PrivKey.decrypt
    simp only [p1]
    cases p with
    | aesCfb128 =>
      simp only
      cases hiv : packIV boots time salt with
      | error e => simp only [translateErr]; split <;> rfl
      | ok iv =>
        have hl := (packIV_length hiv).1
        simp only [translateErr, Except.bind]
        cases b with
        | openssl _ =>
          simp only [PrivKey.aesDecrypt]
          rw [c.readIV_full (by omega), c'.readIV_full (by omega), h3]
        | pycryptodome => simp only [PrivKey.aesDecrypt, h3]
    | desCbc =>
      simp only
      split
      · rfl
      · cases b with
        | openssl _ =>
          have hl : (k.computeIV salt).length = 8 := by
            rcases hcase with h | h | h
            · cases h
            · cases h
            · unfold PrivKey.computeIV; rw [xorBytes_length, (d1 rfl).2.2]; omega
          simp only [PrivKey.desDecrypt]
          rw [c.readIV_full (by omega), c'.readIV_full (by omega), h5]
        | pycryptodome => simp only [PrivKey.desDecrypt, h5]
  · rintro rfl hs
    unfold PrivKey.decrypt
    simp only [p1]
    unfold packIV
    rw [if_pos hs]
    rfl
  · rintro rfl rfl hs
    unfold PrivKey.decrypt
    simp only [p1]
    split
    · exact ⟨_, rfl, .inl rfl⟩
    · simp only [PrivKey.desDecrypt]
      rw [if_pos (by unfold PrivKey.computeIV; rw [xorBytes_length]; omega)]
      exact ⟨_, rfl, .inr rfl⟩

/-- C47 is false of DES on OpenSSL: with an empty salt the result depends on what happens to lie in
memory; and a salt of nine bytes is accepted. -/
theorem C47_false : ∃ (c c' : Crypto) (k : PrivKey), c.Ok ∧ c'.Ok ∧ Spec.SameButMemory c c' ∧
    PrivKey.new .desCbc (List.replicate 16 1) 0 = .ok k ∧
    k.decrypt (.openssl false) c (List.replicate 8 0) 0 0 [] ≠
      k.decrypt (.openssl false) c' (List.replicate 8 0) 0 0 [] ∧
    (∃ x, k.decrypt .pycryptodome c (List.replicate 8 0) 0 0 (List.replicate 9 0) = .ok x) := by
  refine ⟨Spec.toyCrypto, { Spec.toyCrypto with beyond := fun _ => List.replicate 8 9 }, _,
    Spec.toyCrypto_ok, ?_, ⟨rfl, rfl, rfl, rfl, rfl⟩, rfl, ?_, ⟨_, rfl⟩⟩
  · have h := Spec.toyCrypto_ok
    exact ⟨h.1, h.2, h.3, h.4, h.5, h.6⟩
  · decide +kernel

/-! ## C62 -/

/-- Where a thread is in `encrypt`: `self.salt = (self.salt + 1) % self.SALTWRAP` is a read and a write,
and the salt that is used is read again
(snmp/security/usm/priv/openssl/aes.py:55-57, des.py:53-57; pycryptodome/aes.py:66-68, des.py:55-59). -/
inductive EncryptPc
  | start
  | loaded (v : Nat)
  | stored
  | done (salt : Nat)
  deriving DecidableEq, Repr

/-- The counter of one privacy object and the threads that are encrypting with it. The object is
looked up under `userLock`, but used after the lock was released
(snmp/security/usm/implementation.py:111-138). -/
structure EncryptSys where
  salt : Nat
  pc : Nat → EncryptPc

/-- Thread `t` makes its next step. -/
def EncryptSys.step (wrap : Nat) (s : EncryptSys) (t : Nat) : EncryptSys :=
  match s.pc t with
  | .start => { s with pc := fun u => if u = t then .loaded s.salt else s.pc u }
  | .loaded v => ⟨(v + 1) % wrap, fun u => if u = t then .stored else s.pc u⟩
  | .stored => { s with pc := fun u => if u = t then .done s.salt else s.pc u }
  | .done _ => s

/-- A schedule. -/
def EncryptSys.run (wrap : Nat) (s : EncryptSys) (sched : List Nat) : EncryptSys :=
  sched.foldl (EncryptSys.step wrap) s

/-- C62 is false: two threads that encrypt with the same user at the same time can use the same salt,
whatever the counter is. -/
theorem C62_false (wrap salt : Nat) : ∃ (sched : List Nat) (v : Nat),
    let s := EncryptSys.run wrap ⟨salt, fun _ => .start⟩ sched
    s.pc 0 = .done v ∧ s.pc 1 = .done v := by
  refine ⟨[0, 0, 1, 1, 0, 1], ((salt + 1) % wrap + 1) % wrap, ?_⟩
  simp [EncryptSys.run, EncryptSys.step]

/-- C62, what remains: if the calls do not overlap (each thread is scheduled for its three steps in a
row), fewer than `wrap` calls use distinct salts. -/
theorem C62_partial (wrap salt : Nat) (ts : List Nat) (hnd : ts.Nodup)
    (hlen : ts.length ≤ wrap) :
    let s := EncryptSys.run wrap ⟨salt, fun _ => .start⟩ (ts.flatMap fun t => [t, t, t])
    ∃ v : Nat → Nat, (∀ t ∈ ts, s.pc t = .done (v t)) ∧
      ∀ t ∈ ts, ∀ u ∈ ts, t ≠ u → v t ≠ v u := by
  suffices H : ∀ (ts : List Nat) (s : EncryptSys), ts.Nodup → (∀ t ∈ ts, s.pc t = .start) →
      (∀ t, t ∉ ts → ((EncryptSys.run wrap s (ts.flatMap fun t => [t, t, t])).pc t = s.pc t)) ∧
      ∀ i (hi : i < ts.length), (EncryptSys.run wrap s (ts.flatMap fun t => [t, t, t])).pc ts[i] =
        .done ((s.salt + i + 1) % wrap) by
    intro s
    obtain ⟨-, h2⟩ := H ts ⟨salt, fun _ => .start⟩ hnd (fun _ _ => rfl)
    refine ⟨fun t => (salt + ts.idxOf t + 1) % wrap, ?_, ?_⟩
    · intro t ht
      have := h2 (ts.idxOf t) (List.idxOf_lt_length_iff.2 ht)
      rw [List.getElem_idxOf] at this
      exact this
    · intro t ht u hu htu
      have h1 := List.idxOf_lt_length_iff.2 ht
      have h2 := List.idxOf_lt_length_iff.2 hu
      have hne : ts.idxOf t ≠ ts.idxOf u := fun heq => htu (by
        have := List.getElem_idxOf h1
        simp only [heq] at this
        rw [List.getElem_idxOf] at this
        exact this.symm)
      have hmod : ∀ a b : Nat, a < b → b < a + wrap → a % wrap ≠ b % wrap := by
        intro a b hab hb heq
        have := Nat.sub_mod_eq_zero_of_mod_eq heq.symm
        rw [Nat.mod_eq_of_lt (by omega)] at this
        omega
      simp only
      rcases Nat.lt_or_gt_of_ne hne with h | h
      · exact hmod _ _ (by omega) (by omega)
      · exact (hmod _ _ (by omega) (by omega)).symm
  intro ts
  induction ts with
  | nil => intro s _ _; exact ⟨fun _ _ => rfl, fun i hi => by simp at hi⟩
  | cons t ts ih =>
    intro s hnd hs
    have h0 := hs t (by simp)
    have hstep : EncryptSys.run wrap s ((t :: ts).flatMap fun t => [t, t, t]) =
        EncryptSys.run wrap ⟨(s.salt + 1) % wrap,
          fun u => if u = t then .done ((s.salt + 1) % wrap) else s.pc u⟩
          (ts.flatMap fun t => [t, t, t]) := by
      simp only [List.flatMap_cons, List.cons_append, List.nil_append, EncryptSys.run, List.foldl_cons]
      congr 1
      simp only [EncryptSys.step, h0, ↓reduceIte, EncryptSys.mk.injEq, true_and]
      funext u
      by_cases hu : u = t <;> simp [hu]
    rw [hstep]
    obtain ⟨hn1, hn2⟩ := List.nodup_cons.1 hnd
    obtain ⟨i1, i2⟩ := ih ⟨(s.salt + 1) % wrap,
      fun u => if u = t then .done ((s.salt + 1) % wrap) else s.pc u⟩ hn2 (by
        intro u hu
        have : u ≠ t := fun h => hn1 (h ▸ hu)
        simp [this, hs u (by simp [hu])])
    refine ⟨?_, ?_⟩
    · intro u hu
      simp only [List.mem_cons, not_or] at hu
      rw [i1 u hu.2]
      simp [hu.1]
    · intro i hi
      cases i with
      | zero => simpa using i1 t hn1
      | succ i =>
        simp only [List.getElem_cons_succ]
        rw [i2 i (by simpa using hi)]
        simp only [EncryptPc.done.injEq]
        rw [show (s.salt + 1) % wrap + i + 1 = (s.salt + 1) % wrap + (i + 1) by omega, Nat.mod_add_mod]
        congr 1; omega

end Snmp
