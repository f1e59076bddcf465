import Verif.Priv
/-!
# Lemmas about the modes of operation and the privacy protocols
-/

namespace Snmp

theorem xorBytes_length (x y : Bytes) : (xorBytes x y).length = min x.length y.length := by
  simp [xorBytes]

theorem xorBytes_cancel : ∀ {x k : Bytes}, x.length ≤ k.length → xorBytes (xorBytes x k) k = x
  | [], _, _ => by simp [xorBytes]
  | a :: x, [], h => by simp at h
  | a :: x, b :: k, h => by
    have := xorBytes_cancel (x := x) (k := k) (by simpa using h)
    simp only [xorBytes, List.zipWith_cons_cons] at this ⊢
    rw [this, UInt8.xor_assoc, UInt8.xor_self, UInt8.xor_zero]

theorem xorBytes_cancel' {x k : Bytes} (h : k.length ≤ x.length) : xorBytes x (xorBytes x k) = k := by
  induction x generalizing k with
  | nil => cases k with | nil => rfl | cons => simp at h
  | cons a x ih =>
    cases k with
    | nil => rfl
    | cons b k =>
      have := ih (k := k) (by simpa using h)
      simp only [xorBytes, List.zipWith_cons_cons] at this ⊢
      rw [this, ← UInt8.xor_assoc, UInt8.xor_self, UInt8.zero_xor]

theorem xorBytes_append : ∀ (x y k : Bytes), x.length ≤ k.length →
    xorBytes (x ++ y) k = xorBytes x k ++ xorBytes y (k.drop x.length)
  | [], y, k, _ => by simp [xorBytes]
  | a :: x, y, [], h => by simp at h
  | a :: x, y, b :: k, h => by
    have := xorBytes_append x y k (by simpa using h)
    simp only [xorBytes, List.cons_append, List.zipWith_cons_cons, List.length_cons,
      List.drop_succ_cons] at this ⊢
    rw [this]

/-! ## CFB -/

theorem cfbEncryptN_nil (E : Bytes → Bytes) (n : Nat) (iv : Bytes) : cfbEncryptN E n iv [] = [] := by
  induction n generalizing iv with
  | zero => rfl
  | succ n ih => simp [cfbEncryptN, xorBytes, ih]

theorem cfbEncryptN_length {E : Bytes → Bytes} (hE : ∀ b, b.length = 16 → (E b).length = 16) (n : Nat)
    (iv data : Bytes) (hiv : iv.length = 16) (hd : data.length ≤ 16 * n) :
    (cfbEncryptN E n iv data).length = data.length := by
  induction n generalizing iv data with
  | zero => simp only [Nat.mul_zero, Nat.le_zero] at hd; simp [cfbEncryptN, hd]
  | succ n ih =>
    simp only [cfbEncryptN, List.length_append]
    by_cases h16 : data.length ≤ 16
    · rw [List.drop_eq_nil_of_le h16, cfbEncryptN_nil, xorBytes_length, hE iv hiv]
      simp; omega
    · rw [ih]
      · rw [xorBytes_length, hE iv hiv]; simp; omega
      · rw [xorBytes_length, hE iv hiv]; simp; omega
      · simp; omega

theorem cfb_roundtrip {E : Bytes → Bytes} (hE : ∀ b, b.length = 16 → (E b).length = 16) (n m : Nat)
    (iv data z : Bytes) (hiv : iv.length = 16) (hn : data.length ≤ 16 * n) (hm : data.length ≤ 16 * m) :
    ∃ g, cfbDecryptN E m iv (cfbEncryptN E n iv data ++ z) = data ++ g := by
  induction n generalizing m iv data with
  | zero =>
    simp only [Nat.mul_zero, Nat.le_zero, List.length_eq_zero_iff] at hn
    exact ⟨_, by simp [hn]; rfl⟩
  | succ n ih =>
    cases m with
    | zero =>
      simp only [Nat.mul_zero, Nat.le_zero, List.length_eq_zero_iff] at hm
      exact ⟨_, by simp [hm]; rfl⟩
    | succ m =>
      simp only [cfbEncryptN, cfbDecryptN]
      by_cases h16 : data.length ≤ 16
      · rw [List.drop_eq_nil_of_le h16, List.take_of_length_le h16, cfbEncryptN_nil, List.append_nil]
        have hc : (xorBytes data (E iv)).length = data.length := by
          rw [xorBytes_length, hE iv hiv]; omega
        rw [List.take_append, List.take_of_length_le (by omega : (xorBytes data (E iv)).length ≤ 16),
          xorBytes_append _ _ _ (by rw [hc, hE iv hiv]; omega), xorBytes_cancel (by rw [hE iv hiv]; omega),
          List.append_assoc]
        exact ⟨_, rfl⟩
      · have hc : (xorBytes (data.take 16) (E iv)).length = 16 := by
          rw [xorBytes_length, hE iv hiv]; simp; omega
        rw [List.append_assoc]
        rw [List.take_left' hc, List.drop_left' hc,
          xorBytes_cancel (by rw [hE iv hiv]; simp; omega)]
        obtain ⟨g, hg⟩ := ih m (xorBytes (data.take 16) (E iv)) (data.drop 16) hc (by simp; omega)
          (by simp; omega)
        rw [hg]
        exact ⟨g, by rw [← List.append_assoc, List.take_append_drop]⟩

/-! ## CBC -/

theorem cbcEncryptN_length {E : Bytes → Bytes} (hE : ∀ b, b.length = 8 → (E b).length = 8) (n : Nat)
    (iv data : Bytes) (hiv : iv.length = 8) (hd : data.length = 8 * n) :
    (cbcEncryptN E n iv data).length = 8 * n := by
  induction n generalizing iv data with
  | zero => simp [cbcEncryptN]
  | succ n ih =>
    have hc : (E (xorBytes (data.take 8) iv)).length = 8 :=
      hE _ (by rw [xorBytes_length, hiv]; simp; omega)
    simp only [cbcEncryptN, List.length_append]
    rw [ih _ _ hc (by simp; omega), hc]; omega

theorem cbcDecryptN_length {D : Bytes → Bytes} (hD : ∀ b, b.length = 8 → (D b).length = 8) (n : Nat)
    (iv data : Bytes) (hiv : iv.length = 8) (hd : data.length = 8 * n) :
    (cbcDecryptN D n iv data).length = 8 * n := by
  induction n generalizing iv data with
  | zero => simp [cbcDecryptN]
  | succ n ih =>
    have hc : (data.take 8).length = 8 := by simp; omega
    simp only [cbcDecryptN, List.length_append]
    rw [ih _ _ hc (by simp; omega), xorBytes_length, hD _ hc, hiv]; omega

/-- Decrypting at least as many blocks, with anything behind them. -/
theorem cbc_roundtrip {E D : Bytes → Bytes} (hE : ∀ b, b.length = 8 → (E b).length = 8)
    (hDE : ∀ b, b.length = 8 → D (E b) = b) (n m : Nat) (hm : n ≤ m)
    (iv data z : Bytes) (hiv : iv.length = 8) (hd : data.length = 8 * n) :
    cbcDecryptN D m iv (cbcEncryptN E n iv data ++ z) =
      data ++ cbcDecryptN D (m - n) ((iv ++ cbcEncryptN E n iv data).drop (8 * n)) z := by
  induction n generalizing m iv data with
  | zero =>
    have : data = [] := by simpa using hd
    subst this
    simp [cbcEncryptN]
  | succ n ih =>
    cases m with
    | zero => omega
    | succ m =>
      have hx : (xorBytes (data.take 8) iv).length = 8 := by rw [xorBytes_length, hiv]; simp; omega
      have hc := hE _ hx
      simp only [cbcEncryptN, cbcDecryptN, List.append_assoc]
      rw [List.take_left' hc, List.drop_left' hc, hDE _ hx,
        xorBytes_cancel (by rw [hiv]; simp; omega), ih m (by omega) _ _ hc (by simp; omega)]
      rw [← List.append_assoc, List.take_append_drop, show m + 1 - (n + 1) = m - n by omega]
      congr 2
      conv => rhs; rw [show 8 * (n + 1) = iv.length + 8 * n by omega, List.drop_append,
        List.drop_eq_nil_of_le (by omega : iv.length ≤ iv.length + 8 * n)]
      simp

/-! ## The protocols -/

theorem natToBytes_length (n v : Nat) : (natToBytes n v).length = n := by
  induction n generalizing v with
  | zero => rfl
  | succ n ih => simp [natToBytes, ih]

theorem natToBytes_injective : ∀ (n a b : Nat), a < 256 ^ n → b < 256 ^ n →
    natToBytes n a = natToBytes n b → a = b
  | 0, a, b, ha, hb, _ => by simp at ha hb; omega
  | n + 1, a, b, ha, hb, h => by
    simp only [natToBytes] at h
    obtain ⟨h1, h2⟩ := List.append_inj' h rfl
    have hd := natToBytes_injective n (a / 256) (b / 256)
      (by rw [Nat.pow_succ] at ha; exact Nat.div_lt_of_lt_mul (by omega))
      (by rw [Nat.pow_succ] at hb; exact Nat.div_lt_of_lt_mul (by omega)) h1
    have h3 : (UInt8.ofNat (a % 256)).toNat = (UInt8.ofNat (b % 256)).toNat := by
      injection h2 with h2; rw [h2]
    simp only [UInt8.toNat_ofNat'] at h3
    omega

theorem toBytesBE_ok {n : Nat} {v : Int} (h0 : 0 ≤ v) (h1 : v < 256 ^ n) :
    ∃ b, toBytesBE n v = .ok b ∧ b.length = n :=
  ⟨_, by unfold toBytesBE; rw [if_pos ⟨h0, h1⟩], natToBytes_length _ _⟩

theorem toBytesBE_length {n : Nat} {v : Int} {b : Bytes} (h : toBytesBE n v = .ok b) :
    b.length = n := by
  unfold toBytesBE at h
  split at h
  · injection h with h; rw [← h, natToBytes_length]
  · cases h

theorem packIV_ok {boots time : Int} {salt : Bytes} (hb : 0 ≤ boots ∧ boots < 2 ^ 32)
    (ht : 0 ≤ time ∧ time < 2 ^ 32) (hs : salt.length = 8) :
    ∃ iv, packIV boots time salt = .ok iv ∧ iv.length = 16 := by
  obtain ⟨b, h1, l1⟩ := toBytesBE_ok (n := 4) hb.1 (by simpa using hb.2)
  obtain ⟨t, h2, l2⟩ := toBytesBE_ok (n := 4) ht.1 (by simpa using ht.2)
  refine ⟨b ++ t ++ salt, ?_, by simp [l1, l2, hs]⟩
  unfold packIV
  rw [if_neg (by simp [hs]), h1, h2]
  rfl

theorem packIV_length {boots time : Int} {salt iv : Bytes} (h : packIV boots time salt = .ok iv) :
    iv.length = 16 ∧ salt.length = 8 := by
  unfold packIV at h
  split at h
  · cases h
  · rename_i hs
    have hs : salt.length = 8 := by simpa using hs
    cases hb : toBytesBE 4 boots with
    | error e => rw [hb] at h; cases h
    | ok b =>
      cases ht : toBytesBE 4 time with
      | error e => rw [hb, ht] at h; cases h
      | ok t =>
        rw [hb, ht] at h
        injection h with h
        rw [← h]
        simp [toBytesBE_length hb, toBytesBE_length ht, hs]

theorem Crypto.readIV_full (c : Crypto) {n : Nat} {iv : Bytes} (h : n ≤ iv.length) :
    c.readIV n iv = iv.take n := by
  unfold Crypto.readIV
  rw [List.take_append_of_le_length h]

theorem desPad_length (data : Bytes) :
    (desPad data).length = 8 * (data.length / 8 + 1) := by
  unfold desPad; simp; omega

theorem PrivKey.new_ok {p : PrivProto} {key : Bytes} {seed : Nat} {k : PrivKey}
    (h : PrivKey.new p key seed = .ok k) :
    k.proto = p ∧ k.salt = seed ∧
    (p = .aesCfb128 → k.key = key.take 16 ∧ k.preIV = []) ∧
    (p = .desCbc → k.key = key.take 8 ∧ k.preIV = (key.take 16).drop 8 ∧ k.preIV.length = 8) := by
  unfold PrivKey.new at h
  split at h
  · cases h
  · rename_i hl
    cases p with
    | aesCfb128 => injection h with h; subst h; simp
    | desCbc =>
      injection h with h; subst h
      simp only [PrivProto.keyLen, Nat.not_lt] at hl
      simp; omega

/-- AES: what one side encrypts the other decrypts, up to trailing bytes. -/
theorem PrivKey.aes_roundtrip {c : Crypto} (hc : c.Ok) (enc dec : Backend) {key iv : Bytes}
    (hiv : iv.length = 16) (data : Bytes) :
    ∃ g, aesDecrypt dec c key iv (aesEncrypt enc c key iv data) = data ++ g := by
  have hE : ∀ b, b.length = 16 → (c.aes key b).length = 16 := hc.aes_length key
  have hr : c.readIV 16 iv = iv := by rw [c.readIV_full (by omega), List.take_of_length_le (by omega)]
  have henc : ∃ z, aesEncrypt enc c key iv data =
      cfbEncryptN (c.aes key) ((data.length + 15) / 16) iv data ++ z := by
    cases enc with
    | openssl b => exact ⟨_, by simp only [aesEncrypt, opensslBuffer, hr, cfbEncrypt]; rfl⟩
    | pycryptodome => exact ⟨[], by simp [aesEncrypt, cfbEncrypt]⟩
  obtain ⟨z, hz⟩ := henc
  have hlen : data.length ≤ (aesEncrypt enc c key iv data).length := by
    rw [hz, List.length_append, cfbEncryptN_length hE _ _ _ hiv (by omega)]; omega
  obtain ⟨g, hg⟩ := cfb_roundtrip hE ((data.length + 15) / 16)
    (((aesEncrypt enc c key iv data).length + 15) / 16) iv data z hiv (by omega) (by omega)
  rw [← hz] at hg
  cases dec with
  | openssl b =>
    simp only [aesDecrypt, hr, cfbDecrypt, opensslBuffer]
    rw [hg, List.append_assoc]
    exact ⟨_, rfl⟩
  | pycryptodome => exact ⟨g, by simp only [aesDecrypt, cfbDecrypt]; exact hg⟩

theorem PrivKey.aesEncrypt_length {c : Crypto} (hc : c.Ok) (b : Backend) {key iv : Bytes}
    (hiv : iv.length = 16) (data : Bytes) :
    data.length ≤ (aesEncrypt b c key iv data).length ∧
    (aesEncrypt b c key iv data).length ≤ data.length + 16 := by
  have hE : ∀ b, b.length = 16 → (c.aes key b).length = 16 := hc.aes_length key
  have hr : c.readIV 16 iv = iv := by rw [c.readIV_full (by omega), List.take_of_length_le (by omega)]
  have := cfbEncryptN_length hE ((data.length + 15) / 16) iv data hiv (by omega)
  cases b with
  | openssl b =>
    simp only [aesEncrypt, opensslBuffer, hr, cfbEncrypt, List.length_append, List.length_replicate,
      this]
    omega
  | pycryptodome => simp only [aesEncrypt, cfbEncrypt, this]; omega

/-- DES: likewise, unless the last block is lost. -/
theorem PrivKey.des_roundtrip {c : Crypto} (hc : c.Ok) (enc dec : Backend)
    (hb : dec = .openssl true → enc ≠ .pycryptodome) {key iv : Bytes}
    (hiv : iv.length = 8) (data : Bytes) :
    ∃ ct g, desEncrypt enc c key iv data = .ok ct ∧ ct.length % 8 = 0 ∧
      data.length ≤ ct.length ∧ ct.length ≤ data.length + 16 ∧
      desDecrypt dec c key iv ct = .ok (data ++ g) := by
  have hE : ∀ b, b.length = 8 → (c.desEnc key b).length = 8 := hc.desEnc_length key
  have hD : ∀ b, b.length = 8 → (c.desDec key b).length = 8 := hc.desDec_length key
  have hDE : ∀ b, b.length = 8 → c.desDec key (c.desEnc key b) = b := hc.desDec_desEnc key
  have hr : c.readIV 8 iv = iv := by rw [c.readIV_full (by omega), List.take_of_length_le (by omega)]
  have hpl := desPad_length data
  have hw : ∀ X, ∃ g, desPad data ++ X = data ++ g := fun X =>
    ⟨_, by unfold desPad; rw [List.append_assoc]⟩
  have hnl := cbcEncryptN_length hE (data.length / 8 + 1) iv (desPad data) hiv hpl
  have hdiv : (desPad data).length / 8 = data.length / 8 + 1 := by omega
  -- the ciphertext and what follows it
  obtain ⟨z, hz, henc⟩ : ∃ z : Bytes, (z.length = 8 ∨ z = [] ∧ enc = .pycryptodome) ∧
      desEncrypt enc c key iv data =
        .ok (cbcEncryptN (c.desEnc key) (data.length / 8 + 1) iv (desPad data) ++ z) := by
    cases enc with
    | openssl b =>
      refine ⟨List.replicate 8 0, .inl (by simp), ?_⟩
      simp only [desEncrypt, opensslBuffer, hr, cbcEncrypt, hdiv, hnl]
      congr 3
      omega
    | pycryptodome =>
      refine ⟨[], .inr ⟨rfl, rfl⟩, ?_⟩
      simp only [desEncrypt, cbcEncrypt, hdiv]
      rw [if_neg (by omega), List.append_nil]
  have hzl : z.length % 8 = 0 ∧ z.length ≤ 8 := by
    rcases hz with h | ⟨h, -⟩
    · omega
    · simp [h]
  have hround := fun m hm z' => cbc_roundtrip (D := c.desDec key) hE hDE (data.length / 8 + 1) m hm iv
    (desPad data) z' hiv hpl
  generalize cbcEncryptN (c.desEnc key) (data.length / 8 + 1) iv (desPad data) = C at henc hround hnl
  refine ⟨C ++ z, ?_⟩
  have hcl : (C ++ z).length = 8 * (data.length / 8 + 1) + z.length := by simp [hnl]
  have hlm : (C ++ z).length % 8 = 0 := by omega
  cases dec with
  | pycryptodome =>
    simp only [desDecrypt, cbcDecrypt]
    rw [if_neg (by omega), desPad_length]
    rw [show 8 * ((C ++ z).length / 8 + 1) / 8 = (C ++ z).length / 8 + 1 by omega]
    rw [show desPad (C ++ z) = C ++ (z ++ List.replicate (8 - (C ++ z).length % 8) 0) by
      unfold desPad; rw [List.append_assoc], hround _ (by omega)]
    exact ⟨(hw _).choose, henc, hlm, by omega, by omega, congrArg Except.ok (hw _).choose_spec⟩
  | openssl hold =>
    simp only [desDecrypt, cbcDecrypt, hr]
    have h1 := hround ((C ++ z).length / 8) (by omega) z
    cases hold with
    | false =>
      simp only [Bool.false_eq_true, ↓reduceIte]
      rw [h1]
      unfold opensslBuffer
      rw [List.append_assoc]
      exact ⟨(hw _).choose, henc, hlm, by omega, by omega, congrArg Except.ok (hw _).choose_spec⟩
    | true =>
      simp only [↓reduceIte]
      rw [h1]
      have hz8 : z.length = 8 := by
        rcases hz with h | ⟨-, h⟩
        · exact h
        · exact absurd h (hb rfl)
      rw [List.take_append_of_le_length (by omega), List.take_of_length_le (by omega)]
      unfold opensslBuffer
      exact ⟨(hw _).choose, henc, hlm, by omega, by omega, congrArg Except.ok (hw _).choose_spec⟩

end Snmp
