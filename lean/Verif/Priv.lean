import Verif.Auth
/-!
# Model of the privacy protocols (`snmp/security/usm/priv`)

Two back ends implement the same two protocols. The block ciphers are parameters (`Crypto`); the modes
of operation, which the back ends take from OpenSSL or PyCryptodome, are written out.
-/

namespace Snmp

/-- Which back end is installed (snmp/security/usm/priv/__init__.py). `holdsBack` says whether
`EVP_DecryptUpdate` of a block cipher leaves the last block unwritten, waiting for a call of
`EVP_DecryptFinal` that never comes (OpenSSL 3 providers), or writes it nevertheless (OpenSSL 1.1). -/
inductive Backend
  | openssl (holdsBack : Bool)
  | pycryptodome
  deriving DecidableEq, Repr

/-- `bytes(a ^ b for a, b in zip(x, y))`. (snmp/security/usm/priv/openssl/des.py:28-29;
snmp/security/usm/priv/pycryptodome/des.py:28-29) -/
def xorBytes (x y : Bytes) : Bytes := List.zipWith (· ^^^ ·) x y

/-! ## Modes of operation (NIST SP 800-38A; implemented by the libraries, not by the code) -/

/-- CFB-128 encryption of `n` segments; the last one may be short. Library code outside /repo;
called at snmp/security/usm/priv/openssl/aes.py:37-61 and
snmp/security/usm/priv/pycryptodome/aes.py:48-72. -/
def cfbEncryptN (E : Bytes → Bytes) : Nat → Bytes → Bytes → Bytes
  | 0, _, _ => []
  | n + 1, iv, data =>
    let c := xorBytes (data.take 16) (E iv)
    c ++ cfbEncryptN E n c (data.drop 16)

/-- CFB-128 encryption. Library code outside /repo; called at
snmp/security/usm/priv/openssl/aes.py:37-61 and
snmp/security/usm/priv/pycryptodome/aes.py:48-72. -/
def cfbEncrypt (E : Bytes → Bytes) (iv data : Bytes) : Bytes :=
  cfbEncryptN E ((data.length + 15) / 16) iv data

/-- CFB-128 decryption of `n` segments. Library code outside /repo; called at
snmp/security/usm/priv/openssl/aes.py:37-61 and
snmp/security/usm/priv/pycryptodome/aes.py:48-72. -/
def cfbDecryptN (E : Bytes → Bytes) : Nat → Bytes → Bytes → Bytes
  | 0, _, _ => []
  | n + 1, iv, data =>
    xorBytes (data.take 16) (E iv) ++ cfbDecryptN E n (data.take 16) (data.drop 16)

/-- CFB-128 decryption. Library code outside /repo; called at
snmp/security/usm/priv/openssl/aes.py:37-61 and
snmp/security/usm/priv/pycryptodome/aes.py:48-72. -/
def cfbDecrypt (E : Bytes → Bytes) (iv data : Bytes) : Bytes :=
  cfbDecryptN E ((data.length + 15) / 16) iv data

/-- CBC encryption of `n` blocks of 8. Library code outside /repo; called at
snmp/security/usm/priv/openssl/des.py:35-63 and
snmp/security/usm/priv/pycryptodome/des.py:38-64. -/
def cbcEncryptN (E : Bytes → Bytes) : Nat → Bytes → Bytes → Bytes
  | 0, _, _ => []
  | n + 1, iv, data =>
    let c := E (xorBytes (data.take 8) iv)
    c ++ cbcEncryptN E n c (data.drop 8)

/-- CBC encryption of whole blocks. Library code outside /repo; called at
snmp/security/usm/priv/openssl/des.py:35-63 and
snmp/security/usm/priv/pycryptodome/des.py:38-64. -/
def cbcEncrypt (E : Bytes → Bytes) (iv data : Bytes) : Bytes :=
  cbcEncryptN E (data.length / 8) iv data

/-- CBC decryption of `n` blocks of 8. Library code outside /repo; called at
snmp/security/usm/priv/openssl/des.py:35-63 and
snmp/security/usm/priv/pycryptodome/des.py:38-64. -/
def cbcDecryptN (D : Bytes → Bytes) : Nat → Bytes → Bytes → Bytes
  | 0, _, _ => []
  | n + 1, iv, data =>
    xorBytes (D (data.take 8)) iv ++ cbcDecryptN D n (data.take 8) (data.drop 8)

/-- CBC decryption of whole blocks. Library code outside /repo; called at
snmp/security/usm/priv/openssl/des.py:35-63 and
snmp/security/usm/priv/pycryptodome/des.py:38-64. -/
def cbcDecrypt (D : Bytes → Bytes) (iv data : Bytes) : Bytes :=
  cbcDecryptN D (data.length / 8) iv data

/-! ## The OpenSSL wrapper -/

/-- The buffer returned by `Envelope.process` (snmp/security/usm/priv/openssl/__init__.py:48-67) when
the library writes `result` into it: `ffi.new` zeroes it and the code returns all of it. -/
def opensslBuffer (blockLen dataLen : Nat) (result : Bytes) : Bytes :=
  result ++ List.replicate (dataLen + blockLen - dataLen % blockLen - result.length) 0

/-- The `n` bytes the C library reads where `iv` is stored. Library code outside /repo; called at
snmp/security/usm/priv/openssl/__init__.py:55-67. -/
def Crypto.readIV (c : Crypto) (n : Nat) (iv : Bytes) : Bytes := (iv ++ c.beyond iv).take n

/-! ## The protocols -/

/-- `packIV` (snmp/security/usm/priv/openssl/aes.py:27-35, pycryptodome/aes.py:38-46). -/
def packIV (boots time : Int) (salt : Bytes) : Res Bytes :=
  if salt.length ≠ 8 then .error .valueError
  else
    (toBytesBE 4 boots).bind fun b =>
    (toBytesBE 4 time).bind fun t => .ok (b ++ t ++ salt)

/-- `pad` (snmp/security/usm/priv/openssl/des.py:31-33, pycryptodome/des.py:34-36). -/
def desPad (data : Bytes) : Bytes := data ++ List.replicate (8 - data.length % 8) 0

namespace PrivKey

/-- `SALTWRAP` (snmp/security/usm/priv/openssl/aes.py:17, des.py:17). -/
def saltWrap : PrivProto → Nat
  | .aesCfb128 => 2 ^ 64
  | .desCbc => 2 ^ 32

/-- `Encryptor(...).encrypt` or `newCipher(iv).encrypt` (openssl/aes.py:59, pycryptodome/aes.py:70). -/
def aesEncrypt (b : Backend) (c : Crypto) (key iv data : Bytes) : Bytes :=
  match b with
  | .openssl _ => opensslBuffer 16 data.length (cfbEncrypt (c.aes key) (c.readIV 16 iv) data)
  | .pycryptodome => cfbEncrypt (c.aes key) iv data

/-- `Decryptor(...).decrypt` or `newCipher(iv).decrypt` (openssl/aes.py:48, pycryptodome/aes.py:59). A
stream mode holds nothing back. -/
def aesDecrypt (b : Backend) (c : Crypto) (key iv data : Bytes) : Bytes :=
  match b with
  | .openssl _ => opensslBuffer 16 data.length (cfbDecrypt (c.aes key) (c.readIV 16 iv) data)
  | .pycryptodome => cfbDecrypt (c.aes key) iv data

/-- The cipher call of `DesCbc.encrypt` (openssl/des.py:59-61, pycryptodome/des.py:61-62); PyCryptodome
checks the length of the IV. -/
def desEncrypt (b : Backend) (c : Crypto) (key iv data : Bytes) : Res Bytes :=
  match b with
  | .openssl _ =>
    .ok (opensslBuffer 8 (desPad data).length
      (cbcEncrypt (c.desEnc key) (c.readIV 8 iv) (desPad data)))
  | .pycryptodome =>
    if iv.length ≠ 8 then .error .valueError
    else .ok (cbcEncrypt (c.desEnc key) iv (desPad data))

/-- The cipher call of `DesCbc.decrypt` (openssl/des.py:45-46, pycryptodome/des.py:48); the latter pads
the ciphertext once more. -/
def desDecrypt (b : Backend) (c : Crypto) (key iv data : Bytes) : Res Bytes :=
  match b with
  | .openssl holdsBack =>
    let plain := cbcDecrypt (c.desDec key) (c.readIV 8 iv) data
    .ok (opensslBuffer 8 data.length (if holdsBack then plain.take (data.length - 8) else plain))
  | .pycryptodome =>
    if iv.length ≠ 8 then .error .valueError
    else .ok (cbcDecrypt (c.desDec key) iv (desPad data))

/-- `computeIV` (snmp/security/usm/priv/openssl/des.py:28-29, pycryptodome/des.py:28-29). -/
def computeIV (k : PrivKey) (salt : Bytes) : Bytes := xorBytes k.preIV salt

/-- `decrypt` (snmp/security/usm/priv/openssl/aes.py:37-48, des.py:35-46, pycryptodome/aes.py:48-59,
des.py:38-48). -/
def decrypt (k : PrivKey) (b : Backend) (c : Crypto) (data : Bytes) (boots time : Int) (salt : Bytes) :
    Res Bytes :=
  match k.proto with
  | .aesCfb128 =>
    (translateErr PyErr.isValueError .decryptionError (packIV boots time salt)).bind fun iv =>
    .ok (aesDecrypt b c k.key iv data)
  | .desCbc =>
    if data.length % 8 ≠ 0 then .error .decryptionError
    else desDecrypt b c k.key (k.computeIV salt) data

/-- `encrypt` (snmp/security/usm/priv/openssl/aes.py:50-61, des.py:48-63, pycryptodome/aes.py:61-72,
des.py:50-64): ciphertext and salt; the object keeps the incremented salt also if it raises. -/
def encrypt (k : PrivKey) (b : Backend) (c : Crypto) (data : Bytes) (boots time : Int) :
    Res (Bytes × Bytes) × PrivKey :=
  let k := { k with salt := (k.salt + 1) % saltWrap k.proto }
  match k.proto with
  | .aesCfb128 =>
    let salt := natToBytes 8 k.salt
    ((packIV boots time salt).bind fun iv => .ok (aesEncrypt b c k.key iv data, salt), k)
  | .desCbc =>
    ((toBytesBE 4 boots).bind fun bootBytes =>
      let salt := bootBytes ++ natToBytes 4 k.salt
      (desEncrypt b c k.key (k.computeIV salt) data).bind fun ct => .ok (ct, salt), k)

end PrivKey

end Snmp
