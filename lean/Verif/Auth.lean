import Verif.Message
/-!
# Model of `snmp/security/usm/auth.py` and `credentials.py`; the cryptographic primitives

The hash functions, HMAC and block ciphers are parameters (`Crypto`) with a contract (`Crypto.Ok`);
protocols defined by users of the library are not modelled.
-/

namespace Snmp

/-- The subclasses of `HmacAuthProtocol` (snmp/security/usm/auth.py:47-69). -/
inductive AuthProto
  | hmacMd5 | hmacSha | hmacSha224 | hmacSha256 | hmacSha384 | hmacSha512
  deriving DecidableEq, Repr

/-- `N` (snmp/security/usm/auth.py:47-69). -/
def AuthProto.n : AuthProto → Nat
  | .hmacMd5 => 12
  | .hmacSha => 12
  | .hmacSha224 => 16
  | .hmacSha256 => 24
  | .hmacSha384 => 32
  | .hmacSha512 => 48

/-- The digest size of `ALGORITHM` (snmp/security/usm/auth.py:47-69; hashlib). -/
def AuthProto.digestSize : AuthProto → Nat
  | .hmacMd5 => 16
  | .hmacSha => 20
  | .hmacSha224 => 28
  | .hmacSha256 => 32
  | .hmacSha384 => 48
  | .hmacSha512 => 64

/-- The privacy protocols (snmp/security/usm/priv/openssl/aes.py:10, des.py:10). -/
inductive PrivProto
  | aesCfb128 | desCbc
  deriving DecidableEq, Repr

/-- `hashlib`, `hmac` and the block ciphers: `aes key block`, `desEnc key block`, `desDec key block`.
`beyond iv` is what C code reads in memory after a too short `iv`. Called at
snmp/security/usm/auth.py:20-45 and in snmp/security/usm/priv/openssl/__init__.py:34-67,
priv/pycryptodome/aes.py:30-36, priv/pycryptodome/des.py:31-32. -/
structure Crypto where
  hash : AuthProto → Bytes → Bytes
  hmac : AuthProto → Bytes → Bytes → Bytes
  aes : Bytes → Bytes → Bytes
  desEnc : Bytes → Bytes → Bytes
  desDec : Bytes → Bytes → Bytes
  beyond : Bytes → Bytes

/-- What is assumed of the primitives: output lengths, and that DES decryption inverts encryption.
An assumption on libraries outside /repo (hashlib, hmac, OpenSSL, PyCryptodome). -/
structure Crypto.Ok (c : Crypto) : Prop where
  hash_length : ∀ p x, (c.hash p x).length = p.digestSize
  hmac_length : ∀ p k x, (c.hmac p k x).length = p.digestSize
  aes_length : ∀ k b, b.length = 16 → (c.aes k b).length = 16
  desEnc_length : ∀ k b, b.length = 8 → (c.desEnc k b).length = 8
  desDec_length : ∀ k b, b.length = 8 → (c.desDec k b).length = 8
  desDec_desEnc : ∀ k b, b.length = 8 → c.desDec k (c.desEnc k b) = b

/-! ## Keys -/

/-- The loop of `computeKey`: what was fed to the context after `n` more updates
(snmp/security/usm/auth.py:24-25). -/
def feed (secret : Bytes) : Nat → Bytes → Bytes
  | 0, context => context
  | n + 1, context => feed secret n (context ++ secret)

/-- `computeKey` (snmp/security/usm/auth.py:20-28). -/
def AuthProto.computeKey (p : AuthProto) (c : Crypto) (secret : Bytes) : Res Bytes :=
  if secret.length = 0 then .error .zeroDivisionError
  else
    let «repeat» := 2 ^ 20 / secret.length
    let truncate := 2 ^ 20 % secret.length
    let context := feed secret «repeat» []
    let context := context ++ secret.take truncate
    .ok (c.hash p context)

/-- `localizeKey` (snmp/security/usm/auth.py:31-36). -/
def AuthProto.localizeKey (p : AuthProto) (c : Crypto) (key engineID : Bytes) : Bytes :=
  c.hash p (key ++ engineID ++ key)

/-- `msgAuthenticationParameters` (snmp/security/usm/auth.py:39-40). -/
def AuthProto.padding (p : AuthProto) : Bytes := List.replicate p.n 0

/-- An `AuthProtocol` object: class and localised key (snmp/security/usm/auth.py:16-17). -/
structure AuthKey where
  proto : AuthProto
  key : Bytes
  deriving DecidableEq, Repr

/-- `sign` (snmp/security/usm/auth.py:42-45). -/
def AuthKey.sign (a : AuthKey) (c : Crypto) (data : Bytes) : Bytes :=
  (c.hmac a.proto a.key data).take a.proto.n

/-! ## Privacy objects -/

/-- A `PrivProtocol` object (snmp/security/usm/priv/openssl/aes.py:19-25, des.py:19-26). AES has no
`preIV`. -/
structure PrivKey where
  proto : PrivProto
  key : Bytes
  preIV : Bytes
  salt : Nat
  deriving DecidableEq, Repr

/-- `KEYLEN` (snmp/security/usm/priv/openssl/aes.py:15, des.py:15). -/
def PrivProto.keyLen : PrivProto → Nat
  | .aesCfb128 => 16
  | .desCbc => 16

/-- `__init__` (snmp/security/usm/priv/openssl/aes.py:19-25, des.py:19-26, and the same in
pycryptodome/aes.py:22-28, des.py:19-26); `seed` is the number made of `os.urandom` bytes. -/
def PrivKey.new (p : PrivProto) (key : Bytes) (seed : Nat) : Res PrivKey :=
  if key.length < p.keyLen then .error .valueError
  else match p with
    | .aesCfb128 => .ok ⟨p, key.take 16, [], seed⟩
    | .desCbc => .ok ⟨p, key.take 8, (key.take 16).drop 8, seed⟩

/-! ## Credentials -/

/-- `LocalizedCredentials`, compared by content (snmp/security/usm/credentials.py:8-20). -/
structure LocalizedCredentials where
  auth : Option AuthKey
  priv : Option PrivKey
  deriving DecidableEq, Repr

/-- `Credentials` (snmp/security/usm/credentials.py:22-47): protocol and key of each kind. In the code
protocol and key are separate attributes, both `None` or both set. -/
structure Credentials where
  auth : Option (AuthProto × Bytes)
  priv : Option (PrivProto × Bytes)
  maxSecurityLevel : SecurityLevel
  deriving DecidableEq, Repr

/-- `a or b` for optional bytes. CPython built-in, not in /repo; used at
snmp/security/usm/credentials.py:23-47. -/
def orSecret : Option Bytes → Bytes → Bytes
  | none, b => b
  | some [], b => b
  | some a, _ => a

/-- `Credentials.__init__` (snmp/security/usm/credentials.py:23-47). -/
def Credentials.new (c : Crypto) (authProtocol : Option AuthProto) (authSecret : Option Bytes)
    (privProtocol : Option PrivProto) (privSecret : Option Bytes) (secret : Bytes) :
    Res Credentials :=
  match authProtocol with
  | none => .ok ⟨none, none, noAuthNoPriv⟩
  | some a =>
    match privProtocol with
    | none =>
      (a.computeKey c (orSecret authSecret secret)).bind fun authKey =>
      .ok ⟨some (a, authKey), none, authNoPriv⟩
    | some p =>
      (a.computeKey c (orSecret privSecret secret)).bind fun privKey =>
      (a.computeKey c (orSecret authSecret secret)).bind fun authKey =>
      .ok ⟨some (a, authKey), some (p, privKey), authPriv⟩

/-- `Credentials.__eq__` (snmp/security/usm/credentials.py:49-57). -/
def Credentials.eq (a b : Credentials) : Bool := a.auth = b.auth && a.priv = b.priv

/-- `Credentials.localize` (snmp/security/usm/credentials.py:59-73). -/
def Credentials.localize (cr : Credentials) (c : Crypto) (engineID : Bytes) (seed : Nat) :
    Res LocalizedCredentials :=
  match cr.auth with
  | none => .ok ⟨none, none⟩
  | some (a, authKey) =>
    let auth : AuthKey := ⟨a, a.localizeKey c authKey engineID⟩
    match cr.priv with
    | none => .ok ⟨some auth, none⟩
    | some (p, privKey) =>
      (PrivKey.new p (a.localizeKey c privKey engineID) seed).bind fun priv =>
      .ok ⟨some auth, some priv⟩

end Snmp
