import Verif.Priv
/-!
# Model of the calls into OpenSSL (`snmp/security/usm/priv/openssl/__init__.py`)

`Verif/Priv.lean` models what the OpenSSL classes return when every call succeeds. Here are the calls themselves, in order, with
any of them failing: which context they are given, and how long the buffers are that the C library reads and writes.
-/

namespace Snmp

/-- A call into libcrypto, with what matters for memory safety: the context, and the lengths of the buffers
(snmp/security/usm/priv/openssl/__init__.py:23,32,57,64). -/
inductive NativeCall
  /-- `EVP_CIPHER_CTX_new()` and the pointer it returned; `none` is NULL. -/
  | new (ctx : Option Nat)
  /-- `EVP_EncryptInit` or `EVP_DecryptInit`. -/
  | init (ctx : Nat) (cipher : PrivProto) (keyLen ivLen : Nat)
  /-- `EVP_EncryptUpdate` or `EVP_DecryptUpdate` with an output buffer of `room` bytes and the input length `inl`, where
  `dataLen` bytes of input are there. -/
  | update (ctx : Nat) (room inl dataLen : Nat)
  /-- `EVP_CIPHER_CTX_free`. -/
  | free (ctx : Nat)
  deriving DecidableEq, Repr

/-- What libcrypto and the allocator answer during one `process`: the new context (`none`: NULL), whether the initialisation
succeeded, whether `ffi.new` succeeded, and what the update wrote (`none`: it failed). Not code in /repo; called at
snmp/security/usm/priv/openssl/__init__.py:23,57,61-62,64. -/
structure Native where
  ctx : Option Nat
  init : Bool
  alloc : Bool
  update : Option Bytes

/-- The plain `Exception`s raised at snmp/security/usm/priv/openssl/__init__.py:26,58,65, and a `MemoryError` of `ffi.new`. -/
inductive NativeErr
  | noContext | noInit | noMemory | noUpdate
  deriving DecidableEq, Repr

/-- `BLOCKLEN` of the cipher (snmp/security/usm/priv/openssl/__init__.py:18-19). -/
def PrivProto.blockLen : PrivProto → Nat
  | .aesCfb128 => 16
  | .desCbc => 8

/-- `allocateOutputBuffer` (snmp/security/usm/priv/openssl/__init__.py:47-53): its length. -/
def outputLength (dataLen blockLen : Nat) : Nat := dataLen + blockLen - dataLen % blockLen

/-- `with EnvelopeContext() as ctx: body` (snmp/security/usm/priv/openssl/__init__.py:21-32): the context is made, `body` runs with
it, and it is freed whether `body` returns or raises. -/
def withContext {α : Type} (ctx : Option Nat) (body : Nat → Except NativeErr α × List NativeCall) :
    Except NativeErr α × List NativeCall :=
  match ctx with
  | none => (.error .noContext, [.new none])
  | some c =>
    let (r, calls) := body c
    (r, .new (some c) :: calls ++ [.free c])

/-- `Envelope.process` (snmp/security/usm/priv/openssl/__init__.py:55-67): what it returns and the calls it makes. `bytes(output)` is
the whole buffer, zero where nothing was written. -/
def envelopeProcess (cipher : PrivProto) (o : Native) (data key iv : Bytes) : Except NativeErr Bytes × List NativeCall :=
  withContext o.ctx fun ctx =>
    if o.init = false then (.error .noInit, [.init ctx cipher key.length iv.length])
    else
      let inl := data.length
      if o.alloc = false then (.error .noMemory, [.init ctx cipher key.length iv.length])
      else
        let room := outputLength data.length cipher.blockLen
        match o.update with
        | none => (.error .noUpdate, [.init ctx cipher key.length iv.length, .update ctx room inl data.length])
        | some result => (.ok (result ++ List.replicate (room - result.length) 0),
            [.init ctx cipher key.length iv.length, .update ctx room inl data.length])

/-- The two ways an OpenSSL privacy class fails: a Python exception of its own, or of `process`. -/
inductive PrivErr
  | py (e : PyErr)
  | native (e : NativeErr)
  deriving DecidableEq, Repr

/-- A native result as a result of the class; no code of its own. -/
def liftNative {α : Type} (x : Except NativeErr α × List NativeCall) : Except PrivErr α × List NativeCall :=
  (x.1.mapError .native, x.2)

namespace PrivKey

/-- `decrypt` of the OpenSSL classes with its native calls (snmp/security/usm/priv/openssl/aes.py:37-48, des.py:35-46). -/
def nativeDecrypt (k : PrivKey) (o : Native) (data : Bytes) (boots time : Int) (salt : Bytes) :
    Except PrivErr Bytes × List NativeCall :=
  match k.proto with
  | .aesCfb128 =>
    match translateErr PyErr.isValueError .decryptionError (packIV boots time salt) with
    | .error e => (.error (.py e), [])
    | .ok iv => liftNative (envelopeProcess .aesCfb128 o data k.key iv)
  | .desCbc =>
    if data.length % 8 ≠ 0 then (.error (.py .decryptionError), [])
    else liftNative (envelopeProcess .desCbc o data k.key (k.computeIV salt))

/-- `encrypt` of the OpenSSL classes with its native calls (snmp/security/usm/priv/openssl/aes.py:50-61, des.py:48-63); the new
salt of the object is as in `PrivKey.encrypt`. -/
def nativeEncrypt (k : PrivKey) (o : Native) (data : Bytes) (boots time : Int) : Except PrivErr (Bytes × Bytes) × List NativeCall :=
  let k := { k with salt := (k.salt + 1) % saltWrap k.proto }
  match k.proto with
  | .aesCfb128 =>
    let salt := natToBytes 8 k.salt
    match packIV boots time salt with
    | .error e => (.error (.py e), [])
    | .ok iv =>
      let (r, calls) := liftNative (envelopeProcess .aesCfb128 o data k.key iv)
      (r.map fun ct => (ct, salt), calls)
  | .desCbc =>
    match toBytesBE 4 boots with
    | .error e => (.error (.py e), [])
    | .ok bootBytes =>
      let salt := bootBytes ++ natToBytes 4 k.salt
      let (r, calls) := liftNative (envelopeProcess .desCbc o (desPad data) k.key (k.computeIV salt))
      (r.map fun ct => (ct, salt), calls)

end PrivKey

end Snmp
