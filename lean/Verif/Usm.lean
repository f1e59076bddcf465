import Verif.Priv
import Verif.Users
import Verif.Timekeeper
/-!
# Model of `snmp/security/usm/implementation.py`

The two locks make each access to the user registry and to the time keeper atomic; a whole
`prepareOutgoing` or `processIncoming` is not. The functions here run without interference.
-/

namespace Snmp

/-- `UserBasedSecurityModule` (snmp/security/usm/implementation.py:38-46). -/
structure Usm where
  timekeeper : TimeKeeper
  users : UserRegistry

namespace Usm

/-- `__init__` (snmp/security/usm/implementation.py:41-46). -/
def new : Usm := ⟨.new, .new⟩

/-- The privacy object found by `getCredentials` is shared with the registry; this is the registry
after the object was changed to `priv`. (snmp/security/usm/users.py:102-106,190-199;
snmp/security/usm/implementation.py:102-169) -/
def setPriv (u : Usm) (engineID userName : Bytes) (priv : PrivKey) : Usm :=
  match u.users.engines.get engineID with
  | none => u
  | some e =>
    match e.users.get userName with
    | none => u
    | some cr =>
      let e' : RemoteEngine := ⟨e.count, e.namespace, e.users.set userName ⟨cr.auth, some priv⟩⟩
      ⟨u.timekeeper, ⟨u.users.engines.set engineID e', u.users.namespaces⟩⟩

/-- The end of `prepareOutgoing`: security parameters, encoding, signature
(snmp/security/usm/implementation.py:148-169). -/
def finish (c : Crypto) (m : V3Message) (engineID : Bytes) (boots time : Int) (securityName : Bytes)
    (authParams privParams : Bytes) (auth : Option AuthKey) : Res Bytes :=
  (UsmParams.new engineID boots time securityName (.bytes authParams) privParams).encode.bind
    fun params =>
  (octetStringNew (.bytes params)).bind fun params =>
  ({ m with securityParameters := params } : V3Message).encode.bind fun wholeMsg =>
  match auth with
  | none => .ok wholeMsg
  | some auth =>
    (V3Message.findSecurityParameters wholeMsg).bind fun params =>
    (UsmParams.findSignature params).bind fun location =>
    .ok (location.replace (auth.sign c wholeMsg))

/-- `prepareOutgoing` (snmp/security/usm/implementation.py:102-169): the bytes to send, and the module
afterwards. The decoding of the user name for an error message is left out (names were encoded by
`addUser`). -/
def prepareOutgoing (u : Usm) (b : Backend) (c : Crypto) (m : V3Message) (engineID securityName : Bytes)
    (timestamp : ℚ) : Res Bytes × Usm :=
  if m.header.flags.level.auth then
    match u.users.getCredentials engineID securityName with
    | .error e => (.error e, u)
    | .ok user =>
      match user.auth with
      | none => (.error .invalidSecurityLevel, u)
      | some auth =>
        let (boots, time) := u.timekeeper.getEngineTime engineID timestamp
        if m.header.flags.level.priv then
          match user.priv with
          | none => (.error .invalidSecurityLevel, u)
          | some priv =>
            match m.scopedPDU with
            | none => (.error .assertionError, u)
            | some s =>
              match s.encode with
              | .error e => (.error e, u)
              | .ok data =>
                let (r, priv) := priv.encrypt b c data boots time
                let u := u.setPriv engineID securityName priv
                (r.bind fun (ciphertext, salt) =>
                  (octetStringNew (.bytes ciphertext)).bind fun ciphertext =>
                  finish c { m with encryptedPDU := some ciphertext.copy } engineID boots time
                    securityName auth.proto.padding salt (some auth), u)
        else
          (finish c m engineID boots time securityName auth.proto.padding [] (some auth), u)
  else (finish c m engineID 0 0 securityName [] [] none, u)

/-- The checks of `processIncoming` between user lookup and time window
(snmp/security/usm/implementation.py:209-231). -/
def authenticate (c : Crypto) (m : V3Message) (p : UsmParams) (user : LocalizedCredentials) :
    Res Unit :=
  match user.auth with
  | none => .error .unsupportedSecLevel
  | some auth =>
    if m.header.flags.level.priv && user.priv.isNone then .error .unsupportedSecLevel
    else
      let padding := auth.proto.padding
      if p.signature.length ≠ padding.length then .error .wrongDigest
      else
        (orRaise .assertionError p.signatureIndex).bind fun start =>
        let stop := start + padding.length
        (orRaise .assertionError p.wholeMsg).bind fun wholeMsg =>
        let signature := Subbytes.ofBytes wholeMsg (some start) (some stop)
        let wholeMsg := signature.replace padding
        if auth.sign c wholeMsg ≠ p.signature then .error .wrongDigest else .ok ()

/-- `processIncoming` (snmp/security/usm/implementation.py:171-260): the message with what the module
assigned to it, and the module afterwards. The last `.error .typeError` stands for the AttributeError
of a message object with the privacy flag and without encrypted PDU, which decoding cannot produce. -/
def processIncoming (u : Usm) (b : Backend) (c : Crypto) (m : V3Message) (timestamp : ℚ) :
    Res V3Message × Usm :=
  match UsmParams.decode m.securityParameters with
  | .error e => (.error e, u)
  | .ok p =>
    let m := { m with securityEngineID := some p.engineID, securityName := some p.userName }
    if !m.header.flags.level.auth then
      (.ok m, ⟨u.timekeeper.hint p.engineID p.engineBoots p.engineTime timestamp, u.users⟩)
    else
      match u.users.getCredentials p.engineID p.userName with
      | .error .invalidEngineID => (.error .unknownEngineID, u)
      | .error .invalidUserName => (.error .unknownUserName, u)
      | .error e => (.error e, u)
      | .ok user =>
        match authenticate c m p user with
        | .error e => (.error e, u)
        | .ok () =>
          let (within, timekeeper) :=
            u.timekeeper.updateAndVerify p.engineID p.engineBoots p.engineTime timestamp
          let u : Usm := ⟨timekeeper, u.users⟩
          if !within then (.error .notInTimeWindow, u)
          else if m.header.flags.level.priv then
            match user.priv, m.encryptedPDU with
            | some priv, some ciphertext =>
              (translateErr PyErr.isValueError .decryptionError (
                (priv.decrypt b c ciphertext p.engineBoots p.engineTime p.salt).bind fun plaintext =>
                (decodePlaintext plaintext).bind fun s => .ok { m with scopedPDU := some s }), u)
            | _, _ => (.error .typeError, u)
          else (.ok m, u)

end Usm

end Snmp
