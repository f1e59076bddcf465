import Verif.Pdu
/-!
# Model of `snmp/message/version.py`, `core.py`, the message classes of `v3.py`,
`snmp/security/levels.py`, `models.py` and `snmp/security/usm/parameters.py`

`repr` and `str` are not modelled here; the property setters of `MessageFlags` are in `Flags.lean`.
-/

namespace Snmp

/-! ## Versions -/

/-- `ProtocolVersion` (snmp/message/version.py:16-22). -/
inductive Version
  | v1 | v2c | v3
  deriving DecidableEq, Repr

/-- The enumeration values (snmp/message/version.py:17-19). -/
def Version.value : Version → Int
  | .v1 => 0
  | .v2c => 1
  | .v3 => 3

/-- `ProtocolVersion(value)`; `none` is `ValueError` (snmp/message/version.py:16-22). -/
def Version.ofValue (v : Int) : Option Version :=
  if v = 0 then some .v1 else if v = 1 then some .v2c else if v = 3 then some .v3 else none

/-- The start of every `deserialize`: `Integer.decode` and `ProtocolVersion(...)`
(snmp/message/version.py:43-50, core.py:59-67, v3.py:407-415). -/
def decodeVersion (data : Asn1Data) : Res (Version × Subbytes) :=
  (decodeInteger data).bind fun (v, ptr) =>
  (orRaise .badVersion (Version.ofValue v)).bind fun version => .ok (version, ptr)

/-- `VersionOnlyMessage.deserialize` (snmp/message/version.py:38-52). -/
def VersionOnly.deserialize (data : Asn1Data) : Res Version :=
  (decodeVersion data).bind fun (version, _) => .ok version

/-- `VersionOnlyMessage.decode` (snmp/asn1.py:40-53). -/
def VersionOnly.decode (data : Asn1Data) (leftovers : Bool := false) (copy : Bool := true) :
    Res (Version × Subbytes) := asn1Decode sequenceTag VersionOnly.deserialize data leftovers copy

/-! ## Community messages -/

/-- `OctetString(data).encode()` (snmp/smi.py:76-96, snmp/asn1.py:55-56). -/
def encodeOctets (d : Bytes) : Res Bytes :=
  (octetStringNew (.bytes d)).bind fun _ => (Value.octets d).encode

/-- `OctetString.decode(data, leftovers)` and `.data` (snmp/smi.py:76-103). -/
def decodeOctets (data : Asn1Data) (leftovers : Bool := true) : Res (Bytes × Subbytes) :=
  (octetStringDecode data leftovers true).bind fun (d, tail) => .ok (d.copy, tail)

/-- `types[identifier]` for a dictionary of PDU classes keyed by tag (snmp/message/core.py:82-85,
v3.py:283-287). -/
def lookupPdu (types : List PduType) (identifier : Tag) : Res PduType :=
  orRaise .parseError (types.find? fun t => t.tag = identifier)

/-- Read the tag, find the class, decode the PDU (snmp/message/core.py:77-91, v3.py:281-294). -/
def decodePdu (types : List PduType) (ptr : Asn1Data) : Res Pdu :=
  (Tag.decode ptr.toSub).bind fun (identifier, _) =>
  (lookupPdu types identifier).bind fun pduType =>
  (pduType.decode ptr).bind fun (pdu, _) => .ok pdu

/-- `Message` (snmp/message/core.py:14-24). -/
structure Message where
  version : Version
  community : Bytes
  pdu : Pdu
  deriving DecidableEq, Repr

/-- `Message.deserialize` (snmp/message/core.py:54-91). -/
def Message.deserialize (types : List PduType) (data : Asn1Data) : Res Message :=
  (decodeVersion data).bind fun (version, ptr) =>
  if version = .v3 then .error .badVersion
  else
    (decodeOctets (.sub ptr)).bind fun (community, ptr) =>
    (decodePdu types (.sub ptr)).bind fun pdu => .ok ⟨version, community, pdu⟩

/-- `Message.decode(data, types=...)` (snmp/asn1.py:40-53). -/
def Message.decode (types : List PduType) (data : Asn1Data) : Res (Message × Subbytes) :=
  asn1Decode sequenceTag (Message.deserialize types) data false true

/-- `Constructed.serialize` for `Message` (snmp/message/core.py:26-29). -/
def Message.serialize (m : Message) : Res Bytes :=
  (encodeInteger m.version.value).bind fun a =>
  (encodeOctets m.community).bind fun b =>
  m.pdu.encode.bind fun c => .ok (a ++ b ++ c)

/-- `Message(...).encode()` (snmp/asn1.py:55-56). -/
def Message.encode (m : Message) : Res Bytes := asn1Encode sequenceTag m.serialize

/-- `pduTypes` of SNMPv1 (snmp/message/v1.py:13-20). -/
def v1Types : List PduType := [.getRequest, .getNextRequest, .response, .setRequest]

/-- `pduTypes` of SNMPv2c and SNMPv3 (snmp/message/v2c.py:11-22, v3.py:20-31). -/
def v2Types : List PduType :=
  [.getRequest, .getNextRequest, .response, .setRequest, .getBulkRequest, .informRequest,
   .snmpv2Trap, .report]

/-! ## Security levels -/

/-- `SecurityLevel`; `auth` and `priv` are read-only properties, and `==` compares both
(snmp/security/levels.py:6-15, 30-44). -/
structure SecurityLevel where
  auth : Bool
  priv : Bool
  deriving DecidableEq, Repr

/-- `SecurityLevel(auth, priv)` (snmp/security/levels.py:7-15). -/
def SecurityLevel.new (auth priv : Bool) : Res SecurityLevel :=
  if priv ∧ ¬ auth then .error .valueError else .ok ⟨auth, priv⟩

/-- `__lt__` (snmp/security/levels.py:46-50). -/
def SecurityLevel.lt (a b : SecurityLevel) : Bool :=
  if a.auth then b.priv && !a.priv else b.auth

/-- `__ge__` (snmp/security/levels.py:52-53). -/
def SecurityLevel.ge (a b : SecurityLevel) : Bool := !(a.lt b)

/-- snmp/security/levels.py:55. -/
def noAuthNoPriv : SecurityLevel := ⟨false, false⟩
/-- snmp/security/levels.py:56. -/
def authNoPriv : SecurityLevel := ⟨true, false⟩
/-- snmp/security/levels.py:57. -/
def authPriv : SecurityLevel := ⟨true, true⟩

/-! ## SNMPv3 messages -/

/-- `MessageFlags` (snmp/message/v3.py:51-61). -/
structure MessageFlags where
  level : SecurityLevel
  reportable : Bool
  deriving DecidableEq, Repr

/-- `MessageFlags.data`: the octet (snmp/message/v3.py:97-110). -/
def MessageFlags.byte (f : MessageFlags) : Nat :=
  let byte := 0
  let byte := if f.level.auth then byte ||| 1 else byte
  let byte := if f.level.priv then byte ||| 2 else byte
  if f.reportable then byte ||| 4 else byte

/-- `MessageFlags.construct` (snmp/message/v3.py:79-95): only the first octet is examined. -/
def MessageFlags.construct (data : Asn1Data) : Res MessageFlags :=
  match data.copy with
  | [] => .error .parseError
  | b :: _ =>
    (translateErr PyErr.isValueError .invalidMessage
      (SecurityLevel.new (b.toNat &&& 1 ≠ 0) (b.toNat &&& 2 ≠ 0))).bind fun level =>
    .ok ⟨level, b.toNat &&& 4 ≠ 0⟩

/-- `flags.encode()` (snmp/asn1.py:55-56, 209-210). -/
def MessageFlags.encode (f : MessageFlags) : Res Bytes :=
  asn1Encode SmiType.octetString.tag (.ok [UInt8.ofNat f.byte])

/-- `MessageFlags.decode(data, leftovers=True)` (snmp/asn1.py:40-53). -/
def MessageFlags.decode (data : Asn1Data) : Res (MessageFlags × Subbytes) :=
  asn1Decode SmiType.octetString.tag MessageFlags.construct data true true

/-- `SecurityModel`: USM is the only member (snmp/security/models.py:5-6). -/
inductive SecurityModel
  | usm
  deriving DecidableEq, Repr

/-- snmp/security/models.py:6. -/
def SecurityModel.value : SecurityModel → Int
  | .usm => 3

/-- `SecurityModel(value)`. (snmp/message/v3.py:212-215) -/
def SecurityModel.ofValue (v : Int) : Option SecurityModel := if v = 3 then some .usm else none

/-- `HeaderData` (snmp/message/v3.py:139-149). -/
structure HeaderData where
  id : Int
  maxSize : Int
  flags : MessageFlags
  securityModel : SecurityModel
  deriving DecidableEq, Repr

/-- `HeaderData.__iter__` encoded (snmp/message/v3.py:151-155). -/
def HeaderData.serialize (h : HeaderData) : Res Bytes :=
  (encodeInteger h.id).bind fun a =>
  (encodeInteger h.maxSize).bind fun b =>
  h.flags.encode.bind fun c =>
  (encodeInteger h.securityModel.value).bind fun d => .ok (a ++ b ++ c ++ d)

/-- `header.encode()` (snmp/asn1.py:55-56). -/
def HeaderData.encode (h : HeaderData) : Res Bytes := asn1Encode sequenceTag h.serialize

/-- `HeaderData.deserialize` (snmp/message/v3.py:186-222). -/
def HeaderData.deserialize (data : Asn1Data) : Res HeaderData :=
  (decodeInteger data).bind fun (msgID, data) =>
  (decodeInteger (.sub data)).bind fun (maxSize, data) =>
  (MessageFlags.decode (.sub data)).bind fun (flags, data) =>
  (decodeInteger (.sub data) false).bind fun (model, _) =>
  if msgID < 0 then .error .parseError
  else if maxSize < 484 then .error .parseError
  else if model < 1 then .error .parseError
  else (orRaise .unknownSecurityModel (SecurityModel.ofValue model)).bind fun securityModel =>
    .ok ⟨msgID, maxSize, flags, securityModel⟩

/-- `HeaderData.decode(ptr, leftovers=True)` (snmp/asn1.py:40-53). -/
def HeaderData.decode (data : Asn1Data) : Res (HeaderData × Subbytes) :=
  asn1Decode sequenceTag HeaderData.deserialize data true true

/-- `ScopedPDU` (snmp/message/v3.py:225-233). -/
structure ScopedPDU where
  pdu : Pdu
  contextEngineID : Bytes
  contextName : Bytes := []
  deriving DecidableEq, Repr

/-- `ScopedPDU.__iter__` encoded (snmp/message/v3.py:235-238). -/
def ScopedPDU.serialize (s : ScopedPDU) : Res Bytes :=
  (encodeOctets s.contextEngineID).bind fun a =>
  (encodeOctets s.contextName).bind fun b =>
  s.pdu.encode.bind fun c => .ok (a ++ b ++ c)

/-- `scopedPDU.encode()` (snmp/asn1.py:55-56). -/
def ScopedPDU.encode (s : ScopedPDU) : Res Bytes := asn1Encode sequenceTag s.serialize

/-- `ScopedPDU.deserialize` (snmp/message/v3.py:265-294) with `types=pduTypes`. -/
def ScopedPDU.deserialize (data : Asn1Data) : Res ScopedPDU :=
  (decodeOctets data).bind fun (engineID, data) =>
  (decodeOctets (.sub data)).bind fun (name, data) =>
  (decodePdu v2Types (.sub data)).bind fun pdu => .ok ⟨pdu, engineID, name⟩

/-- `ScopedPDU.decode(data, leftovers, types=pduTypes)` (snmp/asn1.py:40-53). -/
def ScopedPDU.decode (data : Asn1Data) (leftovers : Bool := false) : Res (ScopedPDU × Subbytes) :=
  asn1Decode sequenceTag ScopedPDU.deserialize data leftovers true

/-- `SNMPv3Message` (snmp/message/v3.py:297-317). `securityParameters` is the `original` of the
`OctetString`, which knows its place in the message; `encryptedPDU` is the data of its
`OctetString`. -/
structure V3Message where
  header : HeaderData
  scopedPDU : Option ScopedPDU := none
  encryptedPDU : Option Bytes := none
  securityParameters : Asn1Data := .bytes []
  securityEngineID : Option Bytes := none
  securityName : Option Bytes := none
  deriving Repr

/-- The fourth item of `SNMPv3Message.__iter__`, encoded (snmp/message/v3.py:324-339). -/
def V3Message.encodePayload (m : V3Message) : Res Bytes :=
  if m.header.flags.level.priv then
    match m.encryptedPDU with
    | none => .error .libraryBug
    | some d => (Value.octets d).encode
  else
    match m.scopedPDU with
    | none => .error .libraryBug
    | some s => s.encode

/-- `SNMPv3Message.__iter__` encoded (snmp/message/v3.py:319-339). -/
def V3Message.serialize (m : V3Message) : Res Bytes :=
  (encodeInteger Version.v3.value).bind fun a =>
  m.header.encode.bind fun b =>
  (Value.octets m.securityParameters.copy).encode.bind fun c =>
  m.encodePayload.bind fun d => .ok (a ++ b ++ c ++ d)

/-- `message.encode()` (snmp/asn1.py:55-56). -/
def V3Message.encode (m : V3Message) : Res Bytes := asn1Encode sequenceTag m.serialize

/-- `SNMPv3Message.deserialize` (snmp/message/v3.py:405-442). -/
def V3Message.deserialize (data : Asn1Data) : Res V3Message :=
  (decodeVersion data).bind fun (version, ptr) =>
  if version ≠ .v3 then .error .badVersion
  else
    (HeaderData.decode (.sub ptr)).bind fun (header, ptr) =>
    (octetStringDecode (.sub ptr) true false).bind fun (params, ptr) =>
    if header.flags.level.priv then
      (decodeOctets (.sub ptr) false).bind fun (enc, _) =>
      .ok { header, encryptedPDU := some enc, securityParameters := params }
    else
      (ScopedPDU.decode (.sub ptr)).bind fun (s, _) =>
      .ok { header, scopedPDU := some s, securityParameters := params }

/-- `SNMPv3Message.decode(data)`, where `copy` defaults to False (snmp/message/v3.py:395-403). -/
def V3Message.decode (data : Asn1Data) : Res V3Message :=
  (asn1Decode sequenceTag V3Message.deserialize data false false).bind fun (m, _) => .ok m

/-- `SNMPv3Message.findSecurityParameters` (snmp/message/v3.py:444-452). -/
def V3Message.findSecurityParameters (wholeMsg : Bytes) : Res Subbytes :=
  (Ber.decode (.bytes wholeMsg) (some sequenceTag) false false).bind fun (_, ptr, _) =>
  (Ber.decode ptr (some IntType.integer32.tag) true false).bind fun (_, _, ptr) =>
  (Ber.decode (.sub ptr) (some sequenceTag) true false).bind fun (_, _, ptr) =>
  (Ber.decode (.sub ptr) (some SmiType.octetString.tag) true false).bind fun (_, ptr, _) =>
  .ok ptr.toSub

/-- The `plaintext` setter: the scoped PDU it stores (snmp/message/v3.py:459-464). The
getter (snmp/message/v3.py:454-457) is `ScopedPDU.encode` of the scoped PDU. -/
def decodePlaintext (data : Bytes) : Res ScopedPDU :=
  (ScopedPDU.decode (.bytes data) true).bind fun (s, _) => .ok s

/-! ## USM security parameters -/

/-- `UsmSecurityParameters` (snmp/security/usm/parameters.py:10-36). -/
structure UsmParams where
  engineID : Bytes
  engineBoots : Int
  engineTime : Int
  userName : Bytes
  signature : Bytes
  signatureIndex : Option Nat
  wholeMsg : Option Bytes
  salt : Bytes
  deriving DecidableEq, Repr

/-- `UsmSecurityParameters.__init__` (snmp/security/usm/parameters.py:11-36). -/
def UsmParams.new (engineID : Bytes) (boots time : Int) (userName : Bytes) (signature : Asn1Data)
    (salt : Bytes) : UsmParams :=
  match signature with
  | .bytes b => ⟨engineID, boots, time, userName, b, none, none, salt⟩
  | .sub s => ⟨engineID, boots, time, userName, s.copy, some s.start, some s.data, salt⟩

/-- `UsmSecurityParameters.__iter__` encoded (snmp/security/usm/parameters.py:38-44). -/
def UsmParams.serialize (p : UsmParams) : Res Bytes :=
  (encodeOctets p.engineID).bind fun a =>
  (encodeInteger p.engineBoots).bind fun b =>
  (encodeInteger p.engineTime).bind fun c =>
  (encodeOctets p.userName).bind fun d =>
  (encodeOctets p.signature).bind fun e =>
  (encodeOctets p.salt).bind fun f => .ok (a ++ b ++ c ++ d ++ e ++ f)

/-- `securityParameters.encode()` (snmp/asn1.py:55-56). -/
def UsmParams.encode (p : UsmParams) : Res Bytes := asn1Encode sequenceTag p.serialize

/-- `not isinstance(data, subbytes)` (snmp/security/usm/parameters.py:123). -/
def Asn1Data.isBytes : Asn1Data → Bool
  | .bytes _ => true
  | .sub _ => false

/-- `UsmSecurityParameters.deserialize` (snmp/security/usm/parameters.py:121-159). -/
def UsmParams.deserialize (data : Asn1Data) : Res UsmParams :=
  (decodeOctets data).bind fun (engineID, ptr) =>
  (decodeInteger (.sub ptr)).bind fun (boots, ptr) =>
  (decodeInteger (.sub ptr)).bind fun (time, ptr) =>
  (decodeOctets (.sub ptr)).bind fun (userName, ptr) =>
  (octetStringDecode (.sub ptr) true data.isBytes).bind fun (signature, ptr) =>
  (decodeOctets (.sub ptr) false).bind fun (salt, _) =>
  .ok (UsmParams.new engineID boots time userName signature salt)

/-- `UsmSecurityParameters.decode(data)`, where `copy` defaults to False
(snmp/security/usm/parameters.py:109-119). -/
def UsmParams.decode (data : Asn1Data) : Res UsmParams :=
  (asn1Decode sequenceTag UsmParams.deserialize data false false).bind fun (p, _) => .ok p

/-- `UsmSecurityParameters.findSignature` (snmp/security/usm/parameters.py:161-173). -/
def UsmParams.findSignature (params : Subbytes) : Res Subbytes :=
  (Ber.decode (.sub params) (some sequenceTag) false false).bind fun (_, ptr, _) =>
  (Ber.decode ptr (some SmiType.octetString.tag) true false).bind fun (_, _, ptr) =>
  (Ber.decode (.sub ptr) (some IntType.integer32.tag) true false).bind fun (_, _, ptr) =>
  (Ber.decode (.sub ptr) (some IntType.integer32.tag) true false).bind fun (_, _, ptr) =>
  (Ber.decode (.sub ptr) (some SmiType.octetString.tag) true false).bind fun (_, _, ptr) =>
  (Ber.decode (.sub ptr) (some SmiType.octetString.tag) true false).bind fun (_, ptr, _) =>
  .ok ptr.toSub

end Snmp
