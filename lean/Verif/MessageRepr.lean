import Verif.Display
/-!
# Model of `repr` of messages and their parts

`modern` says whether Python is 3.11 or later, where `str` of a member of an `IntEnum` is its number; the class
`ProtocolVersion` undoes that change for its own members.
-/

namespace Snmp

/-- `str(version)` (snmp/message/version.py:16-22). -/
def Version.str : Version → Text
  | .v1 => "ProtocolVersion.SNMPv1".toList
  | .v2c => "ProtocolVersion.SNMPv2c".toList
  | .v3 => "ProtocolVersion.SNMPv3".toList

/-- `str(SecurityModel(value))` (snmp/security/models.py:5-6; snmp/message/v3.py:165). -/
def SecurityModel.str (modern : Bool) (m : SecurityModel) : Text :=
  if modern then decimalInt m.value else "SecurityModel.".toList ++ m.name

/-- `VersionOnlyMessage.__repr__` (snmp/message/version.py:35-36); the object has no other content than its
version (snmp/message/version.py:26-33). -/
def versionOnlyRepr (v : Version) : Text := "VersionOnlyMessage".toList ++ '(' :: v.str ++ [')']

/-- `Message.__repr__` (snmp/message/core.py:34-40). -/
def Message.repr (m : Message) : Text :=
  "Message".toList ++ '(' :: joinComma [m.version.str, bytesRepr m.community, m.pdu.repr] ++ [')']

/-- `SecurityLevel.__repr__` (snmp/security/levels.py:17-22); the properties are the two attributes
(snmp/security/levels.py:30-36). -/
def SecurityLevel.repr (l : SecurityLevel) : Text :=
  "SecurityLevel".toList ++ '(' ::
    joinComma ["auth=".toList ++ boolStr l.auth, "priv=".toList ++ boolStr l.priv] ++ [')']

/-- `MessageFlags.__repr__` (snmp/message/v3.py:63-64). -/
def MessageFlags.repr (f : MessageFlags) : Text :=
  "MessageFlags".toList ++ '(' :: joinComma [f.level.str, boolStr f.reportable] ++ [')']

/-- `HeaderData.__repr__` (snmp/message/v3.py:160-168). -/
def HeaderData.repr (modern : Bool) (h : HeaderData) : Text :=
  "HeaderData".toList ++ '(' ::
    joinComma [decimalInt h.id, decimalInt h.maxSize, h.flags.repr, h.securityModel.str modern] ++ [')']

/-- `ScopedPDU.__repr__` (snmp/message/v3.py:243-250). -/
def ScopedPDU.repr (s : ScopedPDU) : Text :=
  "ScopedPDU".toList ++ '(' ::
    joinComma [s.pdu.repr, bytesRepr s.contextEngineID, "contextName=".toList ++ bytesRepr s.contextName] ++ [')']

/-- `SNMPv3Message.__repr__` (snmp/message/v3.py:344-354). An `encryptedPDU` is a string of real bytes or
`None`. -/
def V3Message.repr (modern : Bool) (m : V3Message) : Text :=
  let payload :=
    if m.header.flags.level.priv then
      "encryptedPDU=".toList ++
        match m.encryptedPDU with
        | some d => octetStringRepr (.bytes d)
        | none => "None".toList
    else
      "scopedPDU=".toList ++
        match m.scopedPDU with
        | some s => s.repr
        | none => "None".toList
  "SNMPv3Message".toList ++ '(' ::
    joinComma [m.header.repr modern, payload,
      "securityParameters=".toList ++ octetStringRepr m.securityParameters] ++ [')']

/-- `UsmSecurityParameters.__repr__` (snmp/security/usm/parameters.py:49-71); `none` is `SNMPLibraryBug`. -/
def UsmParams.repr (p : UsmParams) : Option Text :=
  let signature : Option Text :=
    match p.wholeMsg, p.signatureIndex with
    | none, _ => some (bytesRepr p.signature)
    | some _, none => none
    | some whole, some start =>
      some (Subbytes.ofBytes whole (some start) (some ((start + p.signature.length : Nat) : Int))).repr
  signature.map fun signature =>
    "UsmSecurityParameters".toList ++ '(' ::
      joinComma [bytesRepr p.engineID, decimalInt p.engineBoots, decimalInt p.engineTime, bytesRepr p.userName,
        signature, bytesRepr p.salt] ++ [')']

end Snmp
