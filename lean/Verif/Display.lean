import Verif.Repr
import Verif.Message
/-!
# Model of `toString` of PDUs, messages and their parts

`none` stands for the exception of a `toString` that fails: `AttributeError` for an error status that is a plain
number, `AssertionError` for a message without a scoped PDU.
-/

namespace Snmp

/-- `tab * depth`. CPython built-in, not in /repo; used at snmp/pdu.py:221, 325, snmp/message/v3.py:70. -/
def tabs (tab : Text) (depth : Nat) : Text := (List.replicate depth tab).flatten

/-- The default of the argument `tab` (snmp/pdu.py:220). -/
def fourSpaces : Text := "    ".toList

/-- `str(b)` of a `bool`. CPython built-in, not in /repo; used at snmp/message/v3.py:76. -/
def boolStr (b : Bool) : Text := if b then "True".toList else "False".toList

/-- `repr(s)` of a `subbytes` (snmp/utils.py:199-209). -/
def Subbytes.repr (s : Subbytes) : Text :=
  let args := [bytesRepr s.data] ++ (if s.start = 0 then [] else ["start=".toList ++ decimal s.start]) ++
    (if s.stop < s.data.length then ["stop=".toList ++ decimal s.stop] else [])
  "subbytes".toList ++ '(' :: joinComma args ++ [')']

/-- `repr(data)` of the `original` of an `OctetString`: `bytes` or `subbytes` (snmp/smi.py:86-91). -/
def Asn1Data.repr : Asn1Data → Text
  | .bytes d => bytesRepr d
  | .sub s => s.repr

/-- `OctetString.__repr__` (snmp/smi.py:86-87). -/
def octetStringRepr (d : Asn1Data) : Text := "OctetString".toList ++ '(' :: d.repr ++ [')']

/-- `PDU.toString` and `BulkPDU.toString` (snmp/pdu.py:220-236, 324-339). The latter does not indent its first
line (line 327). -/
def Pdu.toString (p : Pdu) (depth : Nat := 0) (tab : Text := fourSpaces) : Option Text :=
  if p.type = .getBulkRequest then
    let indent := tabs tab (depth + 1)
    some (joinLines
      [p.type.name ++ [':'],
       indent ++ "Request ID: ".toList ++ decimalInt p.requestID,
       indent ++ "Non-Repeaters: ".toList ++ decimalInt p.first,
       indent ++ "Max Repetitions: ".toList ++ decimalInt p.second,
       indent ++ "Variable Bindings:".toList,
       VarBindList.str p.bindings (tabs tab (depth + 2))])
  else if p.first < 0 then none
  else
    let indent := tabs tab depth
    let subindent := indent ++ tab
    (errorNames[p.first.toNat]?).map fun name => joinLines
      [indent ++ p.type.name ++ [':'],
       subindent ++ "Request ID: ".toList ++ decimalInt p.requestID,
       subindent ++ "Error Status: ".toList ++ name,
       subindent ++ "Error Index: ".toList ++ decimalInt p.second,
       subindent ++ "Variable Bindings:".toList,
       VarBindList.str p.bindings (subindent ++ tab)]

/-- `Message.toString` (snmp/message/core.py:45-52). -/
def Message.toString (m : Message) (depth : Nat := 0) (tab : Text := fourSpaces) : Option Text :=
  let indent := tabs tab depth
  let subindent := indent ++ tab
  (m.pdu.toString (depth + 1) tab).map fun pdu => joinLines
    [indent ++ "Message:".toList,
     subindent ++ "Community: ".toList ++ bytesRepr m.community,
     pdu]

/-- `SecurityLevel.__str__` (snmp/security/levels.py:24-28). -/
def SecurityLevel.str (l : SecurityLevel) : Text :=
  (if l.auth then "auth".toList else "noAuth".toList) ++ (if l.priv then "Priv".toList else "NoPriv".toList)

/-- `MessageFlags.toString` (snmp/message/v3.py:69-77). -/
def MessageFlags.toString (f : MessageFlags) (depth : Nat := 0) (tab : Text := fourSpaces) : Text :=
  let indent := tabs tab depth
  let subindent := indent ++ tab
  joinLines
    [indent ++ "MessageFlags:".toList,
     subindent ++ "Security Level: ".toList ++ f.level.str,
     subindent ++ "Reportable: ".toList ++ boolStr f.reportable]

/-- `SecurityModel(value).name` (snmp/security/models.py:5-6). -/
def SecurityModel.name : SecurityModel → Text
  | .usm => "USM".toList

/-- `HeaderData.toString` (snmp/message/v3.py:173-184). -/
def HeaderData.toString (h : HeaderData) (depth : Nat := 0) (tab : Text := fourSpaces) : Text :=
  let indent := tabs tab depth
  let subindent := indent ++ tab
  joinLines
    [indent ++ "HeaderData:".toList,
     subindent ++ "Message ID: ".toList ++ decimalInt h.id,
     subindent ++ "Sender Message Size Limit: ".toList ++ decimalInt h.maxSize,
     h.flags.toString (depth + 1) tab,
     subindent ++ "Security Model: ".toList ++ h.securityModel.name]

/-- `ScopedPDU.toString` (snmp/message/v3.py:255-263). -/
def ScopedPDU.toString (s : ScopedPDU) (depth : Nat := 0) (tab : Text := fourSpaces) : Option Text :=
  let indent := tabs tab depth
  let subindent := indent ++ tab
  (s.pdu.toString (depth + 1) tab).map fun pdu => joinLines
    [indent ++ "ScopedPDU:".toList,
     subindent ++ "Context Engine ID: ".toList ++ bytesRepr s.contextEngineID,
     subindent ++ "Context Name: ".toList ++ bytesRepr s.contextName,
     pdu]

/-- `payload` in `SNMPv3Message.toString` (snmp/message/v3.py:363-367); an `encryptedPDU` is a string of real
bytes or `None`. -/
def V3Message.payloadStr (m : V3Message) (depth : Nat) (tab : Text) : Option Text :=
  if m.header.flags.level.priv then
    some (tabs tab depth ++ tab ++ "Encrypted Data: ".toList ++
      match m.encryptedPDU with
      | some d => octetStringRepr (.bytes d)
      | none => "None".toList)
  else
    match m.scopedPDU with
    | some s => s.toString (depth + 1) tab
    | none => none

/-- `SNMPv3Message.toString` (snmp/message/v3.py:359-374). -/
def V3Message.toString (m : V3Message) (depth : Nat := 0) (tab : Text := fourSpaces) : Option Text :=
  let indent := tabs tab depth
  let subindent := indent ++ tab
  (m.payloadStr depth tab).map fun payload => joinLines
    [indent ++ "SNMPv3Message:".toList,
     m.header.toString (depth + 1) tab,
     subindent ++ "Security Parameters: ".toList ++ octetStringRepr m.securityParameters,
     payload]

/-- `UsmSecurityParameters.toString` (snmp/security/usm/parameters.py:76-87). -/
def UsmParams.toString (p : UsmParams) (depth : Nat := 0) (tab : Text := fourSpaces) : Text :=
  let indent := tabs tab depth
  let subindent := indent ++ tab
  joinLines
    [indent ++ "UsmSecurityParameters:".toList,
     subindent ++ "Authoritative Engine ID: ".toList ++ bytesRepr p.engineID,
     subindent ++ "Authoritative Engine Boots: ".toList ++ decimalInt p.engineBoots,
     subindent ++ "Authoritative Engine Time: ".toList ++ decimalInt p.engineTime,
     subindent ++ "User Name: ".toList ++ bytesRepr p.userName,
     subindent ++ "Signature: ".toList ++ bytesRepr p.signature,
     subindent ++ "Encryption Salt: ".toList ++ bytesRepr p.salt]

end Snmp
