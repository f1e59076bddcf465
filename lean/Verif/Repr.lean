import Verif.Oid
import Verif.Pdu
/-!
# Model of `repr` and `str` of the ASN.1 objects and PDUs

Text is a list of characters. An object is printed as the decoder and the documented constructors leave it: an
`OctetString` whose `original` is a `bytes` object, an `IpAddress` whose `addr` is what `inet_ntoa` gives. (A
string constructed from a `subbytes` prints the latter; `IpAddress("127.1")` prints what it was given.)
-/

namespace Snmp

/-- `", ".join(words)`. CPython built-in, not in /repo; used at snmp/asn1.py:303, snmp/pdu.py:131. -/
def joinComma : List Text → Text
  | [] => []
  | [w] => w
  | w :: ws => w ++ ',' :: ' ' :: joinComma ws

/-- `"\n".join(lines)`. CPython built-in, not in /repo; used at snmp/pdu.py:138. -/
def joinLines : List Text → Text
  | [] => []
  | [w] => w
  | w :: ws => w ++ '\n' :: joinLines ws

/-- `str(n)`. CPython built-in, not in /repo; used at snmp/asn1.py:113-114. -/
def decimalInt (v : Int) : Text := if v < 0 then '-' :: decimal v.natAbs else decimal v.toNat

/-- A lower-case hexadecimal digit. CPython built-in, not in /repo; used at snmp/asn1.py:168-169. -/
def hexDigit (n : Nat) : Char := if n < 10 then Char.ofNat (48 + n) else Char.ofNat (87 + n)

/-- One byte in `repr(bytes)`, `q` being the quotation mark. CPython built-in, not in /repo; used at
snmp/asn1.py:168-169. -/
def byteRepr (q : Char) (b : UInt8) : Text :=
  let c := Char.ofNat b.toNat
  if c = q ∨ c = '\\' then ['\\', c]
  else if c = '\t' then ['\\', 't']
  else if c = '\n' then ['\\', 'n']
  else if c = '\r' then ['\\', 'r']
  else if b.toNat < 0x20 ∨ 0x7f ≤ b.toNat then ['\\', 'x', hexDigit (b.toNat / 16), hexDigit (b.toNat % 16)]
  else [c]

/-- `repr(bytes)`. CPython built-in, not in /repo; used at snmp/asn1.py:168-169, snmp/smi.py:86-87. -/
def bytesRepr (d : Bytes) : Text :=
  let q := if 39 ∈ d ∧ 34 ∉ d then '"' else '\''
  'b' :: q :: d.flatMap (byteRepr q) ++ [q]

/-- `inet_ntoa(data)`. C library, not in /repo; used at snmp/smi.py:129-132. -/
def inetNtoa (d : Bytes) : Text := joinDot (d.map fun b => decimal b.toNat)

/-- `typename(self)` of each class (snmp/asn1.py:100-269; snmp/smi.py:20-158; snmp/pdu.py:26-36;
snmp/utils.py:283-300). -/
def SmiType.name : SmiType → Text
  | .int .integer => "INTEGER".toList
  | .int .integer32 => "Integer32".toList
  | .int .unsigned32 => "Unsigned32".toList
  | .int .counter32 => "Counter32".toList
  | .int .gauge32 => "Gauge32".toList
  | .int .timeTicks => "TimeTicks".toList
  | .int .counter64 => "Counter64".toList
  | .octetString => "OctetString".toList
  | .ipAddress => "IpAddress".toList
  | .opaqueData => "Opaque".toList
  | .null => "NULL".toList
  | .oid => "OID".toList
  | .noSuchObject => "NoSuchObject".toList
  | .noSuchInstance => "NoSuchInstance".toList
  | .endOfMibView => "EndOfMibView".toList

/-- What `__repr__` writes between the parentheses (snmp/asn1.py:113-114,168-169,216-217,302-304;
snmp/smi.py:86-87,118-119). The address consists of digits and dots, so its `repr` only adds quotation
marks. -/
def Value.reprArgs : Value → Text
  | .int _ v => decimalInt v
  | .octets d => bytesRepr d
  | .ipAddress d => '\'' :: inetNtoa d ++ ['\'']
  | .opaqueData d => bytesRepr d
  | .oid o => joinComma (o.map decimal)
  | .null | .noSuchObject | .noSuchInstance | .endOfMibView => []

/-- `__repr__` (snmp/asn1.py:113-114,168-169,216-217,302-304; snmp/smi.py:86-87,118-119). -/
def Value.repr (v : Value) : Text := v.type.name ++ '(' :: v.reprArgs ++ [')']

/-- `str(value)`: `OBJECT_IDENTIFIER.__str__` (snmp/asn1.py:306-307), and `__repr__` for the others, which
have no `__str__`. -/
def Value.str : Value → Text
  | .oid o => Oid.str o
  | v => v.repr

/-- `VarBind.__repr__` (snmp/pdu.py:78-79). -/
def VarBind.repr (v : VarBind) : Text :=
  "VarBind".toList ++ '(' :: (Value.oid v.name).repr ++ ',' :: ' ' :: v.value.repr ++ [')']

/-- `VarBind.__str__` (snmp/pdu.py:81-82). -/
def VarBind.str (v : VarBind) : Text := Oid.str v.name ++ ':' :: ' ' :: v.value.str

/-- `VarBindList.__repr__` (snmp/pdu.py:130-132). -/
def VarBindList.repr (l : List VarBind) : Text :=
  "VarBindList".toList ++ '(' :: joinComma (l.map VarBind.repr) ++ [')']

/-- `VarBindList.toString` and `__str__` (snmp/pdu.py:134-138). -/
def VarBindList.str (l : List VarBind) (indent : Text := []) : Text := joinLines (l.map fun v => indent ++ v.str)

/-- `typename(self)` (snmp/pdu.py:390-420; snmp/utils.py:283-300). -/
def PduType.name : PduType → Text
  | .getRequest => "GetRequestPDU".toList
  | .getNextRequest => "GetNextRequestPDU".toList
  | .response => "ResponsePDU".toList
  | .setRequest => "SetRequestPDU".toList
  | .getBulkRequest => "GetBulkRequestPDU".toList
  | .informRequest => "InformRequestPDU".toList
  | .snmpv2Trap => "SNMPv2TrapPDU".toList
  | .report => "ReportPDU".toList

/-- The names of the two numbers after the request ID (snmp/pdu.py:205-209,309-313). -/
def PduType.fields (t : PduType) : Text × Text :=
  if t = .getBulkRequest then ("nonRepeaters".toList, "maxRepetitions".toList)
  else ("errorStatus".toList, "errorIndex".toList)

/-- One optional argument in `__repr__` of a PDU: left out if it is zero (snmp/pdu.py:203-210,307-314). An
`ErrorStatus` is formatted as its number. -/
def reprField (name : Text) (v : Int) : List Text := if v = 0 then [] else [name ++ '=' :: decimalInt v]

/-- `PDU.__repr__` and `BulkPDU.__repr__` (snmp/pdu.py:201-215,305-319). -/
def Pdu.repr (p : Pdu) : Text :=
  let arguments := reprField "requestID".toList p.requestID ++ reprField p.type.fields.1 p.first ++
    reprField p.type.fields.2 p.second ++ ["variableBindings=".toList ++ VarBindList.repr p.bindings]
  p.type.name ++ '(' :: joinComma arguments ++ [')']

/-- The names of `ErrorStatus` (snmp/pdu.py:154-173). -/
def errorNames : List Text :=
  ["noError".toList, "tooBig".toList, "noSuchName".toList, "badValue".toList, "readOnly".toList,
   "genErr".toList, "noAccess".toList, "wrongType".toList, "wrongLength".toList, "wrongEncoding".toList,
   "wrongValue".toList, "noCreation".toList, "inconsistentValue".toList, "resourceUnavailable".toList,
   "commitFailed".toList, "undoFailed".toList, "authorizationError".toList, "notWritable".toList,
   "inconsistentName".toList]

/-- `PDU.__str__` and `BulkPDU.__str__`, that is `toString()` with no indentation
(snmp/pdu.py:217-236,321-339); `AttributeError` (here `none`) if `errorStatus` is a number that is not an
`ErrorStatus`. -/
def Pdu.str (p : Pdu) : Option Text :=
  let tab := "    ".toList
  let bindings := VarBindList.str p.bindings (tab ++ tab)
  if p.type = .getBulkRequest then
    some (joinLines
      [p.type.name ++ [':'],
       tab ++ "Request ID: ".toList ++ decimalInt p.requestID,
       tab ++ "Non-Repeaters: ".toList ++ decimalInt p.first,
       tab ++ "Max Repetitions: ".toList ++ decimalInt p.second,
       tab ++ "Variable Bindings:".toList,
       bindings])
  else if p.first < 0 then none
  else
    (errorNames[p.first.toNat]?).map fun name => joinLines
      [p.type.name ++ [':'],
       tab ++ "Request ID: ".toList ++ decimalInt p.requestID,
       tab ++ "Error Status: ".toList ++ name,
       tab ++ "Error Index: ".toList ++ decimalInt p.second,
       tab ++ "Variable Bindings:".toList,
       bindings]

end Snmp
