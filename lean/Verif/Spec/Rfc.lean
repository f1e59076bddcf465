import Verif.Message
/-!
# The octets that the standards prescribe

BER (X.690, as restricted by RFC 3417 section 8) for the values of RFC 2578, the PDUs of RFC 3416 and
the messages of RFC 1157, RFC 1901, RFC 3412 and RFC 3414. Identifier octets are literal. Nothing here
uses an encoder or a tag of the model, only its data types.
-/

namespace Snmp.Spec

/-- Base-256 digits, most significant first, no leading zero. -/
def base256 (n : Nat) : Bytes :=
  if n < 256 then [UInt8.ofNat n] else base256 (n / 256) ++ [UInt8.ofNat (n % 256)]
termination_by n
decreasing_by omega

/-- Length octets (X.690 8.1.3): one octet below 128, otherwise the number of octets plus 128 and the
length in base 256. -/
def lengthOctets (n : Nat) : Bytes :=
  if n < 128 then [UInt8.ofNat n] else UInt8.ofNat (128 + (base256 n).length) :: base256 n

/-- Identifier octet, length octets, contents. -/
def tlv (identifier : UInt8) (contents : Bytes) : Bytes :=
  identifier :: (lengthOctets contents.length ++ contents)

/-- Contents of an INTEGER (X.690 8.3): the shortest two's complement, by floor division. -/
def integerContents (v : Int) : Bytes :=
  if -128 ≤ v ∧ v < 128 then [UInt8.ofNat (v % 256).toNat]
  else integerContents (v / 256) ++ [UInt8.ofNat (v % 256).toNat]
termination_by v.natAbs
decreasing_by omega

/-- Octets of a sub-identifier before the last one: base 128, with the top bit set. -/
def continuation (n : Nat) : Bytes :=
  if n < 128 then [UInt8.ofNat (128 + n)]
  else continuation (n / 128) ++ [UInt8.ofNat (128 + n % 128)]
termination_by n
decreasing_by omega

/-- A sub-identifier (X.690 8.19.2). -/
def subidentifier (n : Nat) : Bytes :=
  if n < 128 then [UInt8.ofNat n] else continuation (n / 128) ++ [UInt8.ofNat (n % 128)]

/-- Contents of an OBJECT IDENTIFIER (X.690 8.19.4): the first two numbers together, then the others.
With fewer than two numbers there is no encoding. -/
def oidContents : List Nat → Bytes
  | a :: b :: rest => subidentifier (a * 40 + b) ++ rest.flatMap subidentifier
  | _ => []

/-- INTEGER. -/
def integer (v : Int) : Bytes := tlv 0x02 (integerContents v)

/-- OCTET STRING. -/
def octetString (d : Bytes) : Bytes := tlv 0x04 d

/-- OBJECT IDENTIFIER. -/
def objectIdentifier (o : List Nat) : Bytes := tlv 0x06 (oidContents o)

/-- SEQUENCE. -/
def sequence (contents : Bytes) : Bytes := tlv 0x30 contents

/-- The values of RFC 2578 and the exceptions of RFC 3416. -/
def valueOctets : Value → Bytes
  | .int .integer v | .int .integer32 v => integer v
  | .int .counter32 v => tlv 0x41 (integerContents v)
  | .int .gauge32 v | .int .unsigned32 v => tlv 0x42 (integerContents v)
  | .int .timeTicks v => tlv 0x43 (integerContents v)
  | .int .counter64 v => tlv 0x46 (integerContents v)
  | .octets d => octetString d
  | .null => [0x05, 0x00]
  | .oid o => objectIdentifier o
  | .ipAddress d => tlv 0x40 d
  | .opaqueData d => tlv 0x44 d
  | .noSuchObject => [0x80, 0x00]
  | .noSuchInstance => [0x81, 0x00]
  | .endOfMibView => [0x82, 0x00]

/-- `VarBind ::= SEQUENCE { name, value }`. -/
def bindingOctets (v : VarBind) : Bytes := sequence (objectIdentifier v.name ++ valueOctets v.value)

/-- The identifier octets of the PDUs (RFC 3416 section 3). -/
def pduIdentifier : PduType → UInt8
  | .getRequest => 0xa0
  | .getNextRequest => 0xa1
  | .response => 0xa2
  | .setRequest => 0xa3
  | .getBulkRequest => 0xa5
  | .informRequest => 0xa6
  | .snmpv2Trap => 0xa7
  | .report => 0xa8

/-- `PDU` and `BulkPDU`: request-id, error-status or non-repeaters, error-index or max-repetitions,
variable-bindings. -/
def pduOctets (p : Pdu) : Bytes :=
  tlv (pduIdentifier p.type) (integer p.requestID ++ integer p.first ++ integer p.second ++
    sequence (p.bindings.flatMap bindingOctets))

/-- The number of a version. -/
def versionNumber : Version → Int
  | .v1 => 0
  | .v2c => 1
  | .v3 => 3

/-- `Message ::= SEQUENCE { version, community, data }` (RFC 1157, RFC 1901). -/
def messageOctets (m : Message) : Bytes :=
  sequence (integer (versionNumber m.version) ++ octetString m.community ++ pduOctets m.pdu)

/-- msgFlags: bit 0 authentication, bit 1 privacy, bit 2 reportable (RFC 3412 section 6.4). -/
def flagsOctet (f : MessageFlags) : UInt8 :=
  (if f.level.auth then 1 else 0) + (if f.level.priv then 2 else 0) + (if f.reportable then 4 else 0)

/-- `HeaderData` (RFC 3412 section 6); the user-based security model is number 3. -/
def headerOctets (h : HeaderData) : Bytes :=
  sequence (integer h.id ++ integer h.maxSize ++ octetString [flagsOctet h.flags] ++
    integer (match h.securityModel with | .usm => 3))

/-- `ScopedPDU ::= SEQUENCE { contextEngineID, contextName, data }`. -/
def scopedOctets (s : ScopedPDU) : Bytes :=
  sequence (octetString s.contextEngineID ++ octetString s.contextName ++ pduOctets s.pdu)

/-- `SNMPv3Message`: version, header, security parameters, plain or encrypted scoped PDU. -/
def v3Octets (h : HeaderData) (params : Bytes) (data : ScopedPDU ⊕ Bytes) : Bytes :=
  sequence (integer 3 ++ headerOctets h ++ octetString params ++
    match data with
    | .inl plain => scopedOctets plain
    | .inr encrypted => octetString encrypted)

/-- `UsmSecurityParameters` (RFC 3414 section 2.4). -/
def usmOctets (p : UsmParams) : Bytes :=
  sequence (octetString p.engineID ++ integer p.engineBoots ++ integer p.engineTime ++
    octetString p.userName ++ octetString p.signature ++ octetString p.salt)

end Snmp.Spec
