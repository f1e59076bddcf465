import Verif.Compare
import Verif.Message
/-!
# Model of `==` on messages and their parts

All of them inherit `Constructed.__eq__`, which compares the items they yield, pairwise and in order. The objects compared
here are of one class, so that `len` is the same on both sides, except where a class yields items of
different classes.
-/

namespace Snmp

/-- The loop of `Constructed.__eq__` (snmp/asn1.py:73-77) over the outcomes of the comparisons: the first difference or
exception ends it. -/
def zipEq : List (Res Bool) → Res Bool
  | [] => .ok true
  | x :: l => x.bind fun b => if b = false then .ok false else zipEq l

/-- One turn of that loop on two `OctetString(...)` (snmp/asn1.py:73-75, 162-166; snmp/smi.py:76-96). -/
def octetsEq (a b : Bytes) : Res Bool :=
  (octetStringNew (.bytes a)).bind fun _ => (octetStringNew (.bytes b)).bind fun _ =>
    .ok ((Value.octets a).pyEq (.octets b))

/-- `Constructed.__eq__` on two `Message` objects (snmp/asn1.py:66-77; snmp/message/core.py:26-32). -/
def Message.pyEq (m n : Message) : Res Bool :=
  zipEq [Pdu.fieldEq m.version.value n.version.value, octetsEq m.community n.community, m.pdu.pyEq n.pdu]

/-- `OCTET_STRING.__eq__` on two `MessageFlags` objects (snmp/asn1.py:162-166; snmp/message/v3.py:97-110). -/
def MessageFlags.pyEq (a b : MessageFlags) : Bool :=
  (Value.octets [UInt8.ofNat a.byte]).pyEq (.octets [UInt8.ofNat b.byte])

/-- `Constructed.__eq__` on two `HeaderData` objects (snmp/asn1.py:66-77; snmp/message/v3.py:151-158). -/
def HeaderData.pyEq (a b : HeaderData) : Res Bool :=
  zipEq [Pdu.fieldEq a.id b.id, Pdu.fieldEq a.maxSize b.maxSize, .ok (a.flags.pyEq b.flags),
    Pdu.fieldEq a.securityModel.value b.securityModel.value]

/-- `Constructed.__eq__` on two `ScopedPDU` objects (snmp/asn1.py:66-77; snmp/message/v3.py:235-241). -/
def ScopedPDU.pyEq (a b : ScopedPDU) : Res Bool :=
  zipEq [octetsEq a.contextEngineID b.contextEngineID, octetsEq a.contextName b.contextName, a.pdu.pyEq b.pdu]

/-- One turn of the loop on the fourth items of two `SNMPv3Message` objects (snmp/asn1.py:73-75;
snmp/message/v3.py:324-339): a missing item is an exception; an `OctetString` and a `ScopedPDU` are different. -/
def V3Message.payloadEq (m n : V3Message) : Res Bool :=
  match m.header.flags.level.priv, m.encryptedPDU, m.scopedPDU with
  | true, none, _ => .error .libraryBug
  | false, _, none => .error .libraryBug
  | true, some a, _ =>
    match n.header.flags.level.priv, n.encryptedPDU, n.scopedPDU with
    | true, none, _ => .error .libraryBug
    | false, _, none => .error .libraryBug
    | true, some b, _ => .ok ((Value.octets a).pyEq (.octets b))
    | false, _, some _ => .ok false
  | false, _, some a =>
    match n.header.flags.level.priv, n.encryptedPDU, n.scopedPDU with
    | true, none, _ => .error .libraryBug
    | false, _, none => .error .libraryBug
    | true, some _, _ => .ok false
    | false, _, some b => a.pyEq b

/-- `Constructed.__eq__` on two `SNMPv3Message` objects (snmp/asn1.py:66-77; snmp/message/v3.py:319-342). -/
def V3Message.pyEq (m n : V3Message) : Res Bool :=
  zipEq [Pdu.fieldEq Version.v3.value Version.v3.value, m.header.pyEq n.header,
    .ok ((Value.octets m.securityParameters.copy).pyEq (.octets n.securityParameters.copy)), m.payloadEq n]

/-- `Constructed.__eq__` on two `UsmSecurityParameters` objects (snmp/asn1.py:66-77;
snmp/security/usm/parameters.py:38-47). -/
def UsmParams.pyEq (p q : UsmParams) : Res Bool :=
  zipEq [octetsEq p.engineID q.engineID, Pdu.fieldEq p.engineBoots q.engineBoots, Pdu.fieldEq p.engineTime q.engineTime,
    octetsEq p.userName q.userName, octetsEq p.signature q.signature, octetsEq p.salt q.salt]

end Snmp
