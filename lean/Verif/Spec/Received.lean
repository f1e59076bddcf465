import Verif.Spec.Rfc
import Verif.Spec.Wire
/-!
# What an octet string means

Relations "these octets are a BER encoding of that object", read off X.690 and the RFCs. Unlike
`Verif.Spec.Rfc`, which gives the one shortest encoding, they admit every definite-form length (many
agents send `30 82 00 2a`) and integers with redundant leading octets.
-/

namespace Snmp.Spec

/-- Length octets in the definite form (X.690 8.1.3): short, or long with 1 to 126 further octets. -/
def LengthForm (n : Nat) (l : Bytes) : Prop :=
  (n < 128 ∧ l = [UInt8.ofNat n]) ∨
  ∃ digits : Bytes, 1 ≤ digits.length ∧ digits.length ≤ 126 ∧ unsigned digits = n ∧
    l = UInt8.ofNat (128 + digits.length) :: digits

/-- `e` is an identifier octet, length octets and the contents. -/
def Element (identifier : UInt8) (contents e : Bytes) : Prop :=
  ∃ l, LengthForm contents.length l ∧ e = identifier :: (l ++ contents)

/-- `e` is an integer type with that identifier and value. -/
def IsInteger (identifier : UInt8) (v : Int) (e : Bytes) : Prop :=
  ∃ c : Bytes, c ≠ [] ∧ twosComplement c = v ∧ Element identifier c e

/-- `e` is that object identifier, of two numbers or more. -/
def IsOid (o : List Nat) (e : Bytes) : Prop := 2 ≤ o.length ∧ Element 0x06 (oidContents o) e

/-- `e` is that value. `Unsigned32` is on the wire the same type as `Gauge32`, which is the one used
here; the bare `INTEGER` of the library is `Integer32`. -/
def IsValue (v : Value) (e : Bytes) : Prop :=
  match v with
  | .int .integer32 n => IsInteger 0x02 n e
  | .int .counter32 n => IsInteger 0x41 n e
  | .int .gauge32 n => IsInteger 0x42 n e
  | .int .timeTicks n => IsInteger 0x43 n e
  | .int .counter64 n => IsInteger 0x46 n e
  | .int .integer _ | .int .unsigned32 _ => False
  | .octets d => Element 0x04 d e
  | .null => Element 0x05 [] e
  | .oid o => IsOid o e
  | .ipAddress d => Element 0x40 d e
  | .opaqueData d => Element 0x44 d e
  | .noSuchObject => Element 0x80 [] e
  | .noSuchInstance => Element 0x81 [] e
  | .endOfMibView => Element 0x82 [] e

/-- `VarBind`. -/
def IsBinding (v : VarBind) (e : Bytes) : Prop :=
  ∃ name value, IsOid v.name name ∧ IsValue v.value value ∧ Element 0x30 (name ++ value) e

/-- Bindings one after another. -/
def IsBindings : List VarBind → Bytes → Prop
  | [], e => e = []
  | v :: l, e => ∃ x y, IsBinding v x ∧ IsBindings l y ∧ e = x ++ y

/-- `PDU` and `BulkPDU`. -/
def IsPdu (p : Pdu) (e : Bytes) : Prop :=
  ∃ r a b c l, IsInteger 0x02 p.requestID r ∧ IsInteger 0x02 p.first a ∧ IsInteger 0x02 p.second b ∧
    IsBindings p.bindings c ∧ Element 0x30 c l ∧
    Element (pduIdentifier p.type) (r ++ a ++ b ++ l) e

/-- A v1 or v2c message. -/
def IsMessage (m : Message) (e : Bytes) : Prop :=
  ∃ v c p, IsInteger 0x02 (versionNumber m.version) v ∧ Element 0x04 m.community c ∧ IsPdu m.pdu p ∧
    Element 0x30 (v ++ c ++ p) e

/-- `HeaderData`. The flags have one octet, of which the upper five bits are reserved and may be
anything. -/
def IsHeader (h : HeaderData) (e : Bytes) : Prop :=
  ∃ i z f m, ∃ octet : UInt8, IsInteger 0x02 h.id i ∧ IsInteger 0x02 h.maxSize z ∧
    Element 0x04 [octet] f ∧ octet.toNat % 8 = (flagsOctet h.flags).toNat ∧ IsInteger 0x02 3 m ∧
    Element 0x30 (i ++ z ++ f ++ m) e

/-- `ScopedPDU`. -/
def IsScoped (s : ScopedPDU) (e : Bytes) : Prop :=
  ∃ a b p, Element 0x04 s.contextEngineID a ∧ Element 0x04 s.contextName b ∧ IsPdu s.pdu p ∧
    Element 0x30 (a ++ b ++ p) e

/-- `SNMPv3Message`. -/
def IsV3 (h : HeaderData) (params : Bytes) (data : ScopedPDU ⊕ Bytes) (e : Bytes) : Prop :=
  ∃ v hd s d, IsInteger 0x02 3 v ∧ IsHeader h hd ∧ Element 0x04 params s ∧
    (match data with
      | .inl plain => IsScoped plain d
      | .inr encrypted => Element 0x04 encrypted d) ∧
    Element 0x30 (v ++ hd ++ s ++ d) e

/-- `UsmSecurityParameters`. -/
def IsUsm (engineID : Bytes) (boots time : Int) (user signature salt e : Bytes) : Prop :=
  ∃ a b c d f g, Element 0x04 engineID a ∧ IsInteger 0x02 boots b ∧ IsInteger 0x02 time c ∧
    Element 0x04 user d ∧ Element 0x04 signature f ∧ Element 0x04 salt g ∧
    Element 0x30 (a ++ b ++ c ++ d ++ f ++ g) e

/-- What the standards ask of an object identifier: at most 128 numbers below 2^32, the first at most
2 and the second, below 0 and 1, at most 39. -/
def OidStandard (o : List Nat) : Prop :=
  o.length ≤ 128 ∧ (∀ x ∈ o, x < 4294967296) ∧
    ∃ a b rest, o = a :: b :: rest ∧ a ≤ 2 ∧ (a < 2 → b ≤ 39)

/-- An object identifier that the library can receive: 2.40 and above are excepted. -/
def OidReadable (o : List Nat) : Prop :=
  OidStandard o ∧ ∀ x, o[1]? = some x → x ≤ 39

/-- -2^31 to 2^31 - 1. -/
def Int32 (v : Int) : Prop := -2147483648 ≤ v ∧ v ≤ 2147483647

/-- What the standards ask of a value, up to the object identifiers above. -/
def ValueReadable : Value → Prop
  | .int .integer32 n | .int .integer n => Int32 n
  | .int .counter64 n => 0 ≤ n ∧ n ≤ 18446744073709551615
  | .int _ n => 0 ≤ n ∧ n ≤ 4294967295
  | .octets d => d.length ≤ 65535
  | .ipAddress d => d.length = 4
  | .oid o => OidReadable o
  | _ => True

/-- Of a binding. -/
def BindingReadable (v : VarBind) : Prop := OidReadable v.name ∧ ValueReadable v.value

/-- Of a PDU: 32-bit request ID; non-negative bulk parameters; an error status of RFC 3416 (0 to 18)
with an index into the bindings. -/
def PduReadable (p : Pdu) : Prop :=
  Int32 p.requestID ∧ Int32 p.first ∧ Int32 p.second ∧ 0 ≤ p.first ∧ 0 ≤ p.second ∧
  (p.type ≠ .getBulkRequest → p.first ≤ 18 ∧ p.second ≤ p.bindings.length) ∧
  ∀ v ∈ p.bindings, BindingReadable v

end Snmp.Spec
