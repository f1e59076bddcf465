import Verif.Ber
/-!
# Model of `snmp/asn1.py` and `snmp/smi.py`: the primitive types

Objects are values of `Value`; the Python class of an object is its `SmiType`.
`repr`, `hash` and ordering are not modelled.
-/

namespace Snmp

/-- `try: ... except ValueError: raise ParseError` and similar translations. Models
snmp/asn1.py:151-154,193-196,339-342,383-387,404-408; snmp/smi.py:31-35,99-103;
snmp/message/v3.py:212-215; snmp/security/usm/implementation.py:256-260. -/
def translateErr {α : Type} (p : PyErr → Bool) (e : PyErr) : Res α → Res α
  | .ok x => .ok x
  | .error err => if p err then .error e else .error err

/-! ## INTEGER and its bounded subclasses -/

/-- The integer classes: `INTEGER` (snmp/asn1.py:100) and the subclasses of
`BoundedInteger` (snmp/smi.py:46-74). -/
inductive IntType
  | integer | integer32 | unsigned32 | counter32 | gauge32 | timeTicks | counter64
  deriving DecidableEq, Repr

/-- `TAG` of each class (snmp/asn1.py:102, snmp/smi.py:46-74). -/
def IntType.tag : IntType → Tag
  | .integer | .integer32 => ⟨2, false, .universal⟩
  | .unsigned32 | .gauge32 => ⟨2, false, .application⟩
  | .counter32 => ⟨1, false, .application⟩
  | .timeTicks => ⟨3, false, .application⟩
  | .counter64 => ⟨6, false, .application⟩

/-- `(BITS, SIGNED)`; `none` for the unbounded `INTEGER` (snmp/smi.py:46-74). -/
def IntType.bits : IntType → Option (Nat × Bool)
  | .integer => none
  | .integer32 => some (32, true)
  | .unsigned32 | .counter32 | .gauge32 | .timeTicks => some (32, false)
  | .counter64 => some (64, false)

/-- `INTEGER.bitCount` (snmp/asn1.py:120-125). -/
def bitCount (value : Int) : Nat :=
  let value := if value < 0 then -value - 1 else value
  bitLength value.toNat

/-- `BoundedInteger.inRange` (snmp/smi.py:37-44); the unbounded class accepts everything. -/
def IntType.inRange (t : IntType) (value : Int) : Bool :=
  match t.bits with
  | none => true
  | some (bits, signed) =>
    if value < 0 ∧ ¬ signed then false
    else
      let allowable := if signed then bits - 1 else bits
      decide (bitCount value ≤ allowable)

/-- The constructor `cls(value)` (snmp/asn1.py:104-105, snmp/smi.py:24-28). -/
def IntType.new (t : IntType) (value : Int) : Res Int :=
  if t.inRange value then .ok value else .error .valueError

/-- `construct` (snmp/asn1.py:127-129, snmp/smi.py:30-35). -/
def IntType.construct (t : IntType) (value : Int) : Res Int :=
  translateErr PyErr.isValueError .parseError (t.new value)

/-- `INTEGER.deserialize` (snmp/asn1.py:131-134). -/
def IntType.deserialize (t : IntType) (data : Asn1Data) : Res Int :=
  t.construct (fromBytesSigned data.copy)

/-- `INTEGER.serialize` (snmp/asn1.py:136-140). -/
def intSerialize (value : Int) : Res Bytes :=
  toBytesSigned (bitCount value / 8 + 1) value

/-! ## OBJECT IDENTIFIER -/

/-- `OBJECT_IDENTIFIER.__init__` (snmp/asn1.py:251-269). -/
def ObjId.new (subs : List Int) : Res (List Nat) :=
  let first := (subs[0]?).getD 0       -- both lookups sit in one `try: ... except IndexError`
  let second := (subs[1]?).getD 0
  if first > 2 then .error .valueError
  else if second ≥ 40 then .error .valueError
  else if subs.any (· < 0) then .error .valueError
  else .ok (subs.map Int.toNat)

/-- `OID.__init__` (snmp/smi.py:142-151). `int.bit_length` of a negative number is that of its
absolute value. -/
def Oid.new (subs : List Int) : Res (List Nat) :=
  if subs.length > 128 then .error .valueError
  else if subs.any (fun x => bitLength x.natAbs > 32) then .error .valueError
  else ObjId.new subs

/-- `construct` (snmp/asn1.py:403-408) for class `OID`. -/
def Oid.construct (subs : List Int) : Res (List Nat) :=
  translateErr PyErr.isValueError .parseError (Oid.new subs)

/-- The `for byte in stream` loop of `deserialize` (snmp/asn1.py:419-426): returns the
sub-identifiers appended and the final `value`. -/
def Oid.readSubs : Bytes → Nat → List Nat → List Nat × Nat
  | [], value, acc => (acc, value)
  | byte :: stream, value, acc =>
    let value := value ||| (byte.toNat &&& 0x7f)
    if byte.toNat &&& 0x80 ≠ 0 then Oid.readSubs stream (value <<< 7) acc
    else Oid.readSubs stream 0 (acc ++ [value])

/-- `OBJECT_IDENTIFIER.deserialize` (snmp/asn1.py:410-431) for class `OID`. -/
def Oid.deserialize (data : Asn1Data) : Res (List Nat) :=
  match data.copy with
  | [] => .error .parseError
  | b :: stream =>
    let (oid, value) := Oid.readSubs stream 0 [b.toNat / 40, b.toNat % 40]
    if value ≠ 0 then .error .parseError
    else Oid.construct (oid.map Int.ofNat)

/-- The `while num` loop of `serializeSubIdentifier` (snmp/asn1.py:441-444). -/
def Oid.subLoop (num flag : Nat) (tmp : Bytes) : Bytes :=
  if _h : num = 0 then tmp
  else Oid.subLoop (num >>> 7) 0x80 (tmp ++ [UInt8.ofNat ((num &&& 0x7f) ||| flag)])
termination_by num
decreasing_by rw [Nat.shiftRight_eq_div_pow]; omega

/-- `serializeSubIdentifier` (snmp/asn1.py:433-447): the bytes it appends. -/
def Oid.serializeSub (num : Nat) : Bytes :=
  if num < 0x80 then [UInt8.ofNat num] else (Oid.subLoop num 0 []).reverse

/-- `OBJECT_IDENTIFIER.serialize` (snmp/asn1.py:449-465). Python precedence makes the first
octet `(first * 40) | second`. -/
def Oid.serialize (o : List Nat) : Bytes :=
  match o with
  | [] => [0]
  | first :: rest =>
    let second := (rest[0]?).getD 0
    Oid.serializeSub ((first * 40) ||| second) ++ (rest.drop 1).flatMap Oid.serializeSub

/-! ## All primitive objects -/

/-- The Python class of an object (snmp/smi.py, snmp/pdu.py:26-36). -/
inductive SmiType
  | int (t : IntType)
  | octetString | ipAddress | opaqueData | null | oid
  | noSuchObject | noSuchInstance | endOfMibView
  deriving DecidableEq, Repr

/-- `TAG` of each class (snmp/asn1.py:157,213,243; snmp/smi.py:107,138; snmp/pdu.py:28,32,36). -/
def SmiType.tag : SmiType → Tag
  | .int t => t.tag
  | .octetString => ⟨4, false, .universal⟩
  | .null => ⟨5, false, .universal⟩
  | .oid => ⟨6, false, .universal⟩
  | .ipAddress => ⟨0, false, .application⟩
  | .opaqueData => ⟨4, false, .application⟩
  | .noSuchObject => ⟨0, false, .contextSpecific⟩
  | .noSuchInstance => ⟨1, false, .contextSpecific⟩
  | .endOfMibView => ⟨2, false, .contextSpecific⟩

/-- A primitive object. `octets d` is an `OctetString` whose `data` is `d` (its `original`, which
may be a view, is modelled where it matters, by `octetStringDecode`); `ipAddress d` holds the four
bytes of `inet_aton(addr)`. (snmp/asn1.py:100-269; snmp/smi.py:20-158; snmp/pdu.py:26-36) -/
inductive Value
  | int (t : IntType) (v : Int)
  | octets (d : Bytes)
  | ipAddress (d : Bytes)
  | opaqueData (d : Bytes)
  | null
  | oid (o : List Nat)
  | noSuchObject | noSuchInstance | endOfMibView
  deriving DecidableEq, Repr

/-- `type(obj)`. CPython built-in, not in /repo; used at snmp/pdu.py:84-99. -/
def Value.type : Value → SmiType
  | .int t _ => .int t
  | .octets _ => .octetString
  | .ipAddress _ => .ipAddress
  | .opaqueData _ => .opaqueData
  | .null => .null
  | .oid _ => .oid
  | .noSuchObject => .noSuchObject
  | .noSuchInstance => .noSuchInstance
  | .endOfMibView => .endOfMibView

/-- Objects the constructors can produce: integers in range (snmp/smi.py:24-28), `OctetString` of
at most 65535 bytes (snmp/smi.py:93-96), `IpAddress` of 4 bytes (`inet_aton`), OIDs accepted by
`OID.__init__`. -/
def Value.Constructible : Value → Prop
  | .int t v => t.inRange v = true
  | .octets d => d.length ≤ 0xffff
  | .ipAddress d => d.length = 4
  | .oid o => Oid.new (o.map Int.ofNat) = .ok o
  | _ => True

instance (v : Value) : Decidable v.Constructible := by
  cases v <;> unfold Value.Constructible <;> infer_instance

/-- `==` between primitive objects: same value and same TAG, within the `INTEGER`,
`OCTET_STRING`, `NULL` and `OBJECT_IDENTIFIER` families (snmp/asn1.py:107-111,162-166,215-219,
271-275). -/
def Value.pyEq : Value → Value → Bool
  | .int t v, .int u w => v == w && t.tag == u.tag
  | .octets a, .octets b => a == b
  | .ipAddress a, .ipAddress b => a == b
  | .opaqueData a, .opaqueData b => a == b
  | .oid a, .oid b => a == b
  | .null, .null => true
  | .noSuchObject, .noSuchObject => true
  | .noSuchInstance, .noSuchInstance => true
  | .endOfMibView, .endOfMibView => true
  | _, _ => false

/-- `OctetString.check` and `__init__` (snmp/smi.py:77-96): `len()` of the argument is taken. -/
def octetStringNew (data : Asn1Data) : Res Asn1Data :=
  data.len.bind fun n => if n > 0xffff then .error .valueError else .ok data

/-- `OctetString.construct` (snmp/smi.py:98-103), returning `original`. -/
def octetStringConstruct (data : Asn1Data) : Res Asn1Data :=
  translateErr PyErr.isValueError .parseError (octetStringNew data)

/-- `IpAddress.construct` (snmp/smi.py:124-134): `inet_ntoa` accepts exactly 4 bytes, and
`inet_aton` of its result gives them back (contract of the C library, trusted). -/
def ipAddressConstruct (data : Asn1Data) : Res Bytes :=
  if data.copy.length = 4 then .ok data.copy else .error .parseError

/-- `cls.deserialize(data)` for each class (snmp/asn1.py:131-134,198-207,235-237,410-431;
snmp/smi.py:98-103,124-134). -/
def SmiType.deserialize (t : SmiType) (data : Asn1Data) : Res Value :=
  match t with
  | .int t => (t.deserialize data).map (.int t)
  | .octetString => (octetStringConstruct data).map fun d => .octets d.copy
  | .ipAddress => (ipAddressConstruct data).map .ipAddress
  | .opaqueData => .ok (.opaqueData data.copy)
  | .null => .ok .null
  | .oid => (Oid.deserialize data).map .oid
  | .noSuchObject => .ok .noSuchObject
  | .noSuchInstance => .ok .noSuchInstance
  | .endOfMibView => .ok .endOfMibView

/-- `obj.serialize()` (snmp/asn1.py:136-140,209-210,239-240,449-465). -/
def Value.serialize : Value → Res Bytes
  | .int _ v => intSerialize v
  | .octets d | .ipAddress d | .opaqueData d => .ok d
  | .oid o => .ok (Oid.serialize o)
  | .null | .noSuchObject | .noSuchInstance | .endOfMibView => .ok []

/-- `ASN1.decode` (snmp/asn1.py:40-53) for a class given by its tag and `deserialize`. The tail is
returned in both modes; without leftovers it is empty and Python drops it. -/
def asn1Decode {α : Type} (tag : Tag) (deserialize : Asn1Data → Res α) (data : Asn1Data)
    (leftovers : Bool := false) (copy : Bool := true) : Res (α × Subbytes) :=
  (Ber.decode data (some tag) leftovers copy).bind fun (_, encoding, tail) =>
  (deserialize encoding).bind fun obj => .ok (obj, tail)

/-- `ASN1.encode` (snmp/asn1.py:55-56). -/
def asn1Encode (tag : Tag) (body : Res Bytes) : Res Bytes :=
  body.bind fun b => Ber.encode tag b

/-- `cls.decode(data, leftovers, copy)` for a primitive class (snmp/asn1.py:40-53). -/
def SmiType.decode (t : SmiType) (data : Asn1Data) (leftovers : Bool := false)
    (copy : Bool := true) : Res (Value × Subbytes) :=
  asn1Decode t.tag t.deserialize data leftovers copy

/-- `obj.encode()` for a primitive object (snmp/asn1.py:55-56). -/
def Value.encode (v : Value) : Res Bytes := asn1Encode v.type.tag v.serialize

/-- `OctetString.decode(data, leftovers, copy=False)`, returning `original` (snmp/asn1.py:40-53,
snmp/smi.py:76-103); used by the USM parameters decoder. -/
def octetStringDecode (data : Asn1Data) (leftovers copy : Bool) : Res (Asn1Data × Subbytes) :=
  asn1Decode SmiType.octetString.tag octetStringConstruct data leftovers copy

end Snmp
