import Verif.Utils
/-!
# Model of `snmp/ber.py`
-/

namespace Snmp

/-- `Asn1Data = Union[bytes, subbytes]` (snmp/ber.py:9). -/
inductive Asn1Data
  | bytes (b : Bytes)
  | sub (s : Subbytes)
  deriving DecidableEq, Repr

/-- `subbytes(data)` for either kind of argument (snmp/utils.py:114-133). -/
def Asn1Data.toSub : Asn1Data → Subbytes
  | .bytes b => .whole b
  | .sub s => s.view none none

/-- `bytes(data)` / `data[:]`: the byte string represented. (snmp/utils.py:175-188) -/
def Asn1Data.copy : Asn1Data → Bytes
  | .bytes b => b
  | .sub s => s.copy

/-- `len(data)`. (snmp/utils.py:195-197) -/
def Asn1Data.len : Asn1Data → Res Nat
  | .bytes b => .ok b.length
  | .sub s => s.len

/-- `bool(data)`: non-empty. (snmp/utils.py:147-149) -/
def Asn1Data.bool : Asn1Data → Bool
  | .bytes b => !b.isEmpty
  | .sub s => s.bool

/-- `Tag.Class` (snmp/ber.py:24-30). -/
inductive TagClass
  | universal | application | contextSpecific | private_
  deriving DecidableEq, Repr

/-- The integer value of a `Tag.Class` member (snmp/ber.py:27-30). -/
def TagClass.value : TagClass → Nat
  | .universal => 0
  | .application => 1
  | .contextSpecific => 2
  | .private_ => 3

/-- `Tag.Class(value)` (snmp/ber.py:24-30); `ValueError` for a non-member. -/
def TagClass.ofValue : Nat → Res TagClass
  | 0 => .ok .universal
  | 1 => .ok .application
  | 2 => .ok .contextSpecific
  | 3 => .ok .private_
  | _ => .error .valueError

/-- `Tag` (snmp/ber.py:22-49). Tag numbers are taken to be non-negative. -/
structure Tag where
  number : Nat
  constructed : Bool := false
  cls : TagClass := .universal
  deriving DecidableEq, Repr

theorem Subbytes.translate_zero (s : Subbytes) :
    s.translate 0 = if s.stop ≤ s.start then s.data.length else s.start := by
  unfold Subbytes.translate
  simp only [Int.lt_irrefl, ↓reduceIte, Int.zero_add, Bool.false_eq_true]
  split <;> split <;> omega

theorem pyIndex_nat {α : Type} (data : List α) (n : Nat) :
    pyIndex data (n : Int) = orRaise .indexError data[n]? := by
  unfold pyIndex
  have h : ¬ ((n : Int) < 0) := by omega
  simp [h]

theorem Subbytes.dereference_eq (s : Subbytes) :
    s.dereference = if s.start < s.stop then
      orRaise .indexError s.data[s.start]?
      else .error .indexError := by
  unfold Subbytes.dereference Subbytes.getItem
  rw [pyIndex_nat, Subbytes.translate_zero]
  by_cases h : s.start < s.stop
  · rw [if_neg (by omega : ¬ s.stop ≤ s.start), if_pos h]
  · rw [if_pos (by omega : s.stop ≤ s.start), if_neg h]
    rw [List.getElem?_eq_none (Nat.le_refl _)]; rfl

theorem Subbytes.advance_eq (s : Subbytes) :
    s.advance = ⟨s.data, if s.start + 1 ≥ s.stop then s.stop else s.start + 1, s.stop⟩ := by
  unfold Subbytes.advance Subbytes.view Subbytes.lowBound Subbytes.highBound Subbytes.translate
  simp only [↓reduceIte]
  congr 1
  rw [if_neg (by omega)]
  split <;> split <;> omega

theorem Subbytes.dereference_ok {s : Subbytes} {b : UInt8} (h : s.dereference = .ok b) :
    s.start < s.stop := by
  rw [Subbytes.dereference_eq] at h
  by_cases hs : s.start < s.stop
  · exact hs
  · rw [if_neg hs] at h; cases h

theorem Subbytes.advance_lt {s : Subbytes} (h : s.start < s.stop) :
    s.advance.stop - s.advance.start < s.stop - s.start := by
  rw [Subbytes.advance_eq]; dsimp only; split <;> omega

/-- The `while byte & 0x80` loop of `Tag.decode` (snmp/ber.py:79-88). Entered at least once,
because `byte` starts as 0x80; the recursion is the loop, `number` its accumulator. -/
def Tag.decodeLoop (data : Subbytes) (number : Nat) : Res (Nat × Subbytes) :=
  match _h : data.dereference with
  | .error _ => .error .parseError          -- IndexError -> ParseError("Incomplete tag")
  | .ok byte =>
    let number := (number <<< 7) ||| (byte.toNat &&& 0x7f)
    if byte.toNat &&& 0x80 ≠ 0 then Tag.decodeLoop data.advance number
    else .ok (number, data.advance)
termination_by data.stop - data.start
decreasing_by exact Subbytes.advance_lt (Subbytes.dereference_ok _h)

/-- `Tag.decode` (snmp/ber.py:57-90). `dereference` raises only `IndexError`, so the
`except IndexError` clauses are modelled by matching any error. -/
def Tag.decode (data : Subbytes) : Res (Tag × Subbytes) :=
  match data.dereference with
  | .error _ => .error .parseError          -- "Missing tag"
  | .ok b => do
    let data := data.advance
    let byte := b.toNat
    let class_ := (byte &&& 0xc0) >>> 6
    let constructed := (byte &&& 0x20) ≠ 0
    let number := byte &&& 0x1f
    let (number, data) ← if number = 0x1f then Tag.decodeLoop data 0 else pure (number, data)
    let cls ← TagClass.ofValue class_
    return (⟨number, constructed, cls⟩, data)

/-- The `while number` loop of `Tag.encode` (snmp/ber.py:105-110). Each appended value is
below 256, so `UInt8.ofNat` does not wrap. -/
def Tag.encodeLoop (number indicator : Nat) (arr : Bytes) : Bytes :=
  if _h : number = 0 then arr
  else Tag.encodeLoop (number >>> 7) 0x80 (arr ++ [UInt8.ofNat (indicator ||| (number &&& 0x7f))])
termination_by number
decreasing_by rw [Nat.shiftRight_eq_div_pow]; omega

/-- `Tag.encode` (snmp/ber.py:92-113). -/
def Tag.encode (t : Tag) : Bytes :=
  let byte := (t.cls.value <<< 6) &&& 0xc0
  let byte := if t.constructed then byte ||| 0x20 else byte
  let (byte, arr) :=
    if t.number < 0x1f then (byte ||| t.number, [])
    else (byte ||| 0x1f, Tag.encodeLoop t.number 0 [])
  (arr ++ [UInt8.ofNat byte]).reverse

/-- The `for i in range(n)` loop of `decode_length` (snmp/ber.py:134-143). -/
def decodeLengthLoop : Nat → Subbytes → Nat → Res (Nat × Subbytes)
  | 0, data, length => .ok (length, data)
  | n + 1, data, length =>
    match data.dereference with
    | .error _ => .error .parseError        -- "Incomplete length"
    | .ok byte => decodeLengthLoop n data.advance ((length <<< 8) ||| byte.toNat)

/-- `decode_length` (snmp/ber.py:115-145). -/
def decodeLength (data : Subbytes) : Res (Nat × Subbytes) :=
  match data.dereference with
  | .error _ => .error .parseError          -- "Missing length"
  | .ok b =>
    let data := data.advance
    let length := b.toNat
    if length &&& 0x80 ≠ 0 then decodeLengthLoop (length &&& 0x7f) data 0
    else .ok (length, data)

/-- The `while length` loop of `encode_length` (snmp/ber.py:152-155). -/
def encodeLengthLoop (length : Nat) (arr : Bytes) : Bytes :=
  if _h : length = 0 then arr
  else encodeLengthLoop (length >>> 8) (arr ++ [UInt8.ofNat (length &&& 0xff)])
termination_by length
decreasing_by rw [Nat.shiftRight_eq_div_pow]; omega

/-- `encode_length` (snmp/ber.py:147-161). -/
def encodeLength (length : Nat) : Res Bytes :=
  if length < 0x80 then .ok [UInt8.ofNat length]
  else
    let arr := encodeLengthLoop length []
    if arr.length > 0x7f then .error .encodeError
    else .ok (arr ++ [UInt8.ofNat (0x80 ||| arr.length)]).reverse

/-- The part of `decode` after the tag check (snmp/ber.py:198-217). -/
def Ber.decodeValue (tag : Tag) (data : Subbytes) (leftovers copy : Bool) :
    Res (Tag × Asn1Data × Subbytes) :=
  (decodeLength data).bind fun (length, data) =>
  let (data, tail) := data.split (length : Int)
  data.len.bind fun n =>
  if n < length then .error .parseError                     -- "Incomplete value"
  else if !leftovers && tail.bool then .error .parseError   -- "Trailing bytes"
  else .ok (tag, if copy then .bytes data.copy else .sub data, tail)

/-- `decode` (snmp/ber.py:163-217) up to the choice of return shape: returns
tag, body and tail.  The Python function drops the tag when `expected` is given and drops
the tail when `leftovers` is false; callers of the model do the same by projection. -/
def Ber.decode (data : Asn1Data) (expected : Option Tag) (leftovers : Bool) (copy : Bool) :
    Res (Tag × Asn1Data × Subbytes) :=
  (Tag.decode data.toSub).bind fun (tag, data) =>
  if expected ≠ none ∧ expected ≠ some tag then .error .parseError
  else Ber.decodeValue tag data leftovers copy

/-- `encode(tag, data)` (snmp/ber.py:219-221). -/
def Ber.encode (tag : Tag) (data : Bytes) : Res Bytes := do
  let len ← encodeLength data.length
  return tag.encode ++ len ++ data

end Snmp
