import Verif.Asn1
/-!
# Model of the OID text form and table indexes (`snmp/asn1.py`)

Text is a list of characters. Python's `int()` is modelled on ASCII text; it also accepts other
Unicode digits and spaces and (since 3.11) refuses more than 4300 digits, which is not modelled.
-/

namespace Snmp

abbrev Text := List Char

/-! ## Python's `int(str)` and `str(int)` -/

/-- C `isspace` as used by `int()` on ASCII text. CPython built-in, not in /repo; used at
snmp/asn1.py:309-319. -/
def isPySpace (c : Char) : Bool :=
  c == ' ' || c == '\t' || c == '\n' || c == '\r' || c == '\x0b' || c == '\x0c'

/-- The value of an ASCII digit. CPython built-in, not in /repo; used at snmp/asn1.py:309-319. -/
def digitValue (c : Char) : Option Nat :=
  if '0' ≤ c ∧ c ≤ '9' then some (c.toNat - '0'.toNat) else none

/-- Digits with single underscores between them; `prev` tells whether the last character was a
digit. CPython built-in, not in /repo; used at snmp/asn1.py:309-319. -/
def scanDigits : Text → Nat → Bool → Option Nat
  | [], acc, prev => if prev then some acc else none
  | c :: cs, acc, prev =>
    if c = '_' then (if prev then scanDigits cs acc false else none)
    else match digitValue c with
      | some d => scanDigits cs (acc * 10 + d) true
      | none => none

/-- An optional sign and the digits. CPython built-in, not in /repo; used at snmp/asn1.py:309-319. -/
def scanSigned : Text → Option Int
  | '+' :: cs => (scanDigits cs 0 false).map Int.ofNat
  | '-' :: cs => (scanDigits cs 0 false).map fun n => -(Int.ofNat n)
  | cs => (scanDigits cs 0 false).map Int.ofNat

/-- `int(text)`; `none` is `ValueError`. CPython built-in, not in /repo; used at
snmp/asn1.py:309-319. -/
def pyInt (text : Text) : Option Int :=
  scanSigned ((text.dropWhile isPySpace).reverse.dropWhile isPySpace).reverse

/-- `str(n)` for a non-negative int. CPython built-in, not in /repo; used at snmp/asn1.py:306-307. -/
def decimal (n : Nat) : Text :=
  if _h : n < 10 then [Char.ofNat ('0'.toNat + n)]
  else decimal (n / 10) ++ [Char.ofNat ('0'.toNat + n % 10)]
termination_by n
decreasing_by omega

/-- `text.split(".")`. CPython built-in, not in /repo; used at snmp/asn1.py:309-319. -/
def splitDot : Text → List Text
  | [] => [[]]
  | c :: cs =>
    if c = '.' then [] :: splitDot cs
    else match splitDot cs with
      | [] => [[c]]                    -- unreachable: `splitDot` is never empty
      | w :: ws => (c :: w) :: ws

/-- `".".join(words)`. CPython built-in, not in /repo; used at snmp/asn1.py:306-307. -/
def joinDot : List Text → Text
  | [] => []
  | [w] => w
  | w :: ws => w ++ '.' :: joinDot ws

/-- `OBJECT_IDENTIFIER.__str__` (snmp/asn1.py:306-307). -/
def Oid.str (o : List Nat) : Text := joinDot (o.map decimal)

/-- `[int(n) for n in numbers]`. CPython built-in, not in /repo; used at snmp/asn1.py:309-319. -/
def allInts : List Text → Option (List Int)
  | [] => some []
  | w :: ws => (pyInt w).bind fun x => (allInts ws).map (x :: ·)

/-- `OBJECT_IDENTIFIER.parse` for class `OID` (snmp/asn1.py:309-319). Both `int()` and the
constructor raise `ValueError`, which is raised again as `ValueError`. -/
def Oid.parse (text : Text) : Res (List Nat) :=
  let numbers := splitDot text
  let numbers := if numbers.head? = some [] then numbers.drop 1 else numbers
  match allInts numbers with
  | none => .error .valueError
  | some ints => Oid.new ints

/-! ## Table indexes -/

/-- `asOID` of each class (snmp/asn1.py:142-143,175-179,224-225,321-325; snmp/smi.py:121-122). -/
def Value.asOID (v : Value) (implied : Bool) : List Int :=
  match v with
  | .int _ v => [v]
  | .octets d | .opaqueData d =>
    (if implied then [] else [(d.length : Int)]) ++ d.map fun b => (b.toNat : Int)
  | .ipAddress d => d.map fun b => (b.toNat : Int)
  | .oid o => (if implied then [] else [(o.length : Int)]) ++ o.map Int.ofNat
  | .null | .noSuchObject | .noSuchInstance | .endOfMibView => []

/-- `extend` (snmp/asn1.py:344-345) for class `OID`. -/
def Oid.extend (o : List Nat) (subs : List Int) : Res (List Nat) := Oid.new (o.map Int.ofNat ++ subs)

/-- `withIndex` (snmp/asn1.py:389-401): every object but the last is written with
`implied=False`. -/
def Oid.withIndex (o : List Nat) : List Value → Bool → Res (List Nat)
  | [], _ => .ok o
  | [v], implied => Oid.extend o (v.asOID implied)
  | v :: vs, implied => (Oid.extend o (v.asOID false)).bind fun o => Oid.withIndex o vs implied

/-- `bytes(ints)`: `ValueError` for a number above 255. CPython built-in, not in /repo; used at
snmp/asn1.py:187-191. -/
def bytesOfInts (l : List Nat) : Res Bytes :=
  if l.all (· < 256) then .ok (l.map UInt8.ofNat) else .error .valueError

/-- `next(nums)` repeated `n` times; `none` when the iterator ends first. CPython built-in, not in
/repo; used at snmp/asn1.py:187-191,333-337. -/
def takeNums (n : Nat) (nums : List Nat) : Option (List Nat × List Nat) :=
  if n ≤ nums.length then some (nums.take n, nums.drop n) else none

/-- The `data` computed in `OCTET_STRING.fromOID` (snmp/asn1.py:187-191). -/
def octetsFromOID (nums : List Nat) (implied : Bool) : Res (Bytes × List Nat) :=
  if implied then (bytesOfInts nums).map fun d => (d, [])
  else match nums with
    | [] => .error .stopIteration
    | length :: nums =>
      match takeNums length nums with
      | none => .error .stopIteration          -- list comprehension
      | some (l, rest) => (bytesOfInts l).map fun d => (d, rest)

/-- The sub-identifiers passed to `construct` in `OBJECT_IDENTIFIER.fromOID`
(snmp/asn1.py:333-340); a generator ending early raises `RuntimeError` (PEP 479). -/
def subsFromOID (nums : List Nat) (implied : Bool) : Res (List Nat × List Nat) :=
  if implied then .ok (nums, [])
  else match nums with
    | [] => .error .stopIteration
    | length :: nums =>
      match takeNums length nums with
      | none => .error .runtimeError
      | some r => .ok r

/-- `except ParseError: raise IndexDecodeError`. (snmp/asn1.py:151-154,193-196,339-342) -/
def parseToIndexError {α : Type} (r : Res α) : Res α :=
  translateErr (· = .parseError) .indexDecodeError r

/-- `cls.fromOID(nums, implied)` (snmp/asn1.py:145-154,181-196,227-233,327-342): the object and what
is left in the iterator. -/
def SmiType.fromOID (t : SmiType) (nums : List Nat) (implied : Bool) : Res (Value × List Nat) :=
  match t with
  | .int t =>
    match nums with
    | [] => .error .stopIteration
    | n :: rest => (parseToIndexError (t.construct n)).map fun v => (.int t v, rest)
  | .octetString => (octetsFromOID nums implied).bind fun (d, rest) =>
      (parseToIndexError (octetStringConstruct (.bytes d))).map fun d => (.octets d.copy, rest)
  | .ipAddress => (octetsFromOID nums implied).bind fun (d, rest) =>
      (parseToIndexError (ipAddressConstruct (.bytes d))).map fun d => (.ipAddress d, rest)
  | .opaqueData => (octetsFromOID nums implied).map fun (d, rest) => (.opaqueData d, rest)
  | .oid => (subsFromOID nums implied).bind fun (l, rest) =>
      (parseToIndexError (Oid.construct (l.map Int.ofNat))).map fun o => (.oid o, rest)
  | .null => .ok (.null, nums)
  | .noSuchObject => .ok (.noSuchObject, nums)
  | .noSuchInstance => .ok (.noSuchInstance, nums)
  | .endOfMibView => .ok (.endOfMibView, nums)

/-- `decodeIndexField` (snmp/asn1.py:377-387). -/
def decodeIndexField (nums : List Nat) (t : SmiType) (implied : Bool) : Res (Value × List Nat) :=
  translateErr (· = .stopIteration) .indexDecodeError (t.fromOID nums implied)

/-- The two loops of `decodeIndex` (snmp/asn1.py:360-365): only the last type gets `implied`. -/
def decodeIndexFields : List SmiType → List Nat → Bool → Res (List Value × List Nat)
  | [], nums, _ => .ok ([], nums)
  | [t], nums, implied => (decodeIndexField nums t implied).map fun (v, rest) => ([v], rest)
  | t :: ts, nums, implied =>
    (decodeIndexField nums t false).bind fun (v, rest) =>
    (decodeIndexFields ts rest implied).map fun (vs, rest) => (v :: vs, rest)

/-- `startswith` (snmp/asn1.py:347-348). -/
def Oid.startswith (o pfx : List Nat) : Bool := o.take pfx.length = pfx

/-- `decodeIndex` (snmp/asn1.py:350-375). -/
def Oid.decodeIndex (o pfx : List Nat) (types : List SmiType) (implied : Bool) :
    Res (List Value) :=
  if !Oid.startswith o pfx then .error .badPrefix
  else (decodeIndexFields types (o.drop pfx.length) implied).bind fun (index, nums) =>
    if nums = [] then .ok index else .error .indexDecodeError

/-- `getIndex` (snmp/smi.py:153-158). -/
def Oid.getIndex (o pfx : List Nat) (t : SmiType) (implied : Bool) : Res Value :=
  (Oid.decodeIndex o pfx [t] implied).bind fun l => orRaise .indexError l[0]?

end Snmp
