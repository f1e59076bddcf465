/-!
# Python values: exceptions, bytes, integers

Shared vocabulary of the model. Nothing here models library code; it models the
Python built-ins the library code is written with.
-/

namespace Snmp

/-- Python exceptions as values, one constructor per exception class that the modelled
code can raise (messages are dropped).  Sources: `snmp/exception.py:1-15` for the base
classes, and the class statement of each exception elsewhere. -/
inductive PyErr
  -- subclasses of `IncomingMessageError` (snmp/exception.py:13-15)
  | parseError            -- snmp/ber.py:17-19
  | badVersion            -- snmp/message/version.py:13-14
  | invalidMessage        -- snmp/message/v3.py:36-37
  | lateResponse          -- snmp/message/v1.py:25-26, v2c.py:27-28, v3.py:39-40
  | responseMismatch      -- snmp/message/v1.py:28-29, v2c.py:30-31, v3.py:42-45
  | unknownSecurityModel  -- snmp/message/v3.py:47-48
  | unsupportedSecLevel   -- snmp/security/usm/implementation.py:20-21
  | notInTimeWindow       -- snmp/security/usm/implementation.py:23-24
  | unknownUserName       -- snmp/security/usm/implementation.py:26-27
  | unknownEngineID       -- snmp/security/usm/implementation.py:29-30
  | wrongDigest           -- snmp/security/usm/implementation.py:32-33
  | decryptionError       -- snmp/security/usm/__init__.py:9-10
  | discoveryError        -- snmp/manager/v3.py:79-80
  -- other subclasses of `SNMPException` (snmp/exception.py:1-3)
  | encodeError           -- snmp/ber.py:12-14
  | badPrefix             -- snmp/asn1.py:235-236
  | indexDecodeError      -- snmp/asn1.py:238-239
  | cacheError            -- snmp/message/v1.py:22-23, v2c.py:24-25, v3.py:33-34
  | timeout               -- snmp/manager/__init__.py:5-6
  | errorResponse         -- snmp/pdu.py:422-442
  | unhandledReport       -- snmp/manager/v3.py:34-77
  | noDefaultUser         -- snmp/engine.py:18-19
  -- subclasses of `ValueError`
  | valueError
  | invalidSecurityLevel  -- snmp/security/usm/implementation.py:35-36
  | invalidEngineID       -- snmp/security/usm/users.py:14-15
  | invalidUserName       -- snmp/security/usm/users.py:17-18
  | userNameCollision     -- snmp/security/usm/users.py:20-21
  | unicodeDecodeError
  -- subclasses of `AssertionError`
  | assertionError
  | libraryBug            -- snmp/exception.py:5-7
  | unsupportedFeature    -- snmp/exception.py:9-11
  -- remaining built-ins
  | indexError
  | keyError
  | stopIteration
  | runtimeError
  | overflowError
  | zeroDivisionError
  | typeError
  | unboundLocalError
  | osError
  | referenceError
  deriving DecidableEq, Repr

/-- `isinstance(err, IncomingMessageError)` (snmp/exception.py:13-15). -/
def PyErr.isIncoming : PyErr → Bool
  | .parseError | .badVersion | .invalidMessage | .lateResponse | .responseMismatch
  | .unknownSecurityModel | .unsupportedSecLevel | .notInTimeWindow | .unknownUserName
  | .unknownEngineID | .wrongDigest | .decryptionError | .discoveryError => true
  | _ => false

/-- `isinstance(err, ValueError)`. CPython built-in, not in /repo; used at snmp/smi.py:31-35
(`except ValueError`). -/
def PyErr.isValueError : PyErr → Bool
  | .valueError | .invalidSecurityLevel | .invalidEngineID | .invalidUserName
  | .userNameCollision | .unicodeDecodeError => true
  | _ => false

/-- `isinstance(err, AssertionError)` (snmp/exception.py:5-11). -/
def PyErr.isAssertion : PyErr → Bool
  | .assertionError | .libraryBug | .unsupportedFeature => true
  | _ => false

/-- A Python computation: a value or a raised exception. Not a code construct; every function of
/repo/snmp that can raise returns one. -/
abbrev Res := Except PyErr

/-- Python `bytes`. CPython built-in, not in /repo; used at snmp/utils.py:93-281. -/
abbrev Bytes := List UInt8

deriving instance DecidableEq for Except

/-! ## Integers -/

/-- `int.bit_length()` of a non-negative integer. CPython built-in, not in /repo; used at
snmp/asn1.py:121-125, snmp/smi.py:148. -/
def bitLength (n : Nat) : Nat := if n = 0 then 0 else Nat.log2 n + 1

/-- `int.from_bytes(data, "big")`. CPython built-in, not in /repo; used at
snmp/security/usm/priv/openssl/aes.py:25. -/
def fromBytesBE (data : Bytes) : Nat :=
  data.foldl (fun acc b => acc * 256 + b.toNat) 0

/-- `int.from_bytes(data, "big", signed=True)`; the empty string gives 0, as in Python. CPython
built-in, not in /repo; used at snmp/asn1.py:133. -/
def fromBytesSigned (data : Bytes) : Int :=
  let u := fromBytesBE data
  if data = [] then 0
  else if u < 2 ^ (8 * data.length - 1) then (u : Int)
  else (u : Int) - 2 ^ (8 * data.length)

/-- The `n` big-endian base-256 digits of `v`, most significant first (`v < 256^n`). CPython
built-in, not in /repo; used at snmp/asn1.py:140. -/
def natToBytes : Nat → Nat → Bytes
  | 0, _ => []
  | n + 1, v => natToBytes n (v / 256) ++ [UInt8.ofNat (v % 256)]

/-- `value.to_bytes(n, "big")` (unsigned): `OverflowError` for a negative or too large value.
CPython built-in, not in /repo; used at snmp/security/usm/priv/openssl/aes.py:32-33,57. -/
def toBytesBE (n : Nat) (value : Int) : Res Bytes :=
  if 0 ≤ value ∧ value < 256 ^ n then .ok (natToBytes n value.toNat)
  else .error .overflowError

/-- `value.to_bytes(n, "big", signed=True)` for `n ≥ 1`: `OverflowError` unless
`-2^(8n-1) ≤ value < 2^(8n-1)`. CPython built-in, not in /repo; used at snmp/asn1.py:140. -/
def toBytesSigned (n : Nat) (value : Int) : Res Bytes :=
  if -(2 ^ (8 * n - 1) : Int) ≤ value ∧ value < 2 ^ (8 * n - 1) then
    .ok (natToBytes n (value % (256 ^ n : Int)).toNat)
  else .error .overflowError

/-! ## Sequences -/

/-- A lookup that raises `e` when there is nothing to find. CPython built-in, not in /repo; used
at snmp/asn1.py:404-431 and elsewhere. -/
def orRaise {α : Type} (e : PyErr) : Option α → Res α
  | some x => .ok x
  | none => .error e

/-- `data[i]` for an int `i`: negative indices count from the end, `IndexError` otherwise. CPython
built-in, not in /repo; used at snmp/utils.py:175-188. -/
def pyIndex {α : Type} (data : List α) (i : Int) : Res α :=
  let j := if i < 0 then i + data.length else i
  if 0 ≤ j then orRaise .indexError data[j.toNat]?
  else .error .indexError

/-- One bound of a Python slice with positive step: negative values count from the end,
then clamp to `0..len`. CPython built-in, not in /repo; used at snmp/utils.py:175-188. -/
def clampIndex (len : Nat) (i : Int) : Nat :=
  if i < 0 then (i + len).toNat else min i.toNat len

/-- `data[start:stop]` with optional bounds. CPython built-in, not in /repo; used at
snmp/utils.py:175-188. -/
def pySlice {α : Type} (data : List α) (start stop : Option Int) : List α :=
  let lo := match start with | none => 0 | some i => clampIndex data.length i
  let hi := match stop with | none => data.length | some i => clampIndex data.length i
  (data.take hi).drop lo

/-- One bound of a Python slice with negative step: clamps to `-1..len-1`. CPython built-in, not
in /repo; used at snmp/utils.py:175-188. -/
def clampIndexNeg (len : Nat) (i : Int) : Int :=
  if i < 0 then max (i + len) (-1) else min i (len - 1)

/-- `data[start:stop:step]`; `ValueError` for step 0.  The elements are
`data[lo], data[lo+step], ...` strictly before (step > 0) or after (step < 0) `hi`. CPython
built-in, not in /repo; used at snmp/utils.py:175-188. -/
def pySliceStep {α : Type} (data : List α) (start stop : Option Int) (step : Int) : Res (List α) :=
  if step = 0 then .error .valueError
  else if 0 < step then
    let lo := match start with | none => 0 | some i => clampIndex data.length i
    let hi := match stop with | none => data.length | some i => clampIndex data.length i
    .ok ((List.range data.length).filterMap fun (i : Nat) =>
      if lo ≤ i ∧ i < hi ∧ (i - lo) % step.toNat = 0 then data[i]? else none)
  else
    let lo : Int := match start with | none => data.length - 1 | some i => clampIndexNeg data.length i
    let hi : Int := match stop with | none => -1 | some i => clampIndexNeg data.length i
    .ok ((List.range data.length).reverse.filterMap fun (i : Nat) =>
      if (i : Int) ≤ lo ∧ hi < i ∧ (lo.toNat - i) % step.natAbs = 0 then data[i]? else none)

end Snmp
