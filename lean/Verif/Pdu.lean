import Verif.Asn1
/-!
# Model of `snmp/pdu.py`
-/

namespace Snmp

/-! ## Every decode shortens the view (needed for the termination of the list loop) -/

theorem Tag.decodeLoop_progress {s s' : Subbytes} {n m : Nat}
    (h : Tag.decodeLoop s n = .ok (m, s')) :
    s'.data = s.data ∧ s'.stop = s.stop ∧ s.start < s'.start ∧ s'.start ≤ s'.stop := by
  fun_induction Tag.decodeLoop s n with
  | case1 => cases h
  | case2 data number byte hd number' hb ih =>
    have hlt := Subbytes.dereference_ok hd
    have := ih h
    rw [Subbytes.advance_eq] at this
    dsimp only at this
    obtain ⟨h1, h2, h3, h4⟩ := this
    refine ⟨h1, h2, ?_, h4⟩
    split at h3 <;> omega
  | case3 data number byte hd number' hb =>
    have hlt := Subbytes.dereference_ok hd
    injection h with h
    have h2 := congrArg Prod.snd h
    simp only at h2
    rw [← h2, Subbytes.advance_eq]
    dsimp only
    refine ⟨rfl, rfl, ?_, ?_⟩ <;> split <;> omega

theorem Tag.decode_progress {s s' : Subbytes} {t : Tag} (h : Tag.decode s = .ok (t, s')) :
    s'.data = s.data ∧ s'.stop = s.stop ∧ s.start < s'.start ∧ s'.start ≤ s'.stop := by
  unfold Tag.decode at h
  split at h
  · cases h
  · rename_i b hd
    have hlt := Subbytes.dereference_ok hd
    have hadv : s.advance.data = s.data ∧ s.advance.stop = s.stop ∧
        s.start < s.advance.start ∧ s.advance.start ≤ s.advance.stop := by
      rw [Subbytes.advance_eq]; dsimp only
      refine ⟨rfl, rfl, ?_, ?_⟩ <;> split <;> omega
    have fin : ∀ (n : Nat) (s2 : Subbytes), s2.data = s.data ∧ s2.stop = s.stop ∧
        s.start < s2.start ∧ s2.start ≤ s2.stop →
        ((TagClass.ofValue ((b.toNat &&& 0xc0) >>> 6)).bind fun cls =>
          (.ok (⟨n, (b.toNat &&& 0x20) ≠ 0, cls⟩, s2) : Res (Tag × Subbytes))) = .ok (t, s') →
        s'.data = s.data ∧ s'.stop = s.stop ∧ s.start < s'.start ∧ s'.start ≤ s'.stop := by
      intro n s2 hs2 he
      cases hc : TagClass.ofValue ((b.toNat &&& 0xc0) >>> 6) with
      | error e => rw [hc] at he; cases he
      | ok c =>
        rw [hc] at he
        simp only [Except.bind, Except.ok.injEq, Prod.mk.injEq] at he
        rw [← he.2]; exact hs2
    by_cases h31 : b.toNat &&& 0x1f = 0x1f
    · simp only [h31, ↓reduceIte] at h
      cases hl : Tag.decodeLoop s.advance 0 with
      | error e => rw [hl] at h; cases h
      | ok v =>
        obtain ⟨m, s2⟩ := v
        obtain ⟨h1, h2, h3, h4⟩ := Tag.decodeLoop_progress hl
        rw [hl] at h
        exact fin m s2 ⟨by rw [h1, hadv.1], by rw [h2, hadv.2.1], by omega, h4⟩ h
    · simp only [h31, ↓reduceIte] at h
      exact fin _ _ hadv h

theorem decodeLengthLoop_progress {k : Nat} {s s' : Subbytes} {n m : Nat} (hs : s.start ≤ s.stop)
    (h : decodeLengthLoop k s n = .ok (m, s')) :
    s'.data = s.data ∧ s'.stop = s.stop ∧ s.start ≤ s'.start ∧ s'.start ≤ s'.stop := by
  induction k generalizing s n with
  | zero =>
    simp only [decodeLengthLoop, Except.ok.injEq, Prod.mk.injEq] at h
    rw [← h.2]; exact ⟨rfl, rfl, Nat.le_refl _, hs⟩
  | succ k ih =>
    unfold decodeLengthLoop at h
    split at h
    · cases h
    · rename_i b hd
      have hlt := Subbytes.dereference_ok hd
      have := ih (by rw [Subbytes.advance_eq]; dsimp only; split <;> omega) h
      rw [Subbytes.advance_eq] at this
      dsimp only at this
      obtain ⟨h1, h2, h3, h4⟩ := this
      refine ⟨h1, h2, ?_, h4⟩
      split at h3 <;> omega

theorem decodeLength_progress {s s' : Subbytes} {m : Nat} (h : decodeLength s = .ok (m, s')) :
    s'.data = s.data ∧ s'.stop = s.stop ∧ s.start < s'.start ∧ s'.start ≤ s'.stop := by
  unfold decodeLength at h
  split at h
  · cases h
  · rename_i b hd
    have hlt := Subbytes.dereference_ok hd
    have hadv : s.advance.data = s.data ∧ s.advance.stop = s.stop ∧
        s.start < s.advance.start ∧ s.advance.start ≤ s.advance.stop := by
      rw [Subbytes.advance_eq]; dsimp only
      refine ⟨rfl, rfl, ?_, ?_⟩ <;> split <;> omega
    dsimp only at h
    split at h
    · obtain ⟨h1, h2, h3, h4⟩ := decodeLengthLoop_progress hadv.2.2.2 h
      exact ⟨by rw [h1, hadv.1], by rw [h2, hadv.2.1], by omega, h4⟩
    · simp only [Except.ok.injEq, Prod.mk.injEq] at h
      rw [← h.2]; exact hadv

theorem Ber.decode_progress {d : Asn1Data} {expected : Option Tag} {leftovers copy : Bool}
    {t : Tag} {b : Asn1Data} {tail : Subbytes}
    (h : Ber.decode d expected leftovers copy = .ok (t, b, tail)) :
    tail.stop - tail.start < d.toSub.stop - d.toSub.start := by
  unfold Ber.decode at h
  cases h1 : Tag.decode d.toSub with
  | error e => rw [h1] at h; cases h
  | ok v =>
    obtain ⟨tag, s1⟩ := v
    obtain ⟨-, p1, p2, p3⟩ := Tag.decode_progress h1
    rw [h1] at h
    simp only [Except.bind] at h
    split at h
    · cases h
    · unfold Ber.decodeValue at h
      cases h2 : decodeLength s1 with
      | error e => rw [h2] at h; cases h
      | ok v =>
        obtain ⟨n, s2⟩ := v
        obtain ⟨-, q1, q2, q3⟩ := decodeLength_progress h2
        rw [h2] at h
        simp only [Except.bind] at h
        split at h
        · cases h
        · split at h
          · cases h
          · split at h
            · cases h
            · simp only [Except.ok.injEq, Prod.mk.injEq] at h
              rw [← h.2.2]
              unfold Subbytes.split Subbytes.view Subbytes.lowBound Subbytes.highBound
                Subbytes.translate
              simp only [↓reduceIte]
              rw [if_neg (by omega)]
              split <;> omega

theorem asn1Decode_progress {α : Type} {tag : Tag} {des : Asn1Data → Res α} {d : Asn1Data}
    {leftovers copy : Bool} {obj : α} {tail : Subbytes}
    (h : asn1Decode tag des d leftovers copy = .ok (obj, tail)) :
    tail.stop - tail.start < d.toSub.stop - d.toSub.start := by
  unfold asn1Decode at h
  cases hb : Ber.decode d (some tag) leftovers copy with
  | error e => rw [hb] at h; cases h
  | ok v =>
    obtain ⟨t, b, tl⟩ := v
    rw [hb] at h
    simp only [Except.bind] at h
    split at h
    · cases h
    · simp only [Except.ok.injEq, Prod.mk.injEq] at h
      rw [← h.2]; exact Ber.decode_progress hb

/-! ## Variable bindings -/

/-- `SEQUENCE.TAG` (snmp/asn1.py:467-468). -/
def sequenceTag : Tag := ⟨16, true, .universal⟩

/-- `VarBind` (snmp/pdu.py:38-69). The constructor's parsing of a textual name is `Oid.parse`,
modelled separately. -/
structure VarBind where
  name : List Nat
  value : Value
  deriving DecidableEq, Repr

/-- The classes in `VarBind.TYPES`, in order (snmp/pdu.py:40-56). -/
def VarBind.types : List SmiType :=
  [.int .integer32, .octetString, .null, .oid, .ipAddress, .int .counter32, .int .gauge32,
   .int .timeTicks, .opaqueData, .int .counter64, .noSuchObject, .noSuchInstance, .endOfMibView]

/-- `cls.TYPES[identifier]` (snmp/pdu.py:93-97); `KeyError` becomes `ParseError`. The tags are
distinct, so the dictionary lookup is a search. -/
def VarBind.lookup (identifier : Tag) : Res SmiType :=
  orRaise .parseError (VarBind.types.find? fun t => t.tag = identifier)

/-- `VarBind.deserialize` (snmp/pdu.py:84-99). -/
def VarBind.deserialize (data : Asn1Data) : Res VarBind :=
  (asn1Decode SmiType.oid.tag Oid.deserialize data true).bind fun (name, data) =>
  (Ber.decode (.sub data) none false true).bind fun (identifier, body, _) =>
  (VarBind.lookup identifier).bind fun valueType =>
  (valueType.deserialize body).bind fun value => .ok ⟨name, value⟩

/-- `VarBind.decode` (snmp/asn1.py:40-53). -/
def VarBind.decode (data : Asn1Data) (leftovers : Bool := false) (copy : Bool := true) :
    Res (VarBind × Subbytes) := asn1Decode sequenceTag VarBind.deserialize data leftovers copy

/-- `Constructed.serialize` for `VarBind` (snmp/asn1.py:85-86, snmp/pdu.py:71-73). -/
def VarBind.serialize (v : VarBind) : Res Bytes :=
  (Value.oid v.name).encode.bind fun a => v.value.encode.bind fun b => .ok (a ++ b)

/-- `VarBind.encode` (snmp/asn1.py:55-56). -/
def VarBind.encode (v : VarBind) : Res Bytes := asn1Encode sequenceTag v.serialize

/-- The loop of `VarBindList.deserialize` (snmp/pdu.py:140-152). -/
def VarBindList.deserializeLoop (data : Subbytes) : Res (List VarBind) :=
  if data.bool then
    match _h : VarBind.decode (.sub data) true with
    | .error e => .error e
    | .ok (var, tail) => (VarBindList.deserializeLoop tail).map (var :: ·)
  else .ok []
termination_by data.stop - data.start
decreasing_by exact asn1Decode_progress _h

/-- `VarBindList.deserialize` (snmp/pdu.py:140-152): `while data` on the argument itself, then on
the tails. -/
def VarBindList.deserialize (data : Asn1Data) : Res (List VarBind) :=
  VarBindList.deserializeLoop data.toSub

/-- `b"".join(...)` of encodings (snmp/asn1.py:85-86). -/
def joinEncodings {α : Type} (f : α → Res Bytes) : List α → Res Bytes
  | [] => .ok []
  | x :: xs => (f x).bind fun a => (joinEncodings f xs).bind fun b => .ok (a ++ b)

/-- `VarBindList.encode` (snmp/asn1.py:55-56,85-86; snmp/pdu.py:124-125). -/
def VarBindList.encode (l : List VarBind) : Res Bytes :=
  asn1Encode sequenceTag (joinEncodings VarBind.encode l)

/-- `VarBindList.decode` (snmp/asn1.py:40-53). -/
def VarBindList.decode (data : Asn1Data) (leftovers : Bool := false) (copy : Bool := true) :
    Res (List VarBind × Subbytes) :=
  asn1Decode sequenceTag VarBindList.deserialize data leftovers copy

/-! ## PDUs -/

/-- The concrete PDU classes (snmp/pdu.py:390-420). -/
inductive PduType
  | getRequest | getNextRequest | response | setRequest | getBulkRequest | informRequest
  | snmpv2Trap | report
  deriving DecidableEq, Repr

/-- `TAG` (snmp/pdu.py:390-420). -/
def PduType.tag : PduType → Tag
  | .getRequest => ⟨0, true, .contextSpecific⟩
  | .getNextRequest => ⟨1, true, .contextSpecific⟩
  | .response => ⟨2, true, .contextSpecific⟩
  | .setRequest => ⟨3, true, .contextSpecific⟩
  | .getBulkRequest => ⟨5, true, .contextSpecific⟩
  | .informRequest => ⟨6, true, .contextSpecific⟩
  | .snmpv2Trap => ⟨7, true, .contextSpecific⟩
  | .report => ⟨8, true, .contextSpecific⟩

/-- `isinstance(pdu, BulkPDU)` (snmp/pdu.py:407). -/
def PduType.isBulk : PduType → Bool
  | .getBulkRequest => true
  | _ => false

/-- `isinstance(pdu, Response)` (snmp/pdu.py:399,419). -/
def PduType.isResponse : PduType → Bool
  | .response | .report => true
  | _ => false

/-- `isinstance(pdu, Internal)` (snmp/pdu.py:419). -/
def PduType.isInternal : PduType → Bool
  | .report => true
  | _ => false

/-- `isinstance(pdu, Confirmed)` (snmp/pdu.py:391-411). -/
def PduType.isConfirmed : PduType → Bool
  | .getRequest | .getNextRequest | .setRequest | .getBulkRequest | .informRequest => true
  | _ => false

/-- `PDU` and `BulkPDU` (snmp/pdu.py:175-190, 279-294). `first` is `errorStatus` (its integer
value) or, for a bulk PDU, `nonRepeaters`; `second` is `errorIndex` or `maxRepetitions`. -/
structure Pdu where
  type : PduType
  requestID : Int := 0
  first : Int := 0
  second : Int := 0
  bindings : List VarBind := []
  deriving DecidableEq, Repr

/-- `Integer(n).encode()` (snmp/smi.py:46-55). -/
def encodeInteger (n : Int) : Res Bytes :=
  (IntType.integer32.new n).bind fun v => (Value.int .integer32 v).encode

/-- `Integer.decode(data, leftovers=True)` and `.value` (snmp/smi.py:46-55). -/
def decodeInteger (data : Asn1Data) (leftovers : Bool := true) : Res (Int × Subbytes) :=
  asn1Decode IntType.integer32.tag IntType.integer32.deserialize data leftovers true

/-- `Constructed.serialize` for a PDU (snmp/asn1.py:85-86, snmp/pdu.py:192-196, 296-300). -/
def Pdu.serialize (p : Pdu) : Res Bytes :=
  (encodeInteger p.requestID).bind fun a =>
  (encodeInteger p.first).bind fun b =>
  (encodeInteger p.second).bind fun c =>
  (VarBindList.encode p.bindings).bind fun d => .ok (a ++ b ++ c ++ d)

/-- `pdu.encode()` (snmp/asn1.py:55-56). -/
def Pdu.encode (p : Pdu) : Res Bytes := asn1Encode p.type.tag p.serialize

/-- `ErrorStatus(value)` succeeds (snmp/pdu.py:154-173). -/
def isErrorStatus (v : Int) : Bool := 0 ≤ v && v ≤ 18

/-- `PDU.deserialize` (snmp/pdu.py:238-277) and `BulkPDU.deserialize` (snmp/pdu.py:341-370), by
class.  The condition on the error index is written with Python's precedence. -/
def PduType.deserialize (t : PduType) (data : Asn1Data) : Res Pdu :=
  (decodeInteger data).bind fun (requestID, data) =>
  (decodeInteger (.sub data)).bind fun (first, data) =>
  (decodeInteger (.sub data)).bind fun (second, data) =>
  (VarBindList.decode (.sub data)).bind fun (bindings, _) =>
  if t.isBulk then
    if first < 0 then .error .parseError
    else if second < 0 then .error .parseError
    else .ok ⟨t, requestID, first, second, bindings⟩
  else
    if !isErrorStatus first then .error .parseError
    else if (first ≠ 0 ∧ second < 0) ∨ second > (bindings.length : Int) then .error .parseError
    else .ok ⟨t, requestID, first, second, bindings⟩

/-- `cls.decode(data, leftovers, copy)` (snmp/asn1.py:40-53). -/
def PduType.decode (t : PduType) (data : Asn1Data) (leftovers : Bool := false)
    (copy : Bool := true) : Res (Pdu × Subbytes) :=
  asn1Decode t.tag t.deserialize data leftovers copy

/-! ## ErrorResponse -/

/-- `ErrorResponse.cause` (snmp/pdu.py:429). -/
inductive Cause
  | request (p : Pdu)
  | binding (v : VarBind)
  | index (i : Int)
  deriving DecidableEq, Repr

/-- `ErrorResponse.__init__` (snmp/pdu.py:423-442): the `cause` it computes. The status is stored
unchanged. -/
def errorCause (index : Int) (request : Pdu) : Cause :=
  if index = 0 then .request request
  else match pyIndex request.bindings (index - 1) with
    | .ok v => .binding v
    | .error _ => .index index

end Snmp
