import Verif.Pdu
/-!
# Model of `==` and `<` on ASN.1 objects

`==` on primitive objects is `Value.pyEq`. Comparison with an object of another family (`NotImplemented` from both
sides) is not modelled, except that `Value.pyEq` makes it `false`, as Python does for different objects.
-/

namespace Snmp

/-- `Constructed.__eq__` on two `VarBind` objects (snmp/asn1.py:66-77; snmp/pdu.py:71-76). -/
def VarBind.pyEq (a b : VarBind) : Bool :=
  (Value.oid a.name).pyEq (.oid b.name) && a.value.pyEq b.value

/-- `Constructed.__eq__` on two `VarBindList` objects (snmp/asn1.py:66-77; snmp/pdu.py:124-128). -/
def VarBindList.pyEq (l m : List VarBind) : Bool :=
  if l.length ≠ m.length then false else (l.zip m).all fun (a, b) => a.pyEq b

/-- One turn of the loop in `Constructed.__eq__` on a pair of `Integer(...)` that two PDUs yield
(snmp/asn1.py:73-75; snmp/pdu.py:192-196, 296-300). `Integer` refuses what does not fit in 32 bits. -/
def Pdu.fieldEq (a b : Int) : Res Bool :=
  (IntType.integer32.new a).bind fun v => (IntType.integer32.new b).bind fun w =>
    .ok ((Value.int .integer32 v).pyEq (.int .integer32 w))

/-- `Constructed.__eq__` on two PDUs (snmp/asn1.py:66-77; snmp/pdu.py:192-199, 296-303). -/
def Pdu.pyEq (p q : Pdu) : Res Bool :=
  if p.type ≠ q.type then .ok false
  else
    (Pdu.fieldEq p.requestID q.requestID).bind fun a => if a = false then .ok false else
    (Pdu.fieldEq p.first q.first).bind fun b => if b = false then .ok false else
    (Pdu.fieldEq p.second q.second).bind fun c => if c = false then .ok false else
    .ok (VarBindList.pyEq p.bindings q.bindings)

/-- `<` on tuples: the first difference decides, else the length. Python's `tuple.__lt__`, called at
snmp/asn1.py:277-278. -/
def tupleLt : List Nat → List Nat → Bool
  | [], [] => false
  | [], _ :: _ => true
  | _ :: _, [] => false
  | a :: x, b :: y => if a = b then tupleLt x y else decide (a < b)

/-- `OBJECT_IDENTIFIER.__lt__` (snmp/asn1.py:277-278). -/
def Oid.lt (a b : List Nat) : Bool := tupleLt a b

end Snmp
