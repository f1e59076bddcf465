import Verif.Oid
import Verif.Pdu

/-!
# Object identifiers and variable bindings as Python sequences and as dictionary keys

`asn1.py:274-300`, `ber.py:41-52`, `pdu.py:40-128`.  A Python dictionary is a hash table that
compares two keys only when their hashes land in the same place, and then by `==`; nothing here
depends on what `hash` does to a tuple of numbers or on how the table is laid out.
-/

namespace Snmp

/-- An object identifier as an object: either an `OBJECT_IDENTIFIER` (snmp/asn1.py:241-265) or an
instance of its subclass `OID` (snmp/smi.py:142-151).  A user's own subclasses would behave like
the second. -/
structure OidObj where
  isSubclass : Bool
  subs : List Nat
  deriving DecidableEq, Repr

/-- `OBJECT_IDENTIFIER.__eq__` (snmp/asn1.py:267-271) between two object identifiers: both pass
the `isinstance` test, so only the tuples count. -/
def OidObj.pyEq (a b : OidObj) : Bool := a.subs = b.subs

/-- `OBJECT_IDENTIFIER.__hash__` (snmp/asn1.py:293-294); `H` is CPython's `tuple.__hash__`. -/
def OidObj.hash (H : List Nat → Int) (a : OidObj) : Int := H a.subs

/-- `OBJECT_IDENTIFIER.__getitem__` with an integer (snmp/asn1.py:288-291). -/
def OidObj.getitem (a : OidObj) (i : Int) : Res Nat := pyIndex a.subs i

/-- `OBJECT_IDENTIFIER.__getitem__` with a slice without step (snmp/asn1.py:288-291). -/
def OidObj.slice (a : OidObj) (start stop : Option Int) : List Nat := pySlice a.subs start stop

/-- `OBJECT_IDENTIFIER.__getitem__` with a slice with a step (snmp/asn1.py:288-291). -/
def OidObj.sliceStep (a : OidObj) (start stop : Option Int) (step : Int) : Res (List Nat) :=
  pySliceStep a.subs start stop step

/-- `OBJECT_IDENTIFIER.__iter__` (snmp/asn1.py:296-297): the elements it produces. -/
def OidObj.iter (a : OidObj) : List Nat := a.subs

/-- `OBJECT_IDENTIFIER.__len__` (snmp/asn1.py:299-300). -/
def OidObj.len (a : OidObj) : Nat := a.subs.length

/-- `OBJECT_IDENTIFIER.extend` (snmp/asn1.py:344-345): the constructor called is that of the
object's own class. -/
def OidObj.extend (a : OidObj) (more : List Int) : Res OidObj :=
  ((if a.isSubclass then Oid.new else ObjId.new) (a.subs.map Int.ofNat ++ more)).map
    fun s => ⟨a.isSubclass, s⟩

/-- `OBJECT_IDENTIFIER.startswith` (snmp/asn1.py:347-348), through `__len__` and `__getitem__` of
the prefix. -/
def OidObj.startswith (a p : OidObj) : Bool :=
  pySlice a.subs none (some p.len) = p.slice none none

/-- `Tag.__eq__` (snmp/ber.py:41-49) between two tags. -/
def Tag.pyEq (a b : Tag) : Bool :=
  a.cls = b.cls && a.constructed = b.constructed && a.number = b.number

/-- `Tag.__hash__` (snmp/ber.py:51-52); `H` is CPython's hash of such a triple. -/
def Tag.hash (H : TagClass × Bool × Nat → Int) (t : Tag) : Int := H (t.cls, t.constructed, t.number)

/-- `VarBindList.__bool__` (snmp/pdu.py:108-109). -/
def VarBindList.bool (l : List VarBind) : Bool := !l.isEmpty

/-- `VarBindList.__getitem__` with an integer (snmp/pdu.py:119-122). -/
def VarBindList.getitem (l : List VarBind) (i : Int) : Res VarBind := pyIndex l i

/-- `VarBindList.__getitem__` with a slice (snmp/pdu.py:119-122). -/
def VarBindList.slice (l : List VarBind) (start stop : Option Int) : List VarBind :=
  pySlice l start stop

/-- `VarBindList.__iter__` (snmp/pdu.py:124-125): the elements it produces. -/
def VarBindList.iter (l : List VarBind) : List VarBind := l

/-- `VarBindList.__len__` (snmp/pdu.py:127-128). -/
def VarBindList.len (l : List VarBind) : Nat := l.length

/-- A Python `dict`: CPython built-in, not in /repo; used at snmp/pdu.py:40-56, 94.  Simplified
to one chain of entries per place of the table; an entry is the stored hash, the key and the
value. -/
def HashTable (K V : Type) : Type := Nat → List (Int × K × V)

namespace HashTable

variable {K V : Type}

/-- `{}`. CPython built-in, not in /repo; used at snmp/pdu.py:40. -/
def empty : HashTable K V := fun _ => []

/-- Whether an entry answers to a key: the hashes are compared first, then the keys with `==`.
CPython built-in, not in /repo; used at snmp/pdu.py:94. -/
def hit (hash : K → Int) (eq : K → K → Bool) (k : K) (e : Int × K × V) : Bool :=
  e.1 = hash k && eq e.2.1 k

/-- `d.get(k)`. CPython built-in, not in /repo; used at snmp/pdu.py:94. -/
def get (hash : K → Int) (eq : K → K → Bool) (slot : Int → Nat) (d : HashTable K V) (k : K) :
    Option V :=
  ((d (slot (hash k))).find? (hit hash eq k)).map fun e => e.2.2

/-- Storing a value in one chain: the value of the entry that answers to the key is replaced, the
key that is stored stays; otherwise a new entry is added. CPython built-in, not in /repo; used at
snmp/pdu.py:40-56. -/
def store (hash : K → Int) (eq : K → K → Bool) (k : K) (v : V) :
    List (Int × K × V) → List (Int × K × V)
  | [] => [(hash k, k, v)]
  | e :: l => if hit hash eq k e then (e.1, e.2.1, v) :: l else e :: store hash eq k v l

/-- `d[k] = v`. CPython built-in, not in /repo; used at snmp/pdu.py:40-56. -/
def set (hash : K → Int) (eq : K → K → Bool) (slot : Int → Nat) (d : HashTable K V) (k : K)
    (v : V) : HashTable K V := fun n =>
  if n = slot (hash k) then store hash eq k v (d n) else d n

/-- `del d[k]`, or nothing if there is no such key. CPython built-in, not in /repo; the code of a
user who keeps a dictionary of object identifiers. -/
def del (hash : K → Int) (eq : K → K → Bool) (slot : Int → Nat) (d : HashTable K V) (k : K) :
    HashTable K V := fun n =>
  if n = slot (hash k) then (d n).eraseP (hit hash eq k) else d n

end HashTable

/-- What a program does to a dictionary: the code of a user, not in /repo; for `TYPES` see
snmp/pdu.py:40-56. -/
inductive DictOp (K V : Type) where
  | set (k : K) (v : V)
  | del (k : K)

/-- A dictionary after a sequence of operations: the code of a user, not in /repo; for `TYPES`
see snmp/pdu.py:40-56. -/
def HashTable.run {K V : Type} (hash : K → Int) (eq : K → K → Bool) (slot : Int → Nat)
    (ops : List (DictOp K V)) : HashTable K V :=
  ops.foldl (fun d op => match op with
    | .set k v => d.set hash eq slot k v
    | .del k => d.del hash eq slot k) HashTable.empty

/-- `VarBind.TYPES` as the class body builds it (snmp/pdu.py:40-56), in a hash table. -/
def VarBind.typesTable (H : TagClass × Bool × Nat → Int) (slot : Int → Nat) :
    HashTable Tag SmiType :=
  HashTable.run (Tag.hash H) Tag.pyEq slot (VarBind.types.map fun t => .set t.tag t)

end Snmp
