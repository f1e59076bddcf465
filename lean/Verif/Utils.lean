import Verif.Py
/-!
# Model of `snmp/utils.py`
-/

namespace Snmp

/-! ## `subbytes` -/

/-- `subbytes`: a reference to real bytes and two offsets (snmp/utils.py:92-145).
`start`/`stop` are never negative in the code, so they are naturals. -/
structure Subbytes where
  data : Bytes
  start : Nat
  stop : Nat
  deriving DecidableEq, Repr

namespace Subbytes

/-- `translate(index, clamp)` (snmp/utils.py:211-247). -/
def translate (s : Subbytes) (index : Int) (clamp : Bool := false) : Nat :=
  if index < 0 then
    let index := index + s.stop
    if index < s.start then
      if clamp then s.start else s.data.length
    else index.toNat            -- here 0 ≤ start ≤ index
  else
    let index := index + s.start
    if index ≥ s.stop then
      if clamp then s.stop else s.data.length
    else index.toNat            -- here 0 ≤ index

/-- `subbytes(data)` for a bytes object: lines 124-127 with no bounds (snmp/utils.py:114-133). -/
def whole (data : Bytes) : Subbytes := ⟨data, 0, data.length⟩

/-- `base.start` or `base.translate(start, clamp=True)` (snmp/utils.py:129, 182). -/
def lowBound (s : Subbytes) : Option Int → Nat
  | none => s.start
  | some i => s.translate i true

/-- `base.stop` or `base.translate(stop, clamp=True)` (snmp/utils.py:130, 183). -/
def highBound (s : Subbytes) : Option Int → Nat
  | none => s.stop
  | some i => s.translate i true

/-- `subbytes(base, start, stop)` for a `subbytes` base (snmp/utils.py:114-133). -/
def view (base : Subbytes) (start stop : Option Int) : Subbytes where
  data := base.data
  start := base.lowBound start
  stop := base.highBound stop

/-- `subbytes(data, start, stop)` for a bytes object: `base = self` covering everything
(snmp/utils.py:114-133). -/
def ofBytes (data : Bytes) (start stop : Option Int) : Subbytes :=
  (whole data).view start stop

/-- `__bool__` (snmp/utils.py:147-149). -/
def bool (s : Subbytes) : Bool := s.start < s.stop

/-- `len(s)` (snmp/utils.py:195-197): Python raises `ValueError` when `__len__` is negative. -/
def len (s : Subbytes) : Res Nat :=
  if s.stop < s.start then .error .valueError else .ok (s.stop - s.start)

/-- `s[key]` for an int key (snmp/utils.py:175-188). -/
def getItem (s : Subbytes) (key : Int) : Res UInt8 :=
  pyIndex s.data (s.translate key)

/-- `s[start:stop]` (snmp/utils.py:175-188). -/
def getSlice (s : Subbytes) (start stop : Option Int) : Bytes :=
  pySlice s.data
    (some (s.lowBound start : Nat)) (some (s.highBound stop : Nat))

/-- `s[start:stop:step]` (snmp/utils.py:175-188); the step is passed through unchanged. -/
def getSliceStep (s : Subbytes) (start stop : Option Int) (step : Int) : Res Bytes :=
  pySliceStep s.data
    (some (s.lowBound start : Nat)) (some (s.highBound stop : Nat)) step

/-- `s[:]`, the copy of the represented sequence used throughout the library.
(snmp/utils.py:175-188) -/
def copy (s : Subbytes) : Bytes := s.getSlice none none

/-- `list(iter(s))` (snmp/utils.py:190-193). -/
def iter (s : Subbytes) : Res Bytes :=
  (List.range' s.start (s.stop - s.start)).mapM fun (i : Nat) => pyIndex s.data (i : Int)

/-- `s == other` for another sequence given by its length-bearing list of items
(snmp/utils.py:151-165): compare lengths, then items pairwise.  `len(self)` may raise. -/
def eq (s : Subbytes) (other : Bytes) : Res Bool := do
  let n ← s.len
  if n ≠ other.length then return false
  let items ← s.iter
  return (items.zip other).all fun (l, r) => l == r

/-- `advance()` (snmp/utils.py:249-255). -/
def advance (s : Subbytes) : Subbytes := s.view (some 1) none

/-- `dereference()` (snmp/utils.py:257-262). -/
def dereference (s : Subbytes) : Res UInt8 := s.getItem 0

/-- `replace(replacement)` (snmp/utils.py:264-271). -/
def replace (s : Subbytes) (replacement : Bytes) : Bytes :=
  pySlice s.data none (some s.start) ++ replacement ++ pySlice s.data (some s.stop) none

/-- `split(index)` (snmp/utils.py:273-281). -/
def split (s : Subbytes) (index : Int) : Subbytes × Subbytes :=
  (s.view none (some index), s.view (some index) none)

/-- The invariant every view with in-order bounds satisfies (not a code construct). It speaks of
the attributes set at snmp/utils.py:114-133. -/
def WF (s : Subbytes) : Prop := s.start ≤ s.stop ∧ s.stop ≤ s.data.length

instance (s : Subbytes) : Decidable s.WF := by unfold WF; infer_instance

end Subbytes

/-! ## `NumberGenerator` -/

/-- `NumberGenerator` fields; the generator is its own iterator (snmp/utils.py:69-81). -/
structure NumGen where
  previous : Int
  range : Int
  step : Int
  wrap : Int
  deriving DecidableEq, Repr

/-- `NumberGenerator(n, signed)` (snmp/utils.py:69-78) for `n ≥ 1`; `r` is the value drawn
by `randint(1, half)`, so the real code guarantees `1 ≤ r ≤ 2^(n-1)`. -/
def NumGen.new (n : Nat) (signed : Bool) (r : Nat) : NumGen :=
  let half : Int := 2 ^ (n - 1)
  let range := half * 2
  { previous := 0
    range := range
    step := 2 * (r : Int) - 1
    wrap := if signed then range - 1 - half else range - 1 }

/-- `next(generator)` (snmp/utils.py:83-90): the new state; the value returned is `previous`. -/
def NumGen.next (g : NumGen) : NumGen :=
  let previous := g.previous + g.step
  { g with previous := if previous > g.wrap then previous - g.range else previous }

/-- The generator after `k` calls of `next`. (snmp/utils.py:83-90) -/
def NumGen.after (g : NumGen) : Nat → NumGen
  | 0 => g
  | k + 1 => (g.after k).next

/-- The `k`-th value returned (k = 1, 2, ...). (snmp/utils.py:83-90) -/
def NumGen.output (g : NumGen) (k : Nat) : Int := (g.after k).previous

/-! ## `ComparableWeakRef` -/

/-- A weakly referenced object as seen by the reference: `some k` while it is alive with
current key `k`, `none` once collected. (snmp/utils.py:25-48) -/
abbrev Referent (V : Type) := Option V

/-- `ComparableWeakRef`: the stored comparison key (snmp/utils.py:25-31). The referent itself
belongs to the environment. -/
structure WeakKey (V : Type) where
  stored : V

namespace WeakKey
variable {V : Type}

/-- `__init__` (snmp/utils.py:25-31): the object is alive with key `k`. -/
def new (k : V) : WeakKey V := ⟨k⟩

/-- The `value` property (snmp/utils.py:33-40): returns the value and the updated reference. -/
def value (w : WeakKey V) (obj : Referent V) : V × WeakKey V :=
  match obj with
  | some k => (k, ⟨k⟩)
  | none => (w.stored, w)

/-- `__lt__` (snmp/utils.py:50-52): evaluates both values left to right. -/
def lt (ltV : V → V → Bool) (a b : WeakKey V) (objA objB : Referent V) :
    Bool × WeakKey V × WeakKey V :=
  let (va, a') := a.value objA
  let (vb, b') := b.value objB
  (ltV va vb, a', b')

end WeakKey

end Snmp
