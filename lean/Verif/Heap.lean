import Verif.Utils
import Mathlib.Data.Rat.Defs
import Mathlib.Algebra.Order.Ring.Rat
/-!
# Model of the heaps the managers keep: `heapq` over `ComparableWeakRef`

`heapq` belongs to Python's standard library; its documented algorithm (Lib/heapq.py, which the C
version repeats) is modelled because the order in which requests are examined depends on it. An item
that travels through the list is moved by swaps, where CPython carries it in a variable and writes it
at the end; the list is the same at the end of each function.
-/

namespace Snmp

/-- A `ComparableWeakRef` to the request number `id` (snmp/utils.py:12-48), as made by `sendRequest`
with the key `nextRefresh` (snmp/manager/v1.py:184, v2c.py:184, v3.py:658). -/
structure Ref where
  id : Nat
  key : WeakKey ℚ

/-- The requests that are alive, with their `nextRefresh`. (snmp/manager/v1.py:45-54;
snmp/manager/v3.py:323-333) -/
abbrev Env := Nat → Option ℚ

namespace Heap

/-- `heap[i] < heap[j]` (snmp/utils.py:50-52): the result, and the heap with the stored keys
updated. -/
def less (env : Env) (l : List Ref) (i j : Nat) : Bool × List Ref :=
  match l[i]?, l[j]? with
  | some a, some b =>
    let (r, a', b') := WeakKey.lt (fun x y => decide (x < y)) a.key b.key (env a.id) (env b.id)
    (r, (l.set i ⟨a.id, a'⟩).set j ⟨b.id, b'⟩)
  | _, _ => (false, l)

/-- Exchange two items. CPython `heapq` (Lib/heapq.py), not in /repo; used at
snmp/manager/v1.py:137-193 and snmp/manager/v3.py:524-575,640-673. -/
def swap (l : List Ref) (i j : Nat) : List Ref :=
  match l[i]?, l[j]? with
  | some a, some b => (l.set i b).set j a
  | _, _ => l

/-- `heapq._siftdown(heap, startpos, pos)`. CPython `heapq` (Lib/heapq.py), not in /repo; used at
snmp/manager/v1.py:137-193 and snmp/manager/v3.py:524-575,640-673. -/
def siftdown (env : Env) (startpos : Nat) (l : List Ref) (pos : Nat) : List Ref :=
  if startpos < pos then
    match less env l pos ((pos - 1) / 2) with
    | (true, l) => siftdown env startpos (swap l pos ((pos - 1) / 2)) ((pos - 1) / 2)
    | (false, l) => l
  else l
termination_by pos
decreasing_by omega

/-- The choice of the smaller child in `heapq._siftup`: its position, and the heap. CPython
`heapq` (Lib/heapq.py), not in /repo; used at snmp/manager/v1.py:137-193 and
snmp/manager/v3.py:524-575,640-673. -/
def smallerChild (env : Env) (l : List Ref) (pos : Nat) : Nat × List Ref :=
  if 2 * pos + 2 < l.length then
    match less env l (2 * pos + 1) (2 * pos + 2) with
    | (true, l) => (2 * pos + 1, l)
    | (false, l) => (2 * pos + 2, l)
  else (2 * pos + 1, l)

/-- The loop of `heapq._siftup`, followed by its call of `_siftdown`. `fuel` bounds the number of
rounds; `siftup` gives it more than there can be. CPython `heapq` (Lib/heapq.py), not in /repo;
used at snmp/manager/v1.py:137-193 and snmp/manager/v3.py:524-575,640-673. -/
def siftupLoop (env : Env) (startpos : Nat) : Nat → List Ref → Nat → List Ref
  | 0, l, pos => siftdown env startpos l pos
  | fuel + 1, l, pos =>
    if 2 * pos + 1 < l.length then
      let (child, l) := smallerChild env l pos
      siftupLoop env startpos fuel (swap l pos child) child
    else siftdown env startpos l pos

/-- `heapq._siftup(heap, pos)`. CPython `heapq` (Lib/heapq.py), not in /repo; used at
snmp/manager/v1.py:137-193 and snmp/manager/v3.py:524-575,640-673. -/
def siftup (env : Env) (l : List Ref) (pos : Nat) : List Ref := siftupLoop env pos l.length l pos

/-- `heapq.heappush(heap, item)`. CPython `heapq` (Lib/heapq.py), not in /repo; used at
snmp/manager/v1.py:137-193 and snmp/manager/v3.py:524-575,640-673. -/
def push (env : Env) (l : List Ref) (x : Ref) : List Ref := siftdown env 0 (l ++ [x]) l.length

/-- `heapq.heappop(heap)`: the heap afterwards (the item is not used). CPython `heapq`
(Lib/heapq.py), not in /repo; used at snmp/manager/v1.py:137-193 and
snmp/manager/v3.py:524-575,640-673. -/
def pop (env : Env) (l : List Ref) : List Ref :=
  match l.getLast? with
  | none => l
  | some last =>
    let rest := l.dropLast
    if rest = [] then [] else siftup env (rest.set 0 last) 0

/-- `heapq.heapreplace(heap, item)`: the heap afterwards. CPython `heapq` (Lib/heapq.py), not in
/repo; used at snmp/manager/v1.py:137-193 and snmp/manager/v3.py:524-575,640-673. -/
def replace (env : Env) (l : List Ref) (x : Ref) : List Ref := siftup env (l.set 0 x) 0

/-- The loop of `heapq.heapify`: positions `i - 1`, ..., `0`. CPython `heapq` (Lib/heapq.py), not
in /repo; used at snmp/manager/v1.py:137-193 and snmp/manager/v3.py:524-575,640-673. -/
def heapifyLoop (env : Env) : Nat → List Ref → List Ref
  | 0, l => l
  | i + 1, l => heapifyLoop env i (siftup env l i)

/-- `heapq.heapify(heap)`. CPython `heapq` (Lib/heapq.py), not in /repo; used at
snmp/manager/v1.py:137-193 and snmp/manager/v3.py:524-575,640-673. -/
def heapify (env : Env) (l : List Ref) : List Ref := heapifyLoop env (l.length / 2) l

end Heap

end Snmp
