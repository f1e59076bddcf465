import Verif.Message
import Verif.Utils
/-!
# Model of the message processors: `snmp/message/v1.py`, `v2c.py`, `v3.py` (processor part)

First the methods as functions, then the processor shared by any number of threads: every
`with self.cacheLock` block is one atomic step, and everything else a thread does in between is
local to it. Handles are numbered; the weak references to them are valid until the handle is
collected.
-/

namespace Snmp

/-! ## The cache of outstanding requests -/

/-- `generator` and `outstanding` (snmp/message/v1.py:42-45, v2c.py:44-47, v3.py:488-490).
`outstanding` is the dictionary, as the function of its lookups. -/
structure Cache (E : Type) where
  gen : NumGen
  outstanding : Int → Option E

/-- What differs between the processors: the argument of `NumberGenerator` in `newGenerator`
(snmp/message/v1.py:47-49 and v2c.py:49-51: 32 bits signed; v3.py:496-498: 31 bits unsigned), the handle of a
cache entry, the ID a response is looked up by, the checks against the entry, and whether
`LateResponse` uncaches. -/
structure Proto (E M : Type) where
  bits : Nat
  signed : Bool
  handle : E → Nat
  classify : M → Res Int
  check : E → M → Res Unit
  lateUncaches : Bool

namespace Cache
variable {E : Type}

/-- `__init__` (snmp/message/v1.py:42-45, v3.py:485-490); `r` is drawn by `randint`. -/
def new (bits : Nat) (signed : Bool) (r : Nat) : Cache E := ⟨NumGen.new bits signed r, fun _ => none⟩

/-- One critical section of the loop in `cache` (snmp/message/v1.py:54-60, v2c.py:56-62,
v3.py:503-509): the ID if one was allocated. `r` is the number drawn by `randint` if the generator
is replaced. -/
def attempt (bits : Nat) (signed : Bool) (c : Cache E) (entry : E) (r : Nat) :
    Cache E × Option Int :=
  let gen := c.gen.next
  let id := gen.previous
  if id = 0 then ({ c with gen := NumGen.new bits signed r }, none)
  else if c.outstanding id = none then
    (⟨gen, fun i => if i = id then some entry else c.outstanding i⟩, some id)
  else ({ c with gen }, none)

/-- The `while retry < 10` loop when no other thread interferes (snmp/message/v1.py:51-64,
v2c.py:53-66, v3.py:500-513); `draws` are the numbers drawn by `randint`. The first argument is the
number of attempts left. -/
def cacheLoop (bits : Nat) (signed : Bool) : Nat → Cache E → E → (Nat → Nat) → Res Int × Cache E
  | 0, c, _, _ => (.error .cacheError, c)
  | n + 1, c, entry, draws =>
    match c.attempt bits signed entry (draws 0) with
    | (c, some id) => (.ok id, c)
    | (c, none) => cacheLoop bits signed n c entry fun k => draws (k + 1)

/-- `cache(entry)` (snmp/message/v1.py:51-64, v2c.py:53-66, v3.py:500-513). -/
def cache (bits : Nat) (signed : Bool) (c : Cache E) (entry : E) (draws : Nat → Nat) :
    Res Int × Cache E := cacheLoop bits signed 10 c entry draws

/-- `retrieve(id)` (snmp/message/v1.py:66-68, v2c.py:68-70, v3.py:515-517); `none` is `KeyError`. -/
def retrieve (c : Cache E) (id : Int) : Option E := c.outstanding id

/-- `uncache(id)` (snmp/message/v1.py:70-75, v2c.py:72-77, v3.py:519-524). -/
def uncache (c : Cache E) (id : Int) : Cache E :=
  { c with outstanding := fun i => if i = id then none else c.outstanding i }

end Cache

/-! ## Matching a response with an entry -/

/-- What `prepareDataElements` decides once the entry was retrieved and its handle dereferenced
(snmp/message/v1.py:89-95, v2c.py:91-97, v3.py:567-587). -/
def Proto.resolve {E M : Type} (p : Proto E M) (dead : Nat → Bool) (e : E) (m : M) : Res Nat :=
  if dead (p.handle e) then .error .lateResponse
  else (p.check e m).bind fun _ => .ok (p.handle e)

/-- `prepareDataElements` on a decoded message, when no other thread interferes
(snmp/message/v1.py:82-99, v2c.py:84-101, v3.py:560-591): the handle or the exception, and the
cache afterwards. -/
def Proto.prepareDataElements {E M : Type} (p : Proto E M) (c : Cache E) (dead : Nat → Bool) (m : M) :
    Res Nat × Cache E :=
  match p.classify m with
  | .error e => (.error e, c)
  | .ok id =>
    match c.retrieve id with
    | none => (.error .responseMismatch, c)
    | some e =>
      (p.resolve dead e m,
        if dead (p.handle e) && p.lateUncaches then c.uncache id else c)

/-! ## SNMPv1 and SNMPv2c -/

/-- `CacheEntry` (snmp/message/v1.py:31-37, v2c.py:33-39). -/
structure CommunityEntry where
  handle : Nat
  community : Bytes
  deriving DecidableEq, Repr

/-- The community processors (snmp/message/v1.py:39-99, v2c.py:41-101). -/
def communityProto : Proto CommunityEntry Message where
  bits := 32
  signed := true
  handle := CommunityEntry.handle
  classify m := if m.pdu.type = .response then .ok m.pdu.requestID else .error .unsupportedFeature
  check e m := if e.community ≠ m.community then .error .responseMismatch else .ok ()
  lateUncaches := true

/-- `prepareOutgoingMessage` (snmp/message/v1.py:101-111, v2c.py:103-113): the encoded message,
the PDU with its ID, the cache, and the ID registered with the handle's `addCallback`, if any.
`addCallback` itself belongs to the manager. -/
def prepareOutgoingCommunity (version : Version) (c : Cache CommunityEntry) (pdu : Pdu)
    (handle : Nat) (community : Bytes) (draws : Nat → Nat) :
    Res Bytes × Pdu × Cache CommunityEntry × Option Int :=
  if pdu.requestID = 0 then
    match c.cache 32 true ⟨handle, community⟩ draws with
    | (.error e, c) => (.error e, pdu, c, none)
    | (.ok id, c) =>
      let pdu := { pdu with requestID := id }
      ((Message.mk version community pdu).encode, pdu, c, some id)
  else ((Message.mk version community pdu).encode, pdu, c, none)

/-! ## SNMPv3 -/

/-- `CacheEntry` (snmp/message/v3.py:466-480). -/
structure V3Entry where
  engineID : Bytes
  context : Bytes
  handle : Nat
  securityName : Bytes
  securityModel : SecurityModel
  securityLevel : SecurityLevel
  deriving DecidableEq, Repr

/-- An incoming message after `securityModule.processIncoming`, with `scopedPDU` assigned
(snmp/message/v3.py:551-558); the security engine ID and name are those it assigned. -/
structure V3Incoming where
  header : HeaderData
  scopedPDU : ScopedPDU
  securityEngineID : Bytes
  securityName : Bytes
  deriving DecidableEq, Repr

/-- The checks of a response against the entry (snmp/message/v3.py:571-587). -/
def v3Check (e : V3Entry) (m : V3Incoming) : Res Unit :=
  let report := m.scopedPDU.pdu.type.isInternal
  if !report && m.header.flags.level.lt e.securityLevel then .error .responseMismatch
  else if !report && e.engineID ≠ m.securityEngineID then .error .responseMismatch
  else if e.securityName ≠ m.securityName then .error .responseMismatch
  else if !report && e.engineID ≠ m.scopedPDU.contextEngineID then .error .responseMismatch
  else if e.context ≠ m.scopedPDU.contextName then .error .responseMismatch
  else .ok ()

/-- The SNMPv3 processor (snmp/message/v3.py:482-591). -/
def v3Proto : Proto V3Entry V3Incoming where
  bits := 31
  signed := false
  handle := V3Entry.handle
  classify m :=
    if m.scopedPDU.pdu.type.isResponse then .ok m.header.id else .error .unsupportedFeature
  check := v3Check
  lateUncaches := false

/-- The part of `prepareOutgoingMessage` (snmp/message/v3.py:593-636) after the security module was
found: the message handed to `securityModule.prepareOutgoing`, the cache, and the ID registered
with the handle. Unconfirmed PDUs take the next number without caching it. -/
def prepareOutgoingV3 (maxSize : Int) (c : Cache V3Entry) (pdu : Pdu) (handle : Nat)
    (engineID securityName : Bytes) (level : SecurityLevel) (model : SecurityModel)
    (contextName : Bytes) (draws : Nat → Nat) : Res V3Message × Cache V3Entry × Option Int :=
  if pdu.type.isConfirmed then
    match c.cache 31 false ⟨engineID, contextName, handle, securityName, model, level⟩ draws with
    | (.error e, c) => (.error e, c, none)
    | (.ok id, c) =>
      (.ok { header := ⟨id, maxSize, ⟨level, true⟩, model⟩
             scopedPDU := some ⟨pdu, engineID, contextName⟩ }, c, some id)
  else
    let gen := c.gen.next
    (.ok { header := ⟨gen.previous, maxSize, ⟨level, false⟩, model⟩
           scopedPDU := some ⟨pdu, engineID, contextName⟩ }, { c with gen }, none)

/-! ## Any number of threads

A call of `cache` and a call of `prepareDataElements` are sequences of atomic steps, which other
threads may interleave. -/

/-- A call of `cache(entry)`: number of attempts already made, or how it ended.
(snmp/message/v1.py:51-64; snmp/message/v3.py:500-513) -/
inductive Call (E : Type)
  | notStarted
  | trying (entry : E) (retry : Nat)
  | returned (entry : E) (id : Int)
  | failed
  deriving DecidableEq

/-- A thread inside `prepareDataElements`: between calls, after `retrieve`, or about to `uncache`.
(snmp/message/v1.py:77-99; snmp/message/v3.py:537-591) -/
inductive Recv (E M : Type)
  | idle
  | looked (id : Int) (entry : E) (m : M)
  | late (id : Int)

/-- Everything the threads share, and where they are. `delivered` are the results of
`prepareDataElements`, newest first: the handle and the message pushed to it.
(snmp/message/v1.py:39-111; snmp/message/v3.py:482-636) -/
structure PSys (E M : Type) where
  cache : Cache E
  calls : Nat → Call E
  recv : Nat → Recv E M
  dead : Nat → Bool
  delivered : List (Nat × M)

/-- Atomic steps. (snmp/message/v1.py:39-111; snmp/message/v3.py:482-636) -/
inductive PEvent (E M : Type)
  /-- call number `c` of `cache` begins -/
  | start (c : Nat) (entry : E)
  /-- call number `c` goes once through the critical section -/
  | draw (c : Nat) (r : Nat)
  /-- some thread calls `uncache(id)`, as the callback of a handle -/
  | release (id : Int)
  /-- a handle is garbage-collected -/
  | collect (handle : Nat)
  /-- thread `t` calls `prepareDataElements` and gets through `retrieve` (also if it was still in an
  earlier call, which is then abandoned: more histories than the code has) -/
  | lookup (t : Nat) (m : M)
  /-- thread `t` dereferences the handle and finishes, or finds it dead -/
  | resolve (t : Nat)
  /-- thread `t`, having found the handle dead, calls `uncache` -/
  | uncacheLate (t : Nat)

/-- Function update. Not a code construct: it stands for an assignment to one object's attribute
(snmp/message/v3.py:500-524). -/
def setAt {α : Type} (f : Nat → α) (i : Nat) (x : α) : Nat → α := fun j => if j = i then x else f j

/-- The initial state (snmp/message/v1.py:42-45). -/
def PSys.init {E M : Type} (p : Proto E M) (r : Nat) : PSys E M :=
  ⟨Cache.new p.bits p.signed r, fun _ => .notStarted, fun _ => .idle, fun _ => false, []⟩

/-- One atomic step; a step that is not enabled changes nothing. (snmp/message/v1.py:39-111;
snmp/message/v3.py:482-636) -/
def PSys.step {E M : Type} (p : Proto E M) (s : PSys E M) : PEvent E M → PSys E M
  | .start c e =>
    match s.calls c with
    | .notStarted => { s with calls := setAt s.calls c (.trying e 0) }
    | _ => s
  | .draw c r =>
    match s.calls c with
    | .trying e n =>
      match s.cache.attempt p.bits p.signed e r with
      | (cache, some id) => { s with cache, calls := setAt s.calls c (.returned e id) }
      | (cache, none) =>
        { s with cache, calls := setAt s.calls c (if n + 1 < 10 then .trying e (n + 1) else .failed) }
    | _ => s
  | .release id => { s with cache := s.cache.uncache id }
  | .collect h => { s with dead := setAt s.dead h true }
  | .lookup t m =>
    match p.classify m with
    | .error _ => { s with recv := setAt s.recv t .idle }
    | .ok id =>
      match s.cache.retrieve id with
      | none => { s with recv := setAt s.recv t .idle }
      | some e => { s with recv := setAt s.recv t (.looked id e m) }
  | .resolve t =>
    match s.recv t with
    | .looked id e m =>
      match p.resolve s.dead e m with
      | .ok h => { s with recv := setAt s.recv t .idle, delivered := (h, m) :: s.delivered }
      | .error _ =>
        let next := if s.dead (p.handle e) && p.lateUncaches then .late id else .idle
        { s with recv := setAt s.recv t next }
    | _ => s
  | .uncacheLate t =>
    match s.recv t with
    | .late id => { s with cache := s.cache.uncache id, recv := setAt s.recv t .idle }
    | _ => s

/-- A history of steps. Any interleaving of the steps of snmp/message/v1.py:39-111 and
snmp/message/v3.py:482-636. -/
def PSys.run {E M : Type} (p : Proto E M) (s : PSys E M) (h : List (PEvent E M)) : PSys E M :=
  h.foldl (PSys.step p) s

end Snmp
