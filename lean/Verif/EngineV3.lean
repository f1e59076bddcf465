import Verif.ManagerV3
/-!
# Several v3 managers of one engine

`snmp/engine.py` gives all its SNMPv3 managers one dispatcher, one message processor and one security module. Here any
number of managers (`VSys`) act on these, in any interleaving of their steps. A step of one manager is atomic also with
respect to the steps of the others. Each manager has a state of its own, in which the shared part (`Pool`) and the
bookkeeping of other managers' registrations (`held`) are not looked at. There is one listening thread: it hears the
next datagram only when it is through with the last one.
-/

namespace Snmp

/-- The configuration of a manager with the namespace `ns`. (snmp/engine.py:137-166) -/
def VCfg.at (cfg : VCfg) (ns : String) : VCfg := { cfg with ns }

/-- What the managers of an engine share: the security module, the message processor's cache, and how many messages
were made. (snmp/engine.py:44-60, 133-135; snmp/message/v3.py:485-498) -/
structure Pool where
  usm : Usm
  cache : Cache V3Entry
  nextMsg : Nat

namespace VMgr

/-- The shared part of a manager's state. (snmp/manager/v3.py:450-490) -/
def pool (m : VMgr) : Pool := ⟨m.usm, m.cache, m.nextMsg⟩

/-- The manager, with the shared part replaced. (snmp/manager/v3.py:450-490) -/
def on (m : VMgr) (p : Pool) : VMgr := { m with usm := p.usm, cache := p.cache, nextMsg := p.nextMsg }

end VMgr

/-- A manager of an engine: its namespace and its own state. (snmp/manager/v3.py:450-490) -/
structure EMgr where
  ns : String
  sys : VSys

/-- An engine: what its managers share, and its managers, numbered in order of creation. (snmp/engine.py:29-54) -/
structure ESys where
  pool : Pool
  count : Nat
  mgrs : Nat → Option EMgr

/-- Atomic steps of an engine. (snmp/engine.py:120-166; snmp/manager/v3.py:238-720; snmp/dispatcher.py:47-69) -/
inductive EEvent
  /-- a manager is created -/
  | create (ns : String) (engineID : Option Bytes) (g : Nat) (seed : Bytes → Nat)
  /-- manager `k`, or a thread in one of its methods, does a step -/
  | act (k : Nat) (e : VEvent)
  /-- the listening thread gets a datagram and finds out what to push -/
  | hear (w : Bytes) (stamp : ℚ)
  /-- some thread calls `addUser` of the security module -/
  | addUser (a : UserArgs) (seed : Bytes → Nat)

/-- The steps that managers do on their own. (snmp/manager/v3.py:238-720) -/
def VEvent.own : VEvent → Bool
  | .hear _ _ | .addUser _ _ | .other _ => false
  | _ => true

namespace ESys

/-- A new engine; `r` seeds the message processor's generator of message IDs. (snmp/engine.py:29-60;
snmp/message/v3.py:485-500) -/
def new (r : Nat) : ESys := { pool := ⟨Usm.new, Cache.new 31 false r, 0⟩, count := 0, mgrs := fun _ => none }

/-- What manager `a` sees of the engine: its own state and the shared part. (snmp/manager/v3.py:450-490) -/
def view (s : ESys) (a : EMgr) : VSys := { a.sys with mgr := a.sys.mgr.on s.pool }

/-- The listening thread is idle in manager `a`. (snmp/dispatcher.py:47-69) -/
def EMgr.idle (a : EMgr) : Bool :=
  match a.sys.listener with
  | .idle => true
  | _ => false

/-- The listening thread is idle. (snmp/dispatcher.py:47-69) -/
def idle (s : ESys) : Bool :=
  (List.range s.count).all fun k => match s.mgrs k with
    | none => true
    | some a => EMgr.idle a

/-- `handle()` is `None` (snmp/message/v3.py:567): no request of any manager keeps the message object. -/
def gone (s : ESys) (m : Nat) : Bool :=
  (List.range s.count).all fun k => match s.mgrs k with
    | none => true
    | some a => a.sys.mgr.gone m

/-- `prepareDataElements` as called by `Dispatcher.hear` (snmp/dispatcher.py:47-61, snmp/message/v3.py:537-591) for a
datagram: the message object and the message to push to it, if any, and the security module afterwards. Exceptions are
swallowed. -/
def receive (cfg : VCfg) (p : Pool) (gone : Nat → Bool) (w : Bytes) (stamp : ℚ) : Option (Nat × V3Incoming) × Usm :=
  match VersionOnly.decode (.bytes w) with
  | .error _ => (none, p.usm)
  | .ok (version, _) =>
    if version ≠ .v3 then (none, p.usm)
    else
      match V3Message.decode (.bytes w) with
      | .error _ => (none, p.usm)
      | .ok msg =>
        match p.usm.processIncoming cfg.backend cfg.crypto msg stamp with
        | (.error _, usm) => (none, usm)
        | (.ok msg, usm) =>
          match msg.scopedPDU, msg.securityEngineID, msg.securityName with
          | some pdu, some e, some n =>
            match v3Proto.prepareDataElements p.cache gone ⟨msg.header, pdu, e, n⟩ with
            | (.error _, _) => (none, usm)
            | (.ok m, _) => (some (m, ⟨msg.header, pdu, e, n⟩), usm)
          | _, _, _ => (none, usm)

/-- `handle.push(message)` comes next, where the handle is message object `m`; nothing happens to managers that do not
have it. (snmp/dispatcher.py:60-61) -/
def EMgr.toPush (a : EMgr) (m : Nat) (x : V3Incoming) : EMgr :=
  if a.sys.mgr.gone m then a else { a with sys := { a.sys with listener := .push m x } }

/-- `Engine.v3Manager` (snmp/engine.py:120-166), as far as managers are concerned: a manager is created, unless its
engine cannot be registered (snmp/manager/v3.py:450-490). Its user name and security level are not part of the model:
requests have their own. -/
def create (cfg : VCfg) (s : ESys) (ns : String) (engineID : Option Bytes) (g : Nat) (seed : Bytes → Nat) : ESys :=
  match VMgr.create (cfg.at ns) s.pool.usm engineID g s.pool.cache s.pool.nextMsg seed with
  | .error _ => { s with pool := { s.pool with usm := (changeEngine (cfg.at ns) s.pool.usm none engineID seed).2 } }
  | .ok m =>
    { s with pool := m.pool, count := s.count + 1
             mgrs := fun k => if k = s.count then some ⟨ns, VSys.init m⟩ else s.mgrs k }

/-- One atomic step; a step that is not enabled changes nothing. (snmp/engine.py:120-166; snmp/manager/v3.py:238-720;
snmp/dispatcher.py:47-69) -/
def step (cfg : VCfg) (s : ESys) : EEvent → ESys
  | .create ns engineID g seed => s.create cfg ns engineID g seed
  | .act k e =>
    match s.mgrs k with
    | none => s
    | some a =>
      if e.own then
        let v := (s.view a).step (cfg.at a.ns) e
        { s with pool := v.mgr.pool, mgrs := fun i => if i = k then some ⟨a.ns, v⟩ else s.mgrs i }
      else s
  | .hear w stamp =>
    if s.idle then
      match receive cfg s.pool s.gone w stamp with
      | (none, usm) => { s with pool := { s.pool with usm } }
      | (some (m, x), usm) =>
        { s with pool := { s.pool with usm }, mgrs := fun k => (s.mgrs k).map fun a => EMgr.toPush a m x }
    else s
  | .addUser a seed =>
    { s with pool := { s.pool with usm := { s.pool.usm with
        users := (s.pool.usm.users.addUser cfg.crypto a seed).2 } } }

/-- A history of an engine. Any interleaving of the steps of snmp/manager/v3.py:238-720. -/
def run (cfg : VCfg) (s : ESys) (h : List EEvent) : ESys := h.foldl (step cfg) s

end ESys

end Snmp
