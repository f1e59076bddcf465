import Verif.Transport
import Verif.Users
/-!
# Model of `snmp/engine.py`

One thread calls the engine's methods. Transports and message processors are numbered in order of creation.
Of the managers, the arguments of their constructors are kept.
-/

namespace Snmp

/-- The argument `domain` of `Manager` (snmp/engine.py:174); `other` is an object that is not a key of
`TRANSPORTS`. -/
inductive DomainArg
  | absent
  | domain (d : Domain)
  | other
  deriving DecidableEq, Repr

/-- The argument `version` (snmp/engine.py:173): a `ProtocolVersion` or a number. -/
inductive VersionArg
  | absent
  | version (v : Version)
  | number (n : Int)
  deriving DecidableEq, Repr

/-- The argument `securityModel` (snmp/engine.py:124): a `SecurityModel` or a number. -/
inductive ModelArg
  | absent
  | model (m : SecurityModel)
  | number (n : Int)
  deriving DecidableEq, Repr

/-- The arguments of `Manager` (snmp/engine.py:171-178), with those it passes on to `v1Manager`, `v2cManager`
(82-86, 101-105) and `v3Manager` (120-128); `securityLevel` is `defaultSecurityLevel`. A user name is given by
its UTF-8 encoding. -/
structure ManagerArgs where
  address : AddrArg
  version : VersionArg := .absent
  domain : DomainArg := .absent
  localAddress : AddrArg := .absent
  autowait : Option Bool := none
  community : Option Bytes := none
  engineID : Option Bytes := none
  securityModel : ModelArg := .absent
  securityLevel : Option SecurityLevel := none
  userName : Option Bytes := none
  «namespace» : String := ""
  deriving DecidableEq, Repr

/-- What the constructors of the managers are given besides dispatcher and channel (snmp/engine.py:94-99,
113-118, 157-166). -/
inductive ManagerConfig
  | v1 (community : Bytes)
  | v2c (community : Bytes)
  | v3 («namespace» : String) (userName : Bytes) (level : SecurityLevel) (engineID : Option Bytes)
  deriving DecidableEq, Repr

/-- A manager: its channel (snmp/transport/__init__.py:44-52), `autowait` and the rest. -/
structure ManagerInfo where
  transport : Nat
  address : Address
  localAddress : Address
  autowait : Bool
  config : ManagerConfig
  deriving DecidableEq, Repr

/-- The version whose processor a manager uses. (snmp/engine.py:82-169) -/
def ManagerConfig.version : ManagerConfig → Version
  | .v1 _ => .v1
  | .v2c _ => .v2c
  | .v3 .. => .v3

/-- `Engine` (snmp/engine.py:29-54). `connected` are the transports given to the dispatcher, newest first, with
domain and, for those opened by the engine, local address; `processors` is the dispatcher's table;
`modules` says whether the security module was added to the SNMPv3 processor. -/
structure Engine where
  defaultVersion : Version := .v3
  defaultDomain : Domain := .udpIPv4
  defaultSecurityModel : SecurityModel := .usm
  defaultCommunity : Bytes := []
  autowaitDefault : Bool := true
  transports : Dict Domain (Dict Address Nat) := []
  connected : List (Nat × Domain × Option Address) := []
  processors : Dict Version Nat := []
  mpv1 : Option Nat := none
  mpv2c : Option Nat := none
  mpv3 : Option Nat := none
  modules : Bool := false
  usm : Option UserRegistry := none
  next : Nat := 0

namespace Engine

/-- The property `usm` (snmp/engine.py:56-60). -/
def getUsm (e : Engine) : UserRegistry × Engine :=
  match e.usm with
  | some u => (u, e)
  | none => (.new, { e with usm := some .new })

/-- `connectTransport` (snmp/engine.py:71-80) for a transport made by the caller; each domain of the model is a
key of `TRANSPORTS` (22-27). -/
def connectTransport (e : Engine) (d : Domain) : Res Nat × Engine :=
  match e.transports.get d with
  | some _ => (.error .valueError, e)
  | none =>
    (.ok e.next, { e with
      connected := (e.next, d, none) :: e.connected, next := e.next + 1
      transports := e.transports.set d [] })

/-- The transport for a local address in `Manager` (snmp/engine.py:205-216); `bind` is the exception raised when
the socket is opened, if any. -/
def transportFor (e : Engine) (d : Domain) (a : Address) (bind : Option PyErr) : Res Nat × Engine :=
  let (transports, e) : Dict Address Nat × Engine := match e.transports.get d with
    | some t => (t, e)
    | none => ([], { e with transports := e.transports.set d [] })
  match transports.get a with
  | some t => (.ok t, e)
  | none =>
    match bind with
    | some err => (.error err, e)
    | none =>
      (.ok e.next, { e with
        connected := (e.next, d, some a) :: e.connected, next := e.next + 1
        transports := e.transports.set d (transports.set a e.next) })

/-- `v1Manager` (snmp/engine.py:82-99). -/
def v1Manager (e : Engine) (community : Option Bytes) : Res ManagerConfig × Engine :=
  let e := match e.mpv1 with
    | some _ => e
    | none => { e with mpv1 := some e.next, processors := e.processors.set .v1 e.next, next := e.next + 1 }
  (.ok (.v1 (community.getD e.defaultCommunity)), e)

/-- `v2cManager` (snmp/engine.py:101-118). -/
def v2cManager (e : Engine) (community : Option Bytes) : Res ManagerConfig × Engine :=
  let e := match e.mpv2c with
    | some _ => e
    | none => { e with mpv2c := some e.next, processors := e.processors.set .v2c e.next, next := e.next + 1 }
  (.ok (.v2c (community.getD e.defaultCommunity)), e)

/-- The security model of `v3Manager` (snmp/engine.py:128-131). -/
def modelOf (e : Engine) (a : ManagerArgs) : Res SecurityModel :=
  match a.securityModel with
  | .absent => .ok e.defaultSecurityModel
  | .model m => .ok m
  | .number n => orRaise .valueError (SecurityModel.ofValue n)

/-- Registration of the processor in `v3Manager` (snmp/engine.py:133-135). -/
def withV3 (e : Engine) : Engine :=
  match e.mpv3 with
  | some _ => e
  | none => { e with mpv3 := some e.next, processors := e.processors.set .v3 e.next, next := e.next + 1 }

/-- The user name in `v3Manager` (snmp/engine.py:138-147). -/
def v3Name (u : UserRegistry) (a : ManagerArgs) : Res Bytes :=
  match a.userName with
  | some n => .ok n
  | none => (u.getDefaultUser a.namespace).bind fun n => orRaise .noDefaultUser n

/-- The security level in `v3Manager` (snmp/engine.py:149-153). -/
def v3Level (u : UserRegistry) (a : ManagerArgs) (name : Bytes) : Res SecurityLevel :=
  match a.securityLevel with
  | some l => .ok l
  | none => u.getDefaultSecurityLevel name a.namespace

/-- The engine after the defaults were looked up (snmp/engine.py:141-153): `self.usm` is read if one of them is
needed. -/
def v3Looked (e : Engine) (a : ManagerArgs) : Engine :=
  match a.userName, a.securityLevel with
  | some _, some _ => e
  | _, _ => e.getUsm.2

/-- The constructor call at the end of `v3Manager` (snmp/engine.py:155-166, snmp/manager/v3.py:484-490, 499-510,
577-587): registers the engine ID, if one is given. -/
def v3Create (c : Crypto) (e : Engine) (u : UserRegistry) (engineID : Option Bytes) (ns : String)
    (seed : Bytes → Nat) : Res Unit × Engine :=
  match engineID with
  | none => (.ok (), e)
  | some id =>
    match u.assign c id ns seed with
    | (.error err, u) => (.error err, { e with usm := some u })
    | (.ok false, u) => (.error .discoveryError, { e with usm := some u })
    | (.ok true, u) => (.ok (), { e with usm := some u })

/-- The end of `v3Manager` (snmp/engine.py:155-166). -/
def v3Finish (c : Crypto) (e : Engine) (a : ManagerArgs) (seed : Bytes → Nat) (name : Bytes)
    (level : SecurityLevel) : Res ManagerConfig × Engine :=
  let r := v3Create c { e.getUsm.2 with modules := true } e.getUsm.1 a.engineID a.namespace seed
  (r.1.bind fun _ => .ok (.v3 a.namespace name level a.engineID), r.2)

/-- `v3Manager` (snmp/engine.py:120-169); USM is the only security model there is. -/
def v3Manager (c : Crypto) (e : Engine) (a : ManagerArgs) (seed : Bytes → Nat) : Res ManagerConfig × Engine :=
  match e.modelOf a with
  | .error err => (.error err, e)
  | .ok .usm =>
    match v3Name (e.usm.getD .new) a with
    | .error err => (.error err, e.withV3.v3Looked a)
    | .ok name =>
      match v3Level (e.usm.getD .new) a name with
      | .error err => (.error err, e.withV3.v3Looked a)
      | .ok level => (e.withV3.v3Looked a).v3Finish c a seed name level

/-- The domain in `Manager` (snmp/engine.py:183-193); for one that is not in `TRANSPORTS`, the message of the
exception reads the unbound `transportClass` (192). -/
def domainOf (e : Engine) (a : ManagerArgs) : Res Domain :=
  match a.domain with
  | .absent => .ok e.defaultDomain
  | .domain d => .ok d
  | .other => .error .unboundLocalError

/-- The version in `Manager` (snmp/engine.py:220-223). -/
def versionOf (e : Engine) (a : ManagerArgs) : Res Version :=
  match a.version with
  | .absent => .ok e.defaultVersion
  | .version v => .ok v
  | .number n => orRaise .valueError (Version.ofValue n)

/-- The choice of the manager's class in `Manager` (snmp/engine.py:225-232). -/
def configFor (c : Crypto) (e : Engine) (a : ManagerArgs) (seed : Bytes → Nat) :
    Version → Res ManagerConfig × Engine
  | .v3 => e.v3Manager c a seed
  | .v2c => e.v2cManager a.community
  | .v1 => e.v1Manager a.community

/-- `Manager` (snmp/engine.py:171-232). -/
def manager (c : Crypto) (pton : Domain → String → Bool) (e : Engine) (a : ManagerArgs) (bind : Option PyErr)
    (seed : Bytes → Nat) : Res ManagerInfo × Engine :=
  match e.domainOf a with
  | .error err => (.error err, e)
  | .ok d =>
    match normalizeAddress pton d a.address (some .listener) with
    | .error err => (.error err, e)
    | .ok address =>
      match normalizeAddress pton d a.localAddress (some .sender) with
      | .error err => (.error err, e)
      | .ok localAddress =>
        match e.transportFor d localAddress bind with
        | (.error err, e) => (.error err, e)
        | (.ok transport, e) =>
          match e.versionOf a with
          | .error err => (.error err, e)
          | .ok v =>
            ((e.configFor c a seed v).1.bind fun config =>
              .ok ⟨transport, address, localAddress, a.autowait.getD e.autowaitDefault, config⟩,
            (e.configFor c a seed v).2)

/-- What can happen to an engine. (snmp/engine.py:57-232) -/
inductive Event
  | manager (a : ManagerArgs) (bind : Option PyErr) (seed : Bytes → Nat)
  | connectTransport (d : Domain)
  | addUser (a : UserArgs) (seed : Bytes → Nat)

/-- One call; the last one is `engine.usm.addUser` (snmp/security/usm/implementation.py:48-70). -/
def step (c : Crypto) (pton : Domain → String → Bool) (e : Engine) : Event → Engine
  | .manager a bind seed => (e.manager c pton a bind seed).2
  | .connectTransport d => (e.connectTransport d).2
  | .addUser a seed =>
    let (u, e) := e.getUsm
    { e with usm := some (u.addUser c a seed).2 }

/-- A history of calls. Any sequence of calls of the methods at snmp/engine.py:57-232. -/
def run (c : Crypto) (pton : Domain → String → Bool) (e : Engine) (h : List Event) : Engine :=
  h.foldl (step c pton) e

/-- `Engine(...)` (snmp/engine.py:29-54). -/
def create (version : Version) (domain : Domain) (model : SecurityModel) (community : Bytes) (autowait : Bool) :
    Engine :=
  { defaultVersion := version, defaultDomain := domain, defaultSecurityModel := model
    defaultCommunity := community, autowaitDefault := autowait }

end Engine

end Snmp
