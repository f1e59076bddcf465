import Verif.Auth
import Verif.Dict
/-!
# Model of `snmp/security/usm/users.py`

The registry is only used under `userLock`, so its operations are atomic.
-/

namespace Snmp

/-- `UserConfig` (snmp/security/usm/users.py:23-40). -/
structure UserConfig where
  credentials : Credentials
  defaultSecurityLevel : SecurityLevel
  deriving DecidableEq, Repr

/-- `UserConfig.__init__` (snmp/security/usm/users.py:24-40); `a > b` is `b < a`
(snmp/security/levels.py:46-50). -/
def UserConfig.new (credentials : Credentials) (level : Option SecurityLevel) : Res UserConfig :=
  match level with
  | none => .ok ⟨credentials, credentials.maxSecurityLevel⟩
  | some l =>
    if credentials.maxSecurityLevel.lt l then .error .valueError else .ok ⟨credentials, l⟩

/-- `UserConfig.__eq__` (snmp/security/usm/users.py:42-48). -/
def UserConfig.eq (a b : UserConfig) : Bool :=
  a.credentials.eq b.credentials && a.defaultSecurityLevel = b.defaultSecurityLevel

/-- `NamespaceConfig` (snmp/security/usm/users.py:50-53). -/
structure NamespaceConfig where
  defaultUserName : Option Bytes
  users : Dict Bytes UserConfig
  deriving DecidableEq, Repr

/-- `NamespaceConfig.addUser` (snmp/security/usm/users.py:59-74). -/
def NamespaceConfig.addUser (n : NamespaceConfig) (userName : Bytes) (credentials : Credentials)
    (level : Option SecurityLevel) (default : Bool) : Res NamespaceConfig :=
  (UserConfig.new credentials level).bind fun config =>
  let new : NamespaceConfig :=
    { defaultUserName :=
        if default || n.defaultUserName.isNone then some userName else n.defaultUserName
      users := n.users.set userName config }
  match n.users.get userName with
  | some old =>
    if !(config.eq old) || (default && decide (some userName ≠ n.defaultUserName)) then
      .error .userNameCollision
    else .ok new
  | none => .ok new

/-- `NamespaceConfig.findUser` (snmp/security/usm/users.py:76-80). -/
def NamespaceConfig.findUser (n : NamespaceConfig) (userName : Bytes) : Res UserConfig :=
  orRaise .invalidUserName (n.users.get userName)

/-- `RemoteEngine` (snmp/security/usm/users.py:82-93). -/
structure RemoteEngine where
  count : Int
  «namespace» : String
  users : Dict Bytes LocalizedCredentials
  deriving DecidableEq, Repr

namespace RemoteEngine

/-- `RemoteEngine.addUser` (snmp/security/usm/users.py:95-100). -/
def addUser (c : Crypto) (e : RemoteEngine) (engineID userName : Bytes) (credentials : Credentials)
    (seed : Nat) : Res RemoteEngine :=
  (credentials.localize c engineID seed).bind fun l => .ok { e with users := e.users.set userName l }

/-- The loop of `RemoteEngine.__init__` (snmp/security/usm/users.py:92-93). -/
def addUsers (c : Crypto) (engineID : Bytes) (seed : Bytes → Nat) :
    Dict Bytes UserConfig → RemoteEngine → Res RemoteEngine
  | [], e => .ok e
  | (userName, config) :: rest, e =>
    (e.addUser c engineID userName config.credentials (seed userName)).bind fun e =>
    addUsers c engineID seed rest e

/-- `RemoteEngine.__init__` (snmp/security/usm/users.py:83-93); `seed` gives the random salt of each
user. -/
def new (c : Crypto) (engineID : Bytes) (ns : String) (config : Option NamespaceConfig)
    (seed : Bytes → Nat) : Res RemoteEngine :=
  match config with
  | none => .ok ⟨1, ns, []⟩
  | some config => addUsers c engineID seed config.users ⟨1, ns, []⟩

/-- `RemoteEngine.getCredentials` (snmp/security/usm/users.py:102-106). -/
def getCredentials (e : RemoteEngine) (userName : Bytes) : Res LocalizedCredentials :=
  orRaise .invalidUserName (e.users.get userName)

/-- `RemoteEngine.assign` (snmp/security/usm/users.py:108-114). -/
def assign (e : RemoteEngine) (ns : String) : Bool × RemoteEngine :=
  if ns = e.namespace then (true, { e with count := e.count + 1 }) else (false, e)

/-- `RemoteEngine.release` (snmp/security/usm/users.py:116-121). -/
def release (e : RemoteEngine) (ns : String) : Res (Bool × RemoteEngine) :=
  if e.namespace = ns then
    if 0 < e.count then .ok (e.count - 1 = 0, { e with count := e.count - 1 })
    else .error .assertionError
  else .ok (e.count = 0, e)

end RemoteEngine

/-- The arguments of `addUser` (snmp/security/usm/users.py:129-139, implementation.py:48-58); the name
is UTF-8 encoded by the security module. -/
structure UserArgs where
  userName : Bytes
  authProtocol : Option AuthProto := none
  authSecret : Option Bytes := none
  privProtocol : Option PrivProto := none
  privSecret : Option Bytes := none
  secret : Bytes := []
  default : Bool := false
  defaultSecurityLevel : Option SecurityLevel := none
  «namespace» : String := ""
  deriving DecidableEq, Repr

/-- `UserRegistry` (snmp/security/usm/users.py:123-127); its `users` attribute is never used. -/
structure UserRegistry where
  engines : Dict Bytes RemoteEngine
  namespaces : Dict String NamespaceConfig
  deriving DecidableEq, Repr

namespace UserRegistry

/-- `__init__` (snmp/security/usm/users.py:124-127). -/
def new : UserRegistry := ⟨[], []⟩

/-- The loop at the end of `addUser` (snmp/security/usm/users.py:156-158): the engines visited so far
are already changed when one raises. -/
def addToEngines (c : Crypto) (ns : String) (userName : Bytes) (credentials : Credentials)
    (seed : Bytes → Nat) : Dict Bytes RemoteEngine → Res Unit × Dict Bytes RemoteEngine
  | [] => (.ok (), [])
  | (engineID, engine) :: rest =>
    if engine.namespace = ns then
      match engine.addUser c engineID userName credentials (seed engineID) with
      | .error e => (.error e, (engineID, engine) :: rest)
      | .ok engine =>
        let (r, rest) := addToEngines c ns userName credentials seed rest
        (r, (engineID, engine) :: rest)
    else
      let (r, rest) := addToEngines c ns userName credentials seed rest
      (r, (engineID, engine) :: rest)

/-- `addUser` (snmp/security/usm/users.py:129-158); `seed` gives the random salt for each engine. -/
def addUser (c : Crypto) (r : UserRegistry) (a : UserArgs) (seed : Bytes → Nat) :
    Res Unit × UserRegistry :=
  let (config, namespaces) := match r.namespaces.get a.namespace with
    | some config => (config, r.namespaces)
    | none => (⟨none, []⟩, r.namespaces.set a.namespace ⟨none, []⟩)
  let r := { r with namespaces }
  match Credentials.new c a.authProtocol a.authSecret a.privProtocol a.privSecret a.secret with
  | .error e => (.error e, r)
  | .ok credentials =>
    match config.addUser a.userName credentials a.defaultSecurityLevel a.default with
    | .error e => (.error e, r)
    | .ok config =>
      let r := { r with namespaces := r.namespaces.set a.namespace config }
      let (res, engines) := addToEngines c a.namespace a.userName credentials seed r.engines
      (res, { r with engines })

/-- `assign` (snmp/security/usm/users.py:160-172). -/
def assign (c : Crypto) (r : UserRegistry) (engineID : Bytes) (ns : String) (seed : Bytes → Nat) :
    Res Bool × UserRegistry :=
  match r.engines.get engineID with
  | none =>
    match RemoteEngine.new c engineID ns (r.namespaces.get ns) seed with
    | .error e => (.error e, r)
    | .ok peer => (.ok true, { r with engines := r.engines.set engineID peer })
  | some peer =>
    let (assigned, peer) := peer.assign ns
    (.ok assigned, { r with engines := r.engines.set engineID peer })

/-- `release` (snmp/security/usm/users.py:174-188), with `__debug__` true. -/
def release (r : UserRegistry) (engineID : Bytes) (ns : String) : Res Bool × UserRegistry :=
  match r.engines.get engineID with
  | none => (.error .libraryBug, r)
  | some peer =>
    match peer.release ns with
    | .error e => (.error e, r)
    | .ok (true, _) => (.ok true, { r with engines := r.engines.del engineID })
    | .ok (false, peer) => (.ok false, { r with engines := r.engines.set engineID peer })

/-- `getCredentials` (snmp/security/usm/users.py:190-199). -/
def getCredentials (r : UserRegistry) (engineID userName : Bytes) : Res LocalizedCredentials :=
  (orRaise .invalidEngineID (r.engines.get engineID)).bind fun peer => peer.getCredentials userName

/-- `getNamespace` (snmp/security/usm/users.py:211-220). -/
def getNamespace (r : UserRegistry) (ns : String) : Res NamespaceConfig :=
  orRaise .valueError (r.namespaces.get ns)

/-- `getDefaultSecurityLevel` (snmp/security/usm/users.py:201-206). -/
def getDefaultSecurityLevel (r : UserRegistry) (userName : Bytes) (ns : String) : Res SecurityLevel :=
  (r.getNamespace ns).bind fun config =>
  (config.findUser userName).bind fun u => .ok u.defaultSecurityLevel

/-- `getDefaultUser` (snmp/security/usm/users.py:208-209). -/
def getDefaultUser (r : UserRegistry) (ns : String) : Res (Option Bytes) :=
  (r.getNamespace ns).bind fun config => .ok config.defaultUserName

end UserRegistry

end Snmp
