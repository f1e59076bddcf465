import Verif.Usm
/-!
# The security module called from several threads

`Usm.lean` runs a whole `prepareOutgoing` or `processIncoming` without interference. Here any number of threads
are inside such calls at the same time: what a call does under `userLock`, and what it does under `timeLock`, are
separate steps, and anything can happen in between. No lock is held across another step, so a step never blocks.

The salt counters are shared without any lock (C62 is about them). Here a message is encrypted with whatever value
the counter of the key happens to have: every encryption is given an arbitrary one, and the counters kept in the
registry are not used.
-/

namespace Snmp

/-- A call of the security module (snmp/security/usm/implementation.py:102-107, 171-174). -/
inductive UCall
  | outgoing (m : V3Message) (engineID securityName : Bytes) (timestamp : ℚ)
  | incoming (m : V3Message) (timestamp : ℚ)

/-- What a call returns or raises (snmp/security/usm/implementation.py:169, 171-260). -/
inductive UResult
  | sent (r : Res Bytes)
  | received (r : Res V3Message)

/-- Where a thread is (snmp/security/usm/implementation.py:102-260). -/
inductive UPc
  /-- in no call -/
  | idle
  /-- before `with self.userLock`, or, for a message without authentication, before `with self.timeLock`
  (lines 111-112, 186-187, 199-200) -/
  | start (k : UCall)
  /-- before `with self.timeLock`, having found the user (lines 120, 234) -/
  | lookedOut (m : V3Message) (engineID securityName : Bytes) (timestamp : ℚ) (user : LocalizedCredentials)
    (auth : AuthKey)
  | lookedIn (m : V3Message) (timestamp : ℚ) (p : UsmParams) (user : LocalizedCredentials)

/-- The security module and the threads that use it (snmp/security/usm/implementation.py:41-46); `returned` are
the calls that are over, the last one first. -/
structure USys where
  usm : Usm
  pc : Nat → UPc
  returned : List (Nat × UCall × UResult)

/-- What happens: calls of `addUser`, `registerRemoteEngine` and `unregisterRemoteEngine`, which are one step
each, a thread begins a call, a thread takes the next step of its call, in which the salt counter of the key has
the value `salt` (snmp/security/usm/implementation.py:48-100, 102-260). -/
inductive UEvent
  | addUser (a : UserArgs) (seed : Bytes → Nat)
  | register (engineID : Bytes) (ns : String) (seed : Bytes → Nat)
  | unregister (engineID : Bytes) (ns : String)
  | call (t : Nat) (k : UCall)
  | step (t : Nat) (salt : Nat)

namespace USys

/-- Nothing configured, no calls (snmp/security/usm/implementation.py:41-46). -/
def init : USys := ⟨.new, fun _ => .idle, []⟩

/-- Thread `t` goes on at `pc`. (snmp/security/usm/implementation.py:102-260) -/
def goto (s : USys) (t : Nat) (pc : UPc) : USys := { s with pc := fun i => if i = t then pc else s.pc i }

/-- Thread `t` returns from the call `k`. (snmp/security/usm/implementation.py:102-260) -/
def ret (s : USys) (t : Nat) (k : UCall) (r : UResult) : USys :=
  { s.goto t .idle with returned := (t, k, r) :: s.returned }

/-- The rest of `prepareOutgoing` once boots and time are known
(snmp/security/usm/implementation.py:123-169). -/
def sealUp (b : Backend) (c : Crypto) (m : V3Message) (engineID securityName : Bytes) (boots time : Int)
    (user : LocalizedCredentials) (auth : AuthKey) (salt : Nat) : Res Bytes :=
  if m.header.flags.level.priv then
    match user.priv with
    | none => .error .invalidSecurityLevel
    | some priv =>
      match m.scopedPDU with
      | none => .error .assertionError
      | some s =>
        s.encode.bind fun data =>
        (({ priv with salt } : PrivKey).encrypt b c data boots time).1.bind fun (ciphertext, msgPrivacyParameters) =>
        (octetStringNew (.bytes ciphertext)).bind fun ciphertext =>
        Usm.finish c { m with encryptedPDU := some ciphertext.copy } engineID boots time securityName
          auth.proto.padding msgPrivacyParameters (some auth)
  else Usm.finish c m engineID boots time securityName auth.proto.padding [] (some auth)

/-- The rest of `processIncoming` once the time has been verified (snmp/security/usm/implementation.py:241-260). -/
def openUp (b : Backend) (c : Crypto) (m : V3Message) (p : UsmParams) (user : LocalizedCredentials)
    (within : Bool) : Res V3Message :=
  if !within then .error .notInTimeWindow
  else if m.header.flags.level.priv then
    match user.priv, m.encryptedPDU with
    | some priv, some ciphertext =>
      translateErr PyErr.isValueError .decryptionError (
        (priv.decrypt b c ciphertext p.engineBoots p.engineTime p.salt).bind fun plaintext =>
        (decodePlaintext plaintext).bind fun s => .ok { m with scopedPDU := some s })
    | _, _ => .error .typeError
  else .ok m

/-- The first step of a call of `prepareOutgoing` (snmp/security/usm/implementation.py:111-118); a message
without authentication needs no other. -/
def startOut (c : Crypto) (s : USys) (t : Nat) (m : V3Message) (engineID securityName : Bytes)
    (timestamp : ℚ) : USys :=
  let k := UCall.outgoing m engineID securityName timestamp
  if m.header.flags.level.auth then
    match s.usm.users.getCredentials engineID securityName with
    | .error e => s.ret t k (.sent (.error e))
    | .ok user =>
      match user.auth with
      | none => s.ret t k (.sent (.error .invalidSecurityLevel))
      | some auth => s.goto t (.lookedOut m engineID securityName timestamp user auth)
  else s.ret t k (.sent (Usm.finish c m engineID 0 0 securityName [] [] none))

/-- The first step of a call of `processIncoming` (snmp/security/usm/implementation.py:178-231); a message
without authentication needs no other. -/
def startIn (c : Crypto) (s : USys) (t : Nat) (m : V3Message) (timestamp : ℚ) : USys :=
  let k := UCall.incoming m timestamp
  match UsmParams.decode m.securityParameters with
  | .error e => s.ret t k (.received (.error e))
  | .ok p =>
    let m' := { m with securityEngineID := some p.engineID, securityName := some p.userName }
    if !m.header.flags.level.auth then
      let timekeeper := s.usm.timekeeper.hint p.engineID p.engineBoots p.engineTime timestamp
      ({ s with usm := ⟨timekeeper, s.usm.users⟩ } : USys).ret t k (.received (.ok m'))
    else
      match s.usm.users.getCredentials p.engineID p.userName with
      | .error .invalidEngineID => s.ret t k (.received (.error .unknownEngineID))
      | .error .invalidUserName => s.ret t k (.received (.error .unknownUserName))
      | .error e => s.ret t k (.received (.error e))
      | .ok user =>
        match Usm.authenticate c m' p user with
        | .error e => s.ret t k (.received (.error e))
        | .ok () => s.goto t (.lookedIn m timestamp p user)

/-- One event. (snmp/security/usm/implementation.py:48-260) -/
def step (b : Backend) (c : Crypto) (s : USys) : UEvent → USys
  | .addUser a seed => { s with usm := ⟨s.usm.timekeeper, (s.usm.users.addUser c a seed).2⟩ }
  | .register engineID ns seed => { s with usm := ⟨s.usm.timekeeper, (s.usm.users.assign c engineID ns seed).2⟩ }
  | .unregister engineID ns => { s with usm := ⟨s.usm.timekeeper, (s.usm.users.release engineID ns).2⟩ }
  | .call t k =>
    match s.pc t with
    | .idle => s.goto t (.start k)
    | _ => s
  | .step t salt =>
    match s.pc t with
    | .idle => s
    | .start (.outgoing m engineID securityName timestamp) => s.startOut c t m engineID securityName timestamp
    | .start (.incoming m timestamp) => s.startIn c t m timestamp
    | .lookedOut m engineID securityName timestamp user auth =>
      let (boots, time) := s.usm.timekeeper.getEngineTime engineID timestamp
      s.ret t (.outgoing m engineID securityName timestamp)
        (.sent (sealUp b c m engineID securityName boots time user auth salt))
    | .lookedIn m timestamp p user =>
      let (within, timekeeper) :=
        s.usm.timekeeper.updateAndVerify p.engineID p.engineBoots p.engineTime timestamp
      let m' := { m with securityEngineID := some p.engineID, securityName := some p.userName }
      ({ s with usm := ⟨timekeeper, s.usm.users⟩ } : USys).ret t (.incoming m timestamp)
        (.received (openUp b c m' p user within))

/-- After a sequence of events. (snmp/security/usm/implementation.py:38-260) -/
def after (b : Backend) (c : Crypto) (h : List UEvent) : USys := h.foldl (step b c) init

end USys

end Snmp
