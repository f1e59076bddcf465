import Verif.Users
/-!
# Specification of the user registry

What users and engine registrations amount to after a sequence of calls, without dictionaries,
objects or reference counts shared between them.
-/

namespace Snmp

/-- The calls. `seed` are the random salts the call would use; they have no influence here. -/
inductive Spec.RegOp
  | addUser (a : UserArgs) (seed : Bytes → Nat)
  | register (engineID : Bytes) (ns : String) (seed : Bytes → Nat)
  | unregister (engineID : Bytes) (ns : String)

/-- Per namespace and name the configured credentials and default level, per namespace the default
user, per engine the namespace it is registered under and how many times. -/
structure Spec.Reg where
  user : String → Bytes → Option (Credentials × SecurityLevel)
  defaultUser : String → Option Bytes
  engine : Bytes → Option (String × Nat)

/-- Nothing configured. -/
def Spec.Reg.empty : Spec.Reg := ⟨fun _ _ => none, fun _ => none, fun _ => none⟩

/-- The security level a user can be used at. -/
def Spec.supported (a : UserArgs) : SecurityLevel :=
  match a.authProtocol, a.privProtocol with
  | none, _ => noAuthNoPriv
  | some _, none => authNoPriv
  | some _, some _ => authPriv

/-- Adding a user. -/
def Spec.Reg.addUser (c : Crypto) (s : Spec.Reg) (a : UserArgs) : Res Bool × Spec.Reg :=
  match Credentials.new c a.authProtocol a.authSecret a.privProtocol a.privSecret a.secret with
  | .error e => (.error e, s)
  | .ok credentials =>
    let level := a.defaultSecurityLevel.getD (Spec.supported a)
    if (Spec.supported a).lt level then (.error .valueError, s)
    else
      match s.user a.namespace a.userName with
      | some old =>
        if old ≠ (credentials, level) ∨ (a.default = true ∧ s.defaultUser a.namespace ≠ some a.userName)
        then (.error .userNameCollision, s)
        else (.ok true, s)
      | none =>
        (.ok true,
          { s with
            user := fun ns n =>
              if ns = a.namespace ∧ n = a.userName then some (credentials, level) else s.user ns n
            defaultUser := fun ns =>
              if ns = a.namespace ∧ (a.default = true ∨ s.defaultUser ns = none) then some a.userName
              else s.defaultUser ns })

/-- Registering an engine. -/
def Spec.Reg.register (s : Spec.Reg) (engineID : Bytes) (ns : String) : Res Bool × Spec.Reg :=
  match s.engine engineID with
  | none => (.ok true, { s with engine := fun i => if i = engineID then some (ns, 1) else s.engine i })
  | some (ns', n) =>
    if ns' = ns then
      (.ok true, { s with engine := fun i => if i = engineID then some (ns, n + 1) else s.engine i })
    else (.ok false, s)

/-- Releasing an engine. -/
def Spec.Reg.unregister (s : Spec.Reg) (engineID : Bytes) (ns : String) : Res Bool × Spec.Reg :=
  match s.engine engineID with
  | none => (.error .libraryBug, s)
  | some (ns', n) =>
    if ns' = ns then
      if n = 1 then
        (.ok true, { s with engine := fun i => if i = engineID then none else s.engine i })
      else
        (.ok false,
          { s with engine := fun i => if i = engineID then some (ns, n - 1) else s.engine i })
    else (.ok false, s)

/-- One call: its result and the configuration afterwards. -/
def Spec.Reg.step (c : Crypto) (s : Spec.Reg) : Spec.RegOp → Res Bool × Spec.Reg
  | .addUser a _ => s.addUser c a
  | .register i ns _ => s.register i ns
  | .unregister i ns => s.unregister i ns

/-- After a sequence of calls. -/
def Spec.Reg.after (c : Crypto) (h : List Spec.RegOp) : Spec.Reg :=
  h.foldl (fun s op => (s.step c op).2) .empty

/-- `l` is `cr` localised to the engine: the keys are hashes of key, engine ID, key; DES keeps the
second half of the first 16 octets as pre-IV. The salt of the privacy object is not constrained. -/
def Spec.Localised (c : Crypto) (cr : Credentials) (engineID : Bytes) (l : LocalizedCredentials) :
    Prop :=
  match cr.auth with
  | none => l.auth = none ∧ l.priv = none
  | some (a, k) =>
    l.auth = some ⟨a, c.hash a (k ++ engineID ++ k)⟩ ∧
    match cr.priv with
    | none => l.priv = none
    | some (p, k') => ∃ salt, l.priv = some (
        let K := c.hash a (k' ++ engineID ++ k')
        match p with
        | .aesCfb128 => ⟨.aesCfb128, K.take 16, [], salt⟩
        | .desCbc => ⟨.desCbc, K.take 8, (K.take 16).drop 8, salt⟩)

end Snmp
