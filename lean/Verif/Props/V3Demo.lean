import Verif.Props.V3Kept
import Verif.Props.V3Schedule
/-!
# Concrete histories of a v3 manager

They show that the hypotheses of the theorems about v3 managers are met, and that some properties are false.
-/

namespace Snmp

open VSys

deriving instance DecidableEq for WeakKey
deriving instance DecidableEq for Ref
deriving instance DecidableEq for VPc
deriving instance DecidableEq for VListen

namespace Spec

/-- Primitives that meet the assumptions and do not look at their input, so that the kernel can evaluate
histories. -/
def flatCrypto : Crypto where
  hash p _ := List.replicate p.digestSize 1
  hmac p _ _ := List.replicate p.digestSize 2
  aes _ b := b
  desEnc _ b := b
  desDec _ b := b
  beyond _ := List.replicate 8 7

theorem flatCrypto_ok : flatCrypto.Ok := by
  constructor <;> intros <;> simp_all [flatCrypto]

/-- The default namespace, and a manager that accepts every user name in a report. -/
def demoCfg : VCfg := ⟨.pycryptodome, flatCrypto, "", 1472, fun _ => true⟩

/-- One user, "a", with a password for authentication and privacy. -/
def demoUsers : List UsmOp := [.config (.addUser sampleUser fun _ => 0)]

/-- A manager with that user; it knows the engine ID or not. -/
def demo (engineID : Option Bytes) : VMgr :=
  match VMgr.create demoCfg (Usm.after demoCfg.backend demoCfg.crypto demoUsers) engineID 1 (Cache.new 31 false 1) 0
    (fun _ => 0) with
  | .ok m => m
  | .error _ =>
    { reqs := fun _ => none, dead := fun _ => false, msgs := fun _ => none, bools := fun _ => false
      nextReq := 0, nextMsg := 0, nextBool := 0, active := [], unsent := [], state := .inactive
      next := none, engineID := none, gen := ⟨0, 0, 0, 0⟩, cache := ⟨⟨0, 0, 0, 0⟩, fun _ => none⟩, usm := .new
      locked := false, sent := [], fails := [] }

theorem demo_created (engineID : Option Bytes) (h : engineID = none ∨ engineID = some [1]) :
    Created demoCfg (demo engineID) := by
  have ok : ∀ {α : Type} {x : Res α}, x.isOk = true → ∃ m, x = .ok m := by
    intro α x hx
    cases x with
    | error e => cases hx
    | ok m => exact ⟨m, rfl⟩
  refine ⟨flatCrypto_ok, demoUsers, engineID, 1, Cache.new 31 false 1, 0, fun _ => 0, (fun _ _ h => by cases h), ?_⟩
  obtain ⟨m, hm⟩ : ∃ m, VMgr.create demoCfg (Usm.after demoCfg.backend demoCfg.crypto demoUsers) engineID 1
      (Cache.new 31 false 1) 0
      (fun _ => 0) = .ok m := ok (by rcases h with rfl | rfl <;> decide +kernel)
  have : demo engineID = m := by unfold demo; rw [hm]
  rw [this]; exact hm

end Spec

namespace Demo

open Spec

/-- What the environment does during a send at time `now`. -/
def input (now : ℚ) (chan : Option PyErr := none) : SendIn := ⟨now, fun _ => 1, now, chan, fun _ => 0⟩

/-- At time `now`, `sendRequest` of a GetRequest without bindings by user "a". -/
def issue (now timeout period : ℚ) (level : SecurityLevel := noAuthNoPriv) (chan : Option PyErr := none) : VEvent :=
  .send ⟨.getRequest, 0, 0, 0, []⟩ [97] level timeout period now 1 (input now chan)

/-- Thread `t` does a step at time `now`. -/
def at_ (t : Nat) (now : ℚ) (chan : Option PyErr := none) : VEvent := .step t (input now chan)

/-- The listening thread does a step at time `now`. -/
def deliver (now : ℚ) (chan : Option PyErr := none) : VEvent := .listen (input now chan)

/-- A datagram with message ID `id`. -/
def datagram (level : SecurityLevel) (id : Int) (engineID user : Bytes) (pdu : Pdu) : Bytes :=
  match (do
    let p ← (UsmParams.new engineID 0 0 user
      (.bytes (if level.auth then List.replicate 12 2 else [])) []).encode
    ({ header := ⟨id, 1472, ⟨level, false⟩, .usm⟩, scopedPDU := some ⟨pdu, engineID, []⟩
       securityParameters := .bytes p } : V3Message).encode) with
  | .ok w => w
  | .error _ => []

/-- It arrives at time `now`. -/
def arrives (now : ℚ) (level : SecurityLevel) (id : Int) (engineID user : Bytes) (pdu : Pdu) : VEvent :=
  .hear (datagram level id engineID user pdu) now

/-- A report. -/
def aReport (name : List Nat) : Pdu := ⟨.report, 0, 0, 0, [⟨name, .int .counter32 1⟩]⟩

/-- A response with one binding. -/
def aResponse : Pdu := ⟨.response, 0, 0, 0, [⟨[1, 3, 6], .null⟩]⟩

/-- What the security module makes of such a datagram. -/
def received (level : SecurityLevel) (id : Int) (engineID user : Bytes) (pdu : Pdu) : V3Incoming :=
  ⟨⟨id, 1472, ⟨level, false⟩, .usm⟩, ⟨pdu, engineID, []⟩, engineID, user⟩

end Demo
end Snmp
