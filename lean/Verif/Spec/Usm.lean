import Verif.BerLemmas
import Verif.Spec.Users
import Verif.Usm
/-!
# Specification of the security module: where the signature is, and histories of calls
-/

namespace Snmp

/-- The contents of the first tag-length-value element, and what follows the element. -/
def Spec.inside (w : Bytes) : Option Bytes := (readTLV w).map fun x => x.2.1
/-- See `Spec.inside`. -/
def Spec.skip (w : Bytes) : Option Bytes := (readTLV w).map fun x => x.2.2

/-- RFC 3412 section 6, RFC 3414 section 2.4: a message is a sequence of version, header, security
parameters and payload; the security parameters hold a sequence of engine ID, boots, time, user name,
signature and salt. The result is the signature and the number of octets of the message after it. -/
def Spec.signatureField (w : Bytes) : Option (Bytes × Nat) := do
  let message ← Spec.inside w
  let message ← Spec.skip message
  let message ← Spec.skip message
  let params ← Spec.inside message
  let payload ← Spec.skip message
  let fields ← Spec.inside params
  let fields ← Spec.skip fields
  let fields ← Spec.skip fields
  let fields ← Spec.skip fields
  let fields ← Spec.skip fields
  let signature ← Spec.inside fields
  let salt ← Spec.skip fields
  return (signature, salt.length + payload.length)

/-- What can happen to a security module: configuration calls, requests to protect a message, and
received messages (already decoded), at the given times. -/
inductive Spec.UsmOp
  | config (op : Spec.RegOp)
  | send (m : V3Message) (engineID securityName : Bytes) (timestamp : ℚ)
  | receive (m : V3Message) (timestamp : ℚ)

/-- The configuration calls of a history. -/
def Spec.configs (h : List Spec.UsmOp) : List Spec.RegOp :=
  h.filterMap fun
    | .config op => some op
    | _ => none

end Snmp
