import Verif.Py
/-!
# Small specifications of wire formats, independent of the model

Two's complement (X.690 8.3) and OBJECT IDENTIFIER contents (X.690 8.19).
-/

namespace Snmp.Spec

/-- Unsigned big-endian value. -/
def unsigned : Bytes → Nat
  | [] => 0
  | b :: rest => b.toNat * 256 ^ rest.length + unsigned rest

/-- Big-endian two's-complement value. -/
def twosComplement : Bytes → Int
  | [] => 0
  | b :: rest =>
    (if b.toNat < 128 then (b.toNat : Int) else (b.toNat : Int) - 256) * 256 ^ rest.length
      + unsigned rest

/-- A sub-identifier on the wire: continuation octets, then one octet without the bit. -/
def IsSubId (bs : Bytes) : Prop :=
  ∃ init last, bs = init ++ [last] ∧ (∀ b ∈ init, 128 ≤ b.toNat) ∧ last.toNat < 128

/-- The base-128 value of a group of octets. -/
def subIdValue (bs : Bytes) : Nat := bs.foldl (fun v b => v * 128 + b.toNat % 128) 0

/-- `body` is a well-formed OID body standing for the sub-identifiers `subs`, where the first octet
gives two sub-identifiers as quotient and remainder by 40. -/
def OidBody (body : Bytes) (subs : List Nat) : Prop :=
  ∃ (first : UInt8) (groups : List Bytes), body = first :: groups.flatten ∧
    (∀ g ∈ groups, IsSubId g) ∧
    subs = [first.toNat / 40, first.toNat % 40] ++ groups.map subIdValue

/-- RFC 2578 limits on an object identifier, given as integers. -/
def OidOk (subs : List Int) : Prop :=
  subs.length ≤ 128 ∧ (∀ x ∈ subs, 0 ≤ x ∧ x < 2 ^ 32) ∧
  (∀ x, subs[0]? = some x → x ≤ 2) ∧ (∀ x, subs[1]? = some x → x ≤ 39)

end Snmp.Spec
