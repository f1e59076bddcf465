import Verif.ManagerCommunity
/-! # Specification: requests of a v1/v2c manager and the datagrams that answer them -/

namespace Snmp

/-- In the history `h` a datagram was heard that is, in the manager's protocol version, a ResponsePDU with
the request's ID and community; `m` is its content. -/
structure Spec.Answers (v : Version) (h : List CEvent) (q : CReq) (m : Message) : Prop where
  heard : ∃ w tail, CEvent.hear w ∈ h ∧
    Message.decode (if v = .v1 then v1Types else v2Types) (.bytes w) = .ok (m, tail)
  version : m.version = v
  response : m.pdu.type = .response
  assigned : q.pdu.requestID ≠ 0
  requestID : m.pdu.requestID = q.pdu.requestID
  community : m.community = q.community

/-- The request `r` was created by a `sendRequest` of its manager in the history, and its refresh time is its
expiration, or lies a whole number of periods after it was first sent. -/
def Spec.Born (h : List CEvent) (r : Nat) (q : CReq) : Prop :=
  ∃ pdu timeout t0 t1 draws chan, CEvent.send q.manager r pdu q.community timeout q.period t0 t1 draws chan ∈ h ∧
    q.expiration = t0 + timeout ∧ (∃ id, q.pdu = { pdu with requestID := id }) ∧
    (pdu.requestID ≠ 0 → q.pdu.requestID = pdu.requestID) ∧
    q.nextRefresh ≤ q.expiration ∧
    (q.nextRefresh = q.expiration ∨ ∃ k : ℤ, q.nextRefresh = t1 + k * q.period ∧ (0 < q.period → 1 ≤ k))

end Snmp
