import Verif.Dispatcher
/-!
# Starting and stopping the listening thread, with the generic multiplexor

`GenericUdpMultiplexor` (snmp/transport/generic/udp.py) is used where there is no `poll`. It stops its
listening thread with a datagram sent over the loopback interface, from its socket `w` to its socket `r`.
Anybody on the host can send datagrams to `r`.
-/

namespace Snmp

/-- `queue` has what the next reads of `r` will give, oldest first; `sockets` the keys of the multiplexor's
dictionary, `r` and `w` exist iff it is not empty; `closed` says whether `r` and `w` are closed; `failed` the
exceptions raised in the caller. (snmp/dispatcher.py:16-45,89-95; snmp/transport/generic/udp.py:13-70) -/
structure GSys where
  main : LMain
  thread : LThread
  queue : List Read
  sockets : List Fd
  closed : Bool
  heard : List (Fd × Address × Bytes)
  failed : List PyErr
  deriving DecidableEq, Repr

/-- Steps. (snmp/dispatcher.py:32-45,89-95; snmp/transport/generic/udp.py:33-56) -/
inductive GEvent
  /-- a call of `connectTransport` begins -/
  | connect (sock : Fd)
  /-- a call of `shutdown` begins -/
  | shutdown
  /-- `join` returns -/
  | joined
  /-- the listening thread goes through one round; the list has the ready sockets in the order of `select`,
  and the number tells where in it `r` comes, if it is readable -/
  | round (ready : List (Fd × Read)) (pos : Nat)
  /-- a datagram arrives at `r` that the multiplexor did not send; or an error is pending there -/
  | stray (read : Read)

namespace GSys

/-- A new `Dispatcher` (snmp/dispatcher.py:16-26, snmp/transport/generic/udp.py:13-17). -/
def init : GSys := ⟨.outside, .absent, [], [], false, [], []⟩

/-- The rest of `connectTransport` (snmp/dispatcher.py:39-45, snmp/transport/generic/udp.py:19-43): a new
thread watches every socket. `register` makes `r` and `w` only once; if they are closed `r.fileno()` is -1 and
`select` raises `ValueError`, which ends the thread. -/
def start (s : GSys) (sock : Fd) : GSys :=
  let sockets := if sock ∈ s.sockets then s.sockets else s.sockets ++ [sock]
  { s with main := .outside, sockets, thread := if s.closed then .ended else .running sockets }

/-- The rest of `shutdown` (snmp/dispatcher.py:94-95, snmp/transport/generic/udp.py:63-70); `close` of a closed
`socket` does nothing. -/
def close (s : GSys) : GSys :=
  { s with main := .outside, closed := s.closed || !s.sockets.isEmpty, thread := .absent }

/-- The descriptor of `r`; sockets have other numbers. (snmp/transport/generic/udp.py:24) -/
def rFd : Fd := 0

/-- `stop()` (snmp/transport/generic/udp.py:58-61), called when there is a thread, hence a socket; then the
call waits at `join` as `main`. On a closed socket `sendto` raises `OSError`. The datagram is never lost.
`w` is the address of the socket `w`. -/
def stop (w : Address) (s : GSys) (main : LMain) : GSys :=
  if s.closed then { s with failed := .osError :: s.failed }
  else { s with main, queue := s.queue ++ [.ok (w, [0])] }

/-- One step (snmp/dispatcher.py:32-45, 89-95, snmp/transport/generic/udp.py:19-70). A round of the listening
thread only has sockets it watches; `r` is readable iff something is in its queue. -/
def step (w : Address) (s : GSys) : GEvent → GSys
  | .connect sock =>
    if s.main = .outside ∧ sock ≠ rFd then
      match s.thread with
      | .absent => s.start sock
      | _ => s.stop w (.connecting sock)
    else s
  | .shutdown =>
    if s.main = .outside then
      match s.thread with
      | .absent => s.close
      | _ => s.stop w .stopping
    else s
  | .joined =>
    match s.thread with
    | .running _ => s
    | _ =>
      match s.main with
      | .outside => s
      | .connecting sock => s.start sock
      | .stopping => s.close
  | .round ready pos =>
    match s.thread with
    | .running watched =>
      let ready := ready.filter fun x => x.1 ∈ watched
      let ready := match s.queue with
        | [] => ready
        | x :: _ => ready.take pos ++ (rFd, x) :: ready.drop pos
      -- the datagram is taken from the queue of `r` unless reading a socket raises before
      let queue := if (ready.take pos).all fun x => x.2.isOk then s.queue.tail else s.queue
      match genericRound watched rFd w ready false s.heard with
      | (.error _, heard) => { s with thread := .ended, heard, queue }
      | (.ok true, heard) => { s with thread := .ended, heard, queue }
      | (.ok false, heard) => { s with heard, queue }
    | _ => s
  | .stray read => if s.sockets = [] ∨ s.closed then s else { s with queue := s.queue ++ [read] }

/-- A history. Any sequence of the steps of snmp/dispatcher.py:32-45,89-95 and
snmp/transport/generic/udp.py:19-70. -/
def run (w : Address) (s : GSys) (h : List GEvent) : GSys := h.foldl (step w) s

end GSys

end Snmp
