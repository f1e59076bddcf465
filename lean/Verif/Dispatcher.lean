import Verif.ManagerCommunity
import Verif.ManagerV3
import Verif.Transport
/-!
# Model of `snmp/dispatcher.py`

The message processors and the request handles are parameters of `hear` and `sendPdu`; `W` is everything
they can change. The processors of this library are given as instances.
-/

namespace Snmp

/-- What the dispatcher sees of a message processor (snmp/message/__init__.py): `prepareDataElements`
raises or returns a message and a handle, which are only used in `handle.push(message)`: here the result is
that call. -/
structure MsgProcessor (W : Type) where
  prepareDataElements : W → Bytes → Res (W → Res Unit × W) × W

namespace Dispatcher
variable {W : Type}

/-- `msgProcessors` after `addMessageProcessor(mp)` (snmp/dispatcher.py:28-30). -/
def addMessageProcessor (table : Dict Version (MsgProcessor W)) (v : Version) (mp : MsgProcessor W) :
    Dict Version (MsgProcessor W) := table.set v mp

/-- The inner part of `hear` (snmp/dispatcher.py:49-64). -/
def hearInner (table : Dict Version (MsgProcessor W)) (s : W) (data : Bytes) : Res Unit × W :=
  match VersionOnly.decode (.bytes data) with
  | .error .parseError => (.ok (), s)
  | .error e => (.error e, s)
  | .ok (msgVersion, _) =>
    match table.get msgVersion with
    | none => (.ok (), s)
    | some mp =>
      match mp.prepareDataElements s data with
      | (.error e, s) => if e.isIncoming then (.ok (), s) else (.error e, s)
      | (.ok push, s) =>
        match push s with
        | (.error e, s) => if e.isIncoming then (.ok (), s) else (.error e, s)
        | (.ok (), s) => (.ok (), s)

/-- `hear` (snmp/dispatcher.py:47-69) for a datagram read from the socket `transport`, sent by `address`.
Every exception of the model is an instance of `Exception`; `KeyboardInterrupt` and `SystemExit` are not in
it. -/
def hear (table : Dict Version (MsgProcessor W)) (s : W) (_transport : Fd) (_address : Address) (data : Bytes) :
    Res Unit × W :=
  match hearInner table s data with
  | (.ok (), s) => (.ok (), s)
  | (.error e, s) => if e.isAssertion then (.ok (), s) else (.ok (), s)

/-- `TransportChannel` (snmp/transport/__init__.py:44-59): the socket, and the addresses. -/
structure Channel where
  transport : Fd
  address : Address
  localAddress : Address
  deriving DecidableEq, Repr

/-- `sendPdu` (snmp/dispatcher.py:71-87) and `TransportChannel.send` (snmp/transport/__init__.py:58-59): what
is handed to the socket. `prepare v` is `prepareOutgoingMessage` of the processor found under `v`, applied to the
other arguments; `chan` is the exception raised by the socket, if any. -/
def sendPdu (table : Dict Version (MsgProcessor W)) (prepare : Version → W → Res Bytes × W) (channel : Channel)
    (version : Version) (chan : Option PyErr) (s : W) : Res (Fd × Address × Bytes) × W :=
  match table.get version with
  | none => (.error .valueError, s)
  | some _ =>
    match prepare version s with
    | (.error e, s) => (.error e, s)
    | (.ok msg, s) =>
      match chan with
      | some e => (.error e, s)
      | none => (.ok (channel.transport, channel.address, msg), s)

end Dispatcher

/-! ## The processors -/

/-- `SNMPv1MessageProcessor.prepareDataElements` and `SNMPv2cMessageProcessor.prepareDataElements` for the
requests of the managers of that version (snmp/message/v1.py:77-99, v2c.py:79-101), and `Request.push`
(snmp/manager/v1.py:70-72, v2c.py:70-72). -/
def communityProcessor (v : Version) : MsgProcessor CMgr where
  prepareDataElements s data :=
    match Message.decode (if v = .v1 then v1Types else v2Types) (.bytes data) with
    | .error e => (.error e, s)
    | .ok (m, _) =>
      match communityProto.prepareDataElements s.cache s.dead m with
      | (.error e, cache) => (.error e, { s with cache })
      | (.ok r, cache) =>
        (.ok fun s => match s.reqs r with
          | none => (.ok (), s)
          | some q => (.ok (), s.setReq r (q.push m)), { s with cache })

/-- `SNMPv3MessageProcessor.prepareDataElements` for the requests of one manager
(snmp/message/v3.py:537-591, the part after the version check of `VMgr.hear`), and the beginning of
`RequestMessage.push` (snmp/manager/v3.py:238-266), whose rest is the later steps of the listening thread. -/
def v3Processor (cfg : VCfg) (stamp : ℚ) : MsgProcessor VSys where
  prepareDataElements s data :=
    match V3Message.decode (.bytes data) with
    | .error e => (.error e, s)
    | .ok msg =>
      match s.mgr.usm.processIncoming cfg.backend cfg.crypto msg stamp with
      | (.error e, usm) => (.error e, { s with mgr := { s.mgr with usm } })
      | (.ok msg, usm) =>
        let s := { s with mgr := { s.mgr with usm } }
        match msg.scopedPDU, msg.securityEngineID, msg.securityName with
        | some p, some e, some n =>
          match v3Proto.prepareDataElements s.mgr.cache s.mgr.gone ⟨msg.header, p, e, n⟩ with
          | (.error e, _) => (.error e, s)
          | (.ok m, _) => (.ok fun s => (.ok (), { s with listener := .push m ⟨msg.header, p, e, n⟩ }), s)
        | _, _, _ => (.error .typeError, s)

/-- A processor that works on one part of the world. Not in the code: it lets the table of
snmp/dispatcher.py:16-30 be built from three separate processors. -/
def MsgProcessor.lift {W V : Type} (get : W → V) (set : W → V → W) (p : MsgProcessor V) : MsgProcessor W where
  prepareDataElements w data :=
    match p.prepareDataElements (get w) data with
    | (.error e, v) => (.error e, set w v)
    | (.ok push, v) => (.ok fun w => ((push (get w)).1, set w (push (get w)).2), set w v)

/-- An engine with any number of v1 and v2c managers and one v3 manager (snmp/engine.py:82-169). -/
structure Trio where
  v1 : CMgr
  v2c : CMgr
  v3 : VSys

/-- Its dispatcher's processors, if all three are registered. (snmp/dispatcher.py:16-30;
snmp/engine.py:82-125) -/
def Trio.table (cfg : VCfg) (stamp : ℚ) : Dict Version (MsgProcessor Trio) :=
  [(.v1, (communityProcessor .v1).lift Trio.v1 fun w x => { w with v1 := x }),
   (.v2c, (communityProcessor .v2c).lift Trio.v2c fun w x => { w with v2c := x }),
   (.v3, (v3Processor cfg stamp).lift Trio.v3 fun w x => { w with v3 := x })]

/-! ## Starting and stopping the listening thread

One thread calls `connectTransport` and `shutdown`, with the POSIX multiplexor. -/

/-- The listening thread: absent (`self.thread is None`), in the loop watching some sockets, or
ended. (snmp/dispatcher.py:16-45) -/
inductive LThread
  | absent
  | running (watched : List Fd)
  | ended
  deriving DecidableEq, Repr

/-- Where the calling thread is: outside, in `self.thread.join()` of `connectTransport`, or in that of
`shutdown`. (snmp/dispatcher.py:32-45,89-95) -/
inductive LMain
  | outside
  | connecting (sock : Fd)
  | stopping
  deriving DecidableEq, Repr

/-- `pipe` is the number of unread bytes in the pipe; `sockets` the keys of the multiplexor's dictionary;
`closed` says whether `multiplexor.close()` was called; `failed` the exceptions raised in the
caller. (snmp/dispatcher.py:16-45,89-95; snmp/transport/posix/udp.py:10-48) -/
structure LSys where
  main : LMain
  thread : LThread
  pipe : Nat
  sockets : List Fd
  closed : Bool
  heard : List (Fd × Address × Bytes)
  failed : List PyErr
  deriving DecidableEq, Repr

/-- Steps. (snmp/dispatcher.py:32-45,89-95; snmp/transport/posix/udp.py:19-41) -/
inductive LEvent
  /-- a call of `connectTransport` begins -/
  | connect (sock : Fd)
  /-- a call of `shutdown` begins -/
  | shutdown
  /-- `join` returns -/
  | joined
  /-- the listening thread goes through one round; the list has the ready sockets in the order of `poll`,
  and the number tells where in it the pipe comes, if it is readable -/
  | round (ready : List (Fd × Read)) (pos : Nat)

namespace LSys

/-- A new `Dispatcher` (snmp/dispatcher.py:16-26, snmp/transport/posix/udp.py:11-14). -/
def init : LSys := ⟨.outside, .absent, 0, [], false, [], []⟩

/-- The rest of `connectTransport` (snmp/dispatcher.py:39-45, snmp/transport/posix/udp.py:16-24): a new
thread watches every socket. -/
def start (s : LSys) (sock : Fd) : LSys :=
  let sockets := if sock ∈ s.sockets then s.sockets else s.sockets ++ [sock]
  { s with main := .outside, sockets, thread := .running sockets }

/-- The rest of `shutdown` (snmp/dispatcher.py:94-95, snmp/transport/posix/udp.py:43-48); `os.close` of a
closed descriptor raises `OSError`. -/
def close (s : LSys) : LSys :=
  if s.closed then { s with main := .outside, failed := .osError :: s.failed }
  else { s with main := .outside, closed := true, thread := .absent }

/-- The descriptor of the pipe's reading end; sockets have other numbers.
(snmp/transport/posix/udp.py:11-14) -/
def pipeFd : Fd := 0

/-- One step (snmp/dispatcher.py:32-45, 89-95, snmp/transport/posix/udp.py:16-48). A round of the listening
thread only has sockets it watches; the pipe is readable iff it has an unread byte. -/
def step (s : LSys) : LEvent → LSys
  | .connect sock =>
    if s.main = .outside ∧ ¬s.closed ∧ sock ≠ pipeFd then
      match s.thread with
      | .absent => s.start sock
      | _ => { s with main := .connecting sock, pipe := s.pipe + 1 }
    else s
  | .shutdown =>
    if s.main = .outside then
      match s.thread with
      | .absent => s.close
      | _ => { s with main := .stopping, pipe := s.pipe + 1 }
    else s
  | .joined =>
    match s.thread with
    | .running _ => s
    | _ =>
      match s.main with
      | .outside => s
      | .connecting sock => s.start sock
      | .stopping => s.close
  | .round ready pos =>
    match s.thread with
    | .running watched =>
      let ready := ready.filter fun x => x.1 ∈ watched
      let ready := if s.pipe = 0 then ready
        else ready.take pos ++ (pipeFd, .ok (⟨"", 0⟩, [0])) :: ready.drop pos
      -- the byte in the pipe is read unless reading a socket raises before
      let pipe := if (ready.take pos).all fun x => x.2.isOk then s.pipe - 1 else s.pipe
      match posixRound watched pipeFd ready false s.heard with
      | (.error _, heard) => { s with thread := .ended, heard, pipe }
      | (.ok true, heard) => { s with thread := .ended, heard, pipe }
      | (.ok false, heard) => { s with heard }
    | _ => s

/-- A history. Any sequence of the steps of snmp/dispatcher.py:32-45,89-95 and
snmp/transport/posix/udp.py:19-41. -/
def run (s : LSys) (h : List LEvent) : LSys := h.foldl step s

end LSys

end Snmp
