import Verif.Py
/-!
# Model of `snmp/transport/__init__.py`, `snmp/transport/udp.py`, `snmp/transport/posix/udp.py` and
`snmp/transport/generic/udp.py`

Sockets, pipes and the `poll`/`select` calls belong to the operating system: what they return is an input.
-/

namespace Snmp

/-! ## Addresses -/

/-- `TransportDomain` (snmp/transport/__init__.py:18-25). -/
inductive Domain
  | udpIPv4
  | udpIPv6
  deriving DecidableEq, Repr

/-- `default_address` (snmp/transport/__init__.py:22, 24-25). -/
def Domain.defaultAddress : Domain → String
  | .udpIPv4 => "0.0.0.0"
  | .udpIPv6 => "::"

/-- `AddressUsage` (snmp/transport/__init__.py:13-16). -/
inductive Usage
  | listener
  | trapListener
  | sender
  deriving DecidableEq, Repr

/-- `Tuple[str, int]`. (snmp/transport/udp.py:22-60) -/
structure Address where
  host : String
  port : Int
  deriving DecidableEq, Repr

/-- A host argument: a string, or an object of another type. (snmp/transport/udp.py:22-60) -/
inductive HostArg
  | str (s : String)
  | other
  deriving DecidableEq, Repr

/-- The argument `address: Any` of `normalizeAddress` (snmp/transport/udp.py:22-25): a pair with an
integer port, a tuple that is not a pair, or something that is not a tuple. Pairs with another kind of
port are left out. -/
inductive AddrArg
  | absent
  | host (h : HostArg)
  | pair (h : HostArg) (port : Int)
  | badTuple
  deriving DecidableEq, Repr

/-- `DEFAULT_PORT` (snmp/transport/udp.py:15-19). -/
def Usage.defaultPort : Usage → Int
  | .listener => 161
  | .sender => 0
  | .trapListener => 162

/-- `usage not in (LISTENER, TRAP_LISTENER)` (snmp/transport/udp.py:39-42). -/
def permissive (usage : Option Usage) : Bool :=
  usage ≠ some .listener && usage ≠ some .trapListener

/-- The port when the argument has none (snmp/transport/udp.py:34-37). -/
def impliedPort : Option Usage → Int
  | none => 0
  | some u => u.defaultPort

/-- The addr and port of `normalizeAddress` before the checks (snmp/transport/udp.py:26-37). -/
def splitAddress (d : Domain) (arg : AddrArg) (usage : Option Usage) : Res (HostArg × Int) :=
  match arg with
  | .badTuple => .error .valueError
  | .pair h p => .ok (h, p)
  | .absent => .ok (.str d.defaultAddress, impliedPort usage)
  | .host h => .ok (h, impliedPort usage)

/-- `normalizeAddress` (snmp/transport/udp.py:21-60). `pton d s` says whether `inet_pton` accepts the
string `s` for the family of `d`. -/
def normalizeAddress (pton : Domain → String → Bool) (d : Domain) (arg : AddrArg) (usage : Option Usage) :
    Res Address :=
  (splitAddress d arg usage).bind fun (addr, port) =>
  let addr := if addr = .str "" ∧ permissive usage then .str d.defaultAddress else addr
  match addr with
  | .other => .error .typeError
  | .str s =>
    if !pton d s then .error .valueError
    else if port < 0 ∨ 0xffff < port ∨ (port = 0 ∧ permissive usage = false) then .error .valueError
    else .ok ⟨s, port⟩

/-! ## The receive loop -/

/-- A file descriptor. (snmp/transport/udp.py:63-64) -/
abbrev Fd := Nat

/-- What reading a ready file descriptor gives: the sender's address and the datagram, or the exception
raised. (snmp/transport/udp.py:75-77; snmp/transport/posix/udp.py:19-38) -/
abbrev Read := Except PyErr (Address × Bytes)

/-- How `listen` stands after some rounds. (snmp/transport/posix/udp.py:19-38;
snmp/transport/generic/udp.py:33-56) -/
inductive Loop
  | running
  | returned
  | raised (e : PyErr)
  deriving DecidableEq, Repr

/-- What the loop of `listen` is made of: whether `done` is set, and the calls of `listener.hear` so far,
oldest first: socket, address, datagram. `hear` returns normally (see `Dispatcher.hear`).
(snmp/transport/posix/udp.py:19-38; snmp/transport/generic/udp.py:33-56) -/
structure Listening where
  loop : Loop
  heard : List (Fd × Address × Bytes)
  deriving DecidableEq, Repr

/-- The body of `for fd, _ in ready` in `PosixUdpMultiplexor.listen` (snmp/transport/posix/udp.py:29-38).
`sockets` are the keys of `self.sockets`, `r` is the reading end of the pipe, and the list pairs each ready
descriptor with what reading it gives. `done` is the local variable. -/
def posixRound (sockets : List Fd) (r : Fd) :
    List (Fd × Read) → Bool → List (Fd × Address × Bytes) → Except PyErr Bool × List (Fd × Address × Bytes)
  | [], done, heard => (.ok done, heard)
  | (fd, read) :: ready, done, heard =>
    if fd ∈ sockets then
      match read with
      | .error e => (.error e, heard)
      | .ok (addr, data) => posixRound sockets r ready done (heard ++ [(fd, addr, data)])
    else if fd = r then
      match read with
      | .error e => (.error e, heard)
      | .ok _ => posixRound sockets r ready true heard
    else posixRound sockets r ready done heard

/-- The body of `for fd in ready` in `GenericUdpMultiplexor.listen` (snmp/transport/generic/udp.py:45-56).
`w` is `self.w.getsockname()`; a datagram read from `r` is cut to one byte, the length of `STOPMSG`
(generic/udp.py:10, 52-53). -/
def genericRound (sockets : List Fd) (r : Fd) (w : Address) :
    List (Fd × Read) → Bool → List (Fd × Address × Bytes) → Except PyErr Bool × List (Fd × Address × Bytes)
  | [], done, heard => (.ok done, heard)
  | (fd, read) :: ready, done, heard =>
    if fd ∈ sockets then
      match read with
      | .error e => (.error e, heard)
      | .ok (addr, data) => genericRound sockets r w ready done (heard ++ [(fd, addr, data)])
    else if fd = r then
      match read with
      | .error e => (.error e, heard)
      | .ok (addr, data) =>
        genericRound sockets r w ready (decide (addr = w) && decide (data.take 1 = [0])) heard
    else genericRound sockets r w ready done heard

/-- The loop `while not done` (snmp/transport/posix/udp.py:26-38, generic/udp.py:42-56) over the results of
`poll` or `select`, one list of ready descriptors per round. -/
def listenLoop (round : List (Fd × Read) → Bool → List (Fd × Address × Bytes) →
      Except PyErr Bool × List (Fd × Address × Bytes)) :
    List (List (Fd × Read)) → List (Fd × Address × Bytes) → Listening
  | [], heard => ⟨.running, heard⟩
  | ready :: rest, heard =>
    match round ready false heard with
    | (.error e, heard) => ⟨.raised e, heard⟩
    | (.ok true, heard) => ⟨.returned, heard⟩
    | (.ok false, heard) => listenLoop round rest heard

/-- `PosixUdpMultiplexor.listen` (snmp/transport/posix/udp.py:19-38). -/
def posixListen (sockets : List Fd) (r : Fd) (rounds : List (List (Fd × Read))) : Listening :=
  listenLoop (posixRound sockets r) rounds []

/-- `GenericUdpMultiplexor.listen` (snmp/transport/generic/udp.py:33-56): without sockets it returns at once
(line 42); `register` (19-31) creates `r` and `w` together with the first socket. -/
def genericListen (sockets : List Fd) (r : Fd) (w : Address) (rounds : List (List (Fd × Read))) : Listening :=
  if sockets = [] then ⟨.returned, []⟩ else listenLoop (genericRound sockets r w) rounds []

end Snmp
