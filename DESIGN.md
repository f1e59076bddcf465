# Formal model of charlestolley/python-snmp in Lean 4

The model lives in `lean/Verif/`. The code is not run; every definition of the model carries a
comment citing the file and lines of `/repo` it was read from (for built-ins of Python and for
third-party libraries: where they are called), and says what was simplified.

## Layout

| module | models |
|---|---|
| `Py.lean`, `Dict.lean`, `Heap.lean` | Python itself: exceptions as values (`PyErr`, `Res`), `bytes`, `int` conversions, indexing and slicing, `dict`, `heapq` (from `Lib/heapq.py`) with weak references as keys |
| `Utils.lean` | `snmp/utils.py`: `subbytes`, `NumberGenerator`, `ComparableWeakRef` |
| `Ber.lean` | `snmp/ber.py` |
| `Asn1.lean`, `Oid.lean` | `snmp/asn1.py`, `snmp/smi.py` (`Oid.lean`: OID text and table indexes) |
| `Pdu.lean` | `snmp/pdu.py` |
| `Compare.lean` | `==` and `<` of `snmp/asn1.py` on values, variable bindings, PDUs and OIDs |
| `Message.lean` | `snmp/message/{core,version,v3}.py`, `snmp/security/levels.py`, `snmp/security/usm/parameters.py`: codecs |
| `Processor.lean` | `snmp/message/{v1,v2c,v3}.py`: the message processors, any number of threads |
| `Auth.lean`, `Priv.lean`, `Users.lean`, `Timekeeper.lean`, `Usm.lean` | `snmp/security/usm/**` |
| `ManagerCommunity.lean` | `snmp/manager/v1.py`, `v2c.py` with the message processor underneath, any number of managers and of threads |
| `ManagerV3.lean` | `snmp/manager/v3.py` with message processor and security module underneath, any number of threads; other managers of the same engine, which share both, act through steps of their own (`Other`) |
| `EngineV3.lean` | several v3 managers of one engine (`snmp/engine.py:120-166`): they share security module, message cache and listening thread; a step of one is atomic for the others |
| `Api.lean` | `get`, `getNext`, `getBulk`, `set` and `sendRequest` of the three managers: arguments, defaults, what is returned |
| `Transport.lean` | `snmp/transport/**` (address normalisation, the receive loops) |
| `Dispatcher.lean` | `snmp/dispatcher.py`: `hear`, `sendPdu`, and the life of the listening thread |
| `Engine.lean` | `snmp/engine.py` |
| `Spec/*.lean` | independent specifications, which mention none of the model's helpers beyond the types of the API |
| `*Lemmas.lean`, `*Moves.lean`, `*Touch.lean`, `BerRound.lean`, `EncodeSize.lean` | helper lemmas |
| `Props/*.lean` | the property theorems, their non-vacuity examples, and the witnesses of negations |

A theorem `Cxx_…` belongs to property `Cxx`. `Cxx_partial` (or `…_partial`) is the part that holds of
a property that is false of the code; `Cxx_false` is the proved negation, a concrete run or input of
the model; `Cxx_example` shows that a concrete, non-trivial case meets the hypotheses. MANIFEST.json
lists the theorems of each property.

## Modelling conventions

* Python exceptions are values of `PyErr`; a function that can raise returns
  `Res α = Except PyErr α`. Python built-ins raise what Python raises (`IndexError`, `ValueError`,
  `OverflowError`, `StopIteration`, ...), so "only ParseError escapes" is a theorem, not a definition.
* `int` is `Int`/`Nat` (unbounded, as in Python); bit operations are `Nat` bit operations.
* `bytes` is `List UInt8`; `subbytes` is the wrapped bytes plus two offsets.
* Loops are structural or well-founded recursions; termination is proved.
* Mutable objects are state records; methods return the new state. A history is an arbitrary finite
  list of atomic steps, so a theorem about all histories covers every interleaving, crash point (an
  exception of `channel.send`, of the multiplexor's read, the collection of an object) and order of
  arrival that the granularity below can express. A step that is not enabled changes nothing.
* Time is rational (`ℚ`) and exact; each call of `time()` in the code is an argument of the step, so a
  clock may stand still, jump, or run backwards. Theorems that need a steady clock say so.
* Numbers drawn from `random`/`os.urandom` are arguments, hence universally quantified.
* The garbage collector is an event that may happen at any point at which no strong reference exists.

## Granularity of steps

* Message processors (`Processor.lean`): each `with self.cacheLock` block is one step; any number of
  threads sending and receiving.
* v1/v2c manager: `sendRequest`, the test of `while self.requests`, one locked turn of `refresh`'s
  loop, the test of `wait`, sleeping and waking, `hear` up to `push`, `push`, collection are one step
  each; the code holds `manager.lock` during `heappush`/`send` and during a turn of `refresh`.
* v3 manager: as above, with `poke` one request per step, the listening thread as a program of its own
  (`hear`, `push`, `processUnknownEngineID`, `processNotInTimeWindow`, `onReport` one request per
  step, `processResponse`), everything under `manager.lock` where the code holds it.
  `sendRequest` is one step (the caller is its only user of the new object);
  `processResponse` together with the store of the result is one step; a race between `close()` and
  `send()` on the `engineID` setter is not expressed.
* Privacy counters: `C62` has its own finer model (read, use, increment), where threads overlap.
* Dispatcher life cycle: one thread calling `connectTransport`/`shutdown`, the listening thread, the
  POSIX multiplexor with its pipe.
* Engine: one calling thread; managers are never collected in this model.

## Trusted base

* Lean 4.33.0's kernel. No axioms were added; the theorems named in MANIFEST.json depend on subsets of
  `propext`, `Classical.choice`, `Quot.sound` (Lean's standard axioms), as `#print axioms` reports.
  No `native_decide`, no `bv_decide`, no unfinished proofs.
* Mathlib modules imported one at a time, for `ℚ` and tactics; their theorems are checked by the kernel.
* The faithfulness of the reading of the code, which the citations make checkable.
* Assumptions about code outside `/repo`, as explicit parameters or hypotheses:
  * `Crypto` (in `Auth.lean`): hash, HMAC and block ciphers are arbitrary functions; `Crypto.Ok`
    assumes digest lengths, block lengths and that DES decryption inverts DES encryption. Nothing is
    assumed about collision resistance or unforgeability: `C43` says what the code checks, namely that
    the signature of the message equals the HMAC under the user's localised key.
  * OpenSSL (`Priv.lean`): output buffers are zero-filled by the code; `EVP_DecryptUpdate` may hold
    back the last block of a padded cipher (parameter `holdsBack`); a too short IV is read past its end
    (parameter `beyond`). PyCryptodome raises `ValueError` for a bad IV or data length.
  * `heapq` is modelled from CPython's pure Python `Lib/heapq.py`.
  * `inet_pton`/`inet_aton` are parameters of `normalizeAddress`; poll/select return ready descriptors
    as the environment decides.

## Modelled

`snmp/utils.py`, `snmp/ber.py`, `snmp/asn1.py`, `snmp/smi.py`, `snmp/pdu.py`, `snmp/message/*.py`,
`snmp/security/levels.py`, `snmp/security/usm/*.py`, `snmp/security/usm/priv/{openssl,pycryptodome}/*.py`,
`snmp/manager/*.py`, `snmp/dispatcher.py`, `snmp/transport/__init__.py`, `snmp/transport/udp.py`,
`snmp/transport/{posix,generic}/udp.py`, `snmp/engine.py`.

## Not modelled

* `repr` and `str` of messages, headers, USM parameters, tags and security levels; log messages; type stubs; `snmp/exception.py`'s class
  hierarchy beyond what `except` clauses distinguish.
* Sockets and the operating system below `send`, `receive`, `poll`, `select`.
* The selection of a privacy back end at import time (`priv/__init__.py`) and the cffi declarations
  (`cffi/openssl.py`): theorems quantify over the back end instead.
* Floating-point rounding of timestamps. Switches between threads inside the steps listed above.
  `KeyboardInterrupt` and memory exhaustion.
* `-O` (which removes `assert`): assertions are modelled as `AssertionError`.

## Plan and result per property

| property | status | model | how it is proved |
|---|---|---|---|
| C01 subbytes views equal Python slices | partial | `Utils` | refinement of offsets to list slicing by cases |
| C02 replace and split rebuild the wrapped bytes exactly | proved | `Utils` | list algebra on take/drop |
| C03 NumberGenerator enumerates every n-bit integer once per period, zero last | proved | `Utils` | k-th output is k·step mod 2^n; odd step invertible |
| C04 A dead weak reference keeps sorting by its last observed key | proved | `Utils` | state machine of (alive, key, stored), induction over histories |
| C05 BER tag round trip | proved | `Ber` | base-128 digits, induction on the loop |
| C06 BER length round trip and limit | proved | `Ber` | base-256 digits, induction on the loop |
| C07 TLV round trip in every decode mode | proved | `Ber` | composition of tag, length and split lemmas |
| C08 Decoding consumes a contiguous prefix and never invents bytes | proved | `Ber` | decode specification relating view contents and offsets |
| C09 Every truncation is detected | proved | `Ber` | locality of decoding by simulation, truncation as corollary |
| C10 Data-type decoders fail only with ParseError | proved | `Asn1`, `Pdu` | exception analysis of each decoder; every function can return any `PyErr` |
| C11 INTEGER encodes every int in shortest two's complement | proved | `Asn1` | two's-complement arithmetic, bit-length lemma |
| C12 Bounded integer types accept exactly their range, locally and from the wire | proved | `Asn1` | range predicates from the bit-length lemma |
| C13 OctetString length limit and round trip | proved | `Asn1` | length checks; offsets of the view kept by `original` |
| C14 OID wire round trip | partial | `Asn1` | base-128 induction; exact characterisation of the first octet; negation by witness |
| C15 Truncated OID contents are rejected | partial | `Asn1` | continuation bit of the last octet; negation by witness |
| C16 OID limits are enforced on construction and on the wire | proved | `Asn1`, `Oid` | limits in constructor and decoder |
| C17 OID text round trip | proved | `Oid` | decimal printing and parsing over characters |
| C18 Table index round trip | partial | `Oid` | iterator as list; induction on the index tuple; negation by witness |
| C19 decodeIndex fails only as documented | partial | `Oid` | exception analysis; negation by witness |
| C20 Variable bindings round trip with their type | proved | `Pdu` | composition of TLV round trips |
| C21 PDU round trip | proved | `Pdu` | induction on the variable bindings |
| C22 Decoded PDU fields are validated | partial | `Pdu` | exact conditions of the field checks; negation by witness |
| C23 ErrorResponse points at the offending binding | proved | `Pdu` | cases of the error index |
| C24 Community message round trip | proved | `Message` | composition of TLV round trips |
| C25 Message decoders fail only with IncomingMessageError | proved | `Message`, `Usm` | exception analysis of the message decoders |
| C26 SNMPv3 message round trip | proved | `Message` | composition of TLV round trips |
| C27 SNMPv3 header validation | proved | `Message` | decision logic of the header, as iff |
| C28 Request IDs are unique and non-zero | proved | `Processor` | invariant of the shared cache over all interleavings |
| C29 A community response reaches only the request it answers | proved | `Processor` | invariant: a delivered message passed the check against the entry of its handle |
| C30 A closed request no longer matches and retransmissions keep their ID | proved | `Processor` | invariant over histories |
| C31 SNMPv3 message IDs are unique, positive and 31-bit | proved | `Processor` | as C28 for 31 bits |
| C32 SNMPv3 response matching | proved | `Processor` | decision logic and invariant over histories |
| C33 An SNMPv3 request never completes with less security than it asked for | partial | `ManagerV3` | invariant over histories from what the security module accepted; negation by an attack run |
| C34 Security levels are totally ordered and round-trip through flags | proved | `Message` | finite case analysis of all levels and flag octets |
| C35 Time-window rule | proved | `Timekeeper` | rational arithmetic, iff characterisation |
| C36 Authenticated engine time never moves back and ignores hints | proved | `Timekeeper` | monotonicity by induction on histories |
| C37 Unauthenticated input cannot prevent sending an authenticated request | partial | `Usm` | bounds of the estimate; negation by witness |
| C38 Credential lookup is the localisation of the configured user | proved | `Users` | refinement of the registry to an abstract specification by induction on histories |
| C39 An engine ID belongs to one namespace while referenced | proved | `Users` | as C38 |
| C40 Users cannot be silently redefined; default user rules | proved | `Users` | as C38 |
| C41 Default security level never exceeds what credentials support | proved | `Users` | as C38 |
| C42 Password-to-key stretches to exactly one mebibyte | proved | `Auth` | divmod arithmetic of the loop |
| C43 Authenticated input is accepted only with the right MAC | proved | `Usm` | locating the signature in the received bytes; abstract HMAC |
| C44 Outgoing authentication: only the signature field is rewritten, and a peer verifies it | partial | `Usm` | BER location lemma for the signature; symmetric receive |
| C45 Privacy round trip | partial | `Priv` | induction over blocks; parameter for held-back blocks; negation by witness |
| C46 Salts and IVs do not repeat | proved | `Priv`, `Usm` | counters modulo 2^k |
| C47 The cipher is only ever given a full-length IV | partial | `Priv` | length lemmas; negation by witness |
| C48 Retransmission schedule (v1, v2c) | proved | `ManagerCommunity` | invariant over interleavings and clock readings |
| C49 wait() reports the outcome faithfully (v1, v2c) | partial | `ManagerCommunity` | invariant from datagram to outcome; negation by a run |
| C50 wait() never sleeps past its deadline (v1, v2c) | partial | `ManagerCommunity` | bound on each sleep; negation by a run |
| C51 The request due first is serviced first (v1, v2c) | partial | `ManagerCommunity`, `Heap` | heap invariant of `heapq` with changing keys; negation by a run |
| C52 Once authenticated, the SNMPv3 manager's engine ID changes only by authenticated responses | proved | `ManagerV3` | invariant of the discovery state machine |
| C53 Engine registrations are released | proved | `ManagerV3`, `Users` | counting references over histories |
| C54 No pending SNMPv3 request is forgotten | partial | `ManagerV3` | invariant: every live request is in exactly one place; negation by a run |
| C55 Time-synchronisation reports cannot cause a resend storm | partial | `ManagerV3` | invariant on the shared flag; negation by a run |
| C56 Unauthenticated error reports do not end a request early | proved | `ManagerV3` | invariant from report to exception |
| C57 The dispatcher survives and routes every datagram | proved | `Dispatcher` | cases of `hear` |
| C58 Responses are accepted only from the queried address | partial | `Dispatcher` | `hear` does not depend on the address; negation by a run |
| C59 Address normalisation | proved | `Transport` | cases of `normalizeAddress` |
| C60 The receive loop delivers every datagram once and stops only when told | partial | `Transport` | induction over rounds of the loop; negation by witness |
| C61 One socket per local address; managers get the requested version and defaults | proved | `Engine` | invariant over histories of calls |
| C62 Salts stay distinct when several threads encrypt with one key | partial | `Priv` | interleavings of read, use, increment; negation by a run |
| C63 Retransmissions are identical | proved | `ManagerCommunity` | invariant: all datagrams of a request are equal |
| C64 Handles of one manager can be waited on from several threads (v1, v2c) | partial | `ManagerCommunity` | exceptions of each step; negation by a run |
| C65 wait() can be called again (v1, v2c) | partial | `ManagerCommunity` | invariant on the callback; negation by a run |
| C66 A PDU can be sent again (v1, v2c) | partial | `ManagerCommunity` | invariant linking cache entry and request; negation by a run |
| C67 Retransmission schedule (v3) | partial | `ManagerV3` | classification of all sends by cause; negation by a run |
| C68 wait() reports the outcome faithfully (v3) | proved | `ManagerV3` | invariant from datagram to outcome |
| C69 wait() never sleeps past a deadline (v3) | proved | `ManagerV3` | bound on each sleep |
| C70 The request due first is serviced first (v3) | partial | `ManagerV3`, `Heap` | heap invariant; negation by a run |
| C71 Handles of one v3 manager can be waited on from several threads | proved | `ManagerV3` | exceptions of each step, any number of threads |
| C72 wait() can be called again (v3) | partial | `ManagerV3` | stability of the outcome; negation by a run |
| C73 One listening thread watches every connected transport | partial | `Dispatcher` | invariant of pipe, thread and sockets; negation by a run |
| C74 Shutdown stops the thread, and can be repeated | partial | `Dispatcher` | as C73 |
| C75 A transport given to the engine is the one its managers use | partial | `Engine` | invariant over histories; negation by a run |
| C76 An SNMPv3 manager without a user raises NoDefaultUser | partial | `Engine` | cases; negation by a run |
| C77 Unusable arguments of Manager are refused with ValueError and leave nothing behind | partial | `Engine` | cases; negation by a run |
| C78 An SNMPv3 message carries what was asked for | proved | `Processor`, `Usm` | fields of the encoded message by decoding it |
| C79 What a v3 manager puts on the wire | proved | `ManagerV3` | invariant: what is sent is the request or the discovery message |
| C80 Which requests a v3 manager holds back during discovery | proved | `ManagerV3` | invariants of the discovery states |
| C81 Requests held back are transmitted when discovery completes | partial | `ManagerV3` | the queue is empty after the flush; negation by a run |
| C82 SNMPv3 request IDs | proved | `ManagerV3` | C03 for the generator, over histories |
| C83 A remote engine belongs to one namespace | proved | `Engine` | counting references of all managers |
| C84 A matching response reaches its handle (v1, v2c) | proved | `ManagerCommunity` | invariant linking cache entry, handle and request; then the waiting thread alone |
| C85 Nothing is sent for a finished request (v1, v2c) | proved | `ManagerCommunity` | an ended wait fixes the answer or a past expiration; no move of the code sends for such a request |
| C86 get, getNext, getBulk and set ask exactly what the call says | partial | `Api` over `ManagerCommunity` and `ManagerV3` | argument lists by `Forall₂`; encoding sizes bounded so that the message fits; for v3 C79 and the life of the request; negation by witness (C14) |
| C87 An answer reaches the v3 request it belongs to | proved | `ManagerV3`: messages, cache of outstanding messages, listening thread | every step is a chain of simple changes of messages and cache; an entry stays until its request is closed; the sent bytes are decoded again (C79) |
| C88 A v3 manager does not refuse an answer with an internal error | partial | `ManagerV3`: states, `poke`, listening thread | invariant under serial use: nothing is scheduled in an idle state; queued requests have no messages; an engine held by a request can be registered again (C53); negations by witnesses |
| C89 A properly secured message is accepted | proved | `Usm`, `Users`, `Timekeeper`, `Auth`, `Priv` | exact characterisation of processIncoming; bridge from module histories to clock histories (C35, C36) |
| C90 Encryption interoperates with peers that follow the RFCs | partial | `Priv`: both back ends, both protocols | specification of a peer from the RFC texts; algebra of CFB and CBC by induction on blocks; negations by witnesses |
| C91 Objects are equal exactly if they encode alike | partial | `Compare`: `==` of every class; `Pdu`, `Asn1`: encodings | equal objects have the same fields; encodings are injective because decoding inverts them (C20, C21); negation by witness |
| C92 OIDs are ordered as in the MIB tree | proved | `Compare`: comparison of tuples | induction on the OIDs; independent specification of the order |
| C93 wait() ends | partial | `ManagerV3`, `ManagerCommunity`: all steps of threads, listener and collector | a potential that every step of a thread or of the listening thread decreases once the clock is past the deadlines; whoever is not blocked by the lock moves, and the holder of the lock moves; negation by witness for v1/v2c |
| C94 The first exchange with an agent that answers succeeds | proved | `ManagerV3`: the whole manager, with the message processor and USM below it | the state after each leg is computed exactly; the end of wait() follows from C88 for serial use, the form of the datagrams from C79 |
| C95 Managers of one engine do not disturb each other (v1, v2c) | proved | `ManagerCommunity`: any number of managers with one processor | every step leaves the parts of the managers it does not concern as they are; induction over the history |
| C96 A request leaves through the processor of its version, or not at all | proved | `Dispatcher`: the table of processors, `sendPdu`; the processors are parameters | induction over the registrations; case analysis of `sendPdu` |
| C97 A user's keys are the ones RFC 3414 derives from its secrets | proved | `Credentials`, `computeKey`, the registry | `Spec.RfcKeys` is written from RFC 3414; refinement C38 and permanence C40 carry it through any history |
| C98 The octets on the wire are the ones the RFCs prescribe | partial | encoders of values, PDUs, messages and security parameters | `Spec/Rfc.lean` writes the octets from the standards, with literal identifier octets and no use of the model's encoders; equality by induction on lengths, integers, sub-identifiers and bindings; `C98_false` is 1.8 |
| C99 Every standard encoding of a message is read as that message | partial | decoders of values, PDUs, messages and security parameters | `Spec/Received.lean` says which octets mean which object, for any definite-form length; the list-level reader is shown to read each element, then composition and induction on the bindings; `C99_false` is 2.100.3 |
| C100 A complete v1 or v2c exchange gives what the agent answered | partial | the calls of v1/v2c managers, the encoders, the histories of the manager model, the decoders | composition of C86, C63, C98, C99 and C84; the request's PDU and community are carried through any history by the evolution lemma; `C100_example` is an exchange with an unusual encoding; `C100_false` is an answer with 2.100.3 |
| C101 Messages that a standard engine protects are accepted and read | partial | the decoders, the user registry, the security module and the privacy back ends | `Spec.IsProtected` says, from the RFCs alone, what octets a sender may send; C99 reads them, the position of the signature field is recomputed, C40/C97 give the keys, C90 decrypts and C89 accepts; `C101_example` with and without privacy for any cryptography; `C101_false` is a correct DES message that is refused |
| C102 A complete SNMPv3 exchange with an agent that follows the standards | partial | the v3 manager, its threads, the listener, the security module, the decoders | `Spec.PeerSends` says, from the RFCs (C101) and the history heard, what an agent may send; `module_heard` relates the module's history to what the manager heard, so C101 applies at every point of every history (`C102_read_partial`); C94 and C88 give the exchange; `C102_example` runs discovery, time report and response with the octets of `Spec.Rfc` shown to be what such an agent sends |
| C103 What is sent is what RFC 3412, 3414, 3416 and 3826 prescribe, readable by any engine that follows them | partial | the security module's outgoing side, the privacy and authentication classes, the encoders, the v3 manager | `Spec.IsProtected` (C101) says what the standards prescribe, from the key derivation of RFC 3414 (`Spec.RfcKeys`) and the encodings of `Spec.Wire`; `Usm.sends_standard` shows it of everything `prepareOutgoing` returns; `module_heard`/`registered` carry it to every send of every history of a manager |
| C104 OpenSSL contexts and buffers are used safely | partial | the calls into libcrypto in order, with the contexts and buffer lengths they are given; each may fail (`Verif/Native.lean`) | the history of calls of all operations is any interleaving of prefixes of their call sequences, restricted only by the allocator's contract; invariant by induction on the history: the live contexts are those of the unfinished operations (`C104_contexts`); buffer lengths by arithmetic; `C104_result` ties the calls to the model of the classes that the other properties use; `C104_false` is a DES message without salt |
| C105 Where there is no poll, listening starts, goes on and stops all the same | partial | the calling thread, the listening thread, the queue of the stop channel, the sockets, with the steps of both threads and of other programs (`Verif/GenericLoop.lean`); the loopback interface does not lose the stop datagram | invariant over all histories whose reads do not raise (`GSys.Inv`); `C105_stops_partial` by induction on the rounds, with the place of the stop datagram in the queue as measure; `C105_again` needs no assumption; `C105_false`, `C105_reconnect_false` are histories |
| C106 The repr of an object is an expression for that object | proved | `Verif/Repr.lean` is the text produced; `Verif/Spec/PyEval.lean` specifies the scanner, grammar and meaning of the Python expressions concerned, with the constructors of the model; the grammar is proved unambiguous (`C106_unambiguous`) | compositional: `Scans` (a text has these tokens whatever delimiter follows) for names, numbers, bytes literals (per octet: all 256 octets times two quotation marks), then calls; decoded objects are shown constructible by induction on the decoding loop |
| C107 What is printed identifies what it was printed from | proved | the same model; the last line of an empty list is empty | separators (`:` after an OID, newline between lines) do not occur in what precedes them, so each text can be cut again; C106 for the values |
| C108 Message flags never claim privacy without authentication | proved | `Verif/Flags.lean`: the setters as functions to `Except`, histories as folds; a flag is given as its truth value | invariant (privacy implies authentication) over the history, then the eight combinations |
| C109 The managers of an engine do not disturb each other | proved | `Verif/EngineV3.lean`: any number of managers (`VSys`) that act in turn on one security module and one message cache (`Pool`), and one listening thread; steps of managers are atomic with respect to each other | each step of a manager is, for what is shared, a sequence of registrations, releases, sends and forgotten messages (`Acts`), and these are steps that another manager's model allows others (`replay`); invariant over the engine's history: every manager's state is that of a history of its own, counts of registrations add up, message objects are disjoint |
| C110 A request is put on the wire a bounded number of times | partial | `Verif/ManagerCommunity.lean`, `Verif/ManagerV3.lean`: the log of transmissions, and the refresh time of each request | invariant over the history: after n transmissions the request is next due n periods after its creation, or at its expiration; false of the code at the very instant at which a request is due, where its refresh time does not move |
| C111 Object identifiers and variable-binding lists are sequences, and object identifiers and tags are sound dictionary keys | proved | `Verif/Sequences.lean`: the sequence methods, `__eq__`/`__hash__`, a Python dictionary as a hash table with an arbitrary hash of tuples and an arbitrary layout | invariant of the chains (at most one entry per key, under its own hash), induction over the history; the bounds of slices by case distinction |
| C112 The security module may be used by several threads at once | proved | `Verif/UsmThreads.lean`: any number of threads inside calls of the security module; what a call does under each of the two locks is one step, anything may happen in between; the salt counter, which no lock protects, has an arbitrary value in each step (C62 is about it) | invariant per thread (what it read, and that the users of that moment give it), each result explained by an undisturbed call of `Usm.lean`; the clock as the fold of the messages that reached it, then C36 |
| C113 Request and message IDs are given back | proved | the manager models (`ManagerCommunity.lean`, `ManagerV3.lean`) as they are; which IDs are reserved is read off the cache of the message processor | invariants: every cache entry belongs to a request that has not been closed (v1/v2c: its callback is set; v3: it still lists the message), preserved by each change of `Chg` and `Prim`; closing empties it |
| C114 A datagram that answers nothing leaves nothing behind | partial | the manager models, for one received datagram | case analysis of `hear`; that v1/v2c never frees the ID of a dropped handle here follows from C113; the counterexample builds, for any engine IDs, datagrams by the round trip theorems of C26 |
| C115 A failed transmission of one request does not end wait() on another | partial | the manager models as they are; the channel's exception is an input of the step | comparison of the step with the failing and with the working channel (v1/v2c), C68 strengthened by the request whose send failed (v3); counterexample histories evaluated by the kernel |
| C116 Messages are equal exactly if they encode alike | proved | `CompareMessages.lean`: `Constructed.__eq__` as the loop over the comparisons of the items, with the exceptions of building them | two complete BER encodings at the start of one octet string are the same (`Framed.append_inj`), so the concatenations agree exactly if the items do; PDUs by C91 |
| C117 Dropped requests leave no entries in a manager | partial | the manager models as they are: heaps and queue of weak references | every step permutes, removes from, or adds a new request to the entries (case analysis of `Chg` and `Flow`); the counterexample is a history for every n, by induction |
| C118 Indentation shows what is part of what | partial | `Display`: the toString methods with depth and tab | indentation as a function on characters distributes over lines; each label is a nonempty line; counterexample for every bulk request |
| C119 What is printed of a message identifies it | partial | `Display` | texts are split at their newlines, whose number is fixed for the nested blocks; labels cancel; octets by scanning (C106) |
| C120 The repr of a subbytes is an expression for it | proved | `Display`: repr of subbytes | scanner of C106, then the constructor on the four forms of the call |
| C121 The repr of a message is an expression for it | proved | `MessageRepr`: the __repr__ methods of messages and their parts | the scanner and evaluator of C106, extended with names; induction over printed arguments; decoding yields objects the constructors accept |

## Properties that are false of the code

For each of these the negation is proved with a concrete witness (`Cxx_false`) and the part that holds
is `…_partial`. The model agrees with the code; the property is what a user would expect.

| property | what goes wrong | lines |
|---|---|---|
| C01 | `len()` of a view with inverted bounds raises; slices of such a view and negative steps give the wrong bytes | snmp/utils.py:175-197 |
| C14 | the first octet is `40*a | b`, not `40*a + b`, so e.g. 1.8 does not survive | snmp/asn1.py:449-465 |
| C15 | trailing octets with the high bit set are ignored | snmp/asn1.py:419-431 |
| C18, C19 | `IpAddress` in an index reads a length that is not written; `RuntimeError` and `ValueError` escape | snmp/asn1.py:181-196,327-342; snmp/smi.py:121-122 |
| C22, C23 | a negative errorIndex is accepted with noError | snmp/pdu.py:239-277,422-442 |
| C33 | a forged unauthenticated response to the still outstanding discovery message completes an authenticated request | snmp/message/v3.py:565-591; snmp/manager/v3.py:608-620 |
| C37 | one unauthenticated report with engine time 2^31-1 makes the next authenticated request raise | snmp/security/usm/timekeeper.py:97-104 |
| C44, C45 | DES: PyCryptodome ciphertext decrypted by an OpenSSL that holds back the last block loses it | snmp/security/usm/priv/openssl/__init__.py:55-67 |
| C47 | a short DES salt gives a short IV | snmp/security/usm/priv/openssl/des.py:28-46 |
| C49, C65, C72 | waiting again after Timeout: `AssertionError` (v1/v2c); bindings after Timeout (v3) | snmp/manager/v1.py:102-118; snmp/manager/v3.py:412-446 |
| C50 | a `wait()` can sleep without limit | snmp/manager/v1.py:137-156 |
| C51, C70 | the heap is out of order after a failed send, or with different periods (v1/v2c) | snmp/manager/v1.py:137-156; snmp/manager/v3.py:549-575 |
| C54, C81 | an exception in `poke` drops the rest of the queue; discovery completed by a response does not flush it | snmp/manager/v3.py:524-547,608-620 |
| C55 | an exception while flushing leaves the flag false, so the same message triggers twice | snmp/manager/v3.py:589-606 |
| C58 | the source address of a datagram is not looked at | snmp/dispatcher.py:47-69 |
| C60, C73, C74 | an exception of a read ends the loop; the second shutdown raises | snmp/transport/posix/udp.py:19-48 |
| C62 | two threads encrypting at once can use one salt | snmp/security/usm/priv/openssl/aes.py:50-61 |
| C64 | two threads in `wait()`: `IndexError` | snmp/manager/v1.py:137-156 |
| C66 | a PDU sent before is not matched by its request ID | snmp/message/v1.py:101-111 |
| C67 | sends caused by reports happen after expiration and after the answer | snmp/manager/v3.py:341-348 |
| C75, C76, C77 | the transport given to the engine is not used; `ValueError` instead of `NoDefaultUser`; sockets left open | snmp/engine.py:71-232 |
| C86 | `get("1.8.1")` asks for 1.0.1 (see C14) | snmp/asn1.py:449-465 |
| C88 | two threads in `wait()` on an expired request, a request issued between their calls of `poke`: the second one resets the state, and the response to the new request is refused with SNMPLibraryBug | snmp/manager/v3.py:524-575 |
| C88 | the transmission after a discovery report fails once: the state stays WaitForDiscovery, and responses to the retransmissions are refused with DiscoveryError | snmp/manager/v3.py:589-609, 150-152 |
| C90 | OpenSSL back end: AES ciphertext is 1 to 16 octets longer than the plaintext | snmp/security/usm/priv/openssl/__init__.py:48-67 |
| C90 | OpenSSL 3 back end: the last block of a peer's DES message is not decrypted | snmp/security/usm/priv/openssl/__init__.py:48-67 |
| C91 | the OIDs 1 and 1.0 are different but encode alike; comparing PDUs with a request ID beyond 32 bits raises ValueError | snmp/asn1.py:66-77, 271-275 |
| C93 | v1, v2c: the request expires between the loop test and `refresh`, the heap is emptied, and the sleep has no timeout: fair scheduling does not end wait() | snmp/manager/v1.py:102-156, snmp/manager/v2c.py:102-156 |
| C98, C99, C100 | 1.8 is encoded as 1.0; OIDs 2.40 and above are refused on receipt | snmp/asn1.py:419-465 |
| C101 | a correct DES message is refused with an OpenSSL that holds back the last block | snmp/security/usm/priv/openssl/__init__.py:48-67 |
| C104 | DES with a short salt makes libcrypto read beyond the IV | snmp/security/usm/priv/openssl/des.py:28-46 |
| C105 | generic transport: a read that raises ends the thread; after shutdown the thread of a new transport ends at once | snmp/transport/generic/udp.py |
| C110 | a resend exactly at the due time leaves the due time as it is: a burst of resends | snmp/manager/v1.py:78-95, snmp/manager/v3.py:381-400 |
| C114 | unauthenticated v3 datagrams add entries to the table of engine clocks without bound | snmp/security/usm/timekeeper.py:97-104 |
| C115 | the failure to resend one request ends `wait()` on another | snmp/manager/v1.py:137-156, snmp/manager/v3.py:524-575 |
| C117 | a manager keeps an entry for every dropped request until somebody waits | snmp/manager/v1.py:137-156,171-193, snmp/manager/v3.py:524-575,656-668 |
| C118 | the first line of a bulk request is never indented, not even inside a message | snmp/pdu.py:324-339 |
| C119 | SNMPv1 and SNMPv2c messages with the same content are printed alike | snmp/message/core.py:45-52 |
