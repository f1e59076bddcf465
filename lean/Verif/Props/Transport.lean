import Verif.Transport
/-!
# C59 and C60
-/

namespace Snmp

/-! ## C59 -/

/-- A usage that names a port others send to: it must be a real port. -/
def Spec.Listens : Option Usage → Prop
  | some .listener | some .trapListener => True
  | _ => False

/-- The port used when none is given. -/
def Spec.standardPort : Option Usage → Int
  | some .listener => 161
  | some .trapListener => 162
  | _ => 0

/-- The wildcard address of a domain. -/
def Spec.wildcard : Domain → String
  | .udpIPv4 => "0.0.0.0"
  | .udpIPv6 => "::"

/-- What the caller asked for: `host` and `port` are given, or filled in. -/
inductive Spec.Asks (d : Domain) (usage : Option Usage) : AddrArg → String → Int → Prop
  | nothing : Asks d usage .absent (Spec.wildcard d) (Spec.standardPort usage)
  | host (s : String) (h : s ≠ "") : Asks d usage (.host (.str s)) s (Spec.standardPort usage)
  | pair (s : String) (p : Int) (h : s ≠ "") : Asks d usage (.pair (.str s) p) s p
  | anyHost (h : ¬Spec.Listens usage) :
      Asks d usage (.host (.str "")) (Spec.wildcard d) (Spec.standardPort usage)
  | anyPair (p : Int) (h : ¬Spec.Listens usage) : Asks d usage (.pair (.str "") p) (Spec.wildcard d) p
  | emptyHost (h : Spec.Listens usage) : Asks d usage (.host (.str "")) "" (Spec.standardPort usage)
  | emptyPair (p : Int) (h : Spec.Listens usage) : Asks d usage (.pair (.str "") p) "" p

/-- A usable address. -/
def Spec.AddressOk (pton : Domain → String → Bool) (d : Domain) (usage : Option Usage) (host : String)
    (port : Int) : Prop :=
  pton d host = true ∧ 0 ≤ port ∧ port ≤ 65535 ∧ (Spec.Listens usage → port ≠ 0)

/-- An argument that is a string, a pair with a string, or nothing. -/
def Spec.Addressable : AddrArg → Prop
  | .badTuple | .host .other | .pair .other _ => False
  | _ => True

theorem permissive_iff (usage : Option Usage) : permissive usage = true ↔ ¬Spec.Listens usage := by
  rcases usage with _ | u
  · simp [permissive, Spec.Listens]
  · cases u <;> simp [permissive, Spec.Listens]

theorem permissive_false (usage : Option Usage) : permissive usage = false ↔ Spec.Listens usage := by
  rcases usage with _ | u
  · simp [permissive, Spec.Listens]
  · cases u <;> simp [permissive, Spec.Listens]

theorem standardPort_eq (usage : Option Usage) :
    impliedPort usage = Spec.standardPort usage := by
  rcases usage with _ | u
  · rfl
  · cases u <;> rfl

theorem wildcard_eq (d : Domain) : d.defaultAddress = Spec.wildcard d := by cases d <;> rfl

theorem wildcard_ne (d : Domain) : Spec.wildcard d ≠ "" := by cases d <;> decide

/-- The checks after the address was chosen. -/
theorem normalize_checks (pton : Domain → String → Bool) (d : Domain) (usage : Option Usage) (s : String)
    (p : Int) :
    (Spec.AddressOk pton d usage s p →
      (if !pton d s then (.error .valueError : Res Address)
        else if p < 0 ∨ 0xffff < p ∨ (p = 0 ∧ permissive usage = false) then .error .valueError
        else .ok ⟨s, p⟩) = .ok ⟨s, p⟩) ∧
    (¬Spec.AddressOk pton d usage s p →
      (if !pton d s then (.error .valueError : Res Address)
        else if p < 0 ∨ 0xffff < p ∨ (p = 0 ∧ permissive usage = false) then .error .valueError
        else .ok ⟨s, p⟩) = .error .valueError) := by
  constructor
  · rintro ⟨h1, h2, h3, h4⟩
    rw [if_neg (by simp [h1]), if_neg]
    rintro (h | h | ⟨h, h'⟩)
    · omega
    · omega
    · exact h4 ((permissive_false usage).1 h') h
  · intro h
    by_cases h1 : pton d s
    · rw [if_neg (by simp [h1]), if_pos]
      apply Decidable.byContradiction
      intro hc
      simp only [not_or, not_and] at hc
      refine h ⟨h1, by omega, by omega, fun hl h0 => ?_⟩
      exact hc.2.2 h0 ((permissive_false usage).2 hl)
    · rw [if_pos (by simp [h1])]

/-- C59: what was asked for is returned if it is usable, and refused with `ValueError` otherwise. -/
theorem C59_asked (pton : Domain → String → Bool) (d : Domain) (usage : Option Usage) (arg : AddrArg)
    (host : String) (port : Int) (h : Spec.Asks d usage arg host port) :
    (Spec.AddressOk pton d usage host port →
      normalizeAddress pton d arg usage = .ok ⟨host, port⟩) ∧
    (¬Spec.AddressOk pton d usage host port → normalizeAddress pton d arg usage = .error .valueError) := by
  have key : normalizeAddress pton d arg usage =
      (if !pton d host then (.error .valueError : Res Address)
        else if port < 0 ∨ 0xffff < port ∨ (port = 0 ∧ permissive usage = false) then .error .valueError
        else .ok ⟨host, port⟩) := by
    unfold normalizeAddress splitAddress
    have hp := permissive_iff usage
    cases h with
    | nothing =>
      simp only [Except.bind, wildcard_eq, standardPort_eq]
      rw [if_neg (by simp [wildcard_ne])]
    | host _ hs => simp only [Except.bind, standardPort_eq]; rw [if_neg (by simp [hs])]
    | pair _ _ hs => simp only [Except.bind]; rw [if_neg (by simp [hs])]
    | anyHost hl =>
      simp only [Except.bind, standardPort_eq]; rw [if_pos ⟨by trivial, hp.2 hl⟩, wildcard_eq]
    | anyPair _ hl =>
      simp only [Except.bind]; rw [if_pos ⟨by trivial, hp.2 hl⟩, wildcard_eq]
    | emptyHost hl =>
      simp only [Except.bind, standardPort_eq]; rw [if_neg (fun hc => hp.1 hc.2 hl)]
    | emptyPair _ hl =>
      simp only [Except.bind]; rw [if_neg (fun hc => hp.1 hc.2 hl)]
  rw [key]
  exact normalize_checks pton d usage host port

/-- C59: every argument made of strings asks for exactly one address, and any other is refused with
`TypeError` or `ValueError`. -/
theorem C59_other (pton : Domain → String → Bool) (d : Domain) (usage : Option Usage) (arg : AddrArg) :
    (Spec.Addressable arg → ∃ host port, Spec.Asks d usage arg host port) ∧
    (¬Spec.Addressable arg → normalizeAddress pton d arg usage = .error .typeError ∨
      normalizeAddress pton d arg usage = .error .valueError) := by
  constructor
  · intro h
    have hd : Decidable (Spec.Listens usage) := by
      rcases usage with _ | u
      · exact isFalse id
      · cases u
        · exact isTrue trivial
        · exact isTrue trivial
        · exact isFalse id
    match arg, h with
    | .absent, _ => exact ⟨_, _, .nothing⟩
    | .host (.str s), _ =>
      by_cases hs : s = ""
      · subst hs
        by_cases hl : Spec.Listens usage
        · exact ⟨_, _, .emptyHost hl⟩
        · exact ⟨_, _, .anyHost hl⟩
      · exact ⟨_, _, .host s hs⟩
    | .pair (.str s) p, _ =>
      by_cases hs : s = ""
      · subst hs
        by_cases hl : Spec.Listens usage
        · exact ⟨_, _, .emptyPair p hl⟩
        · exact ⟨_, _, .anyPair p hl⟩
      · exact ⟨_, _, .pair s p hs⟩
  · intro h
    match arg, h with
    | .badTuple, _ => exact .inr rfl
    | .host .other, _ => left; simp [normalizeAddress, splitAddress, Except.bind]
    | .pair .other p, _ => left; simp [normalizeAddress, splitAddress, Except.bind]
    | .absent, h => exact absurd trivial h
    | .host (.str _), h => exact absurd trivial h
    | .pair (.str _) _, h => exact absurd trivial h

/-- C59: whatever is returned is usable, and normalising it again gives it back. -/
theorem C59_idempotent (pton : Domain → String → Bool) (hempty : ∀ d, pton d "" = false) (d : Domain)
    (usage : Option Usage) (arg : AddrArg) (a : Address)
    (h : normalizeAddress pton d arg usage = .ok a) :
    Spec.AddressOk pton d usage a.host a.port ∧
    normalizeAddress pton d (.pair (.str a.host) a.port) usage = .ok a := by
  obtain ⟨h1, h2⟩ := C59_other pton d usage arg
  by_cases hx : Spec.Addressable arg
  · obtain ⟨host, port, hask⟩ := h1 hx
    obtain ⟨k1, k2⟩ := C59_asked pton d usage arg host port hask
    by_cases hok : Spec.AddressOk pton d usage host port
    · rw [k1 hok] at h
      cases h
      refine ⟨hok, ?_⟩
      have hne : host ≠ "" := by
        rintro rfl
        have := hok.1
        rw [hempty] at this
        cases this
      exact (C59_asked pton d usage _ host port (.pair host port hne)).1 hok
    · rw [k2 hok] at h; cases h
  · rcases h2 hx with h2 | h2 <;> · rw [h2] at h; cases h

/-- A listener address without a port gets port 161; without usage an explicit port is kept. -/
example :
    let pton : Domain → String → Bool := fun _ s => s ≠ ""
    normalizeAddress pton .udpIPv4 (.host (.str "192.0.2.7")) (some .listener) = .ok ⟨"192.0.2.7", 161⟩ ∧
    normalizeAddress pton .udpIPv6 .absent (some .sender) = .ok ⟨"::", 0⟩ ∧
    normalizeAddress pton .udpIPv4 (.pair (.str "192.0.2.7") 0) (some .listener) = .error .valueError := by
  decide +kernel

/-! ## C60 -/

/-- The datagrams of one round, read from the registered sockets, in order. -/
def Spec.datagrams (sockets : List Fd) (round : List (Fd × Read)) : List (Fd × Address × Bytes) :=
  round.filterMap fun (fd, read) =>
    match read with
    | .ok (a, d) => if fd ∈ sockets then some (fd, a, d) else none
    | .error _ => none

/-- No read of a registered socket or of the stop channel raises. -/
def Spec.ReadsOk (sockets : List Fd) (r : Fd) (round : List (Fd × Read)) : Prop :=
  ∀ fd read, (fd, read) ∈ round → fd ∈ sockets ∨ fd = r → ∃ x, read = .ok x

/-- The stop signal of the POSIX multiplexor: the pipe is readable. -/
def Spec.Signalled (r : Fd) (round : List (Fd × Read)) : Prop := ∃ read, (r, read) ∈ round

/-- The stop signal of the generic multiplexor: a datagram from its own socket, that starts with 0. -/
def Spec.StopSent (r : Fd) (w : Address) (round : List (Fd × Read)) : Prop :=
  ∃ rest, (r, .ok (w, 0 :: rest)) ∈ round

theorem posixRound_ok (sockets : List Fd) (r : Fd) (hr : r ∉ sockets) (round : List (Fd × Read))
    (hok : Spec.ReadsOk sockets r round) (done : Bool) (heard : List (Fd × Address × Bytes)) :
    ∃ d, posixRound sockets r round done heard = (.ok d, heard ++ Spec.datagrams sockets round) ∧
      (d = true ↔ done = true ∨ Spec.Signalled r round) := by
  induction round generalizing done heard with
  | nil => exact ⟨done, by simp [posixRound, Spec.datagrams], by simp [Spec.Signalled]⟩
  | cons x round ih =>
    obtain ⟨fd, read⟩ := x
    have hok' : Spec.ReadsOk sockets r round := fun f rd h => hok f rd (List.mem_cons_of_mem _ h)
    unfold posixRound
    by_cases h1 : fd ∈ sockets
    · obtain ⟨⟨a, dt⟩, rfl⟩ := hok fd read (List.mem_cons_self ..) (.inl h1)
      obtain ⟨d, e1, e2⟩ := ih hok' done (heard ++ [(fd, a, dt)])
      refine ⟨d, ?_, ?_⟩
      · rw [if_pos h1]
        simp only [e1]
        simp [Spec.datagrams, h1]
      · rw [e2]
        have : fd ≠ r := fun h => hr (h ▸ h1)
        simp [Spec.Signalled, this.symm]
    · rw [if_neg h1]
      by_cases h2 : fd = r
      · obtain ⟨⟨a, dt⟩, rfl⟩ := hok fd read (List.mem_cons_self ..) (.inr h2)
        obtain ⟨d, e1, e2⟩ := ih hok' true heard
        refine ⟨d, ?_, ?_⟩
        · rw [if_pos h2]
          simp only [e1]
          simp [Spec.datagrams, h1]
        · rw [e2]
          subst h2
          simp [Spec.Signalled]
      · rw [if_neg h2]
        obtain ⟨d, e1, e2⟩ := ih hok' done heard
        refine ⟨d, ?_, ?_⟩
        · rw [e1]
          rcases read with e | ⟨a, dt⟩ <;> simp [Spec.datagrams, h1]
        · rw [e2]
          simp [Spec.Signalled, Ne.symm h2]

theorem genericRound_ok (sockets : List Fd) (r : Fd) (w : Address) (hr : r ∉ sockets)
    (round : List (Fd × Read)) (hnd : (round.map Prod.fst).Nodup) (hok : Spec.ReadsOk sockets r round)
    (done : Bool) (heard : List (Fd × Address × Bytes)) :
    ∃ d, genericRound sockets r w round done heard = (.ok d, heard ++ Spec.datagrams sockets round) ∧
      (d = true ↔ (done = true ∧ r ∉ round.map Prod.fst) ∨ Spec.StopSent r w round) := by
  induction round generalizing done heard with
  | nil => exact ⟨done, by simp [genericRound, Spec.datagrams], by simp [Spec.StopSent]⟩
  | cons x round ih =>
    obtain ⟨fd, read⟩ := x
    have hok' : Spec.ReadsOk sockets r round := fun f rd h => hok f rd (List.mem_cons_of_mem _ h)
    simp only [List.map_cons, List.nodup_cons] at hnd
    unfold genericRound
    by_cases h1 : fd ∈ sockets
    · obtain ⟨⟨a, dt⟩, rfl⟩ := hok fd read (List.mem_cons_self ..) (.inl h1)
      obtain ⟨d, e1, e2⟩ := ih hnd.2 hok' done (heard ++ [(fd, a, dt)])
      have hne : fd ≠ r := fun h => hr (h ▸ h1)
      refine ⟨d, ?_, ?_⟩
      · rw [if_pos h1]
        simp only [e1]
        simp [Spec.datagrams, h1]
      · rw [e2]
        simp [Spec.StopSent, hne.symm]
    · rw [if_neg h1]
      by_cases h2 : fd = r
      · obtain ⟨⟨a, dt⟩, rfl⟩ := hok fd read (List.mem_cons_self ..) (.inr h2)
        obtain ⟨d, e1, e2⟩ := ih hnd.2 hok' (decide (a = w) && decide (dt.take 1 = [0])) heard
        refine ⟨d, ?_, ?_⟩
        · rw [if_pos h2]
          simp only [e1]
          simp [Spec.datagrams, h1]
        · rw [e2]
          subst h2
          have hno : ∀ rest, (fd, (.ok (w, 0 :: rest) : Read)) ∉ round := fun rest hmem =>
            hnd.1 (List.mem_map.2 ⟨_, hmem, rfl⟩)
          have htake : dt.take 1 = [0] ↔ ∃ rest, dt = 0 :: rest := by
            cases dt with
            | nil => simp
            | cons b dt => simp
          simp only [Bool.and_eq_true, decide_eq_true_eq, htake]
          constructor
          · rintro (⟨⟨rfl, rest, rfl⟩, -⟩ | ⟨rest, hm⟩)
            · exact .inr ⟨rest, List.mem_cons_self ..⟩
            · exact absurd hm (hno rest)
          · rintro (⟨-, hm⟩ | ⟨rest, hm⟩)
            · simp at hm
            · rcases List.mem_cons.1 hm with hm | hm
              · simp only [Prod.mk.injEq, Except.ok.injEq, true_and] at hm
                exact .inl ⟨⟨hm.1.symm, rest, hm.2.symm⟩, hnd.1⟩
              · exact absurd hm (hno rest)
      · rw [if_neg h2]
        obtain ⟨d, e1, e2⟩ := ih hnd.2 hok' done heard
        refine ⟨d, ?_, ?_⟩
        · rw [e1]
          rcases read with e | ⟨a, dt⟩ <;> simp [Spec.datagrams, h1]
        · rw [e2]
          simp [Spec.StopSent, Ne.symm h2]

/-- The loop, given what one round does. -/
theorem listenLoop_ok {round : List (Fd × Read) → Bool → List (Fd × Address × Bytes) →
      Except PyErr Bool × List (Fd × Address × Bytes)}
    {sockets : List Fd} {Stop Ok : List (Fd × Read) → Prop}
    (hround : ∀ rd, Ok rd → ∀ heard, ∃ d, round rd false heard = (.ok d, heard ++ Spec.datagrams sockets rd) ∧
      (d = true ↔ Stop rd)) (heard : List (Fd × Address × Bytes)) :
    (∀ rounds, (∀ rd ∈ rounds, Ok rd ∧ ¬Stop rd) → listenLoop round rounds heard =
      ⟨.running, heard ++ (rounds.map (Spec.datagrams sockets)).flatten⟩) ∧
    (∀ pre rd post, (∀ x ∈ pre, Ok x ∧ ¬Stop x) → Ok rd → Stop rd →
      listenLoop round (pre ++ rd :: post) heard =
        ⟨.returned, heard ++ ((pre ++ [rd]).map (Spec.datagrams sockets)).flatten⟩) := by
  constructor
  · intro rounds
    induction rounds generalizing heard with
    | nil => intro _; simp [listenLoop]
    | cons rd rounds ih =>
      intro h
      obtain ⟨h1, h2⟩ := h rd (List.mem_cons_self ..)
      obtain ⟨d, e1, e2⟩ := hround rd h1 heard
      have hd : d = false := by
        cases d
        · rfl
        · exact absurd (e2.1 rfl) h2
      subst hd
      unfold listenLoop
      rw [e1]
      simp only
      rw [ih _ fun x hx => h x (List.mem_cons_of_mem _ hx)]
      simp
  · intro pre
    induction pre generalizing heard with
    | nil =>
      intro rd post _ h1 h2
      obtain ⟨d, e1, e2⟩ := hround rd h1 heard
      obtain rfl : d = true := e2.2 h2
      rw [List.nil_append]
      unfold listenLoop
      rw [e1]
      simp
    | cons x pre ih =>
      intro rd post hpre h1 h2
      obtain ⟨k1, k2⟩ := hpre x (List.mem_cons_self ..)
      obtain ⟨d, e1, e2⟩ := hround x k1 heard
      have hd : d = false := by
        cases d
        · rfl
        · exact absurd (e2.1 rfl) k2
      subst hd
      rw [List.cons_append]
      unfold listenLoop
      rw [e1]
      simp only
      rw [ih _ rd post (fun y hy => hpre y (List.mem_cons_of_mem _ hy)) h1 h2]
      simp

/-- C60 for the POSIX multiplexor, if no read raises: while nothing was written to the pipe, the loop goes
on and every datagram was heard once, in order; it ends after the first round with the signal, whose
datagrams are still heard. -/
theorem C60_posix_partial (sockets : List Fd) (r : Fd) (hr : r ∉ sockets) :
    (∀ rounds, (∀ rd ∈ rounds, Spec.ReadsOk sockets r rd ∧ ¬Spec.Signalled r rd) →
      posixListen sockets r rounds = ⟨.running, (rounds.map (Spec.datagrams sockets)).flatten⟩) ∧
    (∀ pre rd post, (∀ x ∈ pre, Spec.ReadsOk sockets r x ∧ ¬Spec.Signalled r x) →
      Spec.ReadsOk sockets r rd → Spec.Signalled r rd →
      posixListen sockets r (pre ++ rd :: post) =
        ⟨.returned, ((pre ++ [rd]).map (Spec.datagrams sockets)).flatten⟩) := by
  have h := listenLoop_ok (round := posixRound sockets r) (sockets := sockets)
    (Stop := Spec.Signalled r) (Ok := Spec.ReadsOk sockets r) (fun rd hok heard => by
      obtain ⟨d, e1, e2⟩ := posixRound_ok sockets r hr rd hok false heard
      exact ⟨d, e1, by simpa using e2⟩) []
  simpa [posixListen] using h

/-- C60 for the generic multiplexor: the same, where only a datagram that its own socket sent, and that
starts with 0, is a stop signal. `select` reports each descriptor once. -/
theorem C60_generic_partial (sockets : List Fd) (hs : sockets ≠ []) (r : Fd) (w : Address)
    (hr : r ∉ sockets) :
    (∀ rounds, (∀ rd ∈ rounds, ((rd.map Prod.fst).Nodup ∧ Spec.ReadsOk sockets r rd) ∧
        ¬Spec.StopSent r w rd) →
      genericListen sockets r w rounds = ⟨.running, (rounds.map (Spec.datagrams sockets)).flatten⟩) ∧
    (∀ pre rd post, (∀ x ∈ pre, ((x.map Prod.fst).Nodup ∧ Spec.ReadsOk sockets r x) ∧
        ¬Spec.StopSent r w x) →
      ((rd.map Prod.fst).Nodup ∧ Spec.ReadsOk sockets r rd) → Spec.StopSent r w rd →
      genericListen sockets r w (pre ++ rd :: post) =
        ⟨.returned, ((pre ++ [rd]).map (Spec.datagrams sockets)).flatten⟩) := by
  have h := listenLoop_ok (round := genericRound sockets r w) (sockets := sockets)
    (Stop := Spec.StopSent r w)
    (Ok := fun rd => (rd.map Prod.fst).Nodup ∧ Spec.ReadsOk sockets r rd) (fun rd hok heard => by
      obtain ⟨d, e1, e2⟩ := genericRound_ok sockets r w hr rd hok.1 hok.2 false heard
      exact ⟨d, e1, by simpa using e2⟩) []
  simpa [genericListen, hs] using h

/-- C60 for the generic multiplexor without sockets: `listen` returns at once and hands over nothing. -/
theorem C60_generic_none (r : Fd) (w : Address) (rounds : List (List (Fd × Read))) :
    genericListen [] r w rounds = ⟨.returned, []⟩ := rfl

/-- A round with two datagrams and a stop signal in between, heard from another socket than the
multiplexor's own, then the real one. -/
example :
    let own : Address := ⟨"127.0.0.1", 5000⟩
    let peer : Address := ⟨"192.0.2.1", 161⟩
    genericListen [4, 5] 3 own
      [[(4, .ok (peer, [1])), (3, .ok (peer, [0])), (5, .ok (peer, [2]))], [(3, .ok (own, [0]))], []] =
      ⟨.returned, [(4, peer, [1]), (5, peer, [2])]⟩ := by
  decide +kernel

/-- C60 is false of the code: a read that raises ends the loop, although no stop signal was sent, and the
datagrams after it are never heard. On Linux `poll` reports a socket ready for a datagram whose checksum
then turns out wrong, and `recvfrom` on the non-blocking socket raises `BlockingIOError`. -/
theorem C60_false :
    let peer : Address := ⟨"192.0.2.1", 161⟩
    let rounds : List (List (Fd × Read)) := [[(4, .error .osError)], [(4, .ok (peer, [1]))]]
    (∀ rd ∈ rounds, ¬Spec.Signalled 3 rd) ∧
    posixListen [4] 3 rounds = ⟨.raised .osError, []⟩ ∧
    (rounds.map (Spec.datagrams [4])).flatten = [(4, peer, [1])] := by
  refine ⟨?_, by decide +kernel, by decide +kernel⟩
  simp [Spec.Signalled]

end Snmp
