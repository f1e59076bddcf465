import Verif.ManagerV3Moves
import Mathlib.Data.List.Induction
/-! # Facts about the v3 manager used by several properties -/

namespace Snmp

namespace VMgr

theorem updateState_eq (s : VMgr) : s.updateState = { s with state := s.next.getD s.state, next := none } := by
  unfold updateState
  cases h : s.next with
  | none => cases s; simp_all
  | some st => rfl

theorem propose_eq (s : VMgr) (n : Option MState) : s.propose n = { s with next := n <|> s.next } := by
  unfold propose
  cases n <;> rfl

/-- What sending leaves alone. -/
structure Frame (s s' : VMgr) : Prop where
  dead : s'.dead = s.dead
  bools : s'.bools = s.bools
  nextReq : s'.nextReq = s.nextReq
  nextBool : s'.nextBool = s.nextBool
  active : s'.active = s.active
  unsent : s'.unsent = s.unsent
  state : s'.state = s.state
  next : s'.next = s.next
  engineID : s'.engineID = s.engineID
  gen : s'.gen = s.gen
  locked : s'.locked = s.locked
  fails : s'.fails = s.fails

theorem Sends.frame {cfg : VCfg} {s s' : VMgr} {r : Nat} {q : VReq} {engineID : Option Bytes} {cause : Why}
    {i : SendIn} {res : Res Unit} (h : Sends cfg s r q engineID cause i res s') : Frame s s' := by
  cases h <;> exact ⟨rfl, rfl, rfl, rfl, rfl, rfl, rfl, rfl, rfl, rfl, rfl, rfl⟩

/-- What sending does to requests: only `r` changes, and keeps what is not listed. -/
theorem Sends.reqs {cfg : VCfg} {s s' : VMgr} {r : Nat} {q : VReq} {engineID : Option Bytes} {cause : Why}
    {i : SendIn} {res : Res Unit} (h : Sends cfg s r q engineID cause i res s') :
    ∃ q', s'.reqs = setAt s.reqs r (some q') ∧ q' = { q with messages := q'.messages, engineID := q'.engineID } := by
  cases h with
  | refused e err usm he hc => exact ⟨q, rfl, rfl⟩
  | made q1 usm1 usm cache id sent res he hb hu hs hpo hdo =>
    refine ⟨_, rfl, ?_⟩
    rcases he with ⟨-, rfl, -⟩ | ⟨e, -, -, rfl⟩ <;> rfl

theorem closing_frame (cfg : VCfg) (s : VMgr) (r : Nat) : Frame s (s.closing cfg r) := by
  unfold closing closed
  split <;> exact ⟨rfl, rfl, rfl, rfl, rfl, rfl, rfl, rfl, rfl, rfl, rfl, rfl⟩

/-- What `processResponse` does. -/
theorem processResponse_cases (cfg : VCfg) (s : VMgr) (x : V3Incoming) (seed : Bytes → Nat) :
    (∃ err, s.state.onResponse s.engineID x.securityEngineID x.header.flags.level.auth = .error err ∧
      s.processResponse cfg x seed = (.error err, s)) ∨
    (∃ next err usm, s.state.onResponse s.engineID x.securityEngineID x.header.flags.level.auth = .ok (true, next) ∧
      changeEngine cfg s.usm s.engineID (some x.securityEngineID) seed = (.error err, usm) ∧
      s.processResponse cfg x seed = (.error err, { s with next := next <|> s.next, usm })) ∨
    (∃ next usm, s.state.onResponse s.engineID x.securityEngineID x.header.flags.level.auth = .ok (true, next) ∧
      changeEngine cfg s.usm s.engineID (some x.securityEngineID) seed = (.ok (), usm) ∧
      s.processResponse cfg x seed = (.ok (), { s with
        next := none, state := (next <|> s.next).getD s.state, usm, engineID := some x.securityEngineID })) ∨
    (s.state.onResponse s.engineID x.securityEngineID x.header.flags.level.auth = .ok (false, none) ∧
      s.processResponse cfg x seed = (.ok (), s)) := by
  unfold processResponse
  cases h : s.state.onResponse s.engineID x.securityEngineID x.header.flags.level.auth with
  | error e => exact .inl ⟨e, rfl, rfl⟩
  | ok y =>
    obtain ⟨b, next⟩ := y
    cases b with
    | false =>
      have hn : next = none := by
        revert h
        cases s.state <;> simp only [MState.onResponse] <;> try simp
        · split <;> simp_all
        · exact fun _ h => h.symm
      subst hn
      exact .inr (.inr (.inr ⟨rfl, rfl⟩))
    | true =>
      simp only [propose_eq, if_true]
      cases hc : changeEngine cfg s.usm s.engineID (some x.securityEngineID) seed with
      | mk res usm =>
        cases res with
        | error e => exact .inr (.inl ⟨next, e, usm, rfl, rfl, rfl⟩)
        | ok _ =>
          refine .inr (.inr (.inl ⟨next, usm, rfl, rfl, ?_⟩))
          simp only [updateState_eq]

theorem deref_some {s : VMgr} {r : Nat} {q : VReq} (h : s.deref r = some q) : s.dead r = false ∧ s.reqs r = some q := by
  unfold deref at h
  split at h
  · cases h
  · rename_i hd; exact ⟨by simpa using hd, h⟩

theorem deref_none {s : VMgr} {r : Nat} (h : s.deref r = none) : s.dead r = true ∨ s.reqs r = none := by
  unfold deref at h
  split at h
  · rename_i hd; exact .inl hd
  · exact .inr h

end VMgr

namespace VSys

theorem finish_frame (cfg : VCfg) (s : VSys) (t r : Nat) (o : VOutcome) : VMgr.Frame s.mgr (s.finish cfg t r o).mgr := by
  rw [finish_eq]; exact VMgr.closing_frame cfg s.mgr r

/-- The system after the history `h`, starting with the manager `m0`. -/
abbrev after (cfg : VCfg) (m0 : VMgr) (h : List VEvent) : VSys := (init m0).run cfg h

theorem after_snoc (cfg : VCfg) (m0 : VMgr) (h : List VEvent) (e : VEvent) :
    after cfg m0 (h ++ [e]) = (after cfg m0 h).step cfg e := by
  unfold after run
  rw [List.foldl_append]; rfl

theorem after_append (cfg : VCfg) (m0 : VMgr) (h h' : List VEvent) :
    after cfg m0 (h ++ h') = (after cfg m0 h).run cfg h' := by
  unfold after run
  rw [List.foldl_append]

/-- What holds at the start and is kept by every move holds after every history. -/
theorem after_induct {cfg : VCfg} {m0 : VMgr} (P : List VEvent → VSys → Prop) (h0 : P [] (init m0))
    (stay : ∀ h s e, P h s → P (h ++ [e]) s) (move : ∀ h s e s', P h s → Move cfg s e s' → P (h ++ [e]) s')
    (h : List VEvent) : P h (after cfg m0 h) := by
  induction h using List.reverseRecOn with
  | nil => exact h0
  | append_singleton h e ih =>
    rw [after_snoc]
    rcases step_move cfg (after cfg m0 h) e with hs | hs
    · rw [hs]; exact stay _ _ _ ih
    · exact move _ _ _ _ ih hs

/-- The same from any state on. -/
theorem run_induct {cfg : VCfg} {s0 : VSys} (P : VSys → Prop) (h0 : P s0)
    (move : ∀ s e s', P s → Move cfg s e s' → P s') (h : List VEvent) : P (s0.run cfg h) := by
  induction h using List.reverseRecOn with
  | nil => exact h0
  | append_singleton h e ih =>
    have : s0.run cfg (h ++ [e]) = (s0.run cfg h).step cfg e := by unfold run; rw [List.foldl_append]; rfl
    rw [this]
    rcases step_move cfg (s0.run cfg h) e with hs | hs
    · rw [hs]; exact ih
    · exact move _ _ _ ih hs

end VSys

end Snmp
