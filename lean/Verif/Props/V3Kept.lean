import Verif.Props.V3Places
import Verif.Props.V3Schedule
/-!
# C54: no pending request of a v3 manager is forgotten
-/

namespace Snmp

variable {cfg : VCfg} {m0 : VMgr} {base : Bytes → Option (Int × String)}

namespace VSys

open VMgr

/-- All numbers of requests kept somewhere. -/
abbrev places (s : VSys) (held : List Ref) : List Nat := ids s.mgr.active ++ (ids held ++ ids s.mgr.unsent)

/-- Requests are kept at most once, and queued in order of issue. -/
structure Placed (s : VSys) (held : List Ref) : Prop where
  owner : Owner s held
  nodup : (places s held).Nodup
  lt : ∀ r ∈ places s held, r < s.mgr.nextReq
  desc : (ids held ++ ids s.mgr.unsent).Pairwise (· > ·)

/-- What a step does to the collection of kept requests. -/
theorem flow_places {s s' : VSys} {e : VEvent} {held held' : List Ref} (hf : Flow s e s' held held') :
    (s'.mgr.nextReq = s.mgr.nextReq ∧ ∃ l, (places s held).Perm (l ++ places s' held')) ∨
    (s'.mgr.nextReq = s.mgr.nextReq + 1 ∧ ((places s' held').Perm (places s held) ∨
      (places s' held').Perm (s.mgr.nextReq :: places s held))) := by
  have perm1 : ∀ (A : List Nat) (l U : List Nat) (x : Nat), (A ++ ((l ++ [x]) ++ U)).Perm (x :: (A ++ (l ++ U))) := by
    intro A l U x
    refine List.Perm.trans ?_ (List.perm_middle (a := x) (l₁ := A ++ l) (l₂ := U)) |>.trans ?_
    · simp
    · simp
  cases hf with
  | same ha hu hn =>
    left
    refine ⟨hn, [], ?_⟩
    unfold places
    rw [hu]
    exact (ha.symm.append_right _)
  | queued x hx ha hu hn =>
    right
    refine ⟨hn, .inr ?_⟩
    unfold places
    rw [ha, hu]
    simp only [List.map_nil, List.nil_append, List.map_cons, hx]
    exact List.perm_middle
  | issued ha hu hn =>
    right
    refine ⟨hn, .inr ?_⟩
    unfold places
    rw [hu]
    exact ha.append_right _
  | issueFailed ha hu hn hf =>
    right
    refine ⟨hn, .inl ?_⟩
    unfold places
    rw [hu, ha]
  | popped x rest hx ho ha hu hn =>
    left
    refine ⟨hn, [x.id], ?_⟩
    unfold places
    rw [hu, hx]
    exact (ha.symm.append_right _).cons _
  | pokeBegin ha hu hn =>
    left
    refine ⟨hn, [], ?_⟩
    unfold places
    rw [hu, ha]
    simp
  | pokeDead x ho ha hu hn =>
    left
    refine ⟨hn, [x.id], ?_⟩
    unfold places
    rw [hu, ha]
    simpa using perm1 (ids s.mgr.active) (ids held') (ids s.mgr.unsent) x.id
  | pokeQueued x ha hu hn =>
    left
    refine ⟨hn, [], ?_⟩
    unfold places
    rw [hu, ha]
    simp
  | pokeSent x ha hu hn =>
    left
    refine ⟨hn, [], ?_⟩
    unfold places
    rw [hu]
    have := perm1 (ids s.mgr.active) (ids held') (ids s.mgr.unsent) x.id
    refine List.Perm.trans (by simpa using this) ?_
    exact (ha.symm.append_right (ids held' ++ ids s.mgr.unsent))
  | @pokeFailed l x ha hu hn hf =>
    left
    refine ⟨hn, ids (l ++ [x]), ?_⟩
    unfold places
    rw [hu, ha]
    simp only [List.map_nil, List.nil_append]
    rw [← List.append_assoc, ← List.append_assoc]
    exact (List.perm_append_comm).append_right _
  | flushDead x l ho hx ha hu hn =>
    left
    refine ⟨hn, [x.id], ?_⟩
    unfold places
    rw [hu, ha, hx]
    simpa using perm1 (ids s.mgr.active) (ids l) [] x.id
  | flushSent x l hx ha hu hn =>
    left
    refine ⟨hn, [], ?_⟩
    unfold places
    rw [hu, hx]
    refine List.Perm.trans (by simpa using perm1 (ids s.mgr.active) (ids l) [] x.id) ?_
    exact (ha.symm.append_right (ids l))
  | flushFailed x l hx ha hu hn hf =>
    left
    refine ⟨hn, [x.id], ?_⟩
    unfold places
    rw [hu, ha, hx]
    simpa using perm1 (ids s.mgr.active) (ids l) [] x.id

theorem Placed.move {s s' : VSys} {e : VEvent} {held : List Ref} (hp : Placed s held) (hm : Move cfg s e s') :
    ∃ held', Placed s' held' ∧ Flow s e s' held held' := by
  obtain ⟨-, held', ho, hf⟩ := move_flow hp.owner hm
  refine ⟨held', ⟨ho, ?_, ?_, ?_⟩, hf⟩
  · rcases flow_places hf with ⟨-, l, h⟩ | ⟨-, h | h⟩
    · exact (List.nodup_append.1 (h.nodup_iff.1 hp.nodup)).2.1
    · exact h.nodup_iff.2 hp.nodup
    · refine h.nodup_iff.2 (List.nodup_cons.2 ⟨fun hx => ?_, hp.nodup⟩)
      exact absurd (hp.lt _ hx) (Nat.lt_irrefl _)
  · intro r hr
    rcases flow_places hf with ⟨hn, l, h⟩ | ⟨hn, h | h⟩
    · rw [hn]
      exact hp.lt r (h.mem_iff.2 (List.mem_append_right _ hr))
    · rw [hn]
      exact Nat.lt_succ_of_lt (hp.lt r (h.mem_iff.1 hr))
    · rw [hn]
      rcases List.mem_cons.1 (h.mem_iff.1 hr) with h1 | h1
      · rw [h1]; exact Nat.lt_succ_self _
      · exact Nat.lt_succ_of_lt (hp.lt r h1)
  · have hd := hp.desc
    cases hf with
    | same ha hu hn => rw [hu]; exact hd
    | queued x hx ha hu hn =>
      rw [hu]
      simp only [List.map_nil, List.nil_append, List.map_cons, List.pairwise_cons] at hd ⊢
      refine ⟨fun r hr => ?_, hd⟩
      rw [hx]
      exact hp.lt r (by unfold places; simp only [List.map_nil, List.nil_append]; exact List.mem_append_right _ hr)
    | issued ha hu hn => rw [hu]; exact hd
    | issueFailed ha hu hn hf => rw [hu]; exact hd
    | popped x rest hx ho ha hu hn => rw [hu]; exact hd
    | pokeBegin ha hu hn => rw [hu]; simpa using hd
    | pokeDead x ho ha hu hn =>
      rw [hu]
      refine hd.sublist ?_
      simp
    | pokeQueued x ha hu hn => rw [hu]; simpa using hd
    | pokeSent x ha hu hn =>
      rw [hu]
      refine hd.sublist ?_
      simp
    | pokeFailed x ha hu hn hf =>
      rw [hu]
      exact hd.sublist (List.sublist_append_right _ _)
    | flushDead x l ho hx ha hu hn =>
      rw [hu]
      rw [hx] at hd
      refine hd.sublist ?_
      simp
    | flushSent x l hx ha hu hn =>
      rw [hu]
      rw [hx] at hd
      refine hd.sublist ?_
      simp
    | flushFailed x l hx ha hu hn hf =>
      rw [hu]
      rw [hx] at hd
      refine hd.sublist ?_
      simp

/-- A collected request stays collected. -/
theorem move_dead {s s' : VSys} {e : VEvent} (hm : Move cfg s e s') (r : Nat) (h : s'.mgr.dead r = false) :
    s.mgr.dead r = false := by
  have fin : ∀ (s0 : VSys) (t r : Nat) (o : VOutcome), (s0.finish cfg t r o).mgr.dead = s0.mgr.dead :=
    fun s0 t r o => (finish_frame cfg s0 t r o).dead
  cases hm
  case issued pdu user level timeout period t0 r0 i q hq hl hd next hs m' hm' =>
    have f := hm'.frame.dead
    simp only [updateState_eq, propose_eq, VMgr.issue] at f h
    rw [f] at h; exact h
  case issueFailed pdu user level timeout period t0 r0 i q hq hl hd next hs m' err hm' =>
    have f := hm'.frame.dead
    simp only [propose_eq, VMgr.issue, VMgr.fail] at f h
    rw [f] at h; exact h
  case bodyZero t i r x rest q ht ha hx he hn hx' hz => rw [fin] at h; exact h
  case bodySent t i r x rest q ht ha hx he hn hx' hz m' hm' =>
    have f := hm'.frame.dead
    simp only at h
    rw [f] at h; exact h
  case bodyFailed t i r x rest q ht ha hx he hn hx' hz m' err hm' =>
    have f := hm'.frame.dead
    rw [fin] at h
    simp only [VMgr.fail] at h
    rw [f] at h; exact h
  case pokeBegin t i r ht hl => simpa only [updateState_eq, propose_eq] using h
  case pokeSent t i r l x a q ht hx next hs m' hm' =>
    have f := hm'.frame.dead
    simp only [updateState_eq, propose_eq] at f h
    rw [f] at h; exact h
  case pokeFailed t i r l x a q ht hx next hs m' err hm' =>
    have f := hm'.frame.dead
    rw [fin] at h
    simp only [propose_eq, VMgr.fail] at f h
    rw [f] at h; exact h
  case answered t i r q x ht hq he hx => rw [fin] at h; exact h
  case reported t i r q ex ht hq he => rw [fin] at h; exact h
  case timedOut t i r q ht hq he => rw [fin] at h; exact h
  case reportFailed i m x r q cause sync hr hl all next hs m' err hm' =>
    have f := hm'.frame.dead
    simp only [propose_eq, VMgr.fail] at f h
    rw [f] at h; exact h
  case reportOne i m x r q cause sync hr hl next hs m' hm' =>
    have f := hm'.frame.dead
    simp only [propose_eq] at f h
    rw [f] at h; exact h
  case reportAll i m x r q cause sync hr hl next hs m' hm' =>
    have f := hm'.frame.dead
    simp only [propose_eq, updateState_eq] at f h
    rw [f] at h; exact h
  case responseBad i m x msg q hl hmm hq hi hlk err m' hp =>
    rcases processResponse_cases cfg s.mgr x i.seed with ⟨_, -, h'⟩ | ⟨_, _, _, -, -, h'⟩ | ⟨_, _, -, -, h'⟩ | ⟨-, h'⟩ <;>
      rw [hp] at h' <;> cases h' <;> exact h
  case responded i m x msg q hl hmm hq hi hlk m' hp =>
    rcases processResponse_cases cfg s.mgr x i.seed with ⟨_, -, h'⟩ | ⟨_, _, _, -, -, h'⟩ | ⟨_, _, -, -, h'⟩ | ⟨-, h'⟩ <;>
      rw [hp] at h' <;> cases h' <;> exact h
  case flushSent i r eid sync l x q hl hu hx m' hm' =>
    have f := hm'.frame.dead
    simp only at f h
    rw [f] at h; exact h
  case flushFailed i r eid sync l x q hl hu hx m' err hm' =>
    have f := hm'.frame.dead
    simp only [VMgr.fail] at f h
    rw [f] at h; exact h
  case collected r' q hq =>
    simp only [setAt_get] at h
    split at h
    · cases h
    · exact h
  all_goals exact h

end VSys

open VSys

/-! ## Specification -/

/-- Request `r` is scheduled for retransmission. -/
def Spec.Scheduled (s : VSys) (r : Nat) : Prop := ∃ x ∈ s.mgr.active, x.id = r

/-- `l` is the queue of requests not sent yet: what the manager keeps, and what a thread in `poke` has taken out
to look at. -/
def Spec.Queue (s : VSys) (l : List Ref) : Prop :=
  (∃ t r held a, s.threads t = .poking r held a ∧ l = held ++ s.mgr.unsent) ∨
  ((∀ t r held a, s.threads t ≠ .poking r held a) ∧ l = s.mgr.unsent)

/-- Request `r` is queued for sending. -/
def Spec.Queued (s : VSys) (r : Nat) : Prop := ∃ l x, Spec.Queue s l ∧ x ∈ l ∧ x.id = r

/-- In the history `h` some thread read the clock at or past `expiration`. -/
def Spec.Overdue (h : List VEvent) (expiration : ℚ) : Prop := ∃ t i, VEvent.step t i ∈ h ∧ expiration ≤ i.now

/-- Request `r` itself failed: its `sendRequest` raised, or sending it from the queue raised. -/
def Spec.Failed (s : VSys) (r : Nat) : Prop :=
  .issue r ∈ s.mgr.fails ∨ .poke r ∈ s.mgr.fails ∨ .flush r ∈ s.mgr.fails

theorem Spec.queue_iff {s : VSys} {held : List Ref} (ho : Owner s held) (l : List Ref) :
    Spec.Queue s l ↔ l = held ++ s.mgr.unsent := by
  unfold Spec.Queue
  constructor
  · rintro (⟨t, r, held', a, h1, h2⟩ | ⟨h1, h2⟩)
    · rw [h2, (ho.poking h1).1]
    · cases ho with
      | none _ _ _ => simpa using h2
      | poke t r held a _ h _ _ => exact absurd h (h1 t r held a)
      | flush _ _ _ _ _ _ => simpa using h2
  · intro h
    cases ho with
    | none _ hf _ => exact .inr ⟨hf, by simpa using h⟩
    | poke t r held a _ hp _ _ => exact .inl ⟨t, r, held, a, hp, h⟩
    | flush _ _ _ _ hf _ => exact .inr ⟨hf, by simpa using h⟩

/-- The part of the invariant that depends on the history. -/
def VSys.Kept (h : List VEvent) (s : VSys) (held : List Ref) : Prop :=
  ∀ r q, s.mgr.reqs r = some q → s.mgr.dead r = false → q.event = false →
    r ∈ places s held ∨ Spec.Overdue h q.expiration ∨ Spec.Failed s r ∨ ∃ r' < r, .poke r' ∈ s.mgr.fails

theorem VSys.Kept.move {h : List VEvent} {s s' : VSys} {e : VEvent} {held held' : List Ref}
    {base' : Bytes → Option (Int × String)} (ha : s.mgr.Accounts base cfg.ns) (ha' : s'.mgr.Accounts base' cfg.ns)
    (hk : Kept h s held) (hp : Placed s held) (hm : Move cfg s e s') (hf : Flow s e s' held held')
    (hfails : ∀ f ∈ s.mgr.fails, f ∈ s'.mgr.fails) : Kept (h ++ [e]) s' held' := by
  intro r q' hq' hd' he'
  rcases move_born hm r q' hq' with ⟨q, hq⟩ | ⟨rfl, -⟩
  · have hd := move_dead hm r hd'
    obtain ⟨q2, h1, h2⟩ := move_touch ha hm r q hq
    rw [hq'] at h1
    cases h1
    have hl := h2.later
    have he : q.event = false := by
      cases hx : q.event with
      | false => rfl
      | true => rw [(hl.event hx).1] at he'; cases he'
    have over : ∀ x : Ref, x.id = r → Over s e x → Spec.Overdue (h ++ [e]) q'.expiration := by
      intro x hx ho
      rcases ho with ho | ⟨q3, t, i, h3, h4, h5⟩
      · exfalso
        rcases VMgr.deref_none ho with h6 | h6
        · rw [hx, hd] at h6; cases h6
        · rw [hx, hq] at h6; cases h6
      · rw [hx] at h3
        have := (VMgr.deref_some h3).2
        rw [hq] at this
        cases this
        rcases h5 with h5 | h5
        · rw [he] at h5; cases h5
        · exact ⟨t, i, by simp [h4], by rw [hl.expiration]; exact h5⟩
    rcases hk r q hq hd he with h3 | ⟨t, i, h3, h4⟩ | h3 | ⟨r', h3, h4⟩
    · -- it was kept
      by_cases hin : r ∈ places s' held'
      · exact .inl hin
      · right
        have mem3 : ∀ {A H U : List Nat}, r ∈ A ++ (H ++ U) ↔ r ∈ A ∨ r ∈ H ∨ r ∈ U := by simp
        unfold places at h3 hin
        rw [mem3] at h3 hin
        cases hf with
        | same hA hu hn => rw [hu] at hin; rw [hA.mem_iff] at hin; exact absurd h3 hin
        | queued x hx hA hu hn =>
          rw [hu, hA] at hin
          simp only [List.map_cons, List.mem_cons] at hin
          exact absurd (h3.imp id (.imp id .inr)) hin
        | issued hA hu hn =>
          rw [hu, hA.mem_iff, List.mem_cons] at hin
          exact absurd (h3.imp .inr id) hin
        | issueFailed hA hu hn hff => rw [hu, hA] at hin; exact absurd h3 hin
        | popped x rest hx ho hA hu hn =>
          rw [hu, hA.mem_iff] at hin
          rw [hx] at h3
          simp only [List.map_cons, List.mem_cons] at h3
          by_cases hxr : x.id = r
          · exact .inl (over x hxr ho)
          · exact absurd (h3.imp (fun h => h.resolve_left (fun h => hxr h.symm)) id) hin
        | pokeBegin hA hu hn =>
          rw [hu, hA] at hin
          simp only [List.map_nil, List.not_mem_nil, false_or, or_false] at h3 hin
          exact absurd h3 hin
        | pokeDead x ho hA hu hn =>
          rw [hu, hA] at hin
          simp only [List.map_append, List.mem_append, List.map_singleton, List.mem_singleton] at h3
          by_cases hxr : x.id = r
          · exact .inl (over x hxr ho)
          · exact absurd (h3.imp id (.imp (fun h => h.resolve_right (fun h => hxr h.symm)) id)) hin
        | pokeQueued x hA hu hn =>
          rw [hu, hA] at hin
          simp only [List.map_append, List.mem_append, List.map_cons, List.map_nil, List.mem_cons, List.not_mem_nil,
            or_false] at h3 hin
          exact absurd (by tauto) hin
        | pokeSent x hA hu hn =>
          rw [hu, hA.mem_iff] at hin
          simp only [List.map_append, List.mem_append, List.map_cons, List.map_nil, List.mem_cons, List.not_mem_nil,
            or_false] at h3 hin
          exact absurd (by tauto) hin
        | @pokeFailed l x hA hu hn hff =>
          rw [hu, hA] at hin
          simp only [List.map_append, List.mem_append, List.map_cons, List.map_nil, List.mem_cons, List.not_mem_nil,
            or_false, false_or] at h3 hin
          right
          rcases h3 with h3 | (h3 | h3) | h3
          · exact absurd (.inl h3) hin
          · right
            refine ⟨x.id, ?_, hff⟩
            have hd := hp.desc
            rw [List.pairwise_append] at hd
            have hd := hd.1
            simp only [List.map_append, List.pairwise_append] at hd
            exact hd.2.2 r h3 x.id (by simp)
          · exact .inl (.inr (.inl (by rw [h3]; exact hff)))
          · exact absurd (.inr h3) hin
        | flushDead x l ho hx hA hu hn =>
          rw [hu, hA] at hin
          rw [hx] at h3
          simp only [List.map_append, List.mem_append, List.map_singleton, List.mem_singleton] at h3
          by_cases hxr : x.id = r
          · exact .inl (over x hxr ho)
          · exact absurd (h3.imp id (.imp id (fun h => h.resolve_right (fun h => hxr h.symm)))) hin
        | flushSent x l hx hA hu hn =>
          rw [hu, hA.mem_iff] at hin
          rw [hx] at h3
          simp only [List.map_append, List.mem_append, List.map_cons, List.map_nil, List.mem_cons, List.not_mem_nil,
            or_false, false_or] at h3 hin
          exact absurd (by tauto) hin
        | flushFailed x l hx hA hu hn hff =>
          rw [hu, hA] at hin
          rw [hx] at h3
          simp only [List.map_append, List.mem_append, List.map_cons, List.map_nil, List.mem_cons, List.not_mem_nil,
            or_false, false_or] at h3 hin
          right; left; right; right
          by_cases hxr : r = x.id
          · rw [hxr]; exact hff
          · exact absurd (by tauto) hin
    · exact .inr (.inl ⟨t, i, by simp [h3], by rw [hl.expiration]; exact h4⟩)
    · refine .inr (.inr (.inl ?_))
      rcases h3 with h3 | h3 | h3
      · exact .inl (hfails _ h3)
      · exact .inr (.inl (hfails _ h3))
      · exact .inr (.inr (hfails _ h3))
    · exact .inr (.inr (.inr ⟨r', h3, hfails _ h4⟩))
  · -- it was created
    have hlt := ha'.lt hq'
    have hne : s'.mgr.nextReq ≠ s.mgr.nextReq := by omega
    cases hf with
    | queued x hx hA hu hn => left; unfold places; rw [hu]; simp [hx]
    | issued hA hu hn => left; exact List.mem_append_left _ (hA.mem_iff.2 (by simp))
    | issueFailed hA hu hn hff => exact .inr (.inr (.inl (.inl hff)))
    | same hA hu hn => exact absurd hn hne
    | popped x rest hx ho hA hu hn => exact absurd hn hne
    | pokeBegin hA hu hn => exact absurd hn hne
    | pokeDead x ho hA hu hn => exact absurd hn hne
    | pokeQueued x hA hu hn => exact absurd hn hne
    | pokeSent x hA hu hn => exact absurd hn hne
    | pokeFailed x hA hu hn hff => exact absurd hn hne
    | flushDead x l ho hx hA hu hn => exact absurd hn hne
    | flushSent x l hx hA hu hn => exact absurd hn hne
    | flushFailed x l hx hA hu hn hff => exact absurd hn hne

/-- After any history. -/
theorem Spec.Created.kept (hc : Spec.Created cfg m0) (h : List VEvent) :
    ∃ held, Placed (after cfg m0 h) held ∧ Kept h (after cfg m0 h) held := by
  induction h using List.reverseRecOn with
  | nil =>
    obtain ⟨hok, h0, engineID, g, c0, n0, seed, hu0, hm⟩ := hc
    obtain ⟨usm, hcc, hm0⟩ := VMgr.create_ok hm
    refine ⟨[], ⟨.none ?_ (fun t r l a h => by cases h) (fun r e b h => by cases h), ?_, ?_, ?_⟩, ?_⟩
    · show m0.locked = false
      rw [hm0]
    · show (ids m0.active ++ ([] ++ ids m0.unsent)).Nodup
      rw [hm0]; simp
    · show ∀ r ∈ ids m0.active ++ ([] ++ ids m0.unsent), _
      rw [hm0]; simp
    · show ([] ++ ids m0.unsent).Pairwise (· > ·)
      rw [hm0]; simp
    · intro r q hq
      have hq : m0.reqs r = some q := hq
      rw [hm0] at hq; cases hq
  | append_singleton h e ih =>
    obtain ⟨held, hp, hk⟩ := ih
    rw [after_snoc]
    obtain ⟨base, hpos, hs⟩ := hc.sound h
    obtain ⟨base', hpos', hs'⟩ := hc.sound (h ++ [e])
    rw [after_snoc] at hs'
    rcases step_move cfg (after cfg m0 h) e with hm | hm
    · rw [hm]
      refine ⟨held, hp, fun r q hq hd he => ?_⟩
      rcases hk r q hq hd he with h3 | ⟨t, i, h3, h4⟩ | h3
      · exact .inl h3
      · exact .inr (.inl ⟨t, i, by simp [h3], h4⟩)
      · exact .inr (.inr h3)
    · have ha' := hs'.accounts
      obtain ⟨held', hp', hf⟩ := hp.move hm
      exact ⟨held', hp', hk.move hs.accounts ha' hp hm hf (move_flow hp.owner hm).1⟩

/-- C54, what is true of the code: a request that is alive and not answered is scheduled or queued, or a thread
has seen the clock at its expiration, or sending it failed, or sending an older queued request failed in `poke`.
Missing: the last case, in which the code forgets the request (`C54_false`). -/
theorem C54_partial (hc : Spec.Created cfg m0) (h : List VEvent) (r : Nat) (q : VReq)
    (hq : (after cfg m0 h).mgr.deref r = some q) (he : q.event = false)
    (hpoke : ∀ r' < r, Fail.poke r' ∉ (after cfg m0 h).mgr.fails) :
    Spec.Scheduled (after cfg m0 h) r ∨ Spec.Queued (after cfg m0 h) r ∨ Spec.Overdue h q.expiration ∨
      Spec.Failed (after cfg m0 h) r := by
  obtain ⟨held, hp, hk⟩ := hc.kept h
  obtain ⟨hd, hq⟩ := VMgr.deref_some hq
  rcases hk r q hq hd he with h1 | h1 | h1 | ⟨r', h1, h2⟩
  · rcases List.mem_append.1 h1 with h1 | h1
    · obtain ⟨x, hx, hr⟩ := List.mem_map.1 h1
      exact .inl ⟨x, hx, hr⟩
    · rw [← List.map_append] at h1
      obtain ⟨x, hx, hr⟩ := List.mem_map.1 h1
      exact .inr (.inl ⟨_, x, (Spec.queue_iff hp.owner _).2 rfl, hx, hr⟩)
  · exact .inr (.inr (.inl h1))
  · exact .inr (.inr (.inr h1))
  · exact absurd h2 (hpoke r' h1)

/-- C54: no request is scheduled and queued, or scheduled or queued twice; the queue is in order of issue, the
newest first. -/
theorem C54_once (hc : Spec.Created cfg m0) (h : List VEvent) (l : List Ref) (hl : Spec.Queue (after cfg m0 h) l) :
    ((after cfg m0 h).mgr.active.map Ref.id ++ l.map Ref.id).Nodup ∧ (l.map Ref.id).Pairwise (· > ·) := by
  obtain ⟨held, hp, -⟩ := hc.kept h
  rw [Spec.queue_iff hp.owner] at hl
  subst hl
  rw [List.map_append]
  exact ⟨hp.nodup, hp.desc⟩

/-- C54: there is exactly one queue at any time. -/
theorem C54_queue (hc : Spec.Created cfg m0) (h : List VEvent) : ∃! l, Spec.Queue (after cfg m0 h) l := by
  obtain ⟨held, hp, -⟩ := hc.kept h
  exact ⟨_, (Spec.queue_iff hp.owner _).2 rfl, fun l hl => (Spec.queue_iff hp.owner l).1 hl⟩

theorem VSys.Reports.listener {s : VSys} {m : Nat} {x : V3Incoming} {r : Nat} {q : VReq} {cause : Why} {sync : Bool}
    (h : Reports s m x r q cause sync) : s.listener = .push m x := by
  cases h <;> assumption

/-- What the listening thread does in the loop of `onReport`. -/
theorem VSys.listen_flush {s : VSys} {r0 : Nat} {engineID : Bytes} {sync : Bool}
    (hl : s.listener = .flush r0 engineID sync) (i : SendIn) :
    (s.mgr.unsent = [] ∧ (s.step cfg (.listen i)).mgr.unsent = []) ∨
    ∃ l x, s.mgr.unsent = l ++ [x] ∧ (s.step cfg (.listen i)).mgr.unsent = l ∧
      ((s.mgr.deref x.id = none ∧ (s.step cfg (.listen i)).mgr.sent = s.mgr.sent ∧ (s.step cfg (.listen i)).listener = s.listener) ∨
       (x.id ∈ ids (s.step cfg (.listen i)).mgr.active ∧ (s.step cfg (.listen i)).listener = s.listener ∧
          ∃ m w, (s.step cfg (.listen i)).mgr.sent = ⟨x.id, m, w⟩ :: s.mgr.sent) ∨
       ((s.step cfg (.listen i)).mgr.fails = .flush x.id :: s.mgr.fails ∧
          (s.step cfg (.listen i)).mgr.sent = s.mgr.sent)) := by
  rcases step_move cfg s (.listen i) with hm | hm
  · exfalso
    have h1 : s.step cfg (.listen i) = s.listen cfg i := rfl
    rw [h1] at hm
    unfold VSys.listen at hm
    rw [hl] at hm
    simp only at hm
    cases hu : s.mgr.unsent.getLast? with
    | none =>
      rw [hu] at hm
      simp only at hm
      have := congrArg VSys.listener hm
      rw [hl] at this
      unfold VSys.reported at this
      cases sync <;> cases this
    | some x =>
      rw [hu] at hm
      simp only at hm
      have hlen : s.mgr.unsent.dropLast.length ≠ s.mgr.unsent.length := by
        rw [List.length_dropLast]
        have : s.mgr.unsent ≠ [] := by rintro h; rw [h] at hu; cases hu
        have := List.length_pos_of_ne_nil this
        omega
      unfold VMgr.flushOne at hm
      cases hd : ({ s.mgr with unsent := s.mgr.unsent.dropLast } : VMgr).deref x.id with
      | none =>
        rw [hd] at hm
        simp only at hm
        exact hlen (congrArg (fun s : VSys => s.mgr.unsent.length) hm)
      | some q =>
        rw [hd] at hm
        simp only at hm
        obtain ⟨res, m', h2, h3⟩ := send_cases cfg { s.mgr with unsent := s.mgr.unsent.dropLast } x.id q (some engineID) .flush i
        rw [h2] at hm
        have f := h3.frame.unsent
        simp only at f
        cases res with
        | error e =>
          simp only at hm
          have := congrArg (fun s : VSys => s.mgr.unsent.length) hm
          simp only [VMgr.fail, f] at this
          exact hlen this
        | ok u =>
          simp only at hm
          have := congrArg (fun s : VSys => s.mgr.unsent.length) hm
          simp only [f] at this
          exact hlen this
  · generalize s.step cfg (.listen i) = s' at *
    cases hm
    case pushStop m x hl' => rw [hl] at hl'; cases hl'
    case reportBad m x r q cause sync hr _ _ _ => have hl' := hr.listener; rw [hl] at hl'; cases hl'
    case reportFailed m x r q cause sync hr _ _ _ _ _ _ _ => have hl' := hr.listener; rw [hl] at hl'; cases hl'
    case reportOne m x r q cause sync hr _ _ _ _ _ => have hl' := hr.listener; rw [hl] at hl'; cases hl'
    case reportAll m x r q cause sync hr _ _ _ _ _ => have hl' := hr.listener; rw [hl] at hl'; cases hl'
    case excepted m x msg q v rest ex hl' _ _ _ _ _ _ _ => rw [hl] at hl'; cases hl'
    case responseBad m x msg q hl' _ _ _ _ _ _ _ => rw [hl] at hl'; cases hl'
    case responded m x msg q hl' _ _ _ _ _ _ => rw [hl] at hl'; cases hl'
    case flushEnd r eid sync' hl' hu => exact .inl ⟨hu, hu⟩
    case flushDead r eid sync' l x hl' hu hx => exact .inr ⟨l, x, hu, rfl, .inl ⟨hx, rfl, rfl⟩⟩
    case flushSent r eid sync' l x q hl' hu hx m' hm =>
      have f := hm.frame
      obtain ⟨mm, w, hw⟩ := hm.sent_ok
      refine .inr ⟨l, x, hu, f.unsent, .inr (.inl ⟨?_, rfl, mm, w, hw⟩)⟩
      exact (push_ids _ _ _).mem_iff.2 (by simp)
    case flushFailed r eid sync' l x q hl' hu hx m' err hm =>
      have f := hm.frame
      refine .inr ⟨l, x, hu, f.unsent, .inr (.inr ⟨?_, hm.sent_error⟩)⟩
      simp only [VMgr.fail]
      rw [f.fails]
    case syncGone r hl' _ => rw [hl] at hl'; cases hl'
    case synced r q hl' _ => rw [hl] at hl'; cases hl'

theorem Spec.queued_iff {s : VSys} {held : List Ref} (ho : Owner s held) (r : Nat) :
    Spec.Queued s r ↔ r ∈ ids held ++ ids s.mgr.unsent := by
  rw [← List.map_append]
  unfold Spec.Queued
  constructor
  · rintro ⟨l, x, h1, h2, h3⟩
    rw [Spec.queue_iff ho] at h1
    rw [h1] at h2
    exact List.mem_map.2 ⟨x, h2, h3⟩
  · intro h1
    obtain ⟨x, h2, h3⟩ := List.mem_map.1 h1
    exact ⟨_, x, (Spec.queue_iff ho _).2 rfl, h2, h3⟩

/-- C54: while the requests that were queued for discovery are sent, a step that sends a queued request sends the
oldest one; it is then scheduled for retransmission. -/
theorem C54_order (hc : Spec.Created cfg m0) (h : List VEvent) (e : VEvent) (r0 : Nat) (engineID : Bytes) (sync : Bool)
    (hl : (after cfg m0 h).listener = .flush r0 engineID sync) (r m : Nat) (w : Bytes)
    (hs : (after cfg m0 (h ++ [e])).mgr.sent = ⟨r, m, w⟩ :: (after cfg m0 h).mgr.sent)
    (hq : Spec.Queued (after cfg m0 h) r) :
    (∀ r', Spec.Queued (after cfg m0 h) r' → r ≤ r') ∧ Spec.Scheduled (after cfg m0 (h ++ [e])) r := by
  obtain ⟨held, hp, -⟩ := hc.kept h
  obtain ⟨rfl, hlk, hfree⟩ := hp.owner.flushing hl
  have hnd := hp.nodup
  have hdesc := hp.desc
  unfold places at hnd
  rw [Spec.queued_iff hp.owner] at hq
  rcases C67_partial hc h e with hno | ⟨r1, m1, w1, q', hs1, hd1, hq1, hocc⟩
  · rw [hno] at hs
    exact absurd (congrArg List.length hs) (by simp)
  · have hs0 := hs
    rw [hs1] at hs
    injection hs with hs hs'
    injection hs with h1 h2 h3
    subst h1
    rcases hocc with ⟨q, href⟩ | ⟨now, hocc, -⟩
    · exfalso
      obtain ⟨x, rest, hx, hxr⟩ := href.first
      rw [hx] at hnd
      simp only [List.map_cons, List.cons_append, List.nodup_cons, List.mem_append, not_or] at hnd
      rw [hxr] at hnd
      rcases List.mem_append.1 hq with hq | hq
      · exact hnd.1.2.1 hq
      · exact hnd.1.2.2 hq
    · cases hocc with
      | issue hr hn =>
        exfalso
        rw [after_snoc] at hs0
        unfold VSys.step at hs0
        simp only [hlk, Bool.true_or, if_true] at hs0
        exact absurd (congrArg List.length hs0) (by simp)
      | poke r2 l x a ht hr hn => exact absurd ht (hfree _ _ _ _)
      | report m x msg v rest hl' => rw [hl] at hl'; cases hl'
      | @flush i r2 eid sync' l x hl' hu hr hn =>
        rw [after_snoc] at hs0 ⊢
        rcases listen_flush (cfg := cfg) hl i with ⟨h1, -⟩ | ⟨l1, x1, h1, h2, h3⟩
        · rw [hu] at h1; simp at h1
        · rw [hu] at h1
          obtain ⟨-, hx⟩ := List.append_inj' h1 rfl
          injection hx with hx
          subst hx
          constructor
          · intro r' hr'
            rw [Spec.queued_iff hp.owner, hu] at hr'
            rw [hu] at hdesc
            simp only [List.map_nil, List.nil_append, List.map_append, List.map_singleton, List.mem_append,
              List.mem_singleton, List.pairwise_append] at hr' hdesc
            rcases hr' with hr' | hr'
            · have := hdesc.2.2 r' hr' x.id rfl
              omega
            · omega
          · rcases h3 with ⟨-, h3, -⟩ | ⟨h3, -⟩ | ⟨-, h3⟩
            · rw [hs0] at h3; exact absurd (congrArg List.length h3) (by simp)
            · obtain ⟨y, hy, hyr⟩ := List.mem_map.1 h3
              exact ⟨y, hy, hyr.trans hr⟩
            · rw [hs0] at h3; exact absurd (congrArg List.length h3) (by simp)

/-- C54: when the listening thread is done with sending the queued requests, either sending one of them raised an
exception, or none is queued any more. -/
theorem C54_flushed (hc : Spec.Created cfg m0) (h : List VEvent) (i : SendIn) (r0 : Nat) (engineID : Bytes) (sync : Bool)
    (hl : (after cfg m0 h).listener = .flush r0 engineID sync)
    (hl' : (after cfg m0 (h ++ [.listen i])).listener ≠ .flush r0 engineID sync) :
    (∃ r, (after cfg m0 (h ++ [.listen i])).mgr.fails = .flush r :: (after cfg m0 h).mgr.fails) ∨
    ∀ r, ¬ Spec.Queued (after cfg m0 (h ++ [.listen i])) r := by
  obtain ⟨held, hp, -⟩ := hc.kept h
  obtain ⟨held', hp', -⟩ := hc.kept (h ++ [.listen i])
  obtain ⟨rfl, hlk, hfree⟩ := hp.owner.flushing hl
  rw [after_snoc] at hl' hp' ⊢
  rcases listen_flush (cfg := cfg) hl i with ⟨h1, h2⟩ | ⟨l, x, h1, h2, h3⟩
  · right
    intro r hr
    rw [Spec.queued_iff hp'.owner, h2] at hr
    have ht : ((after cfg m0 h).step cfg (.listen i)).threads = (after cfg m0 h).threads := by
      unfold VSys.step VSys.listen
      rw [hl]
      simp only [h1, List.getLast?_nil]
      rfl
    have hheld : held' = [] := by
      cases hp'.owner with
      | none => rfl
      | poke t r held a _ hpp => rw [ht] at hpp; exact absurd hpp (hfree t _ _ _)
      | flush => rfl
    rw [hheld] at hr
    simp at hr
  · rcases h3 with ⟨-, -, h3⟩ | ⟨-, h3, -⟩ | ⟨h3, -⟩
    · exact absurd (h3.trans hl) hl'
    · exact absurd (h3.trans hl) hl'
    · exact .inl ⟨_, h3⟩

end Snmp
