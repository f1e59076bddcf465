import Verif.ManagerV3Touch
import Verif.Props.NumGen
import Verif.Props.V3Discovery
import Verif.Props.V3Demo
/-!
# C82: the request IDs of a v3 manager
-/

namespace Snmp

open VSys VMgr

variable {cfg : VCfg} {m0 : VMgr}

/-! ## Specification -/

/-- A value that `random.randint(1, 2^31)` can return. -/
def Spec.Drawn (r : Nat) : Prop := 1 ≤ r ∧ r ≤ 2 ^ 31

/-- All random numbers drawn for request IDs, by the new manager `m0` and in the history `h`, are in range. -/
def Spec.Draws (m0 : VMgr) (h : List VEvent) : Prop :=
  (∃ g, Spec.Drawn g ∧ m0.gen = NumGen.new 32 true g) ∧
  ∀ pdu user level timeout period t0 r0 i, .send pdu user level timeout period t0 r0 i ∈ h → Spec.Drawn r0

/-- In the state `s` the request `r` has the request ID `id`. -/
def Spec.HasID (s : VSys) (r : Nat) (id : Int) : Prop := ∃ q, s.mgr.reqs r = some q ∧ q.pdu.requestID = id

/-! ## Proofs -/

/-- Only `sendRequest` draws a request ID. -/
theorem move_gen {s s' : VSys} {e : VEvent} (hm : Move cfg s e s') :
    (s'.mgr.gen = s.mgr.gen ∧ s'.mgr.nextReq = s.mgr.nextReq) ∨
    ∃ pdu user level timeout period t0 r0 i, e = .send pdu user level timeout period t0 r0 i ∧
      s'.mgr.gen = (VMgr.generateRequestID s.mgr.gen r0).2 ∧ s'.mgr.nextReq = s.mgr.nextReq + 1 := by
  have old : VMgr.Frame s.mgr s'.mgr → (s'.mgr.gen = s.mgr.gen ∧ s'.mgr.nextReq = s.mgr.nextReq) ∨
    ∃ pdu user level timeout period t0 r0 i, e = .send pdu user level timeout period t0 r0 i ∧
      s'.mgr.gen = (VMgr.generateRequestID s.mgr.gen r0).2 ∧ s'.mgr.nextReq = s.mgr.nextReq + 1 :=
    fun h => .inl ⟨h.gen, h.nextReq⟩
  cases hm
  case queued => exact .inr ⟨_, _, _, _, _, _, _, _, rfl, rfl, rfl⟩
  case issued hm' =>
    exact .inr ⟨_, _, _, _, _, _, _, _, rfl, by simp [updateState_eq, hm'.frame.gen, propose_eq, VMgr.issue],
      by simp [updateState_eq, hm'.frame.nextReq, propose_eq, VMgr.issue]⟩
  case issueFailed hm' =>
    exact .inr ⟨_, _, _, _, _, _, _, _, rfl, by simp [VMgr.fail, hm'.frame.gen, propose_eq, VMgr.issue],
      by simp [VMgr.fail, hm'.frame.nextReq, propose_eq, VMgr.issue]⟩
  case bodyZero t i r x rest q ht ha hx he hn hx' hz =>
    have := finish_frame cfg { s with mgr := s.mgr.fail (.refresh x.id) } t r (.raised .zeroDivisionError)
    exact .inl ⟨this.gen, this.nextReq⟩
  case bodySent hm' => exact .inl ⟨hm'.frame.gen, hm'.frame.nextReq⟩
  case bodyFailed t i r x rest q ht ha hx he hn hx' hz m' err hm' =>
    have := finish_frame cfg { s with mgr := m'.fail (.refresh x.id) } t r (.raised err)
    exact .inl ⟨this.gen.trans hm'.frame.gen, this.nextReq.trans hm'.frame.nextReq⟩
  case pokeBegin => exact .inl (by simp [updateState_eq, propose_eq])
  case pokeSent hm' =>
    exact .inl ⟨by simp [updateState_eq, hm'.frame.gen, propose_eq], by simp [updateState_eq, hm'.frame.nextReq, propose_eq]⟩
  case pokeFailed t i r l x a q ht hx next hst m' err hm' =>
    have := finish_frame cfg { s with mgr := { m'.fail (.poke x.id) with locked := false } } t r (.raised err)
    exact .inl ⟨this.gen.trans (by simp [VMgr.fail, hm'.frame.gen, propose_eq]),
      this.nextReq.trans (by simp [VMgr.fail, hm'.frame.nextReq, propose_eq])⟩
  case answered t i r q x ht hq he hx => exact old (finish_frame cfg s t r _)
  case reported t i r q ex ht hq he => exact old (finish_frame cfg s t r _)
  case timedOut t i r q ht hq he => exact old (finish_frame cfg s t r _)
  case reportFailed hm' =>
    exact .inl ⟨by simp [VMgr.fail, hm'.frame.gen, propose_eq], by simp [VMgr.fail, hm'.frame.nextReq, propose_eq]⟩
  case reportOne hm' =>
    exact .inl ⟨by simp [hm'.frame.gen, propose_eq], by simp [hm'.frame.nextReq, propose_eq]⟩
  case reportAll hm' =>
    exact .inl ⟨by simp [updateState_eq, hm'.frame.gen, propose_eq], by simp [updateState_eq, hm'.frame.nextReq, propose_eq]⟩
  case responseBad i m x msg q hl hm hq hi hlk err m' hp =>
    rcases processResponse_cases cfg s.mgr x i.seed with ⟨_, -, h⟩ | ⟨next, _, usm, h', -, h⟩ | ⟨_, _, -, -, h⟩ |
      ⟨-, h⟩ <;> rw [h] at hp <;> cases hp <;> exact .inl ⟨rfl, rfl⟩
  case responded i m x msg q hl hm hq hi hlk m' hp =>
    rcases processResponse_cases cfg s.mgr x i.seed with ⟨_, -, h⟩ | ⟨next, _, usm, h', -, h⟩ | ⟨next, _, h', -, h⟩ |
      ⟨-, h⟩ <;> rw [h] at hp <;> cases hp <;> exact .inl ⟨rfl, rfl⟩
  case flushSent hm' => exact .inl ⟨by simp [hm'.frame.gen], by simp [hm'.frame.nextReq]⟩
  case flushFailed hm' => exact .inl ⟨by simp [VMgr.fail, hm'.frame.gen], by simp [VMgr.fail, hm'.frame.nextReq]⟩
  all_goals exact .inl ⟨rfl, rfl⟩

/-- After `k + 1` outputs, fewer than `2^32`, no renewal took place. -/
theorem generate_early {g r0 k : Nat} (hg : Spec.Drawn g) (hk : k + 1 < 2 ^ 32) :
    generateRequestID ((NumGen.new 32 true g).after k) r0 =
      ((NumGen.new 32 true g).output (k + 1), (NumGen.new 32 true g).after (k + 1)) := by
  have h0 := (C03_enumerates 32 (by omega) true g hg.1 hg.2).2.2.2.1 (k + 1) (by omega) hk
  unfold generateRequestID
  simp only
  rw [if_neg (by exact h0)]
  rfl

/-- What a manager's generator looks like: it was renewed since fewer than `2^32` outputs. -/
def IdGenOk (g : NumGen) : Prop := ∃ d k, Spec.Drawn d ∧ k + 1 < 2 ^ 32 + 1 ∧ g = (NumGen.new 32 true d).after k

theorem generate_ok {g : NumGen} {r0 : Nat} (hg : IdGenOk g) (hr : Spec.Drawn r0) :
    IdGenOk (generateRequestID g r0).2 ∧ NBit 32 true (generateRequestID g r0).1 ∧ (generateRequestID g r0).1 ≠ 0 := by
  obtain ⟨d, k, hd, hk, rfl⟩ := hg
  have hr1 := C03_enumerates 32 (by omega) true r0 hr.1 hr.2
  have hd1 := C03_enumerates 32 (by omega) true d hd.1 hd.2
  unfold generateRequestID
  simp only
  split
  · exact ⟨⟨r0, 1, hr, by omega, rfl⟩, hr1.1 1, hr1.2.2.2.1 1 (by omega) (by omega)⟩
  · rename_i hne
    have hk' : k + 1 ≠ 2 ^ 32 := by
      intro hk'
      apply hne
      have := hd1.2.2.1
      rw [← hk'] at this
      exact this
    exact ⟨⟨d, k + 1, hd, by omega, rfl⟩, hd1.1 (k + 1), hne⟩

/-- Requests keep their PDU. -/
theorem touch_pdu {s : VSys} {e : VEvent} {r : Nat} {q q' : VReq} (ht : Touch cfg s e r q q') : q'.pdu = q.pdu := by
  cases ht with
  | same h => rw [h]
  | timer t i he h1 h2 h3 h4 h => rw [h]; unfold VMgr.resent; rfl
  | resend i he h => rw [h]; rfl
  | stored x hd h => rw [h]; unfold VReq.store; split <;> rfl
  | excepted x ex hd h => rw [h]; unfold VReq.processException; split <;> split <;> rfl

theorem Spec.Created.clean (hc : Spec.Created cfg m0) : (∀ r, m0.reqs r = none) ∧ m0.nextReq = 0 := by
  obtain ⟨-, h0, engineID, g, c0, n0, seed, hu0, hm⟩ := hc
  obtain ⟨usm, -, rfl⟩ := VMgr.create_ok hm
  exact ⟨fun _ => rfl, rfl⟩

/-- Where the request IDs come from. -/
theorem ids_induct (hc : Spec.Created cfg m0) (P : Int → Nat → Prop) (G : NumGen → Nat → Prop) (hg : G m0.gen 0)
    (h : List VEvent)
    (step : ∀ g n pdu user level timeout period t0 r0 i, .send pdu user level timeout period t0 r0 i ∈ h → G g n →
      G (generateRequestID g r0).2 (n + 1) ∧ P (generateRequestID g r0).1 n) :
    G (after cfg m0 h).mgr.gen (after cfg m0 h).mgr.nextReq ∧
      ∀ r q, (after cfg m0 h).mgr.reqs r = some q → P q.pdu.requestID r := by
  suffices key : ∀ h' : List VEvent, (∀ e ∈ h', e ∈ h) → G (after cfg m0 h').mgr.gen (after cfg m0 h').mgr.nextReq ∧
      ∀ r q, (after cfg m0 h').mgr.reqs r = some q → P q.pdu.requestID r from key h fun e he => he
  intro h'
  induction h' using List.reverseRecOn with
  | nil =>
    intro _
    refine ⟨?_, fun r q hq => ?_⟩
    · show G m0.gen m0.nextReq
      rw [hc.clean.2]; exact hg
    · rw [show (after cfg m0 []).mgr.reqs r = none from hc.clean.1 r] at hq; cases hq
  | append_singleton h' e ih =>
    intro hs
    obtain ⟨ih1, ih2⟩ := ih fun e he => hs e (List.mem_append_left _ he)
    have he := hs e (by simp)
    obtain ⟨base, -, hsound⟩ := hc.sound h'
    rw [after_snoc]
    rcases step_move cfg (after cfg m0 h') e with hm | hm
    · rw [hm]; exact ⟨ih1, ih2⟩
    constructor
    · rcases move_gen hm with ⟨h1, h2⟩ | ⟨pdu, user, level, timeout, period, t0, r0, i, rfl, h1, h2⟩
      · rw [h1, h2]; exact ih1
      · rw [h1, h2]; exact (step _ _ _ _ _ _ _ _ _ _ he ih1).1
    · intro r q hq
      rcases move_born hm r q hq with ⟨q0, h1⟩ | ⟨rfl, pdu, timeout, t0, r0, i, rfl, h1, -⟩
      · obtain ⟨q1, h2, h3⟩ := move_touch hsound.accounts hm r q0 h1
        rw [hq] at h2
        cases h2
        rw [touch_pdu h3]; exact ih2 r q0 h1
      · rw [h1]; exact (step _ _ _ _ _ _ _ _ _ _ he ih1).2

/-- **C82.** Every request ID is a non-zero signed 32-bit integer. -/
theorem C82_range (hc : Spec.Created cfg m0) (h : List VEvent) (hd : Spec.Draws m0 h) (r : Nat) (id : Int)
    (hid : Spec.HasID (after cfg m0 h) r id) : -2 ^ 31 ≤ id ∧ id < 2 ^ 31 ∧ id ≠ 0 := by
  obtain ⟨⟨g, hg, hm⟩, hs⟩ := hd
  obtain ⟨q, hq, rfl⟩ := hid
  obtain ⟨h1, h2⟩ := (ids_induct hc (fun id _ => NBit 32 true id ∧ id ≠ 0) (fun g _ => IdGenOk g)
    ⟨g, 0, hg, by omega, hm⟩ h
    fun g n pdu user level timeout period t0 r0 i he hg' =>
      generate_ok hg' (hs _ _ _ _ _ _ _ _ he)).2 r q hq
  simp only [NBit, if_true] at h1
  omega

/-- **C82.** The first `2^32 - 1` requests of a manager have different request IDs. -/
theorem C82_distinct (hc : Spec.Created cfg m0) (h : List VEvent) (hd : Spec.Draws m0 h) (r r' : Nat) (id id' : Int)
    (hr : r < 2 ^ 32 - 1) (hr' : r' < 2 ^ 32 - 1) (hne : r ≠ r')
    (hid : Spec.HasID (after cfg m0 h) r id) (hid' : Spec.HasID (after cfg m0 h) r' id') : id ≠ id' := by
  obtain ⟨⟨g, hg, hm⟩, -⟩ := hd
  obtain ⟨q, hq, rfl⟩ := hid
  obtain ⟨q', hq', rfl⟩ := hid'
  have key := (ids_induct hc
    (fun id n => n + 1 < 2 ^ 32 → id = (NumGen.new 32 true g).output (n + 1))
    (fun x n => n < 2 ^ 32 → x = (NumGen.new 32 true g).after n) (by intro _; rw [hm]; rfl) h
    (by
      intro x n pdu user level timeout period t0 r0 i he hx
      constructor
      · intro hn
        rw [hx (by omega), generate_early hg hn]
      · intro hn
        rw [hx (by omega), generate_early hg hn])).2
  rw [key r q hq (by omega), key r' q' hq' (by omega)]
  intro heq
  obtain ⟨h1, h2, -⟩ := C03_enumerates 32 (by omega) true g hg.1 hg.2
  obtain ⟨k, -, hk⟩ := h2 _ (h1 (r + 1))
  have e1 := hk (r + 1) ⟨by omega, by omega, rfl⟩
  have e2 := hk (r' + 1) ⟨by omega, by omega, heq.symm⟩
  omega

open Spec Demo in
/-- Non-vacuity: three requests, their IDs, and draws in range. -/
theorem C82_example :
    let h := [Demo.issue 0 10 1, Demo.issue 1 10 1 authNoPriv, Demo.issue 2 10 1]
    let s := after demoCfg (demo (some [1])) h
    Created demoCfg (demo (some [1])) ∧ Draws (demo (some [1])) h ∧ HasID s 0 1 ∧ HasID s 1 2 ∧ HasID s 2 3 := by
  intro h s
  have hh : ∀ r (i : Int), (s.mgr.reqs r).map (·.pdu.requestID) = some i → HasID s r i := by
    intro r i hi
    cases hq : s.mgr.reqs r with
    | none => rw [hq] at hi; cases hi
    | some q => rw [hq] at hi; injection hi with hi; exact ⟨q, hq, hi⟩
  refine ⟨demo_created _ (.inr rfl), ⟨⟨1, ⟨by omega, by omega⟩, by decide +kernel⟩, ?_⟩,
    hh 0 1 (by decide +kernel), hh 1 2 (by decide +kernel), hh 2 3 (by decide +kernel)⟩
  intro pdu user level timeout period t0 r0 i hi
  simp only [h, Demo.issue, List.mem_cons, VEvent.send.injEq, List.not_mem_nil, or_false] at hi
  rcases hi with hi | hi | hi <;> rw [hi.2.2.2.2.2.2.1] <;> exact ⟨by omega, by omega⟩

end Snmp
