import Verif.Props.V3Book
import Verif.Props.V3Schedule
import Verif.Props.V3Demo
import Verif.Props.CommunityOften
/-!
# C110 for the v3 manager: how often a request is put on the wire
-/

namespace Snmp

variable {cfg : VCfg} {m0 : VMgr} {base : Bytes → Option (Int × String)}

open VSys

/-! ## Specification -/

/-- How many datagrams were handed to the channel for request `r`. -/
def Spec.transmissionsV (s : VSys) (r : Nat) : Nat := s.mgr.sent.countP fun x => x.request = r

/-- The received message `x` is a report that says that the engine ID is unknown, or that the message was not in the time
window. -/
def Spec.Asking (x : V3Incoming) : Prop :=
  x.scopedPDU.pdu.type.isInternal = true ∧ ∃ v rest, x.scopedPDU.pdu.bindings = v :: rest ∧
    (v.name = Spec.unknownEngineIDs ∨ v.name = Spec.notInTimeWindows)

instance (x : V3Incoming) : Decidable (Spec.Asking x) :=
  match h : x.scopedPDU.pdu.bindings with
  | [] => .isFalse fun ⟨_, v, rest, h1, _⟩ => by rw [h] at h1; cases h1
  | v :: rest =>
    if h1 : x.scopedPDU.pdu.type.isInternal = true ∧ (v.name = Spec.unknownEngineIDs ∨ v.name = Spec.notInTimeWindows) then
      .isTrue ⟨h1.1, v, rest, h, h1.2⟩
    else .isFalse fun ⟨h2, v', rest', h3, h4⟩ => by
      rw [h] at h3; injection h3 with h3 _; subst h3; exact h1 ⟨h2, h4⟩

/-- Whether the listening thread has such a report, in answer to a message of request `r`: 1 or 0. -/
def Spec.pending (s : VSys) (r : Nat) : Nat :=
  match s.listener with
  | .push m x => match s.mgr.msgs m with
    | some msg => if msg.request = r ∧ Spec.Asking x then 1 else 0
    | none => 0
  | _ => 0

open Classical in
theorem Spec.pending_eq (s : VSys) (r : Nat) : Spec.pending s r =
    if ∃ m x msg, s.listener = .push m x ∧ s.mgr.msgs m = some msg ∧ msg.request = r ∧ Spec.Asking x then 1 else 0 := by
  unfold Spec.pending
  cases hl : s.listener with
  | push m x =>
    simp only
    cases hm : s.mgr.msgs m with
    | none =>
      rw [if_neg]
      rintro ⟨m', x', msg, h1, h2, h3, h4⟩
      injection h1 with h1 h5
      subst h1
      rw [hm] at h2; cases h2
    | some msg =>
      by_cases h : msg.request = r ∧ Spec.Asking x
      · simp only; rw [if_pos h, if_pos ⟨m, x, msg, rfl, hm, h⟩]
      · simp only
        rw [if_neg h, if_neg]
        rintro ⟨m', x', msg', h1, h2, h3⟩
        injection h1 with h1 h5
        subst h1; subst h5
        rw [hm] at h2; injection h2 with h2; subst h2
        exact h h3
  | idle => rw [if_neg]; rintro ⟨m, x, msg, h, _⟩; cases h
  | flush a b c => rw [if_neg]; rintro ⟨m, x, msg, h, _⟩; cases h
  | sync a => rw [if_neg]; rintro ⟨m, x, msg, h, _⟩; cases h

/-- Whether the step `e`, taken in `s`, receives such a report: 1 or 0. -/
def Spec.reportFor (cfg : VCfg) (r : Nat) (s : VSys) (e : VEvent) : Nat :=
  match e with
  | .hear _ _ => Spec.pending (s.step cfg e) r - Spec.pending s r
  | _ => 0

/-- How many such reports are received in the history `h`, begun in `s`. -/
def Spec.reportsFor (cfg : VCfg) (r : Nat) : VSys → List VEvent → Nat
  | _, [] => 0
  | s, e :: h => Spec.reportFor cfg r s e + Spec.reportsFor cfg r (s.step cfg e) h

/-- Whether the step `e`, taken in `s`, puts request `r` on the wire at the very instant at which it was due: the clock
reading is equal to its refresh time. -/
def Spec.dotV (cfg : VCfg) (r : Nat) (s : VSys) (e : VEvent) : Nat :=
  match e, s.mgr.reqs r with
  | .step _ i, some q =>
    if i.now = q.nextRefresh ∧ Spec.transmissionsV (s.step cfg e) r ≠ Spec.transmissionsV s r then 1 else 0
  | _, _ => 0

/-- How many steps of the history `h`, begun in `s`, do so. -/
def Spec.onTheDotV (cfg : VCfg) (r : Nat) : VSys → List VEvent → Nat
  | _, [] => 0
  | s, e :: h => Spec.dotV cfg r s e + Spec.onTheDotV cfg r (s.step cfg e) h

/-- The readings of the clock in the step `e`. -/
def Spec.readingsV : VEvent → List ℚ
  | .send _ _ _ _ _ t0 _ i => [t0, i.now]
  | .step _ i => [i.now]
  | .listen i => [i.now]
  | _ => []

namespace VSys

open VMgr

/-- Some message of request `r` was made. -/
def HasMsg (m : VMgr) (r : Nat) : Prop := ∃ n msg, m.msgs n = some msg ∧ msg.request = r

/-- How many datagrams were handed to the channel for request `r`. -/
def Cnt (m : VMgr) (r : Nat) : Nat := m.sent.countP fun x => x.request = r

/-- Nothing happens to the schedule of request `r`. -/
structure Unmoved (m m' : VMgr) (r : Nat) (q : VReq) : Prop where
  req : ∃ q', m'.reqs r = some q' ∧ q'.nextRefresh = q.nextRefresh ∧ q'.expiration = q.expiration ∧ q'.period = q.period
  cnt : Cnt m' r = Cnt m r
  has : HasMsg m' r → HasMsg m r

theorem Unmoved.of_eq {m m' : VMgr} {r : Nat} {q : VReq} (hq : m.reqs r = some q) (h1 : m'.reqs = m.reqs) (h2 : m'.sent = m.sent)
    (h3 : m'.msgs = m.msgs) : Unmoved m m' r q :=
  ⟨⟨q, by rw [h1]; exact hq, rfl, rfl, rfl⟩, by unfold Cnt; rw [h2], by unfold HasMsg; rw [h3]; exact id⟩

/-- Sending `r0` does nothing to other requests. -/
theorem sends_idle {m m' : VMgr} {r0 : Nat} {q0 : VReq} {engineID : Option Bytes} {cause : Why} {i : SendIn} {res : Res Unit}
    (h : VMgr.Sends cfg m r0 q0 engineID cause i res m') {r : Nat} {q : VReq} (hq : m.reqs r = some q) (hr : r ≠ r0) :
    Unmoved m m' r q := by
  refine ⟨⟨q, ?_, rfl, rfl, rfl⟩, ?_, ?_⟩
  · rcases sends_reqs h r q hq with ⟨-, h'⟩ | ⟨h', -⟩
    · exact h'
    · exact absurd h' hr
  · unfold Cnt
    cases res with
    | error err => rw [h.sent_error]
    | ok x =>
      obtain ⟨n, w, hw⟩ := h.sent_ok
      rw [hw, List.countP_cons]
      simp [Ne.symm hr]
  · cases h with
    | refused => exact id
    | made q1 usm1 usm cache id sent res he hb hu hs hpo hdo =>
      rintro ⟨n, msg, h1, h2⟩
      by_cases hn : n = m.nextMsg
      · subst hn
        simp only [setAt_same] at h1
        injection h1 with h1
        rw [← h1] at h2
        exact absurd h2.symm hr
      · simp only [setAt_other _ _ hn] at h1
        exact ⟨n, msg, h1, h2⟩

theorem sends_cnt {m m' : VMgr} {r0 : Nat} {q0 : VReq} {engineID : Option Bytes} {cause : Why} {i : SendIn} {res : Res Unit}
    (h : VMgr.Sends cfg m r0 q0 engineID cause i res m') (r : Nat) : Cnt m' r ≤ Cnt m r + 1 := by
  unfold Cnt
  cases res with
  | error err => rw [h.sent_error]; omega
  | ok x =>
    obtain ⟨n, w, hw⟩ := h.sent_ok
    rw [hw, List.countP_cons]
    split <;> omega

theorem closing_idle (m : VMgr) (r0 : Nat) {r : Nat} {q : VReq} (hq : m.reqs r = some q) : Unmoved m (m.closing cfg r0) r q := by
  obtain ⟨q', h1, h2⟩ := closing_reqs (cfg := cfg) m r0 r q hq
  refine ⟨⟨q', h1, Same.nextRefresh h2⟩, ?_, ?_⟩ <;> unfold VMgr.closing <;> split
  · rfl
  · rfl
  · exact id
  · exact id

theorem Unmoved.trans {a b c : VMgr} {r : Nat} {q : VReq} (h : Unmoved a b r q)
    (h' : ∀ q', b.reqs r = some q' → Unmoved b c r q') : Unmoved a c r q := by
  obtain ⟨q1, h1, h2, h3, h4⟩ := h.req
  obtain ⟨⟨q2, k1, k2, k3, k4⟩, k5, k6⟩ := h' q1 h1
  exact ⟨⟨q2, k1, k2.trans h2, k3.trans h3, k4.trans h4⟩, k5.trans h.cnt, fun x => h.has (k6 x)⟩

/-- What a step does to the schedule of request `r`. -/
inductive Often (s : VSys) (e : VEvent) (s' : VSys) (held : List Ref) (r : Nat) (q q' : VReq) : Prop
  | idle (h : q'.nextRefresh = q.nextRefresh) (hc : Cnt s'.mgr r = Cnt s.mgr r) (hh : HasMsg s'.mgr r → HasMsg s.mgr r)
  | timer (t : Nat) (i : SendIn) (he : e = .step t i) (h1 : q.nextRefresh ≤ i.now) (h2 : i.now < q.expiration)
      (h : q'.nextRefresh = (VMgr.resent q i.now).nextRefresh) (hc : Cnt s'.mgr r ≤ Cnt s.mgr r + 1)
      (ha : r ∈ ids s.mgr.active)
  | queue (i : SendIn) (he : (∃ t, e = .step t i) ∨ e = .listen i) (h : q'.nextRefresh = min q.expiration (i.now + q.period))
      (hc : Cnt s'.mgr r ≤ Cnt s.mgr r + 1) (ha : r ∈ ids held ++ ids s.mgr.unsent)
      (hn : ∀ held', Owner s' held' → r ∉ ids held' ++ ids s'.mgr.unsent)
  | report (i : SendIn) (m : Nat) (x : V3Incoming) (msg : VMsg) (he : e = .listen i) (hl : s.listener = .push m x)
      (hm : s.mgr.msgs m = some msg) (hr : msg.request = r) (hx : Spec.Asking x)
      (h : q'.nextRefresh = min q.expiration (i.now + q.period))
      (hc : Cnt s'.mgr r ≤ Cnt s.mgr r + 1) (hl' : ∀ m x, s'.listener ≠ .push m x)

theorem Reports.asks {s : VSys} {m : Nat} {x : V3Incoming} {r : Nat} {q : VReq} {cause : Why} {sync : Bool}
    (h : Reports s m x r q cause sync) :
    ∃ msg, s.listener = .push m x ∧ s.mgr.msgs m = some msg ∧ msg.request = r ∧ Spec.Asking x := by
  cases h with
  | unknownEngine msg v rest hl hm hr hq hi hv hn he => exact ⟨msg, hl, hm, hr, hi, v, rest, hv, .inl hn⟩
  | notInTime msg v rest hl hm hr hq hi hv hn hb => exact ⟨msg, hl, hm, hr, hi, v, rest, hv, .inr hn⟩

/-- Every step does one of these things. -/
theorem move_often {s s' : VSys} {e : VEvent} {held : List Ref} (ha : s.mgr.Accounts base cfg.ns) (hp : Placed s held)
    (hm : Move cfg s e s') (r : Nat) (q : VReq) (hq : s.mgr.reqs r = some q) :
    ∃ q', s'.mgr.reqs r = some q' ∧ q'.expiration = q.expiration ∧ q'.period = q.period ∧ Often s e s' held r q q' := by
  have hlt := ha.lt hq
  have idle : Unmoved s.mgr s'.mgr r q →
      ∃ q', s'.mgr.reqs r = some q' ∧ q'.expiration = q.expiration ∧ q'.period = q.period ∧ Often s e s' held r q q' := by
    rintro ⟨⟨q', h1, h2, h3, h4⟩, h5, h6⟩
    exact ⟨q', h1, h3, h4, .idle h2 h5 h6⟩
  have same : s'.mgr.reqs = s.mgr.reqs → s'.mgr.sent = s.mgr.sent → s'.mgr.msgs = s.mgr.msgs →
      ∃ q', s'.mgr.reqs r = some q' ∧ q'.expiration = q.expiration ∧ q'.period = q.period ∧ Often s e s' held r q q' :=
    fun h1 h2 h3 => idle (.of_eq hq h1 h2 h3)
  have fin : ∀ (m : VMgr) (t r0 : Nat) (o : VOutcome) (q1 : VReq), m.reqs r = some q1 →
      Unmoved m (({ s with mgr := m } : VSys).finish cfg t r0 o).mgr r q1 := by
    intro m t r0 o q1 h1
    rw [finish_eq]; exact closing_idle m r0 h1
  have prop : ∀ n, Unmoved s.mgr (s.mgr.propose n) r q := fun n => by
    rw [propose_eq]; exact .of_eq hq rfl rfl rfl
  have nodup := hp.nodup
  cases hm
  case queued pdu user level timeout period t0 r0 i q0 hq0 hl hd hs =>
    refine idle ⟨⟨q, ?_, rfl, rfl, rfl⟩, rfl, id⟩
    show setAt s.mgr.reqs s.mgr.nextReq _ r = _
    rw [setAt_other _ _ (by omega)]; exact hq
  case issued pdu user level timeout period t0 r0 i q0 hq0 hl hd next hs m' hm =>
    have h1 : Unmoved s.mgr ((s.mgr.issue q0 (VMgr.generateRequestID s.mgr.gen r0).2).propose next) r q := by
      rw [propose_eq]
      refine ⟨⟨q, ?_, rfl, rfl, rfl⟩, rfl, id⟩
      show setAt s.mgr.reqs s.mgr.nextReq _ r = _
      rw [setAt_other _ _ (by omega)]; exact hq
    refine idle (h1.trans fun q1 h2 => (sends_idle hm h2 (by omega)).trans fun q2 h3 => ?_)
    rw [updateState_eq]; exact .of_eq h3 rfl rfl rfl
  case issueFailed pdu user level timeout period t0 r0 i q0 hq0 hl hd next hs m' err hm =>
    have h1 : Unmoved s.mgr ((s.mgr.issue q0 (VMgr.generateRequestID s.mgr.gen r0).2).propose next) r q := by
      rw [propose_eq]
      refine ⟨⟨q, ?_, rfl, rfl, rfl⟩, rfl, id⟩
      show setAt s.mgr.reqs s.mgr.nextReq _ r = _
      rw [setAt_other _ _ (by omega)]; exact hq
    exact idle (h1.trans fun q1 h2 => (sends_idle hm h2 (by omega)).trans fun q2 h3 => .of_eq h3 rfl rfl rfl)
  case bodyZero t i r0 x rest q0 ht ha hx he hn hx' hz =>
    exact idle (Unmoved.trans (b := s.mgr.fail (.refresh x.id)) (.of_eq hq rfl rfl rfl) fun q1 h1 => fin _ t r0 _ q1 h1)
  case bodySent t i r0 x rest q0 ht ha hx he hn hx' hz m' hm =>
    by_cases hr : r = x.id
    · subst hr
      have := (VMgr.deref_some hx).2
      rw [hq] at this; injection this with this; subst this
      obtain ⟨q', h1, h2⟩ := hm.request
      obtain ⟨h3, h4, h5⟩ := Same.nextRefresh h2
      exact ⟨q', h1, h4, h5, .timer t i rfl hn hx' h3 (sends_cnt hm x.id) (by rw [ha]; simp)⟩
    · exact idle ((sends_idle hm hq hr).trans fun q1 h1 => .of_eq h1 rfl rfl rfl)
  case bodyFailed t i r0 x rest q0 ht ha hx he hn hx' hz m' err hm =>
    by_cases hr : r = x.id
    · subst hr
      have := (VMgr.deref_some hx).2
      rw [hq] at this; injection this with this; subst this
      obtain ⟨q', h1, h2⟩ := hm.request
      obtain ⟨h3, h4, h5⟩ := Same.nextRefresh h2
      obtain ⟨⟨q2, k1, k2, k3, k4⟩, k5, k6⟩ := fin (m'.fail (.refresh x.id)) t r0 (.raised err) q' h1
      exact ⟨q2, k1, k3.trans h4, k4.trans h5, .timer t i rfl hn hx' (k2.trans h3) (by rw [k5]; exact sends_cnt hm x.id)
        (by rw [ha]; simp)⟩
    · exact idle ((sends_idle hm hq hr).trans fun q1 h1 =>
        Unmoved.trans (b := m'.fail (.refresh x.id)) (.of_eq h1 rfl rfl rfl) fun q2 h2 => fin _ t r0 _ q2 h2)
  case pokeBegin => refine idle ((prop s.mgr.state.onInactive).trans fun q1 h1 => ?_); rw [updateState_eq]; exact .of_eq h1 rfl rfl rfl
  case pokeSent t i r0 l x a q0 ht hx next hs m' hm =>
    by_cases hr : r = x.id
    · subst hr
      have := (VMgr.deref_some hx).2
      rw [hq] at this; injection this with this; subst this
      obtain ⟨q', h1, h2⟩ := hm.request
      obtain ⟨h3, h4, h5⟩ := Same.resent h2
      obtain ⟨rfl, -⟩ := hp.owner.poking ht
      have hc := sends_cnt hm x.id
      rw [(prop next).cnt] at hc
      refine ⟨q', by rw [updateState_reqs]; exact h1, h4, h5, .queue i (.inl ⟨t, rfl⟩) (by rw [h3, h4, h5]) ?_ (by simp) ?_⟩
      · rw [updateState_eq]; exact hc
      · intro held' ho'
        obtain ⟨rfl, -⟩ := ho'.poking (t := t) (setAt_same _ _ _)
        have f := hm.frame.unsent
        rw [propose_eq] at f
        rw [updateState_eq]
        show _ ∉ ids held' ++ ids m'.unsent
        rw [f]
        unfold places at nodup
        simp only [List.map_append, List.map_cons, List.map_nil] at nodup
        have := (List.nodup_append.1 nodup).2.1
        rw [List.append_assoc, List.nodup_append] at this
        obtain ⟨-, n1, n2⟩ := this
        intro hin
        rcases List.mem_append.1 hin with h6 | h6
        · exact n2 _ h6 _ (by simp) rfl
        · simp only [List.singleton_append, List.nodup_cons] at n1
          exact n1.1 h6
    · refine idle ((prop next).trans fun q1 h1 => (sends_idle hm h1 hr).trans fun q2 h2 => ?_)
      rw [updateState_eq]; exact .of_eq h2 rfl rfl rfl
  case pokeFailed t i r0 l x a q0 ht hx next hs m' err hm =>
    by_cases hr : r = x.id
    · subst hr
      have := (VMgr.deref_some hx).2
      rw [hq] at this; injection this with this; subst this
      obtain ⟨q', h1, h2⟩ := hm.request
      obtain ⟨h3, h4, h5⟩ := Same.resent h2
      obtain ⟨rfl, -⟩ := hp.owner.poking ht
      have hc := sends_cnt hm x.id
      rw [(prop next).cnt] at hc
      obtain ⟨⟨q2, k1, k2, k3, k4⟩, k5, k6⟩ := fin { m'.fail (.poke x.id) with locked := false } t r0 (.raised err) q' h1
      refine ⟨q2, k1, k3.trans h4, k4.trans h5, .queue i (.inl ⟨t, rfl⟩) (by rw [k2, h3, h4, h5]) (by rw [k5]; exact hc)
        (by simp) ?_⟩
      intro held' ho'
      have hlock : (({ s with mgr := { m'.fail (.poke x.id) with locked := false } } : VSys).finish cfg t r0
          (.raised err)).mgr.locked = false := by
        rw [(finish_frame cfg _ t r0 _).locked]
      obtain ⟨rfl, -⟩ := ho'.unlocked hlock
      have f := hm.frame.unsent
      rw [propose_eq] at f
      have f' : (({ s with mgr := { m'.fail (.poke x.id) with locked := false } } : VSys).finish cfg t r0
          (.raised err)).mgr.unsent = s.mgr.unsent := by
        rw [(finish_frame cfg _ t r0 _).unsent]; exact f
      rw [f']
      unfold places at nodup
      simp only [List.map_append, List.map_cons, List.map_nil] at nodup
      have := (List.nodup_append.1 nodup).2.1
      rw [List.append_assoc, List.nodup_append] at this
      obtain ⟨-, n1, n2⟩ := this
      intro hin
      rcases List.mem_append.1 hin with h6 | h6
      · cases h6
      · simp only [List.singleton_append, List.nodup_cons] at n1
        exact n1.1 h6
    · exact idle ((prop next).trans fun q1 h1 => (sends_idle hm h1 hr).trans fun q2 h2 =>
        Unmoved.trans (b := { m'.fail (.poke x.id) with locked := false }) (.of_eq h2 rfl rfl rfl) fun q3 h3 => fin _ t r0 _ q3 h3)
  case answered t i r0 q0 x ht hq0 he hx => exact idle (fin s.mgr t r0 _ q hq)
  case reported t i r0 q0 ex ht hq0 he => exact idle (fin s.mgr t r0 _ q hq)
  case timedOut t i r0 q0 ht hq0 he => exact idle (fin s.mgr t r0 _ q hq)
  case reportFailed i m x r0 q0 cause sync hr hl all next hs m' err hm =>
    by_cases hrr : r = r0
    · subst hrr
      have := (VMgr.deref_some hr.deref).2
      rw [hq] at this; injection this with this; subst this
      obtain ⟨q', h1, h2⟩ := hm.request
      obtain ⟨h3, h4, h5⟩ := Same.resent h2
      obtain ⟨msg, k1, k2, k3, k4⟩ := hr.asks
      have hc := sends_cnt hm r
      rw [(prop next).cnt] at hc
      exact ⟨q', h1, h4, h5, .report i m x msg rfl k1 k2 k3 k4 (by rw [h3, h4, h5]) hc (fun _ _ h => by cases h)⟩
    · exact idle ((prop next).trans fun q1 h1 => (sends_idle hm h1 hrr).trans fun q2 h2 => .of_eq h2 rfl rfl rfl)
  case reportOne i m x r0 q0 cause sync hr hl next hs m' hm =>
    by_cases hrr : r = r0
    · subst hrr
      have := (VMgr.deref_some hr.deref).2
      rw [hq] at this; injection this with this; subst this
      obtain ⟨q', h1, h2⟩ := hm.request
      obtain ⟨h3, h4, h5⟩ := Same.resent h2
      obtain ⟨msg, k1, k2, k3, k4⟩ := hr.asks
      have hc := sends_cnt hm r
      rw [(prop next).cnt] at hc
      exact ⟨q', h1, h4, h5, .report i m x msg rfl k1 k2 k3 k4 (by rw [h3, h4, h5]) hc
        (fun _ _ h => by simp only at h; split at h <;> cases h)⟩
    · exact idle ((prop next).trans fun q1 h1 => (sends_idle hm h1 hrr).trans fun q2 h2 => .of_eq h2 rfl rfl rfl)
  case reportAll i m x r0 q0 cause sync hr hl next hs m' hm =>
    by_cases hrr : r = r0
    · subst hrr
      have := (VMgr.deref_some hr.deref).2
      rw [hq] at this; injection this with this; subst this
      obtain ⟨q', h1, h2⟩ := hm.request
      obtain ⟨h3, h4, h5⟩ := Same.resent h2
      obtain ⟨msg, k1, k2, k3, k4⟩ := hr.asks
      have hc := sends_cnt hm r
      rw [(prop next).cnt] at hc
      refine ⟨q', ?_, h4, h5, .report i m x msg rfl k1 k2 k3 k4 (by rw [h3, h4, h5]) ?_ (fun _ _ h => by cases h)⟩
      · rw [updateState_eq]; exact h1
      · rw [updateState_eq]; exact hc
    · refine idle ((prop next).trans fun q1 h1 => (sends_idle hm h1 hrr).trans fun q2 h2 => ?_)
      rw [updateState_eq]; exact .of_eq h2 rfl rfl rfl
  case excepted i m x msg q0 v rest e hl hm hq0 hi hv hn1 hn2 he =>
    refine idle ⟨?_, rfl, id⟩
    by_cases hr : r = msg.request
    · subst hr
      have := (VMgr.deref_some hq0).2
      rw [hq] at this; injection this with this; subst this
      refine ⟨_, setAt_same _ _ _, ?_⟩
      unfold VReq.processException
      split <;> split <;> exact ⟨rfl, rfl, rfl⟩
    · exact ⟨q, by show setAt s.mgr.reqs _ _ r = _; rw [setAt_other _ _ hr]; exact hq, rfl, rfl, rfl⟩
  case responseBad i m x msg q0 hl hm hq0 hi hlk err m' hp' =>
    rcases VMgr.processResponse_cases cfg s.mgr x i.seed with ⟨_, -, h'⟩ | ⟨next, _, usm, -, hc, h'⟩ | ⟨_, _, -, -, h'⟩ |
      ⟨-, h'⟩ <;> rw [h'] at hp' <;> cases hp' <;> exact same rfl rfl rfl
  case responded i m x msg q0 hl hm hq0 hi hlk m' hp' =>
    have hreqs : m'.reqs = s.mgr.reqs ∧ m'.sent = s.mgr.sent ∧ m'.msgs = s.mgr.msgs := by
      rcases VMgr.processResponse_cases cfg s.mgr x i.seed with ⟨_, -, h'⟩ | ⟨next, _, usm, -, hc, h'⟩ | ⟨_, _, -, -, h'⟩ |
        ⟨-, h'⟩ <;> rw [h'] at hp' <;> cases hp' <;> exact ⟨rfl, rfl, rfl⟩
    obtain ⟨e1, e2, e3⟩ := hreqs
    refine idle ⟨?_, ?_, ?_⟩
    · by_cases hr : r = msg.request
      · subst hr
        have := (VMgr.deref_some hq0).2
        rw [hq] at this; injection this with this; subst this
        refine ⟨_, setAt_same _ _ _, ?_⟩
        unfold VReq.store
        split <;> exact ⟨rfl, rfl, rfl⟩
      · refine ⟨q, ?_, rfl, rfl, rfl⟩
        show setAt m'.reqs _ _ r = _
        rw [setAt_other _ _ hr, e1]; exact hq
    · show m'.sent.countP _ = _; rw [e2]; rfl
    · show (∃ n msg, m'.msgs n = some msg ∧ msg.request = r) → _; rw [e3]; exact id
  case flushSent i r0 eid sync l x q0 hl hu hx m' hm =>
    by_cases hr : r = x.id
    · subst hr
      have := (VMgr.deref_some hx).2
      rw [hq] at this; injection this with this; subst this
      obtain ⟨q', h1, h2⟩ := hm.request
      obtain ⟨h3, h4, h5⟩ := Same.resent h2
      refine ⟨q', h1, h4, h5, .queue i (.inr rfl) (by rw [h3, h4, h5]) (sends_cnt hm x.id) (by rw [hu]; simp) ?_⟩
      intro held' ho'
      obtain ⟨rfl, -⟩ := ho'.flushing (r := r0) (e := eid) (b := sync) hl
      have f : m'.unsent = l := hm.frame.unsent
      show _ ∉ [] ++ ids m'.unsent
      rw [f]
      unfold places at nodup
      rw [hu] at nodup
      simp only [List.map_append, List.map_cons, List.map_nil] at nodup
      have := (List.nodup_append.1 (List.nodup_append.1 (List.nodup_append.1 nodup).2.1).2.1).2.2
      intro hin
      exact this _ hin _ (by simp) rfl
    · exact idle (Unmoved.trans (b := { s.mgr with unsent := l }) (.of_eq hq rfl rfl rfl) fun q1 h1 =>
        (sends_idle hm h1 hr).trans fun q2 h2 => .of_eq h2 rfl rfl rfl)
  case flushFailed i r0 eid sync l x q0 hl hu hx m' err hm =>
    by_cases hr : r = x.id
    · subst hr
      have := (VMgr.deref_some hx).2
      rw [hq] at this; injection this with this; subst this
      obtain ⟨q', h1, h2⟩ := hm.request
      obtain ⟨h3, h4, h5⟩ := Same.resent h2
      refine ⟨q', h1, h4, h5, .queue i (.inr rfl) (by rw [h3, h4, h5]) (sends_cnt hm x.id) (by rw [hu]; simp) ?_⟩
      intro held' ho'
      obtain ⟨rfl, -⟩ := ho'.unlocked rfl
      have f : m'.unsent = l := hm.frame.unsent
      show _ ∉ [] ++ ids m'.unsent
      rw [f]
      unfold places at nodup
      rw [hu] at nodup
      simp only [List.map_append, List.map_cons, List.map_nil] at nodup
      have := (List.nodup_append.1 (List.nodup_append.1 (List.nodup_append.1 nodup).2.1).2.1).2.2
      intro hin
      exact this _ hin _ (by simp) rfl
    · exact idle (Unmoved.trans (b := { s.mgr with unsent := l }) (.of_eq hq rfl rfl rfl) fun q1 h1 =>
        (sends_idle hm h1 hr).trans fun q2 h2 => .of_eq h2 rfl rfl rfl)
  case synced i r0 q0 hl hq0 =>
    refine idle ⟨?_, rfl, id⟩
    by_cases hr : r = r0
    · subst hr
      rw [hq] at hq0; injection hq0 with hq0; subst hq0
      exact ⟨_, setAt_same _ _ _, rfl, rfl, rfl⟩
    · exact ⟨q, by show setAt s.mgr.reqs _ _ r = _; rw [setAt_other _ _ hr]; exact hq, rfl, rfl, rfl⟩
  case collected r0 q0 hq0 =>
    refine idle ⟨?_, rfl, id⟩
    obtain ⟨q2, h1, h2⟩ := closed_reqs (cfg := cfg) s.mgr r0 q0 (VMgr.deref_some hq0).2 r q hq
    exact ⟨q2, h1, Same.nextRefresh h2⟩
  all_goals exact same rfl rfl rfl

/-- Request `r` is in the queue. -/
def InQ (s : VSys) (r : Nat) : Prop := ∃ held, Owner s held ∧ r ∈ ids held ++ ids s.mgr.unsent

theorem owner_unique {s : VSys} {a b : List Ref} (ha : Owner s a) (hb : Owner s b) : a = b :=
  List.append_cancel_right ((Spec.queue_iff hb _).1 ((Spec.queue_iff ha _).2 rfl))

/-- No old request enters the queue. -/
theorem flow_inq {s s' : VSys} {e : VEvent} {held held' : List Ref} (hf : Flow s e s' held held') {r : Nat}
    (hr : r < s.mgr.nextReq) (h : r ∈ ids held' ++ ids s'.mgr.unsent) : r ∈ ids held ++ ids s.mgr.unsent := by
  cases hf with
  | same ha hu hn => rw [hu] at h; exact h
  | queued x hx ha hu hn =>
    rw [hu] at h
    simp only [List.map_nil, List.nil_append, List.map_cons, List.mem_cons] at h ⊢
    rcases h with h | h
    · omega
    · exact h
  | issued ha hu hn => rw [hu] at h; exact h
  | issueFailed ha hu hn hf => rw [hu] at h; exact h
  | popped x rest hx ho ha hu hn => rw [hu] at h; exact h
  | pokeBegin ha hu hn => rw [hu] at h; simpa using h
  | pokeDead x ho ha hu hn => rw [hu] at h; simp only [List.map_append, List.mem_append] at h ⊢; tauto
  | pokeQueued x ha hu hn =>
    rw [hu] at h
    simp only [List.map_append, List.mem_append, List.map_cons, List.mem_cons, List.map_nil, List.not_mem_nil, or_false] at h ⊢
    tauto
  | pokeSent x ha hu hn => rw [hu] at h; simp only [List.map_append, List.mem_append] at h ⊢; tauto
  | pokeFailed x ha hu hn hf => rw [hu] at h; simp only [List.map_append, List.mem_append, List.map_nil, List.not_mem_nil, false_or] at h ⊢; tauto
  | flushDead x l ho hx ha hu hn => rw [hu] at h; rw [hx]; simp only [List.map_append, List.mem_append] at h ⊢; tauto
  | flushSent x l hx ha hu hn => rw [hu] at h; rw [hx]; simp only [List.map_append, List.mem_append] at h ⊢; tauto
  | flushFailed x l hx ha hu hn hf => rw [hu] at h; rw [hx]; simp only [List.map_append, List.mem_append] at h ⊢; tauto

theorem resent_moves {q : VReq} {now : ℚ} (hp : 0 < q.period) (h : q.nextRefresh < now) :
    min q.expiration (q.nextRefresh + q.period) ≤ (VMgr.resent q now).nextRefresh := by
  show _ ≤ min q.expiration (q.nextRefresh + (⌈-(q.nextRefresh - now) / q.period⌉ : ℤ) * q.period)
  have hk : (1 : ℤ) ≤ ⌈-(q.nextRefresh - now) / q.period⌉ := by
    have : (0 : ℚ) < -(q.nextRefresh - now) / q.period := div_pos (by linarith) hp
    have := Int.lt_ceil.2 (by exact_mod_cast this : ((0 : ℤ) : ℚ) < -(q.nextRefresh - now) / q.period)
    omega
  have hk' : (1 : ℚ) ≤ (⌈-(q.nextRefresh - now) / q.period⌉ : ℤ) := by exact_mod_cast hk
  refine min_le_min le_rfl ?_
  nlinarith

theorem resent_dot {q : VReq} (h : q.nextRefresh ≤ q.expiration) :
    (VMgr.resent q q.nextRefresh).nextRefresh = q.nextRefresh := by
  show min q.expiration (q.nextRefresh + (⌈-(q.nextRefresh - q.nextRefresh) / q.period⌉ : ℤ) * q.period) = _
  simp [h]

theorem resent_soon {q : VReq} {now : ℚ} (hp : 0 < q.period) (h : q.nextRefresh ≤ now) :
    (VMgr.resent q now).nextRefresh ≤ now + q.period := by
  obtain ⟨k, h1, h2, h3⟩ := VMgr.resent_next hp h
  rw [h1]
  refine le_trans (min_le_right _ _) (by linarith)

theorem dots_snoc (cfg : VCfg) (r : Nat) (h : List VEvent) : ∀ (s : VSys) (e : VEvent),
    Spec.onTheDotV cfg r s (h ++ [e]) = Spec.onTheDotV cfg r s h + Spec.dotV cfg r (s.run cfg h) e := by
  induction h with
  | nil => intro s e; simp [Spec.onTheDotV, VSys.run]
  | cons a h ih =>
    intro s e
    rw [List.cons_append, Spec.onTheDotV, Spec.onTheDotV, ih]
    simp only [VSys.run, List.foldl_cons]
    omega

theorem reports_snoc (cfg : VCfg) (r : Nat) (h : List VEvent) : ∀ (s : VSys) (e : VEvent),
    Spec.reportsFor cfg r s (h ++ [e]) = Spec.reportsFor cfg r s h + Spec.reportFor cfg r (s.run cfg h) e := by
  induction h with
  | nil => intro s e; simp [Spec.reportsFor, VSys.run]
  | cons a h ih =>
    intro s e
    rw [List.cons_append, Spec.reportsFor, Spec.reportsFor, ih]
    simp only [VSys.run, List.foldl_cons]
    omega

theorem pending_le (s : VSys) (r : Nat) : Spec.pending s r ≤ 1 := by
  rw [Spec.pending_eq]; split <;> omega

/-- A report that the listening thread has was just received, or it had it before. -/
theorem pending_move {s s' : VSys} {e : VEvent} (hlt : ∀ r q, s.mgr.reqs r = some q → r < s.mgr.nextReq) (hb : Book s)
    (hm : Move cfg s e s') (r : Nat) (hs' : s' = s.step cfg e) :
    Spec.pending s' r ≤ Spec.pending s r + Spec.reportFor cfg r s e := by
  by_cases he : ∃ w stamp, e = .hear w stamp
  · obtain ⟨w, stamp, rfl⟩ := he
    simp only [Spec.reportFor]
    rw [← hs']
    omega
  · have : Spec.pending s' r ≤ Spec.pending s r := by
      rw [Spec.pending_eq, Spec.pending_eq]
      by_cases h : ∃ m x msg, s'.listener = .push m x ∧ s'.mgr.msgs m = some msg ∧ msg.request = r ∧ Spec.Asking x
      · rw [if_pos h]
        obtain ⟨m, x, msg, h1, h2, h3, h4⟩ := h
        rcases move_pushes hm m x h1 with h5 | ⟨w, stamp, _, _, _, _, h5, -⟩
        · obtain ⟨msg0, q0, k1, -, -⟩ := hb.push m x h5
          have := (move_mono hlt hb hm).1 m msg0 k1
          rw [h2] at this; injection this with this; subst this
          rw [if_pos ⟨m, x, msg, h5, k1, h3, h4⟩]
        · exact absurd ⟨w, stamp, h5⟩ he
      · rw [if_neg h]; omega
    omega

/-- What is kept up while the request is alive: `n` transmissions are accounted for by the passing of time. -/
structure Paced (s : VSys) (r : Nat) (t0 timeout period : ℚ) (M extra : Nat) (clocks : List ℚ) (q : VReq) (n : Nat) : Prop where
  req : s.mgr.reqs r = some q
  exp : q.expiration = t0 + timeout
  per : q.period = period
  cnt : Cnt s.mgr r + Spec.pending s r ≤ n + extra
  small : n ≤ M
  low : min q.expiration (t0 + n * period) ≤ q.nextRefresh
  high : q.nextRefresh ≤ q.expiration
  queue : InQ s r → n = 0 ∧ ¬ HasMsg s.mgr r
  soon : HasMsg s.mgr r → ∀ x, (∀ y ∈ clocks, y ≤ x) → q.nextRefresh ≤ x + period

theorem Paced.step {s : VSys} {e : VEvent} {held : List Ref} {r : Nat} {t0 timeout period : ℚ} {extra : Nat}
    {clocks : List ℚ} {q : VReq} {n : Nat} (ha : s.mgr.Accounts base cfg.ns) (hb : Book s) (hp : Placed s held)
    (hper : 0 < period) (h : Paced s r t0 timeout period (Spec.allowed timeout period) extra clocks q n)
    (ht0 : t0 ∈ clocks) (hclock : ∀ y ∈ clocks, ∀ z ∈ Spec.readingsV e, y ≤ z) :
    ∃ q' n', Paced (s.step cfg e) r t0 timeout period (Spec.allowed timeout period)
      (extra + Spec.dotV cfg r s e + Spec.reportFor cfg r s e) (clocks ++ Spec.readingsV e) q' n' := by
  have hlt : ∀ r q, s.mgr.reqs r = some q → r < s.mgr.nextReq := fun r q h => ha.lt h
  rcases step_move cfg s e with hm | hm
  · rw [hm]
    refine ⟨q, n, h.req, h.exp, h.per, ?_, h.small, h.low, h.high, h.queue, fun hh x hx => h.soon hh x fun y hy => hx y (by simp [hy])⟩
    have := h.cnt
    omega
  have hpend := pending_move hlt hb hm r rfl
  obtain ⟨held', hp', hf⟩ := hp.move hm
  obtain ⟨q', hq', e1, e2, ho⟩ := move_often ha hp hm r q h.req
  have hqueue : InQ (s.step cfg e) r → InQ s r := by
    rintro ⟨k, k1, k2⟩
    rw [owner_unique k1 hp'.owner] at k2
    exact ⟨held, hp.owner, flow_inq hf (hlt r q h.req) k2⟩
  generalize hdot : Spec.dotV cfg r s e = dot
  have hdot' : ∀ t i, e = .step t i → i.now = q.nextRefresh → Cnt (s.step cfg e).mgr r ≠ Cnt s.mgr r → dot = 1 := by
    rintro t i he h1 h2
    rw [← hdot, he]
    unfold Spec.dotV
    rw [h.req]
    simp only
    rw [he] at h2
    exact if_pos ⟨h1, h2⟩
  generalize hs' : s.step cfg e = s' at *
  have hc := h.cnt
  have soon : ∀ now, now ∈ Spec.readingsV e → q'.nextRefresh ≤ now + period →
      HasMsg s'.mgr r → ∀ x, (∀ y ∈ clocks ++ Spec.readingsV e, y ≤ x) → q'.nextRefresh ≤ x + period := by
    intro now h1 h2 _ x hx
    have := hx now (by simp [h1])
    linarith
  have lowq : ∀ now : ℚ, now ∈ Spec.readingsV e → min q'.expiration (t0 + (1 : Nat) * period) ≤ min q.expiration (now + q.period) := by
    intro now hn
    have := hclock t0 ht0 now hn
    rw [e1, h.per]
    exact min_le_min le_rfl (by push_cast; linarith)
  cases ho with
  | idle k1 k2 k3 =>
    refine ⟨q', n, hq', by rw [e1, h.exp], by rw [e2, h.per], by omega, h.small, by rw [k1, e1]; exact h.low,
      by rw [k1, e1]; exact h.high, fun hh => ?_, fun hh x hx => ?_⟩
    · obtain ⟨j1, j2⟩ := h.queue (hqueue hh)
      exact ⟨j1, fun hx => j2 (k3 hx)⟩
    · rw [k1]; exact h.soon (k3 hh) x fun y hy => hx y (by simp [hy])
  | timer t i he k1 k2 k3 k4 k5 =>
    have hper' : 0 < q.period := by rw [h.per]; exact hper
    have hnow : i.now ∈ Spec.readingsV e := by rw [he]; simp [Spec.readingsV]
    have hnq : ¬ InQ s' r := by
      intro hh
      obtain ⟨k, j1, j2⟩ := hqueue hh
      rw [owner_unique j1 hp.owner] at j2
      exact (List.nodup_append.1 hp.nodup).2.2 r k5 r j2 rfl
    have hle' : q'.nextRefresh ≤ q'.expiration := by rw [k3, e1]; exact min_le_left _ _
    have hsoon := soon i.now hnow (by rw [k3, ← h.per]; exact resent_soon hper' k1)
    by_cases hd : i.now = q.nextRefresh
    · have hnr : q'.nextRefresh = q.nextRefresh := by rw [k3, hd]; exact resent_dot h.high
      refine ⟨q', n, hq', by rw [e1, h.exp], by rw [e2, h.per], ?_, h.small, by rw [hnr, e1]; exact h.low, hle',
        fun hh => absurd hh hnq, hsoon⟩
      by_cases hcc : Cnt s'.mgr r = Cnt s.mgr r
      · omega
      · have := hdot' t i he hd hcc
        omega
    · have hl : q.nextRefresh < i.now := lt_of_le_of_ne k1 (Ne.symm hd)
      have hlow : t0 + n * period < t0 + timeout := by
        rw [← h.exp]
        rcases min_le_iff.1 h.low with h1 | h1 <;> linarith
      refine ⟨q', n + 1, hq', by rw [e1, h.exp], by rw [e2, h.per], by omega, Spec.allowed_fits hper n hlow, ?_, hle',
        fun hh => absurd hh hnq, hsoon⟩
      rw [k3, e1]
      refine le_trans ?_ (resent_moves hper' hl)
      refine le_min (min_le_left _ _) ?_
      rw [h.per]
      rcases min_le_iff.1 h.low with h1 | h1
      · exact le_trans (min_le_left _ _) (by linarith)
      · refine le_trans (min_le_right _ _) ?_
        push_cast
        linarith
  | queue i he k1 k2 k3 k4 =>
    have hnow : i.now ∈ Spec.readingsV e := by rcases he with ⟨t, he⟩ | he <;> rw [he] <;> simp [Spec.readingsV]
    obtain ⟨rfl, -⟩ := h.queue ⟨held, hp.owner, k3⟩
    refine ⟨q', 1, hq', by rw [e1, h.exp], by rw [e2, h.per], by omega, le_max_left _ _, ?_, ?_, ?_, ?_⟩
    · rw [k1]; exact lowq i.now hnow
    · rw [k1, e1]; exact min_le_left _ _
    · rintro ⟨k, j1, j2⟩; exact absurd j2 (k4 k j1)
    · exact soon i.now hnow (by rw [k1, h.per]; exact min_le_right _ _)
  | report i m x msg he k1 k2 k3 k4 k5 k6 k7 =>
    have hnow : i.now ∈ Spec.readingsV e := by rw [he]; simp [Spec.readingsV]
    have hp1 : Spec.pending s r = 1 := by rw [Spec.pending_eq]; exact if_pos ⟨m, x, msg, k1, k2, k3, k4⟩
    have hp2 : Spec.pending s' r = 0 := by
      rw [Spec.pending_eq]; exact if_neg fun ⟨m, x, msg, j, _⟩ => k7 m x j
    have hhas : HasMsg s.mgr r := ⟨m, msg, k2, k3⟩
    refine ⟨q', n, hq', by rw [e1, h.exp], by rw [e2, h.per], by omega, h.small, ?_, ?_, ?_, ?_⟩
    · rw [k5, e1]
      refine le_trans h.low (le_min h.high ?_)
      rw [h.per]
      exact h.soon hhas i.now fun y hy => hclock y hy i.now hnow
    · rw [k5, e1]; exact min_le_left _ _
    · intro hh; exact absurd hhas (h.queue (hqueue hh)).2
    · exact soon i.now hnow (by rw [k5, h.per]; exact min_le_right _ _)

/-- Datagrams were sent for requests that exist. -/
theorem sent_old (hc : Spec.Created cfg m0) (h : List VEvent) :
    ∀ x ∈ (after cfg m0 h).mgr.sent, ∃ q, (after cfg m0 h).mgr.reqs x.request = some q := by
  induction h using List.reverseRecOn with
  | nil =>
    obtain ⟨hok, h0, engineID, g, c0, n0, seed, hu0, hm⟩ := hc
    obtain ⟨usm, hcc, hm0⟩ := VMgr.create_ok hm
    intro x hx
    have hx : x ∈ m0.sent := hx
    rw [hm0] at hx; cases hx
  | append_singleton h e ih =>
    intro x hx
    have old : x ∈ (after cfg m0 h).mgr.sent → ∃ q, (after cfg m0 (h ++ [e])).mgr.reqs x.request = some q := by
      intro hx
      obtain ⟨q, hq⟩ := ih x hx
      obtain ⟨q', hq', -⟩ := step_touch hc h e x.request q hq
      exact ⟨q', hq'⟩
    rcases C67_partial hc h e with h1 | ⟨r, m, w, q', h1, -, h2, -⟩
    · rw [h1] at hx; exact old hx
    · rw [h1] at hx
      rcases List.mem_cons.1 hx with rfl | hx
      · exact ⟨q', h2⟩
      · exact old hx

/-- A new request. -/
theorem Paced.new (hc : Spec.Created cfg m0) (h1 : List VEvent) (r : Nat) (pdu : Pdu) (user : Bytes) (level : SecurityLevel)
    (timeout period t0 : ℚ) (r0 : Nat) (i : SendIn) (hn : (after cfg m0 h1).mgr.reqs r = none)
    (hs : (after cfg m0 (h1 ++ [.send pdu user level timeout period t0 r0 i])).mgr.reqs r ≠ none) (ht : t0 ≤ i.now) :
    ∃ q n, Paced (after cfg m0 (h1 ++ [.send pdu user level timeout period t0 r0 i])) r t0 timeout period
      (Spec.allowed timeout period) 0 [t0, i.now] q n := by
  obtain ⟨base, hpos, hsnd⟩ := hc.sound h1
  obtain ⟨held, hp, -⟩ := hc.kept h1
  have hb := hc.book h1
  have hcnt : Cnt (after cfg m0 h1).mgr r = 0 := by
    unfold Cnt
    rw [List.countP_eq_zero]
    intro x hx hr
    simp only [decide_eq_true_eq] at hr
    obtain ⟨q, hq⟩ := sent_old hc h1 x hx
    rw [hr, hn] at hq; cases hq
  have hhas : ¬ HasMsg (after cfg m0 h1).mgr r := by
    rintro ⟨n, msg, k1, k2⟩
    obtain ⟨q, hq, -⟩ := hb.request n msg k1
    rw [k2, hn] at hq; cases hq
  have hpend : Spec.pending (after cfg m0 h1) r = 0 := by
    rw [Spec.pending_eq]
    exact if_neg fun ⟨m, x, msg, k1, k2, k3, k4⟩ => hhas ⟨m, msg, k2, k3⟩
  rw [after_snoc] at hs ⊢
  generalize after cfg m0 h1 = s at *
  have hlt : ∀ r q, s.mgr.reqs r = some q → r < s.mgr.nextReq := fun r q h => hsnd.accounts.lt h
  rcases step_move cfg s (.send pdu user level timeout period t0 r0 i) with hm | hm
  · rw [hm, hn] at hs; exact absurd rfl hs
  have hpend' := pending_move hlt hb hm r rfl
  rw [hpend] at hpend'
  simp only [Spec.reportFor] at hpend'
  generalize s.step cfg (.send pdu user level timeout period t0 r0 i) = s' at *
  generalize hev : VEvent.send pdu user level timeout period t0 r0 i = ev at *
  have hr : r = s.mgr.nextReq := by
    cases hq' : s'.mgr.reqs r with
    | none => exact absurd hq' hs
    | some q' =>
      rcases move_born hm r q' hq' with ⟨q, hq⟩ | ⟨h, -⟩
      · rw [hn] at hq; cases hq
      · exact h
  have hnot : r ∉ ids s.mgr.unsent := by
    intro hin
    have := hp.lt r (by unfold places; simp only [List.mem_append]; exact .inr (.inr hin))
    omega
  have soon : ∀ (q : VReq) (s' : VSys), q.nextRefresh ≤ i.now + period → HasMsg s'.mgr r → ∀ x, (∀ y ∈ [t0, i.now], y ≤ x) →
      q.nextRefresh ≤ x + period := by
    intro q s' h _ x hx
    have := hx i.now (by simp)
    linarith
  cases hm
  case queued pdu' user' level' timeout' period' t0' r0' i' q0 hq0 hl hd hss =>
    injection hev with v1 v2 v3 v4 v5 v6 v7 v8
    subst v1 v2 v3 v4 v5 v6 v7 v8
    subst hr
    refine ⟨q0, 0, setAt_same _ _ _, by rw [hq0]; rfl, by rw [hq0]; rfl, ?_, by omega, ?_, ?_, ?_, ?_⟩
    · exact Nat.add_le_add (Nat.le_of_eq hcnt) (by simpa using hpend')
    · rw [hq0]; exact min_le_left _ _
    · rw [hq0]; exact le_rfl
    · intro _; exact ⟨rfl, hhas⟩
    · intro hh; exact absurd hh hhas
  case issued pdu' user' level' timeout' period' t0' r0' i' q0 hq0 hl hd next hss m' hm =>
    injection hev with v1 v2 v3 v4 v5 v6 v7 v8
    subst v1 v2 v3 v4 v5 v6 v7 v8
    subst hr
    obtain ⟨q', k1, k2⟩ := hm.request
    obtain ⟨k3, k4, k5⟩ := Same.resent k2
    have kc := sends_cnt hm s.mgr.nextReq
    have kc' : Cnt ((s.mgr.issue q0 (VMgr.generateRequestID s.mgr.gen r0).2).propose next) s.mgr.nextReq = Cnt s.mgr s.mgr.nextReq := by
      rw [propose_eq]; rfl
    have e1 : q'.expiration = t0 + timeout := by rw [k4, hq0]; rfl
    have e2 : q'.period = period := by rw [k5, hq0]; rfl
    have f := hm.frame
    simp only [propose_eq, VMgr.issue] at f
    refine ⟨q', 1, ?_, e1, e2, ?_, le_max_left _ _, ?_, ?_, ?_, ?_⟩
    · rw [updateState_reqs]; exact k1
    · have : Cnt m' s.mgr.nextReq ≤ 1 := by omega
      simp only [updateState_eq] at hpend' ⊢
      unfold Cnt at this ⊢
      show List.countP _ m'.sent + _ ≤ _
      omega
    · rw [k3, e1, e2]; exact min_le_min le_rfl (by push_cast; linarith)
    · rw [k3]; exact min_le_left _ _
    · rintro ⟨held', j1, j2⟩
      simp only [updateState_eq] at j1 j2
      obtain ⟨rfl, -⟩ := j1.unlocked (f.locked.trans hl)
      have j2 : s.mgr.nextReq ∈ [] ++ ids m'.unsent := j2
      rw [f.unsent] at j2
      exact absurd j2 hnot
    · refine soon q' _ (by rw [k3, e2]; exact min_le_right _ _)
  case issueFailed pdu' user' level' timeout' period' t0' r0' i' q0 hq0 hl hd next hss m' err hm =>
    injection hev with v1 v2 v3 v4 v5 v6 v7 v8
    subst v1 v2 v3 v4 v5 v6 v7 v8
    subst hr
    obtain ⟨q', k1, k2⟩ := hm.request
    obtain ⟨k3, k4, k5⟩ := Same.resent k2
    have kc := sends_cnt hm s.mgr.nextReq
    have kc' : Cnt ((s.mgr.issue q0 (VMgr.generateRequestID s.mgr.gen r0).2).propose next) s.mgr.nextReq = Cnt s.mgr s.mgr.nextReq := by
      rw [propose_eq]; rfl
    have e1 : q'.expiration = t0 + timeout := by rw [k4, hq0]; rfl
    have e2 : q'.period = period := by rw [k5, hq0]; rfl
    have f := hm.frame
    simp only [propose_eq, VMgr.issue] at f
    refine ⟨q', 1, k1, e1, e2, ?_, le_max_left _ _, ?_, ?_, ?_, ?_⟩
    · have : Cnt m' s.mgr.nextReq ≤ 1 := by omega
      unfold Cnt at this ⊢
      show List.countP _ m'.sent + _ ≤ _
      omega
    · rw [k3, e1, e2]; exact min_le_min le_rfl (by push_cast; linarith)
    · rw [k3]; exact min_le_left _ _
    · rintro ⟨held', j1, j2⟩
      obtain ⟨rfl, -⟩ := j1.unlocked (f.locked.trans hl)
      have j2 : s.mgr.nextReq ∈ [] ++ ids m'.unsent := j2
      rw [f.unsent] at j2
      exact absurd j2 hnot
    · refine soon q' _ (by rw [k3, e2]; exact min_le_right _ _)
  all_goals cases hev

end VSys

open VSys

/-- **C110** (v3), except for retransmissions at the very instant the request is due. Whatever happens, if the clock does
not go back, a request with a positive refresh period is put on the wire at most once for every period begun before its
timeout, and once in any case; and once more for every report received for it that says that the engine ID is unknown or
that a message was not in the time window. -/
theorem C110_v3_partial (hc : Spec.Created cfg m0) (h1 h2 : List VEvent) (r : Nat) (pdu : Pdu) (user : Bytes)
    (level : SecurityLevel) (timeout period t0 : ℚ) (r0 : Nat) (i : SendIn) :
    let create := VEvent.send pdu user level timeout period t0 r0 i
    (after cfg m0 h1).mgr.reqs r = none → (after cfg m0 (h1 ++ [create])).mgr.reqs r ≠ none → 0 < period →
    ((create :: h2).flatMap Spec.readingsV).Pairwise (· ≤ ·) →
    Spec.transmissionsV (after cfg m0 (h1 ++ create :: h2)) r ≤
      Spec.allowed timeout period + Spec.onTheDotV cfg r (after cfg m0 (h1 ++ [create])) h2 +
        Spec.reportsFor cfg r (after cfg m0 (h1 ++ [create])) h2 := by
  intro create hn hs hp hclock
  have ht : t0 ≤ i.now := by
    have := hclock
    simp only [List.flatMap_cons] at this
    have := (List.pairwise_append.1 this).1
    have hr : Spec.readingsV create = [t0, i.now] := rfl
    rw [hr] at this
    simpa using this
  have key : ∃ q n, Paced (after cfg m0 (h1 ++ create :: h2)) r t0 timeout period (Spec.allowed timeout period)
      (Spec.onTheDotV cfg r (after cfg m0 (h1 ++ [create])) h2 + Spec.reportsFor cfg r (after cfg m0 (h1 ++ [create])) h2)
      ((create :: h2).flatMap Spec.readingsV) q n := by
    induction h2 using List.reverseRecOn with
    | nil =>
      obtain ⟨q, n, h⟩ := Paced.new hc h1 r pdu user level timeout period t0 r0 i hn hs ht
      exact ⟨q, n, h⟩
    | append_singleton h e ih =>
      have hflat : (create :: (h ++ [e])).flatMap Spec.readingsV = (create :: h).flatMap Spec.readingsV ++ Spec.readingsV e := by
        simp
      rw [hflat] at hclock
      obtain ⟨c1, c2, c3⟩ := List.pairwise_append.1 hclock
      obtain ⟨q, n, hP⟩ := ih c1
      rw [show h1 ++ create :: (h ++ [e]) = (h1 ++ create :: h) ++ [e] by simp, after_snoc, hflat, dots_snoc, reports_snoc]
      have hrun : (after cfg m0 (h1 ++ [create])).run cfg h = after cfg m0 (h1 ++ create :: h) := by
        rw [show h1 ++ create :: h = (h1 ++ [create]) ++ h by simp, after_append cfg m0 (h1 ++ [create]) h]
      rw [hrun]
      obtain ⟨base, hpos, hsnd⟩ := hc.sound (h1 ++ create :: h)
      obtain ⟨held, hpl, -⟩ := hc.kept (h1 ++ create :: h)
      obtain ⟨q', n', hP'⟩ := hP.step hsnd.accounts (hc.book _) hpl hp (e := e)
        (by
          simp only [List.flatMap_cons]
          exact List.mem_append_left _ (by show t0 ∈ [t0, i.now]; simp)) c3
      refine ⟨q', n', ?_⟩
      have : ∀ a b c d : Nat, a + b + c + d = a + c + (b + d) := by intros; omega
      rw [this] at hP'
      exact hP'
  obtain ⟨q, n, hP⟩ := key
  have h3 := hP.cnt
  have h4 := hP.small
  unfold Spec.transmissionsV
  unfold Cnt at h3
  omega

/-- **C110** (v3) is false of the code without that exception, as it is for v1 and v2c (`C110_community_false`): looked at
the very instant it is due, a request is put on the wire again and again. -/
theorem C110_v3_false : ¬ ∀ (cfg : VCfg) (m0 : VMgr), Spec.Created cfg m0 → ∀ (h1 h2 : List VEvent) (r : Nat) (pdu : Pdu)
    (user : Bytes) (level : SecurityLevel) (timeout period t0 : ℚ) (r0 : Nat) (i : SendIn),
    (after cfg m0 h1).mgr.reqs r = none →
    (after cfg m0 (h1 ++ [VEvent.send pdu user level timeout period t0 r0 i])).mgr.reqs r ≠ none → 0 < period →
    ((VEvent.send pdu user level timeout period t0 r0 i :: h2).flatMap Spec.readingsV).Pairwise (· ≤ ·) →
    Spec.transmissionsV (after cfg m0 (h1 ++ VEvent.send pdu user level timeout period t0 r0 i :: h2)) r ≤
      Spec.allowed timeout period +
        Spec.reportsFor cfg r (after cfg m0 (h1 ++ [VEvent.send pdu user level timeout period t0 r0 i])) h2 := by
  intro h
  have := h Spec.demoCfg (Spec.demo (some [1])) (Spec.demo_created _ (.inr rfl)) []
    [.wait 0 0, Demo.at_ 0 1, Demo.at_ 0 1, Demo.at_ 0 1, Demo.at_ 0 1, Demo.at_ 0 1] 0
    ⟨.getRequest, 0, 0, 0, []⟩ [97] noAuthNoPriv 2 1 0 1 (Demo.input 0) (by decide +kernel) (by decide +kernel)
    (by decide) (by decide +kernel)
  revert this
  decide +kernel

/-- Non-vacuity of C110 (v3): a request with a timeout of 5/2 and a period of 1, sent with authentication to an engine of
which the clock is unknown; it is put on the wire, again because of a notInTimeWindows report, and then because it was
due. Three transmissions are allowed and one more for the report; none is on the dot. -/
theorem C110_v3_example :
    let h := [Demo.arrives (1/2) authNoPriv 1 [1] [97] (Demo.aReport Spec.notInTimeWindows), Demo.deliver (1/2), Demo.deliver (1/2),
      Demo.deliver (1/2), .wait 0 0, Demo.at_ 0 (8/5), Demo.at_ 0 (8/5), Demo.at_ 0 (8/5), Demo.at_ 0 (8/5), Demo.at_ 0 2, Demo.at_ 0 (21/10),
      Demo.at_ 0 (22/10), Demo.at_ 0 (23/10), Demo.at_ 0 (24/10), Demo.at_ 0 (49/20)]
    Spec.transmissionsV (after Spec.demoCfg (Spec.demo (some [1])) (Demo.issue 0 (5/2) 1 authNoPriv :: h)) 0 = 3 ∧
    Spec.allowed (5/2) 1 = 3 ∧
    Spec.reportsFor Spec.demoCfg 0 (after Spec.demoCfg (Spec.demo (some [1])) [Demo.issue 0 (5/2) 1 authNoPriv]) h = 1 ∧
    Spec.onTheDotV Spec.demoCfg 0 (after Spec.demoCfg (Spec.demo (some [1])) [Demo.issue 0 (5/2) 1 authNoPriv]) h = 0 := by
  decide +kernel

end Snmp
