import Verif.Props.CommunityEnd
/-!
# C95: the managers of one engine do not disturb each other (v1, v2c)

All v1 (v2c) managers of an engine have the same message processor, with one table of outstanding requests, and the
same listening thread.
-/

namespace Snmp

/-! ## Specification -/

/-- The request `r` was made with manager `k`. -/
def Spec.OfManager (s : CSys) (k r : Nat) : Prop := ∃ q, s.mgr.reqs r = some q ∧ q.manager = k

/-- The step has to do with manager `k`: it is a call of its `sendRequest`; of `wait` on one of its handles; a step
of a thread inside such a `wait`; one of its handles is collected; or a response is handed to one of its handles. (The
arrival of a datagram has to do with no manager until then.) -/
def Spec.Concerns (s : CSys) (k : Nat) : CEvent → Prop
  | .send j _ _ _ _ _ _ _ _ _ => j = k
  | .wait _ r => Spec.OfManager s k r
  | .step t _ _ _ => ∃ r, (s.threads t).InsideOn r ∧ Spec.OfManager s k r
  | .hear _ => False
  | .push => ∃ r m, s.recv = some (r, m) ∧ Spec.OfManager s k r
  | .collect r => Spec.OfManager s k r

/-- After the history `h`, nothing in `h'` has to do with manager `k`. -/
def Spec.Elsewhere (v : Version) (g k : Nat) (h h' : List CEvent) : Prop :=
  ∀ h1 e h2, h' = h1 ++ e :: h2 → ¬ Spec.Concerns (CSys.after v g (h ++ h1)) k e

/-! ## Proofs -/

theorem Spec.Elsewhere.head {v : Version} {g k : Nat} {h a b : List CEvent} (he : Spec.Elsewhere v g k h (a ++ b)) :
    Spec.Elsewhere v g k h a := by
  intro h1 e h2 hx
  exact he h1 e (h2 ++ b) (by rw [hx]; simp)

/-- A thread inside `wait` on `r` stays there or ends it. -/
theorem CSys.advance_inside (v : Version) (s : CSys) (t : Nat) (now : ℚ) (draws : Nat → Nat) (chan : Option PyErr)
    (r : Nat) (o : Outcome) (h0 : s.threads t ≠ .done r o)
    (h1 : (s.advance v t now draws chan).threads t = .done r o) : (s.threads t).InsideOn r := by
  have hm := (CSys.advance_threads v s t now draws chan).2
  rw [h1] at hm
  cases hp : s.threads t with
  | idle => rw [hp] at hm; cases hm
  | done r' o' => rw [hp] at hm h0; exact absurd hm.symm h0
  | test r' =>
    rw [hp] at hm
    left
    rcases hm with ⟨-, hm⟩ | ⟨q, hq, ⟨-, hm | hm⟩ | ⟨-, hm⟩⟩ <;> cases hm <;> rfl
  | loop r' =>
    rw [hp] at hm
    rcases hm with ⟨-, hm⟩ | ⟨-, hm⟩ <;> cases hm
  | body r' =>
    rw [hp] at hm
    rcases hm with ⟨x, -, hm⟩ | hm | ⟨d, -, hm⟩ <;> cases hm
    exact .inr (.inr (.inl rfl))
  | sleep r' d since =>
    rw [hp] at hm
    rcases hm with ⟨-, hm⟩ | ⟨q, hq, ⟨-, hm⟩ | ⟨-, hm⟩ | ⟨-, -, hm⟩ | ⟨m, -, -, ⟨-, hm⟩ | ⟨-, hm⟩⟩⟩ <;> cases hm <;>
      exact .inr (.inr (.inr ⟨d, since, rfl⟩))

/-- What one step that does not concern manager `k` leaves alone. -/
structure CSys.Apart (k : Nat) (s s' : CSys) : Prop where
  reqs : ∀ r q, q.manager = k → (s'.mgr.reqs r = some q ↔ s.mgr.reqs r = some q)
  dead : ∀ r, Spec.OfManager s k r → s'.mgr.dead r = s.mgr.dead r
  heap : s'.mgr.heaps k = s.mgr.heaps k
  sent : ∀ r, Spec.OfManager s k r → (s'.mgr.sent.filter fun x => x.1 = r) = s.mgr.sent.filter fun x => x.1 = r
  threads : ∀ t r, (s.threads t).InsideOn r → Spec.OfManager s k r → s'.threads t = s.threads t
  done : ∀ t r o, Spec.OfManager s k r → s'.threads t = .done r o → s.threads t = .done r o

theorem CSys.step_apart (v : Version) (g k : Nat) (h : List CEvent) (e : CEvent)
    (hc : ¬ Spec.Concerns (CSys.after v g h) k e) :
    CSys.Apart k (CSys.after v g h) ((CSys.after v g h).step v e) := by
  have hown := fun j x => CSys.owned v g h j x
  have hins := fun t r => CSys.inside_known v g h t r
  have hth : ∀ t r, ((CSys.after v g h).threads t).InsideOn r → Spec.OfManager (CSys.after v g h) k r →
      ((CSys.after v g h).step v e).threads t = (CSys.after v g h).threads t := by
    intro t r hr ho
    rcases CSys.step_threads v (CSys.after v g h) e t with h1 | ⟨r', he, h1, -⟩ | ⟨now, draws, chan, he, -⟩
    · exact h1
    · exfalso
      rcases h1 with h1 | ⟨_, _, h1⟩ <;> rw [h1] at hr <;> rcases hr with hr | hr | hr | ⟨_, _, hr⟩ <;> cases hr
    · subst he; exact absurd ⟨r, hr, ho⟩ hc
  have hdone : ∀ t r o, Spec.OfManager (CSys.after v g h) k r → ((CSys.after v g h).step v e).threads t = .done r o →
      (CSys.after v g h).threads t = .done r o := by
    intro t r o ho hd
    rcases CSys.step_threads v (CSys.after v g h) e t with h1 | ⟨r', he, -, h1⟩ | ⟨now, draws, chan, he, h1⟩
    · rw [← h1]; exact hd
    · rw [h1] at hd; cases hd
    · subst he
      by_contra h0
      rw [h1] at hd
      exact hc ⟨r, CSys.advance_inside v _ t now draws chan r o h0 hd, ho⟩
  have hm := CSys.step_chg v (CSys.after v g h) e
  have hadv : ∀ t now draws chan, e = .step t now draws chan →
      (CSys.after v g h).step v e = (CSys.after v g h).advance v t now draws chan := by
    rintro t now draws chan rfl; rfl
  generalize (CSys.after v g h).step v e = s' at hm hth hdone hadv
  generalize CSys.after v g h = s at *
  suffices key : (∀ r q, q.manager = k → (s'.mgr.reqs r = some q ↔ s.mgr.reqs r = some q)) ∧
      (∀ r, Spec.OfManager s k r → s'.mgr.dead r = s.mgr.dead r) ∧ s'.mgr.heaps k = s.mgr.heaps k ∧
      ∀ r, Spec.OfManager s k r → (s'.mgr.sent.filter fun x => x.1 = r) = s.mgr.sent.filter fun x => x.1 = r from
    ⟨key.1, key.2.1, key.2.2.1, key.2.2.2, hth, hdone⟩
  -- replacing a request of another manager
  have set : ∀ (r0 : Nat) (q0 q1 : CReq), s.mgr.reqs r0 = some q0 → q0.manager ≠ k → q1.manager = q0.manager →
      ∀ r q, q.manager = k → (setAt s.mgr.reqs r0 (some q1) r = some q ↔ s.mgr.reqs r = some q) := by
    intro r0 q0 q1 h0 hne h1 r q hq
    by_cases hr : r = r0
    · subst hr
      rw [setAt_same, h0]
      constructor
      · intro hx; cases hx; exact absurd (h1.symm.trans hq) hne
      · intro hx; cases hx; exact absurd hq hne
    · rw [setAt_other _ _ hr]
  have away : ∀ t r j, s.threads t = .body r → s.mgr.managerOf r = j → (∃ now draws chan, e = .step t now draws chan) →
      j ≠ k := by
    rintro t r j hr hj ⟨now, draws, chan, he⟩ rfl
    obtain ⟨q, hq⟩ := hins t r (.inr (.inr (.inl hr)))
    subst he
    exact hc ⟨r, .inr (.inr (.inl hr)), q, hq, by rw [← CMgr.managerOf_eq hq]; exact hj⟩
  have foreign : ∀ (j : Nat) (ref : Ref) (rest : List Ref) (q : CReq), j ≠ k → s.mgr.heaps j = ref :: rest →
      s.mgr.deref ref.id = some q → q.manager ≠ k ∧ s.mgr.reqs ref.id = some q := by
    intro j ref rest q hj hh hd
    obtain ⟨q', hq', hj'⟩ := hown j ref (by rw [hh]; simp)
    have hq := (CMgr.deref_some hd).1
    rw [hq] at hq'; cases hq'
    exact ⟨by rw [hj']; exact hj, hq⟩
  have cons : ∀ (r0 : Nat) (w : Bytes) (q0 : CReq), s.mgr.reqs r0 = some q0 → q0.manager ≠ k → ∀ r,
      Spec.OfManager s k r → (((r0, w) :: s.mgr.sent).filter fun x => x.1 = r) = s.mgr.sent.filter fun x => x.1 = r := by
    rintro r0 w q0 h0 hne r ⟨q, hq, hk⟩
    rw [List.filter_cons_of_neg]
    simp only [decide_eq_true_eq]
    rintro rfl
    rw [h0] at hq; cases hq
    exact hne hk
  cases hm
  case same hx => rw [hx]; exact ⟨fun _ _ _ => Iff.rfl, fun _ _ => rfl, rfl, fun _ _ => rfl⟩
  case created j r0 pdu community timeout period t0 t1 draws chan hn =>
    have hj : j ≠ k := fun hj => hc hj
    unfold CMgr.sendRequest
    simp only
    obtain ⟨id, cb, cache, sent, hr, -, -, -, hsent⟩ := CMgr.reallySend_spec v
      ({ s.mgr.setReq r0 (CReq.new j pdu community timeout period t0) with
        heaps := setAt (s.mgr.setReq r0 (CReq.new j pdu community timeout period t0)).heaps j
          (Heap.push (s.mgr.setReq r0 (CReq.new j pdu community timeout period t0)).env
            ((s.mgr.setReq r0 (CReq.new j pdu community timeout period t0)).heaps j)
            ⟨r0, WeakKey.new (CReq.new j pdu community timeout period t0).nextRefresh⟩) } : CMgr) r0
      ((CReq.new j pdu community timeout period t0).setNextRefresh
        (t1 + (CReq.new j pdu community timeout period t0).period)) draws chan
    rw [hr]
    refine ⟨fun r q hq => ?_, fun r _ => rfl, setAt_other _ _ (Ne.symm hj), fun r ho => ?_⟩
    · simp only [CMgr.setReq]
      by_cases hr0 : r = r0
      · subst hr0
        rw [setAt_same, hn]
        constructor
        · intro hx; cases hx; exact absurd hq hj
        · intro hx; cases hx
      · rw [setAt_other _ _ hr0, setAt_other _ _ hr0]
    · rcases hsent with ⟨-, w, -, hw⟩ | ⟨-, hw⟩
      · simp only
        rw [hw, List.filter_cons_of_neg]
        · rfl
        · simp only [decide_eq_true_eq]
          rintro rfl
          obtain ⟨q, hq, -⟩ := ho
          rw [hn] at hq; cases hq
      · simp only; rw [hw]; rfl
  case closed t now draws chan r0 q0 o h0 hcall ho hx ht =>
    rw [hx]
    have hne : q0.manager ≠ k := by
      intro hk
      refine hc ⟨r0, ?_, q0, h0, hk⟩
      refine CSys.advance_inside v s t now draws chan r0 o ?_ (by rw [← hadv t now draws chan rfl]; exact ht)
      intro hd
      have hs' := hadv t now draws chan rfl
      have : s.advance v t now draws chan = s := by unfold CSys.advance; rw [hd]
      rw [this] at hs'
      rw [hs'] at hx
      have := congrArg (fun m : CMgr => m.reqs r0) hx
      simp only [CMgr.setReq, setAt_same, h0] at this
      injection this with this
      rw [this] at hcall
      cases hcall
    exact ⟨set r0 q0 _ h0 hne rfl, fun _ _ => rfl, rfl, fun _ _ => rfl⟩
  case popped t now draws chan j ref rest hb hh hd hx =>
    obtain ⟨r, hr, hj⟩ := hb
    have hjk := away t r j hr hj ⟨_, _, _, rfl⟩
    rw [hx]
    exact ⟨fun _ _ _ => Iff.rfl, fun _ _ => rfl, setAt_other _ _ (Ne.symm hjk), fun _ _ => rfl⟩
  case resent t now draws chan j ref rest q0 m' hb hh hd h1 h2 h3 h4 hs hx =>
    obtain ⟨r, hr, hj⟩ := hb
    have hjk := away t r j hr hj ⟨_, _, _, rfl⟩
    obtain ⟨hne, h0⟩ := foreign j ref rest q0 hjk hh hd
    obtain ⟨id, cb, cache, sent, hr, -, -, -, hsent⟩ := CMgr.reallySend_spec v s.mgr ref.id (CMgr.resent q0 now) draws chan
    rw [hs] at hr
    simp only at hr
    subst hr
    rw [hx]
    refine ⟨fun r q hq => set ref.id q0 _ h0 hne (by rfl) r q hq, fun _ _ => rfl, setAt_other _ _ (Ne.symm hjk), fun r ho => ?_⟩
    rcases hsent with ⟨-, w, -, hw⟩ | ⟨-, hw⟩
    · simp only; rw [hw]; exact cons _ w q0 h0 hne r ho
    · simp only; rw [hw]
  case failed t now draws chan j ref rest q0 m' err hb hh hd h1 h2 h3 h4 hs hx =>
    obtain ⟨r, hr, hj⟩ := hb
    have hjk := away t r j hr hj ⟨_, _, _, rfl⟩
    obtain ⟨hne, h0⟩ := foreign j ref rest q0 hjk hh hd
    obtain ⟨id, cb, cache, sent, hr, -, -, -, hsent⟩ := CMgr.reallySend_spec v s.mgr ref.id (CMgr.resent q0 now) draws chan
    rw [hs] at hr
    simp only at hr
    subst hr
    rw [hx]
    refine ⟨fun r q hq => set ref.id q0 _ h0 hne (by rfl) r q hq, fun _ _ => rfl, rfl, fun r ho => ?_⟩
    rcases hsent with ⟨-, w, -, hw⟩ | ⟨-, hw⟩
    · simp only; rw [hw]; exact cons _ w q0 h0 hne r ho
    · simp only; rw [hw]
  case heard w hr =>
    obtain ⟨f1, f2, f3, f4, -⟩ := CMgr.hear_frame v s.mgr w
    simp only [f1, f2, f3, f4, implies_true, and_self]
  case pushed r0 m q0 hr h0 =>
    have hne : q0.manager ≠ k := fun hk => hc ⟨r0, m, hr, q0, h0, hk⟩
    exact ⟨set r0 q0 _ h0 hne rfl, fun _ _ => rfl, rfl, fun _ _ => rfl⟩
  case collected r0 =>
    simp only
    unfold CMgr.collect
    split
    · exact ⟨fun _ _ _ => Iff.rfl, fun _ _ => rfl, rfl, fun _ _ => rfl⟩
    · rename_i q0 hd
      have h0 := (CMgr.deref_some hd).1
      have hne : q0.manager ≠ k := fun hk => hc ⟨q0, h0, hk⟩
      have hdead : ∀ r, Spec.OfManager s k r → r ≠ r0 := by
        rintro r ⟨q, hq, hk⟩ rfl
        rw [h0] at hq; cases hq; exact hne hk
      simp only
      split
      · rename_i hcall
        unfold CMgr.close
        rw [if_pos hcall]
        exact ⟨set r0 q0 _ h0 hne rfl, fun r hr => setAt_other _ _ (hdead r hr), rfl, fun _ _ => rfl⟩
      · exact ⟨fun _ _ _ => Iff.rfl, fun r hr => setAt_other _ _ (hdead r hr), rfl, fun _ _ => rfl⟩

/-- The same for any number of steps. -/
theorem CSys.apart (v : Version) (g k : Nat) (h h' : List CEvent) (he : Spec.Elsewhere v g k h h') :
    CSys.Apart k (CSys.after v g h) (CSys.after v g (h ++ h')) := by
  induction h' using List.reverseRecOn with
  | nil =>
    rw [List.append_nil]
    exact ⟨fun _ _ _ => Iff.rfl, fun _ _ => rfl, rfl, fun _ _ => rfl, fun _ _ _ _ => rfl, fun _ _ _ _ h => h⟩
  | append_singleton h' e ih =>
    have ih := ih he.head
    have hs := CSys.step_apart v g k (h ++ h') e (he h' e [] rfl)
    rw [← List.append_assoc, CSys.after_snoc]
    have own : ∀ r, Spec.OfManager (CSys.after v g h) k r → Spec.OfManager (CSys.after v g (h ++ h')) k r := by
      rintro r ⟨q, hq, hk⟩
      exact ⟨q, (ih.reqs r q hk).2 hq, hk⟩
    refine ⟨fun r q hk => (hs.reqs r q hk).trans (ih.reqs r q hk), fun r ho => (hs.dead r (own r ho)).trans (ih.dead r ho),
      hs.heap.trans ih.heap, fun r ho => (hs.sent r (own r ho)).trans (ih.sent r ho), fun t r hr ho => ?_,
      fun t r o ho hd => ih.done t r o ho (hs.done t r o (own r ho) hd)⟩
    rw [hs.threads t r (by rw [ih.threads t r hr ho]; exact hr) (own r ho), ih.threads t r hr ho]

/-- **C95** (v1, v2c). Whatever the other managers of the engine and their threads do, for however long, and whatever
datagrams arrive: the requests of manager `k` stay exactly as they are, none is added or collected, nothing is sent
for them, and the threads inside `wait` on them stay where they are. -/
theorem C95_untouched (v : Version) (g k : Nat) (h h' : List CEvent) (he : Spec.Elsewhere v g k h h') :
    (∀ r q, q.manager = k → ((CSys.after v g (h ++ h')).mgr.reqs r = some q ↔ (CSys.after v g h).mgr.reqs r = some q)) ∧
    (∀ r, Spec.OfManager (CSys.after v g h) k r →
      (CSys.after v g (h ++ h')).mgr.dead r = (CSys.after v g h).mgr.dead r ∧
      Spec.sentFor v g (h ++ h') r = Spec.sentFor v g h r ∧
      ∀ t, ((CSys.after v g h).threads t).InsideOn r →
        (CSys.after v g (h ++ h')).threads t = (CSys.after v g h).threads t) := by
  have ha := CSys.apart v g k h h' he
  refine ⟨ha.reqs, fun r ho => ⟨ha.dead r ho, ?_, fun t ht => ha.threads t r ht ho⟩⟩
  unfold Spec.sentFor
  rw [ha.sent r ho]

/-- **C95**, continued. A request of manager `k` that was pending is still pending, so that (C84) its response is
delivered. -/
theorem C95_pending (v : Version) (g k : Nat) (h h' : List CEvent) (he : Spec.Elsewhere v g k h h') (r : Nat)
    (ho : Spec.OfManager (CSys.after v g h) k r) (hp : Spec.Pending v g h r) : Spec.Pending v g (h ++ h') r := by
  obtain ⟨⟨k0, h1, h2, pdu, community, timeout, period, t0, t1, draws, chan, rfl, hz, hn, hok⟩, hk, hu⟩ := hp
  refine ⟨⟨k0, h1, h2 ++ h', pdu, community, timeout, period, t0, t1, draws, chan, by simp, hz, hn, hok⟩, ?_, ?_⟩
  · intro hm
    rcases List.mem_append.1 hm with hm | hm
    · exact hk hm
    · obtain ⟨a, b, hab⟩ := List.append_of_mem hm
      refine he a _ b hab ?_
      obtain ⟨q, hq, hqk⟩ := ho
      exact ⟨q, ((CSys.apart v g k _ a (by rw [hab] at he; exact he.head)).reqs r q hqk).2 hq, hqk⟩
  · intro a b t o hab hd
    rcases List.append_eq_append_iff.1 hab with ⟨c, h3, h4⟩ | ⟨c, h3, h4⟩
    · have hd' := (CSys.apart v g k _ c (by rw [h4] at he; exact he.head)).done t r o ho (by rw [← h3]; exact hd)
      exact hu _ [] t o (by simp) hd'
    · exact hu a c t o h3 hd

/-- The request whose `wait` the thread is inside. -/
def Pc.on : Pc → Option Nat
  | .test r | .loop r | .body r | .sleep r _ _ => some r
  | _ => none

/-- `Spec.Concerns`, computed. -/
def CSys.concerns (s : CSys) (k : Nat) : CEvent → Bool
  | .send j _ _ _ _ _ _ _ _ _ => j = k
  | .wait _ r => (s.mgr.reqs r).map CReq.manager = some k
  | .step t _ _ _ => ((s.threads t).on.bind s.mgr.reqs).map CReq.manager = some k
  | .hear _ => false
  | .push => (s.recv.bind fun x => s.mgr.reqs x.1).map CReq.manager = some k
  | .collect r => (s.mgr.reqs r).map CReq.manager = some k

theorem CSys.concerns_of {s : CSys} {k : Nat} {e : CEvent} (h : Spec.Concerns s k e) : s.concerns k e = true := by
  cases e with
  | send => simp only [concerns, decide_eq_true_eq]; exact h
  | wait t r => obtain ⟨q, hq, hk⟩ := h; simp [concerns, hq, hk]
  | step t now draws chan =>
    obtain ⟨r, hr, q, hq, hk⟩ := h
    have : (s.threads t).on = some r := by
      rcases hr with hr | hr | hr | ⟨_, _, hr⟩ <;> rw [hr] <;> rfl
    simp [concerns, this, hq, hk]
  | hear => exact absurd h id
  | push => obtain ⟨r, m, hr, q, hq, hk⟩ := h; simp [concerns, hr, hq, hk]
  | collect r => obtain ⟨q, hq, hk⟩ := h; simp [concerns, hq, hk]

theorem Spec.elsewhere_of {v : Version} {g k : Nat} {h h' : List CEvent}
    (hc : ∀ n, n < h'.length → (h'[n]?.map fun e => (CSys.after v g (h ++ h'.take n)).concerns k e) ≠ some true) :
    Spec.Elsewhere v g k h h' := by
  intro h1 e h2 hx hcon
  obtain ⟨n, hn, rfl, hg⟩ := split_at hx
  refine hc n hn ?_
  rw [hg]
  simp only [Option.map_some, CSys.concerns_of hcon]

/-- An empty response to the request with this ID, in version `v` with an empty community. -/
def Spec.responseTo (v : Version) (id : UInt8) : Bytes :=
  [48, 18, 2, 1, if v = .v1 then 0 else 1, 4, 0, 162, 11, 2, 1, id, 2, 1, 0, 2, 1, 0, 48, 0]

/-- Non-vacuity of C95: manager 0 has an unanswered request and a thread asleep in `wait` on it; meanwhile manager 1
sends a request, waits, sends again, gets a response and its `wait` returns. Then the response for manager 0 arrives,
and its `wait` returns. -/
theorem C95_example (v : Version) (hv : v = .v1 ∨ v = .v2c) :
    let h := [Spec.issue 0 10 1, .wait 0 0, Spec.tick 0 0, Spec.tick 0 0, Spec.tick 0 0]
    let h' := [.send 1 1 Spec.emptyGet [] 10 1 0 0 (fun _ => 1) none, .wait 1 1, Spec.tick 1 0, Spec.tick 1 0,
      Spec.tick 1 0, Spec.tick 1 (3/2), Spec.tick 1 (3/2), Spec.tick 1 (3/2), Spec.tick 1 (3/2), Spec.tick 1 (3/2),
      Spec.tick 1 (3/2), .hear (Spec.responseTo v 2), .push, Spec.tick 1 (3/2)]
    Spec.Elsewhere v 1 0 h h' ∧ Spec.OfManager (CSys.after v 1 h) 0 0 ∧ Spec.Pending v 1 h 0 ∧
    (CSys.after v 1 h).threads 0 = .sleep 0 (some 1) 0 ∧
    (CSys.after v 1 (h ++ h')).threads 1 = .done 1 (.bindings []) ∧
    (Spec.sentFor v 1 (h ++ h') 1).length = 2 := by
  intro h h'
  have hp := (C84_example v hv).1
  refine ⟨Spec.elsewhere_of ?_, ?_, hp.1, hp.2.1, ?_⟩
  · rcases hv with rfl | rfl <;> decide +kernel
  · have : ((CSys.after v 1 h).mgr.reqs 0).map CReq.manager = some 0 := by
      rcases hv with rfl | rfl <;> decide +kernel
    obtain ⟨q, hq, hk⟩ := Option.map_eq_some_iff.1 this
    exact ⟨q, hq, hk⟩
  · rcases hv with rfl | rfl <;> decide +kernel

end Snmp
