import Verif.Props.CommunityHeap
/-!
# C85: once `wait` gave a result, nothing more is sent for the request (v1, v2c)
-/

namespace Snmp

/-! ## Specification -/

/-- The datagrams handed to the channel for the request `r`. -/
def Spec.sentFor (v : Version) (g : Nat) (h : List CEvent) (r : Nat) : List Bytes :=
  ((CSys.after v g h).mgr.sent.filter fun x => x.1 = r).map Prod.snd

/-- The outcome was made from a response. -/
def Outcome.FromResponse : Outcome → Prop
  | .bindings _ => True
  | .errorResponse _ _ _ => True
  | _ => False

/-! ## Proofs -/

/-- A request stays, with its expiration; once answered it stays answered. -/
theorem CSys.step_keep (v : Version) (s : CSys) (e : CEvent) (r : Nat) (q : CReq) (hq : s.mgr.reqs r = some q) :
    ∃ q', (s.step v e).mgr.reqs r = some q' ∧ q'.expiration = q.expiration ∧
      (q.event = true → q'.event = true) := by
  obtain ⟨q2, h2, -, -, h3, -, -, h4⟩ := (CSys.step_evolves v s e).keep r q hq
  exact ⟨q2, h2, h3, h4⟩

/-- What an ended `wait` says about its request: it is answered, or a clock reading of the history is past its
expiration. -/
def CSys.Ended (h : List CEvent) (s : CSys) (r : Nat) (o : Outcome) : Prop :=
  ∃ q, s.mgr.reqs r = some q ∧ (o.FromResponse → q.event = true) ∧
    (o = .timeout → ∃ x ∈ Spec.readings h, q.expiration ≤ x)

theorem CSys.Ended.step {v : Version} {h : List CEvent} {s : CSys} {r : Nat} {o : Outcome} (hd : Ended h s r o)
    (e : CEvent) : Ended (h ++ [e]) (s.step v e) r o := by
  obtain ⟨q, hq, h1, h2⟩ := hd
  obtain ⟨q', hq', h3, h4⟩ := CSys.step_keep v s e r q hq
  refine ⟨q', hq', fun ho => h4 (h1 ho), fun ho => ?_⟩
  obtain ⟨x, hx, hl⟩ := h2 ho
  refine ⟨x, ?_, by rw [h3]; exact hl⟩
  unfold Spec.readings at *
  rw [List.flatMap_append]
  exact List.mem_append_left _ hx

theorem CSys.ended (v : Version) (g : Nat) (h : List CEvent) (t r : Nat) (o : Outcome)
    (hd : (CSys.after v g h).threads t = .done r o) (hr : ∀ x, o ≠ .raised x) :
    CSys.Ended h (CSys.after v g h) r o := by
  induction h using List.reverseRecOn with
  | nil => cases hd
  | append_singleton h e ih =>
    by_cases h0 : (CSys.after v g h).threads t = .done r o
    · rw [CSys.after_snoc]; exact (ih h0).step e
    · have hd' := hd
      rw [CSys.after_snoc] at hd ⊢
      obtain ⟨now, draws, chan, he, hx⟩ := C49_partial v g h e t r o h0 hd'
      have ha := (CSys.advance_threads v (CSys.after v g h) t now draws chan).2
      have hs : (CSys.after v g h).step v e = (CSys.after v g h).advance v t now draws chan := by rw [he]; rfl
      rw [hs] at hd
      rw [hd] at ha
      rcases hx with ⟨x, hx⟩ | ⟨q, hq, hf⟩
      · exact absurd hx (hr x)
      obtain ⟨q', hq', h3, h4⟩ := CSys.step_keep v (CSys.after v g h) e r q hq
      refine ⟨q', hq', fun ho => ?_, fun ho => ?_⟩
      · refine h4 ?_
        unfold CSys.Moves at ha
        split at ha
        · cases ha
        · rename_i ht; rw [ht] at h0; exact absurd ha.symm h0
        · rcases ha with ⟨-, ha⟩ | ⟨q0, hq0, ⟨-, ha | ha⟩ | ⟨-, ha⟩⟩
          · cases ha
          · injection ha with a b; subst b; cases ho
          · injection ha with a b; subst b; cases ho
          · cases ha
        · rcases ha with ⟨-, ha⟩ | ⟨-, ha⟩ <;> cases ha
        · rcases ha with ⟨x, -, ha⟩ | ha | ⟨d, -, ha⟩
          · injection ha with a b; subst b; cases ho
          · cases ha
          · cases ha
        · rename_i r0 _ _ _
          rcases ha with ⟨-, ha⟩ | ⟨q0, hq0, ⟨-, ha⟩ | ⟨-, ha⟩ | ⟨-, -, ha⟩ | ⟨m, hev, hm, hx⟩⟩
          · cases ha
          · cases ha
          · cases ha
          · injection ha with a b; subst b; cases ho
          · have hr' : r = r0 := by
              rcases hx with ⟨-, ha⟩ | ⟨-, ha⟩ <;> (injection ha)
            subst hr'
            rw [hq] at hq0; injection hq0 with hq0; subst hq0; exact hev
      · subst ho
        refine ⟨now, ?_, by rw [h3]; exact hf⟩
        unfold Spec.readings
        rw [List.flatMap_append, he]
        simp [CEvent.times]

/-- While the request is over, no datagram is sent for it. -/
theorem CSys.quiet (v : Version) (g : Nat) (h : List CEvent) (e : CEvent) (r : Nat) (q : CReq)
    (hq : (CSys.after v g h).mgr.reqs r = some q)
    (ho : q.event = true ∨ ∀ t now draws chan, e = .step t now draws chan → q.expiration ≤ now) :
    Spec.sentFor v g (h ++ [e]) r = Spec.sentFor v g h r := by
  unfold Spec.sentFor
  rcases C48_community v g h e with hs | ⟨r', w, hs, ⟨_, _, _, _, _, _, _, _, _, -, hn⟩ |
    ⟨t, now, draws, chan, q0, q1, he, hq0, -, hre⟩⟩
  · rw [hs]
  · rw [hs, List.filter_cons_of_neg]
    simp only [decide_eq_true_eq]
    rintro rfl; rw [hn] at hq; cases hq
  · rw [hs, List.filter_cons_of_neg]
    simp only [decide_eq_true_eq]
    rintro rfl
    rw [hq] at hq0; injection hq0 with hq0; subst hq0
    rcases ho with ho | ho
    · rw [hre.unanswered] at ho; cases ho
    · exact absurd hre.unexpired (not_lt.2 (ho t now draws chan he))

/-- **C85**, after a response. Once some `wait` on the request `r` returned its bindings or raised `ErrorResponse`,
no further datagram is ever sent for it, whatever happens. -/
theorem C85_answered (v : Version) (g : Nat) (h h' : List CEvent) (t r : Nat) (o : Outcome)
    (hd : (CSys.after v g h).threads t = .done r o) (ho : o.FromResponse) :
    Spec.sentFor v g (h ++ h') r = Spec.sentFor v g h r := by
  obtain ⟨q, hq, h1, -⟩ := CSys.ended v g h t r o hd (by rintro x rfl; exact ho)
  have hev := h1 ho
  have key : (∃ q, (CSys.after v g (h ++ h')).mgr.reqs r = some q ∧ q.event = true) ∧
      Spec.sentFor v g (h ++ h') r = Spec.sentFor v g h r := by
    induction h' using List.reverseRecOn with
    | nil => rw [List.append_nil]; exact ⟨⟨q, hq, hev⟩, rfl⟩
    | append_singleton h' e ih =>
      obtain ⟨⟨q1, hq1, he1⟩, hs⟩ := ih
      rw [← List.append_assoc]
      refine ⟨?_, by rw [CSys.quiet v g (h ++ h') e r q1 hq1 (.inl he1), hs]⟩
      rw [CSys.after_snoc]
      obtain ⟨q2, h2, -, h3⟩ := CSys.step_keep v (CSys.after v g (h ++ h')) e r q1 hq1
      exact ⟨q2, h2, h3 he1⟩
  exact key.2

/-- **C85**, after `Timeout`. If the clock does not run backwards, then once some `wait` on the request `r` raised
`Timeout` no further datagram is ever sent for it. -/
theorem C85_timeout (v : Version) (g : Nat) (h h' : List CEvent) (t r : Nat)
    (hd : (CSys.after v g h).threads t = .done r .timeout)
    (hc : (Spec.readings (h ++ h')).Pairwise (· ≤ ·)) :
    Spec.sentFor v g (h ++ h') r = Spec.sentFor v g h r := by
  obtain ⟨q, hq, -, h2⟩ := CSys.ended v g h t r _ hd (by intro x hx; cases hx)
  obtain ⟨x, hx, hle⟩ := h2 rfl
  have key : (∃ q, (CSys.after v g (h ++ h')).mgr.reqs r = some q ∧ q.expiration ≤ x) ∧
      Spec.sentFor v g (h ++ h') r = Spec.sentFor v g h r := by
    induction h' using List.reverseRecOn with
    | nil => rw [List.append_nil]; exact ⟨⟨q, hq, hle⟩, rfl⟩
    | append_singleton h' e ih =>
      rw [← List.append_assoc] at hc ⊢
      have hc' : (Spec.readings (h ++ h')).Pairwise (· ≤ ·) ∧
          ∀ y ∈ CEvent.times e, x ≤ y := by
        unfold Spec.readings at hc ⊢
        rw [List.flatMap_append, List.pairwise_append] at hc
        refine ⟨hc.1, fun y hy => hc.2.2 x ?_ y (by simpa using hy)⟩
        rw [List.flatMap_append]
        exact List.mem_append_left _ hx
      obtain ⟨⟨q1, hq1, he1⟩, hs⟩ := ih hc'.1
      refine ⟨?_, ?_⟩
      · rw [CSys.after_snoc]
        obtain ⟨q2, h2, h3, -⟩ := CSys.step_keep v (CSys.after v g (h ++ h')) e r q1 hq1
        exact ⟨q2, h2, by rw [h3]; exact he1⟩
      · rw [CSys.quiet v g (h ++ h') e r q1 hq1 (.inr ?_), hs]
        rintro t now draws chan rfl
        exact le_trans he1 (hc'.2 now (by simp [CEvent.times]))
  exact key.2

/-- Non-vacuity of C85: a request is sent and sent again, answered, and `wait` returns; another one times out after
it was sent twice. -/
theorem C85_example (v : Version) (hv : v = .v1 ∨ v = .v2c) :
    (let h := [Spec.issue 0 10 1, .wait 0 0, Spec.tick 0 0, Spec.tick 0 0, Spec.tick 0 0, Spec.tick 0 (3/2),
        Spec.tick 0 (3/2), Spec.tick 0 (3/2), Spec.tick 0 (3/2), Spec.tick 0 (3/2), Spec.tick 0 (3/2), .hear (Spec.emptyResponse v), .push,
        Spec.tick 0 (3/2)];
      (CSys.after v 1 h).threads 0 = .done 0 (.bindings []) ∧ (Spec.sentFor v 1 h 0).length = 2) ∧
    (let h := [Spec.issue 0 2 1, .wait 0 0, Spec.tick 0 0, Spec.tick 0 0, Spec.tick 0 0, Spec.tick 0 (3/2),
        Spec.tick 0 (3/2), Spec.tick 0 (3/2), Spec.tick 0 (3/2), Spec.tick 0 (3/2), Spec.tick 0 (3/2), Spec.tick 0 2, Spec.tick 0 2];
      (CSys.after v 1 h).threads 0 = .done 0 .timeout ∧ (Spec.sentFor v 1 h 0).length = 2 ∧
      (Spec.readings (h ++ [Spec.tick 0 3])).Pairwise (· ≤ ·)) := by
  rcases hv with rfl | rfl <;> decide +kernel

end Snmp
