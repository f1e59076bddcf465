import Verif.ManagerV3Touch
/-!
# C48–C50, C56, C64, C65 for the v3 manager
-/

namespace Snmp

open VSys

variable {base : Bytes → Option (Int × String)} {cfg : VCfg} {m0 : VMgr}

theorem Spec.Delivered.mono {h : List VEvent} {r : Nat} {x : V3Incoming} (hd : Spec.Delivered cfg m0 h r x)
    (e : VEvent) : Spec.Delivered cfg m0 (h ++ [e]) r x := by
  obtain ⟨h1, e1, h2, rfl, h3⟩ := hd
  exact ⟨h1, e1, h2 ++ [e], by simp, h3⟩

theorem Spec.Reported.mono {h : List VEvent} {r : Nat} {x : V3Incoming} {ex : Report}
    (hd : Spec.Reported cfg m0 h r x ex) (e : VEvent) : Spec.Reported cfg m0 (h ++ [e]) r x ex := by
  obtain ⟨h1, e1, h2, rfl, h3⟩ := hd
  exact ⟨h1, e1, h2 ++ [e], by simp, h3⟩

theorem Spec.Expired.mono {h : List VEvent} {t r : Nat} {x : ℚ} (hd : Spec.Expired cfg m0 h t r x)
    (e : VEvent) : Spec.Expired cfg m0 (h ++ [e]) t r x := by
  obtain ⟨h1, e1, h2, rfl, h3⟩ := hd
  exact ⟨h1, e1, h2 ++ [e], by simp, h3⟩

theorem Spec.Issued.mono {h : List VEvent} {q : VReq} (hd : Spec.Issued h q) (e : VEvent) :
    Spec.Issued (h ++ [e]) q := by
  obtain ⟨pdu, timeout, t0, r0, i, id, h1, h2⟩ := hd
  exact ⟨pdu, timeout, t0, r0, i, id, by simp [h1], h2⟩

/-- What holds of a request after the history `h`. -/
structure VReq.Sound (cfg : VCfg) (m0 : VMgr) (h : List VEvent) (r : Nat) (q : VReq) : Prop where
  issued : Spec.Issued h q
  bounded : q.nextRefresh ≤ q.expiration
  complete : q.event = true → q.response ≠ none ∨
    ∃ x ex, q.exception = some ex ∧ Spec.Reported cfg m0 h r x ex ∧ Spec.WithAuth x
  response : ∀ x, q.response = some x → q.event = true ∧ Spec.Delivered cfg m0 h r x
  exception : ∀ ex, q.exception = some ex → ∃ x, Spec.Reported cfg m0 h r x ex

namespace VReq.Sound

theorem mono {h : List VEvent} {r : Nat} {q : VReq} (hs : q.Sound cfg m0 h r) (e : VEvent) :
    q.Sound cfg m0 (h ++ [e]) r := by
  refine ⟨hs.issued.mono e, hs.bounded, fun he => ?_, fun x hx => ?_, fun ex hx => ?_⟩
  · rcases hs.complete he with h | ⟨x, ex, h1, h2, h3⟩
    · exact .inl h
    · exact .inr ⟨x, ex, h1, h2.mono e, h3⟩
  · exact ⟨(hs.response x hx).1, (hs.response x hx).2.mono e⟩
  · obtain ⟨x, h1⟩ := hs.exception ex hx; exact ⟨x, h1.mono e⟩

theorem refresh {h : List VEvent} {r : Nat} {q q' : VReq} (hs : q.Sound cfg m0 h r) (v : ℚ) (hv : v ≤ q.expiration)
    (hq : q' = { q with nextRefresh := v, engineID := q'.engineID, messages := q'.messages, shared := q'.shared }) :
    q'.Sound cfg m0 h r := by
  rw [hq]
  exact ⟨hs.issued, hv, hs.complete, hs.response, hs.exception⟩

theorem touch {h : List VEvent} {e : VEvent} {r : Nat} {q q' : VReq} (hs : q.Sound cfg m0 h r)
    (ht : Touch cfg (after cfg m0 h) e r q q') : q'.Sound cfg m0 (h ++ [e]) r := by
  have hm := hs.mono e
  cases ht with
  | same hq => exact hm.refresh q.nextRefresh hs.bounded hq
  | timer t i he h1 h2 h3 h4 hq => exact hm.refresh _ (min_le_left _ _) hq
  | resend i he hq => exact hm.refresh _ (min_le_left _ _) hq
  | stored x hd hq =>
    unfold VReq.store at hq
    split at hq
    · subst hq
      refine ⟨hm.issued, hm.bounded, fun _ => .inl (by simp), fun x' hx' => ?_, hm.exception⟩
      cases hx'
      exact ⟨rfl, h, e, [], rfl, hd⟩
    · subst hq; exact hm
  | excepted x ex hd hq =>
    have hrep : Spec.Reported cfg m0 (h ++ [e]) r x ex := ⟨h, e, [], rfl, hd⟩
    unfold VReq.processException at hq
    split at hq
    · rename_i ha
      split at hq
      · subst hq
        refine ⟨hm.issued, hm.bounded, fun _ => .inr ⟨x, ex, rfl, hrep, ha⟩, fun x' hx' => ?_, fun ex' hx' => ?_⟩
        · exact ⟨rfl, (hm.response x' hx').2⟩
        · cases hx'; exact ⟨x, hrep⟩
      · subst hq; exact hm
    · split at hq
      · rename_i hn
        subst hq
        refine ⟨hm.issued, hm.bounded, fun he => ?_, hm.response, fun ex' hx' => ?_⟩
        · rcases hm.complete he with h | ⟨x', ex', h1, -, -⟩
          · exact .inl h
          · rw [h1] at hn; cases hn
        · cases hx'; exact ⟨x, hrep⟩
      · subst hq; exact hm

end VReq.Sound

/-- What holds of a thread after the history `h`. -/
def VPc.Sound (cfg : VCfg) (m0 : VMgr) (h : List VEvent) (s : VSys) (t : Nat) : VPc → Prop
  | .idle | .done _ _ => True
  | .test r | .body r | .poke r | .poking r _ _ | .sleep r _ _ => ∃ q, s.mgr.reqs r = some q
  | .finish r => ∃ q, s.mgr.reqs r = some q ∧ (q.event = true ∨ Spec.Expired cfg m0 h t r q.expiration)
  | .failed r => ∃ q, s.mgr.reqs r = some q ∧
      ((q.event = true ∧ q.response = none) ∨ Spec.Expired cfg m0 h t r q.expiration)

/-- How `q` can develop. -/
structure VReq.Later (q q' : VReq) : Prop where
  pdu : q'.pdu = q.pdu
  userName : q'.userName = q.userName
  level : q'.level = q.level
  expiration : q'.expiration = q.expiration
  period : q'.period = q.period
  event : q.event = true → q'.event = true ∧ q'.response = q.response ∧
    (q.response = none → q.exception ≠ none → q'.exception = q.exception)

theorem VReq.Later.refl (q : VReq) : VReq.Later q q := ⟨rfl, rfl, rfl, rfl, rfl, fun h => ⟨h, rfl, fun _ _ => rfl⟩⟩

theorem VReq.Later.trans {q q' q'' : VReq} (h : q.Later q') (h' : q'.Later q'') : q.Later q'' := by
  refine ⟨h'.pdu.trans h.pdu, h'.userName.trans h.userName, h'.level.trans h.level, h'.expiration.trans h.expiration,
    h'.period.trans h.period, fun he => ?_⟩
  obtain ⟨h1, h2, h3⟩ := h.event he
  obtain ⟨h4, h5, h6⟩ := h'.event h1
  refine ⟨h4, h5.trans h2, fun h7 h8 => ?_⟩
  rw [h6 (by rw [h2]; exact h7) (by rw [h3 h7 h8]; exact h8), h3 h7 h8]

theorem VSys.Touch.later {s : VSys} {e : VEvent} {r : Nat} {q q' : VReq} (h : Touch cfg s e r q q') : q.Later q' := by
  cases h with
  | same hq => rw [hq]; exact ⟨rfl, rfl, rfl, rfl, rfl, fun h => ⟨h, rfl, fun _ _ => rfl⟩⟩
  | timer t i he h1 h2 h3 h4 hq => rw [hq]; exact ⟨rfl, rfl, rfl, rfl, rfl, fun h => ⟨h, rfl, fun _ _ => rfl⟩⟩
  | resend i he hq => rw [hq]; exact ⟨rfl, rfl, rfl, rfl, rfl, fun h => ⟨h, rfl, fun _ _ => rfl⟩⟩
  | stored x hd hq =>
    rw [hq]; unfold VReq.store
    split
    · rename_i he
      refine ⟨rfl, rfl, rfl, rfl, rfl, fun h => ?_⟩
      rw [h] at he; cases he
    · exact .refl q
  | excepted x ex hd hq =>
    rw [hq]; unfold VReq.processException
    split
    · split
      · rename_i he
        refine ⟨rfl, rfl, rfl, rfl, rfl, fun h => ?_⟩
        rw [h] at he; cases he
      · exact .refl q
    · split
      · rename_i hn
        refine ⟨rfl, rfl, rfl, rfl, rfl, fun h => ⟨h, rfl, fun _ hne => ?_⟩⟩
        rw [Option.isNone_iff_eq_none] at hn
        exact absurd hn hne
      · exact .refl q

/-- Everything that holds after a history. -/
structure VSys.Sound (base : Bytes → Option (Int × String)) (cfg : VCfg) (m0 : VMgr) (h : List VEvent) (s : VSys) :
    Prop where
  accounts : s.mgr.Accounts base cfg.ns
  old : s.mgr.DeadOld
  reqs : ∀ r q, s.mgr.reqs r = some q → q.Sound cfg m0 h r
  threads : ∀ t, (s.threads t).Sound cfg m0 h s t

/-- A thread that does not move. -/
theorem VPc.Sound.keep {h : List VEvent} {e : VEvent} {s s' : VSys} {t : Nat} {p : VPc} (hp : p.Sound cfg m0 h s t)
    (hl : ∀ r q, s.mgr.reqs r = some q → ∃ q', s'.mgr.reqs r = some q' ∧ q.Later q') :
    p.Sound cfg m0 (h ++ [e]) s' t := by
  cases p <;> simp only [VPc.Sound] at hp ⊢
  all_goals try (obtain ⟨q, hq⟩ := hp; obtain ⟨q', hq', -⟩ := hl _ _ hq; exact ⟨q', hq'⟩)
  · obtain ⟨q, hq, h1⟩ := hp
    obtain ⟨q', hq', h2⟩ := hl _ _ hq
    refine ⟨q', hq', ?_⟩
    rcases h1 with h1 | h1
    · exact .inl (h2.event h1).1
    · right; rw [h2.expiration]; exact h1.mono e
  · obtain ⟨q, hq, h1⟩ := hp
    obtain ⟨q', hq', h2⟩ := hl _ _ hq
    refine ⟨q', hq', ?_⟩
    rcases h1 with ⟨h1, h3⟩ | h1
    · exact .inl ⟨(h2.event h1).1, (h2.event h1).2.1.trans h3⟩
    · right; rw [h2.expiration]; exact h1.mono e

theorem VSys.Sound.move {h : List VEvent} (hp : Usm.Positive (after cfg m0 h).held) {e : VEvent} {s' : VSys}
    (hs : VSys.Sound (after cfg m0 h).held cfg m0 h (after cfg m0 h)) (hm : Move cfg (after cfg m0 h) e s') :
    VSys.Sound s'.held cfg m0 (h ++ [e]) s' := by
  obtain ⟨ha, ho, -⟩ := accounts_move hp hs.accounts hs.old hm
  have hl : ∀ r q, (after cfg m0 h).mgr.reqs r = some q → ∃ q', s'.mgr.reqs r = some q' ∧ q.Later q' := by
    intro r q hq
    obtain ⟨q', hq', ht⟩ := move_touch hs.accounts hm r q hq
    exact ⟨q', hq', ht.later⟩
  refine ⟨ha, ho, ?_, ?_⟩
  · intro r q' hq'
    rcases move_born hm r q' hq' with ⟨q, hq⟩ | ⟨-, hb⟩
    · obtain ⟨q2, h1, h2⟩ := move_touch hs.accounts hm r q hq
      rw [hq'] at h1; injection h1 with h1; subst h1
      exact (hs.reqs r q hq).touch h2
    · obtain ⟨pdu, timeout, t0, r0, i, h1, h2, h3, h4, h5, h6, h7⟩ := hb
      refine ⟨⟨pdu, timeout, t0, r0, i, _, by simp [h1], h2, h3⟩, ?_, ?_, ?_, ?_⟩
      · rcases h7 with h7 | h7
        · exact le_of_eq h7
        · rw [h7]; exact min_le_left _ _
      · intro h; rw [h4] at h; cases h
      · intro x hx; rw [h6] at hx; cases hx
      · intro x hx; rw [h5] at hx; cases hx
  · intro t
    rcases move_goes hp hs.accounts hm t with ⟨ht, -⟩ | ⟨r, q, -, hq, -, ht⟩ | ⟨i, f, he, hg, -⟩
    · rw [ht]; exact (hs.threads t).keep hl
    · rw [ht]
      obtain ⟨q', hq', -⟩ := hl _ _ (VMgr.deref_some hq).2
      exact ⟨q', hq'⟩
    · have ht := hs.threads t
      have hk := (hs.threads t).keep (e := e) hl
      generalize hp1 : (after cfg m0 h).threads t = p at *
      generalize hp2 : s'.threads t = p' at *
      cases hg <;> simp only [VPc.Sound] at hk ⊢
      all_goals try exact hk
      · obtain ⟨q', hq', -⟩ := hl _ _ (by assumption)
        exact ⟨q', hq', .inr ⟨h, i, [], by rw [he], hp1, by
          rename_i r q hq hx
          obtain ⟨q2, hq2, h2⟩ := hl _ _ hq
          rw [hq'] at hq2; injection hq2 with hq2; subst hq2
          rw [h2.expiration]; exact hx⟩⟩
      · rename_i q hq hev
        obtain ⟨q', hq', h2⟩ := hl _ _ hq
        exact ⟨q', hq', .inl (h2.event hev).1⟩
      · rename_i r q hq hev
        obtain ⟨q', hq', h2⟩ := hl _ _ hq
        obtain ⟨q1, hq1, h1⟩ := ht
        rw [hq] at hq1; injection hq1 with hq1; subst hq1
        refine ⟨q', hq', ?_⟩
        rcases h1 with h1 | h1
        · rcases hev with hev | hev
          · rw [h1] at hev; cases hev
          · exact .inl ⟨(h2.event h1).1, (h2.event h1).2.1.trans hev⟩
        · right; rw [h2.expiration]; exact h1.mono e

theorem VSys.Sound.stay {h : List VEvent} {e : VEvent} {s : VSys} (hs : VSys.Sound base cfg m0 h s) :
    VSys.Sound base cfg m0 (h ++ [e]) s :=
  ⟨hs.accounts, hs.old, fun r q hq => (hs.reqs r q hq).mono e,
    fun t => (hs.threads t).keep fun _ q hq => ⟨q, hq, .refl q⟩⟩

theorem VSys.sound {u : Usm} (hp : Usm.Positive u.reg) {engineID : Option Bytes} {g : Nat} {c0 : Cache V3Entry}
    {n0 : Nat} {seed : Bytes → Nat} (hm : VMgr.create cfg u engineID g c0 n0 seed = .ok m0) (h : List VEvent) :
    VSys.Sound (after cfg m0 h).held cfg m0 h (after cfg m0 h) := by
  induction h using List.reverseRecOn with
  | nil =>
    obtain ⟨usm, hc, hm0⟩ := VMgr.create_ok hm
    have := VSys.accounts hp hm []
    refine ⟨this.1, this.2.1, ?_, fun t => trivial⟩
    intro r q hq; have hq : m0.reqs r = some q := hq; rw [hm0] at hq; cases hq
  | append_singleton h e ih =>
    rw [after_snoc]
    rcases step_move cfg (after cfg m0 h) e with hs | hs
    · rw [hs]; exact ih.stay
    · exact ih.move (VSys.accounts hp hm h).2.2 hs


theorem VSys.SendFailed.spec {m : VMgr} {i : SendIn} {err : PyErr} (h : SendFailed cfg m i err) :
    Spec.SendFailed cfg m i err := by
  rcases h with ⟨e, h | ⟨h, h'⟩⟩ | ⟨q, usm, hu, h | ⟨msg, h1, h2⟩ | h⟩
  · exact .register e h
  · exact .refused e h h'
  · exact .noID h
  · exact .security usm hu _ _ _ _ _ msg h1 h2
  · exact .channel h

theorem Spec.Created.sound (hc : Spec.Created cfg m0) (h : List VEvent) :
    ∃ base, Usm.Positive base ∧ VSys.Sound base cfg m0 h (after cfg m0 h) := by
  obtain ⟨hok, h0, engineID, g, c0, n0, seed, hu0, hm⟩ := hc
  have hp := Usm.after_positive cfg.backend cfg.crypto hok h0
  exact ⟨_, (VSys.accounts hp hm h).2.2, VSys.sound hp hm h⟩

/-- A step of the whole system, seen from thread `t`. -/
theorem step_goes (hc : Spec.Created cfg m0) (h : List VEvent) (e : VEvent) (t : Nat) :
    (after cfg m0 (h ++ [e])).threads t = (after cfg m0 h).threads t ∨
    (∃ r, e = .wait t r ∧ (after cfg m0 (h ++ [e])).threads t = .test r) ∨
    ∃ i fails, e = .step t i ∧
      Goes cfg (after cfg m0 h) i ((after cfg m0 h).threads t) ((after cfg m0 (h ++ [e])).threads t) fails ∧
      (after cfg m0 (h ++ [e])).mgr.fails = fails ++ (after cfg m0 h).mgr.fails := by
  obtain ⟨base, hp, hs⟩ := hc.sound h
  rw [after_snoc]
  rcases step_move cfg (after cfg m0 h) e with hm | hm
  · rw [hm]; exact .inl rfl
  · rcases move_goes hp hs.accounts hm t with h1 | ⟨r, q, h1, -, -, h2⟩ | h1
    · exact .inl h1.1
    · exact .inr (.inl ⟨r, h1, h2⟩)
    · exact .inr (.inr h1)

/-- A request after one step. -/
theorem step_touch (hc : Spec.Created cfg m0) (h : List VEvent) (e : VEvent) (r : Nat) (q : VReq)
    (hq : (after cfg m0 h).mgr.reqs r = some q) :
    ∃ q', (after cfg m0 (h ++ [e])).mgr.reqs r = some q' ∧ Touch cfg (after cfg m0 h) e r q q' := by
  obtain ⟨base, hp, hs⟩ := hc.sound h
  rw [after_snoc]
  rcases step_move cfg (after cfg m0 h) e with hm | hm
  · rw [hm]; exact ⟨q, hq, .same rfl⟩
  · exact move_touch hs.accounts hm r q hq

/-- A request after more steps. -/
theorem run_later (hc : Spec.Created cfg m0) (h h' : List VEvent) (r : Nat) (q : VReq)
    (hq : (after cfg m0 h).mgr.reqs r = some q) :
    ∃ q', (after cfg m0 (h ++ h')).mgr.reqs r = some q' ∧ q.Later q' := by
  induction h' using List.reverseRecOn with
  | nil => rw [List.append_nil]; exact ⟨q, hq, .refl q⟩
  | append_singleton h' e ih =>
    obtain ⟨q', hq', hl⟩ := ih
    rw [← List.append_assoc]
    obtain ⟨q2, hq2, ht⟩ := step_touch hc (h ++ h') e r q' hq'
    exact ⟨q2, hq2, hl.trans ht.later⟩

/-- **C68**. Whenever a call of `wait()` ends, it ends faithfully: bindings and error
responses come from a response delivered to the request, `Timeout` is raised only after `wait` found the
expiration passed, a reported error was delivered to the request, and another exception is one that sending
a request raised (in which a bug of the manager itself has no part). -/
theorem C68_faithful (hc : Spec.Created cfg m0) (h : List VEvent) (e : VEvent) (t r : Nat) (o : VOutcome)
    (h0 : ¬ ∃ r' o', (after cfg m0 h).threads t = .done r' o')
    (h1 : (after cfg m0 (h ++ [e])).threads t = .done r o) :
    ∃ i q, e = .step t i ∧ (after cfg m0 h).mgr.reqs r = some q ∧
      Spec.V3Faithful cfg m0 h (after cfg m0 h) (after cfg m0 (h ++ [e])) i t r q o := by
  obtain ⟨base, hp, hs⟩ := hc.sound h
  rcases step_goes hc h e t with hg | ⟨r', -, hg⟩ | ⟨i, f, he, hg, hf⟩
  · exact absurd ⟨r, o, hg ▸ h1⟩ h0
  · rw [h1] at hg; cases hg
  · have ht := hs.threads t
    rw [h1] at hg
    generalize (after cfg m0 h).threads t = p at *
    cases hg with
    | bodyZero _ x l q ha hx hz ho =>
      obtain ⟨q0, hq0⟩ := ht
      exact ⟨i, q0, he, hq0, x.id, q, hx, .inl ⟨hf, ho, .inr ⟨rfl, hz⟩⟩⟩
    | bodyRaised _ r' q err hx ho hf' =>
      obtain ⟨q0, hq0⟩ := ht
      exact ⟨i, q0, he, hq0, r', q, hx, .inl ⟨hf, ho, .inl hf'.spec⟩⟩
    | pokeRaised _ l x a q err hx hf' =>
      obtain ⟨q0, hq0⟩ := ht
      exact ⟨i, q0, he, hq0, x.id, q, hx, .inr ⟨hf, hf'.spec⟩⟩
    | answered _ q x hq hev hx =>
      refine ⟨i, q, he, hq, ?_⟩
      obtain ⟨-, hd⟩ := (hs.reqs r q hq).response x hx
      by_cases hz : x.scopedPDU.pdu.first = 0
      · rw [if_neg (not_not.2 hz)]; exact ⟨x, hd, hz, rfl⟩
      · rw [if_pos hz]; exact ⟨x, hd, hz, rfl, rfl, rfl⟩
    | reported _ q ex hq hx =>
      refine ⟨i, q, he, hq, ?_⟩
      obtain ⟨q0, hq0, h2⟩ := ht
      rw [hq] at hq0; injection hq0 with hq0; subst hq0
      rcases h2 with ⟨h2, h3⟩ | h2
      · rcases (hs.reqs r q hq).complete h2 with h4 | ⟨x, ex', h4, h5, h6⟩
        · exact absurd h3 h4
        · rw [hx] at h4; cases h4; exact ⟨x, h5, .inl h6⟩
      · obtain ⟨x, h3⟩ := (hs.reqs r q hq).exception ex hx
        exact ⟨x, h3, .inr h2⟩
    | timedOut _ q hq hx =>
      refine ⟨i, q, he, hq, ?_⟩
      obtain ⟨q0, hq0, h2⟩ := ht
      rw [hq] at hq0; injection hq0 with hq0; subst hq0
      rcases h2 with ⟨h2, h3⟩ | h2
      · rcases (hs.reqs r q hq).complete h2 with h4 | ⟨x, ex', h4, h5, h6⟩
        · exact absurd h3 h4
        · rw [hx] at h4; cases h4
      · exact h2

/-- **C71**. However many threads call `wait()`, a call that ends with an exception other than its own ends with
one that a send raised in that very step: a retransmission or the sending of a queued request, which recorded
a failure; or a request had refresh period 0. -/
theorem C71_threads (hc : Spec.Created cfg m0) (h : List VEvent) (e : VEvent) (t r : Nat) (err : PyErr)
    (h0 : ¬ ∃ r' o', (after cfg m0 h).threads t = .done r' o')
    (h1 : (after cfg m0 (h ++ [e])).threads t = .done r (.raised err)) :
    ∃ i, e = .step t i ∧ (Spec.SendFailed cfg (after cfg m0 h).mgr i err ∨
      err = .zeroDivisionError ∧ ∃ r' q', (after cfg m0 h).mgr.deref r' = some q' ∧ q'.period = 0) := by
  obtain ⟨i, q, he, -, r', q', h3, ⟨-, -, h2 | ⟨h2, h4⟩⟩ | ⟨-, h2⟩⟩ := C68_faithful hc h e t r _ h0 h1
  · exact ⟨i, he, .inl h2⟩
  · exact ⟨i, he, .inr ⟨h2, r', q', h3, h4⟩⟩
  · exact ⟨i, he, .inl h2⟩

/-- How a call of `wait()` on a complete request ends. -/
def Spec.verdict (q : VReq) : Option VOutcome :=
  match q.response, q.exception with
  | some x, _ => some (Spec.answer x q.pdu)
  | none, some ex => some (.reported ex)
  | none, none => none

/-- **C68**, the response is not lost; **C72**. Once a request is complete, every call of `wait()` on it
that ends after that, by any thread and for the first time or again, gives the same outcome: the response if
one was stored, otherwise the authenticated report. Excepted are a thread that had already looked and found
the request incomplete (`failed`), and exceptions raised by sending some request. -/
theorem C72_partial (hc : Spec.Created cfg m0) (h h' : List VEvent) (e : VEvent) (t r : Nat) (q : VReq) (o : VOutcome)
    (hq : (after cfg m0 h).mgr.reqs r = some q) (hev : q.event = true)
    (ht : (after cfg m0 h).threads t ≠ .failed r ∨ q.response = none)
    (h0 : ¬ ∃ r' o', (after cfg m0 (h ++ h')).threads t = .done r' o')
    (h1 : (after cfg m0 (h ++ h' ++ [e])).threads t = .done r o) :
    some o = Spec.verdict q ∨ ∃ err, o = .raised err := by
  have hnf : (after cfg m0 (h ++ h')).threads t ≠ .failed r ∨ q.response = none := by
    rcases ht with ht | ht
    · clear h0 h1
      induction h' using List.reverseRecOn with
      | nil => rw [List.append_nil]; exact .inl ht
      | append_singleton h' e' ih =>
        rw [← List.append_assoc]
        rcases ih with ih | ih
        · rcases step_goes hc (h ++ h') e' t with hg | ⟨r', -, hg⟩ | ⟨i, f, he, hg, hf⟩
          · left; rw [hg]; exact ih
          · left; rw [hg]; simp
          · obtain ⟨q', hq', hl⟩ := run_later hc h h' r q hq
            by_cases hx : (after cfg m0 (h ++ h' ++ [e'])).threads t = .failed r
            · right
              rw [hx] at hg
              generalize (after cfg m0 (h ++ h')).threads t = p at *
              cases hg with
              | unanswered _ q0 hq0 he0 =>
                rw [hq'] at hq0; injection hq0 with hq0; subst hq0
                obtain ⟨k1, k2, -⟩ := hl.event hev
                rcases he0 with he0 | he0
                · rw [k1] at he0; cases he0
                · rw [← k2]; exact he0
            · exact .inl hx
        · exact .inr ih
    · exact .inr ht
  obtain ⟨q', hq', hl⟩ := run_later hc h h' r q hq
  obtain ⟨k1, k2, k3⟩ := hl.event hev
  obtain ⟨base, hp, hs⟩ := hc.sound h
  have hcomp := (hs.reqs r q hq).complete hev
  rcases step_goes hc (h ++ h') e t with hg | ⟨r', -, hg⟩ | ⟨i, f, he, hg, hf⟩
  · exact absurd ⟨r, o, hg ▸ h1⟩ h0
  · rw [h1] at hg; cases hg
  · rw [h1] at hg
    generalize (after cfg m0 (h ++ h')).threads t = p at *
    cases hg with
    | bodyZero => exact .inr ⟨_, rfl⟩
    | bodyRaised => exact .inr ⟨_, rfl⟩
    | pokeRaised => exact .inr ⟨_, rfl⟩
    | answered _ q0 x hq0 he0 hx =>
      rw [hq'] at hq0; injection hq0 with hq0; subst hq0
      left
      rw [k2] at hx
      unfold Spec.verdict Spec.answer
      rw [hx, hl.pdu]
    | reported _ q0 ex hq0 hx =>
      rw [hq'] at hq0; injection hq0 with hq0; subst hq0
      rcases hnf with hnf | hnf
      · exact absurd rfl hnf
      · left
        rcases hcomp with hcomp | ⟨x, ex', hcomp, -, -⟩
        · exact absurd hnf hcomp
        · rw [k3 hnf (by rw [hcomp]; simp)] at hx
          unfold Spec.verdict
          rw [hnf, hx]
    | timedOut _ q0 hq0 hx =>
      rw [hq'] at hq0; injection hq0 with hq0; subst hq0
      rcases hnf with hnf | hnf
      · exact absurd rfl hnf
      · rcases hcomp with hcomp | ⟨x, ex', hcomp, -, -⟩
        · exact absurd hnf hcomp
        · rw [k3 hnf (by rw [hcomp]; simp), hcomp] at hx; cases hx

/-- **C68**. A delivered response completes the request, and is the one stored unless the request was
complete before. -/
theorem C68_delivered (h : List VEvent) (e : VEvent) (r : Nat) (x : V3Incoming)
    (hd : Spec.Delivers cfg (after cfg m0 h) e r x) :
    ∃ q q', (after cfg m0 h).mgr.reqs r = some q ∧ (after cfg m0 (h ++ [e])).mgr.reqs r = some q' ∧
      q'.event = true ∧ (q.event = false → Spec.verdict q' = some (Spec.answer x q.pdu)) ∧
      (q.event = true → Spec.verdict q' = Spec.verdict q) := by
  obtain ⟨i, m, msg, he, hl, hm, hr, hsome, hi, hlk, hok⟩ := hd
  rw [after_snoc]
  cases hq : (after cfg m0 h).mgr.deref r with
  | none => rw [hq] at hsome; cases hsome
  | some q =>
    subst hr
    refine ⟨q, q.store x, (VMgr.deref_some hq).2, ?_, ?_, ?_, ?_⟩
    · subst he
      unfold VSys.step VSys.listen VSys.push
      simp only [hl, hm, hi, hq, hlk]
      generalize hx : (after cfg m0 h).mgr.processResponse cfg x i.seed = y at *
      obtain ⟨res, m'⟩ := y
      simp only at hok
      subst hok
      simp [VMgr.setReq, setAt_same]
    · unfold VReq.store
      cases hev : q.event <;> simp [hev]
    · intro hev
      unfold VReq.store Spec.verdict
      simp [hev]
    · intro hev
      unfold VReq.store
      simp [hev]

/-- **C69**. Every sleep in `wait()` either ends at once, or it ends when the request at the head of the
list is due, which is after the time it begins and no later than the expiration of that request, which is
alive and incomplete. -/
theorem C69_sleep (hc : Spec.Created cfg m0) (h : List VEvent) (e : VEvent) (t r : Nat) (d since : ℚ)
    (h0 : (after cfg m0 h).threads t ≠ .sleep r d since)
    (h1 : (after cfg m0 (h ++ [e])).threads t = .sleep r d since) :
    ∃ i, e = .step t i ∧ since = i.now ∧
      (d = 0 ∨ 0 < d ∧ ∃ r' q', (∃ ref ∈ (after cfg m0 h).mgr.active, ref.id = r') ∧
        (after cfg m0 h).mgr.deref r' = some q' ∧ q'.event = false ∧
        since + d = q'.nextRefresh ∧ since + d ≤ q'.expiration) := by
  obtain ⟨base, hp, hs⟩ := hc.sound h
  rcases step_goes hc h e t with hg | ⟨r', -, hg⟩ | ⟨i, f, he, hg, hf⟩
  · exact absurd (hg ▸ h1) h0
  · rw [h1] at hg; cases hg
  · rw [h1] at hg
    generalize (after cfg m0 h).threads t = p at *
    cases hg with
    | rest _ x l q ha hx hev hn =>
      refine ⟨i, he, rfl, .inr ⟨by linarith, x.id, q, ⟨x, by rw [ha]; simp, rfl⟩, hx, hev, by ring, ?_⟩⟩
      have := (hs.reqs _ q (VMgr.deref_some hx).2).bounded
      linarith
    | idled => exact ⟨i, he, rfl, .inl rfl⟩

/-- **C56**. A step that delivers an unauthenticated error report completes no request, nor does it store a
response. -/
theorem C56_unauthenticated (h : List VEvent) (e : VEvent) (r : Nat) (x : V3Incoming)
    (ex : Report) (hd : Spec.ReportsError cfg (after cfg m0 h) e r x ex) (ha : ¬ Spec.WithAuth x) (r' : Nat) (q : VReq)
    (hq : (after cfg m0 h).mgr.reqs r' = some q) :
    ∃ q', (after cfg m0 (h ++ [e])).mgr.reqs r' = some q' ∧ q'.event = q.event ∧ q'.response = q.response ∧
      (r' = r → q'.exception = some (q.exception.getD ex)) ∧ (r' ≠ r → q'.exception = q.exception) := by
  obtain ⟨i, m, msg, v, rest, he, hl, hm, hr, hsome, hi, hv, hn1, hn2, hx⟩ := hd
  have haf : x.header.flags.level.auth = false := by simpa [Spec.WithAuth] using ha
  rw [after_snoc]
  cases hq0 : (after cfg m0 h).mgr.deref r with
  | none => rw [hq0] at hsome; cases hsome
  | some q0 =>
    subst hr he
    have hst : ((after cfg m0 h).step cfg (.listen i)).mgr.reqs =
        setAt (after cfg m0 h).mgr.reqs msg.request (some (q0.processException ex false)) := by
      unfold VSys.step VSys.listen VSys.push
      simp only [hl, hm, hi, hv, show v.name ≠ usmStatsUnknownEngineIDs from hn1,
        show v.name ≠ usmStatsNotInTimeWindows from hn2, hx, hq0, haf]
      simp [VMgr.setReq]
    rw [hst]
    by_cases hr : r' = msg.request
    · subst hr
      have := (VMgr.deref_some hq0).2
      rw [hq] at this; injection this with this; subst this
      refine ⟨_, setAt_same _ _ _, ?_, ?_, fun _ => ?_, fun h => absurd rfl h⟩
      · unfold VReq.processException; simp only [Bool.false_eq_true, if_false]; split <;> rfl
      · unfold VReq.processException; simp only [Bool.false_eq_true, if_false]; split <;> rfl
      · unfold VReq.processException
        cases hxx : q.exception <;> simp [hxx]
    · exact ⟨q, by rw [setAt_other _ _ hr]; exact hq, rfl, rfl, fun h => absurd h hr, fun _ => rfl⟩

/-- **C56**. A step that delivers an authenticated error report completes the request at once; the report is the
outcome unless the request was complete before, in which case the outcome stays what it was. -/
theorem C56_authenticated (hc : Spec.Created cfg m0) (h : List VEvent) (e : VEvent) (r : Nat) (x : V3Incoming)
    (ex : Report) (hd : Spec.ReportsError cfg (after cfg m0 h) e r x ex) (ha : Spec.WithAuth x) :
    ∃ q q', (after cfg m0 h).mgr.reqs r = some q ∧ (after cfg m0 (h ++ [e])).mgr.reqs r = some q' ∧
      q'.event = true ∧ (q.event = false → Spec.verdict q' = some (.reported ex)) ∧
      (q.event = true → Spec.verdict q' = Spec.verdict q) := by
  obtain ⟨base, hp, hs⟩ := hc.sound h
  obtain ⟨i, m, msg, v, rest, he, hl, hm, hr, hsome, hi, hv, hn1, hn2, hx⟩ := hd
  have haf : x.header.flags.level.auth = true := ha
  rw [after_snoc]
  cases hq0 : (after cfg m0 h).mgr.deref r with
  | none => rw [hq0] at hsome; cases hsome
  | some q =>
    subst hr he
    refine ⟨q, q.processException ex true, (VMgr.deref_some hq0).2, ?_, ?_, ?_, ?_⟩
    · unfold VSys.step VSys.listen VSys.push
      simp only [hl, hm, hi, hv, show v.name ≠ usmStatsUnknownEngineIDs from hn1,
        show v.name ≠ usmStatsNotInTimeWindows from hn2, hx, hq0, haf]
      simp [VMgr.setReq, setAt_same]
    · unfold VReq.processException
      cases hev : q.event <;> simp [hev]
    · intro hev
      have hn : q.response = none := by
        cases hres : q.response with
        | none => rfl
        | some y => rw [((hs.reqs _ q (VMgr.deref_some hq0).2).response y hres).1] at hev; cases hev
      unfold VReq.processException Spec.verdict
      simp [hev, hn]
    · intro hev
      unfold VReq.processException
      simp [hev]

/-- **C56**. `wait()` raises a reported error only if the report was authenticated, or if `wait` found the
expiration passed. -/
theorem C56_outcome (hc : Spec.Created cfg m0) (h : List VEvent) (e : VEvent) (t r : Nat) (ex : Report)
    (h0 : ¬ ∃ r' o', (after cfg m0 h).threads t = .done r' o')
    (h1 : (after cfg m0 (h ++ [e])).threads t = .done r (.reported ex)) :
    ∃ q x, (after cfg m0 h).mgr.reqs r = some q ∧ Spec.Reported cfg m0 h r x ex ∧
      (Spec.WithAuth x ∨ Spec.Expired cfg m0 h t r q.expiration) := by
  obtain ⟨i, q, -, hq, x, h2, h3⟩ := C68_faithful hc h e t r _ h0 h1
  exact ⟨q, x, hq, h2, h3⟩

end Snmp
