import Verif.Props.CommunityThreads
import Mathlib.Tactic.IntervalCases
/-!
# C51: the request of a v1/v2c manager that is due first is serviced first

The claim is false in general (`C51_false`). Here: it holds of a manager while all its requests have the same
refresh period, time does not run backwards, none of its transmissions fails and none of its handles is dropped
before its `wait` ended, whatever the other managers with the same message processor do.
-/

namespace Snmp

/-! ## Specification -/

/-- The clock readings made in one step. -/
def CEvent.times : CEvent → List ℚ
  | .send _ _ _ _ _ _ t0 t1 _ _ => [t0, t1]
  | .step _ now _ _ => [now]
  | _ => []

/-- All clock readings of the history, in order. -/
def Spec.readings (h : List CEvent) : List ℚ := h.flatMap CEvent.times

/-- In the history `h` the clock never runs backwards; every request of manager `k` has the refresh period `p`,
every `sendRequest` of that manager returns, none of its retransmissions fails, and none of its handles is
collected. -/
structure Spec.Steady (v : Version) (g : Nat) (k : Nat) (p : ℚ) (h : List CEvent) : Prop where
  positive : 0 < p
  clock : (Spec.readings h).Pairwise (· ≤ ·)
  period : ∀ r pdu community timeout period t0 t1 draws chan,
    .send k r pdu community timeout period t0 t1 draws chan ∈ h → period = p
  returns : ∀ h1 h2 r pdu community timeout period t0 t1 draws chan,
    h = h1 ++ .send k r pdu community timeout period t0 t1 draws chan :: h2 →
    ((CSys.after v g h1).mgr.sendRequest v k r pdu community timeout period t0 t1 draws chan).1 = .ok ()
  channel : ∀ h1 h2 t now draws chan r q, h = h1 ++ .step t now draws chan :: h2 →
    ((CSys.after v g h1).threads t).InsideOn r → (CSys.after v g h1).mgr.reqs r = some q → q.manager = k →
    chan = none
  kept : ∀ h1 h2 r q, h = h1 ++ .collect r :: h2 → (CSys.after v g h1).mgr.reqs r = some q → q.manager ≠ k

/-! ## Proofs -/

theorem Heap.value_congr {env env' : Env} {x : Ref} (h : env' x.id = env x.id) :
    Heap.value env' x = Heap.value env x := by
  unfold Heap.value WeakKey.value; rw [h]

/-- Lowering the key of one item, but not below a bound of all the others, keeps the order. -/
theorem Heap.ordered_lower {env env' : Env} {l : List Ref} (h : Heap.Ordered env l) (r : Nat) (k b : ℚ)
    (hsame : ∀ x ∈ l, x.id ≠ r → env' x.id = env x.id)
    (hbound : ∀ x ∈ l, x.id ≠ r → Heap.value env x ≤ b)
    (hk : env r = some k) (hk' : env' r = some (min k b)) : Heap.Ordered env' l := by
  intro i h0 h1 h2
  have hp : (i - 1) / 2 < l.length := by omega
  have ho := h i h0 h1 h2
  rw [Heap.val_of (List.getElem?_eq_getElem hp), Heap.val_of (List.getElem?_eq_getElem h1)] at ho ⊢
  have ma := List.getElem_mem hp
  have mi := List.getElem_mem h1
  generalize l[(i - 1) / 2] = a at *
  generalize l[i] = c at *
  have hr : ∀ x : Ref, x.id = r → Heap.value env x = k ∧ Heap.value env' x = min k b := by
    intro x hx
    exact ⟨Heap.value_live (by rw [hx]; exact hk), Heap.value_live (by rw [hx]; exact hk')⟩
  by_cases ha : a.id = r
  · rw [(hr a ha).2]
    rw [(hr a ha).1] at ho
    by_cases hc : c.id = r
    · rw [(hr c hc).2]
    · rw [Heap.value_congr (hsame c mi hc)]; exact le_trans (min_le_left _ _) ho
  · rw [Heap.value_congr (hsame a ma ha)]
    by_cases hc : c.id = r
    · rw [(hr c hc).2]
      rw [(hr c hc).1] at ho
      exact le_min ho (hbound a ma ha)
    · rw [Heap.value_congr (hsame c mi hc)]; exact ho

/-- What holds of manager `k` while the history is steady; `T` is no earlier than any clock reading so far. -/
structure Inv51 (k : Nat) (p T : ℚ) (s : CMgr) : Prop where
  alive : ∀ r q, s.reqs r = some q → q.manager = k → s.dead r = false
  known : ∀ x ∈ s.heaps k, ∃ q, s.reqs x.id = some q ∧ q.manager = k
  nodup : ((s.heaps k).map Ref.id).Nodup
  bound : ∀ r q, s.reqs r = some q → q.manager = k → q.nextRefresh ≤ T + p ∧ q.period = p
  ordered : Heap.Ordered s.env (s.heaps k)
  sent : ∀ r q, s.reqs r = some q → q.manager = k → ∃ w, (r, w) ∈ s.sent
  pend : ∀ r q, s.reqs r = some q → q.manager = k → q.event = false →
    (∃ x ∈ s.heaps k, x.id = r) ∨ q.expiration ≤ T

theorem Inv51.mono {k : Nat} {p T T' : ℚ} {s : CMgr} (h : Inv51 k p T s) (hT : T ≤ T') : Inv51 k p T' s :=
  ⟨h.alive, h.known, h.nodup, fun r q hq hk => ⟨by have := (h.bound r q hq hk).1; linarith, (h.bound r q hq hk).2⟩,
    h.ordered, h.sent, fun r q hq hk he => (h.pend r q hq hk he).imp id fun k => le_trans k hT⟩

theorem Inv51.env_some {k : Nat} {p T : ℚ} {s : CMgr} (h : Inv51 k p T s) {r : Nat} {q : CReq}
    (hq : s.reqs r = some q) (hk : q.manager = k) : s.env r = some q.nextRefresh := by
  unfold CMgr.env
  rw [h.alive r q hq hk, hq]; rfl

/-- Keys that did not change keep the order. -/
theorem Heap.ordered_congr {env env' : Env} {l : List Ref} (h : Heap.Ordered env l)
    (hsame : ∀ x ∈ l, env' x.id = env x.id) : Heap.Ordered env' l := by
  have hv : ∀ i, Heap.val env' l i = Heap.val env l i := by
    intro i
    cases hx : l[i]? with
    | none => unfold Heap.val; rw [hx]; rfl
    | some b =>
      rw [Heap.val_of hx, Heap.val_of hx]
      exact Heap.value_congr (hsame b (List.mem_of_getElem? hx))
  intro i h0 h1 h2
  rw [hv, hv]; exact h i h0 h1 h2

/-- A step that changes nothing of manager `k`. -/
theorem Inv51.frame {k : Nat} {p T : ℚ} {s s' : CMgr} (h : Inv51 k p T s) (hh : s'.heaps k = s.heaps k)
    (h1 : ∀ r q, s.reqs r = some q → q.manager = k → s'.reqs r = some q ∧ s'.dead r = s.dead r)
    (h2 : ∀ r q, s'.reqs r = some q → q.manager = k → s.reqs r = some q)
    (h3 : ∀ x ∈ s.sent, x ∈ s'.sent) : Inv51 k p T s' := by
  refine ⟨?_, ?_, by rw [hh]; exact h.nodup, ?_, ?_, ?_, ?_⟩
  · intro r q hq hk
    have := h2 r q hq hk
    rw [(h1 r q this hk).2]; exact h.alive r q this hk
  · intro x hx
    rw [hh] at hx
    obtain ⟨q, hq, hk⟩ := h.known x hx
    exact ⟨q, (h1 _ q hq hk).1, hk⟩
  · intro r q hq hk; exact h.bound r q (h2 r q hq hk) hk
  · rw [hh]
    refine Heap.ordered_congr h.ordered ?_
    intro x hx
    obtain ⟨q, hq, hk⟩ := h.known x hx
    unfold CMgr.env
    rw [(h1 _ q hq hk).1, (h1 _ q hq hk).2, hq]
  · intro r q hq hk
    obtain ⟨w, hw⟩ := h.sent r q (h2 r q hq hk) hk
    exact ⟨w, h3 _ hw⟩
  · intro r q hq hk he
    rw [hh]; exact h.pend r q (h2 r q hq hk) hk he

/-- A request changed in ways that do not concern the heap. -/
theorem Inv51.setReq {k : Nat} {p T : ℚ} {s s' : CMgr} (h : Inv51 k p T s) {r : Nat} {q q' : CReq}
    (hq : s.reqs r = some q) (hr : s'.reqs = setAt s.reqs r (some q')) (hd : s'.dead = s.dead)
    (hh : s'.heaps = s.heaps) (hs : s'.sent = s.sent) (h0 : q'.manager = q.manager)
    (h1 : q'.nextRefresh = q.nextRefresh) (h2 : q'.period = q.period) (h3 : q'.expiration = q.expiration)
    (h4 : q.event = true → q'.event = true) : Inv51 k p T s' := by
  have old : ∀ r' q1, s'.reqs r' = some q1 → ∃ q0, s.reqs r' = some q0 ∧ q1.manager = q0.manager ∧
      q1.nextRefresh = q0.nextRefresh ∧ q1.period = q0.period ∧ q1.expiration = q0.expiration ∧
      (q0.event = true → q1.event = true) := by
    intro r' q1 hq1
    rw [hr] at hq1
    simp only [setAt_get] at hq1
    split at hq1
    · rename_i he; subst he; injection hq1 with hq1; subst hq1
      exact ⟨q, hq, h0, h1, h2, h3, h4⟩
    · exact ⟨q1, hq1, rfl, rfl, rfl, rfl, id⟩
  have henv : s'.env = s.env := by
    funext r'
    unfold CMgr.env
    rw [hd, hr]
    simp only [setAt_get]
    by_cases he : r' = r
    · subst he; rw [if_pos rfl, hq]; simp [h1]
    · rw [if_neg he]
  refine ⟨?_, ?_, by rw [hh]; exact h.nodup, ?_, by rw [henv, hh]; exact h.ordered, ?_, ?_⟩
  · intro r' q1 hq1 hk
    obtain ⟨q0, a, a0, -⟩ := old r' q1 hq1
    rw [hd]; exact h.alive r' q0 a (by rw [← a0]; exact hk)
  · intro x hx
    rw [hh] at hx
    obtain ⟨q0, hq0, hk⟩ := h.known x hx
    rw [hr]; simp only [setAt_get]
    split
    · rename_i he
      rw [he, hq] at hq0; injection hq0 with hq0; subst hq0
      exact ⟨_, rfl, by rw [h0]; exact hk⟩
    · exact ⟨q0, hq0, hk⟩
  · intro r' q1 hq1 hk
    obtain ⟨q0, a, a0, b, c, -⟩ := old r' q1 hq1
    rw [b, c]; exact h.bound r' q0 a (by rw [← a0]; exact hk)
  · intro r' q1 hq1 hk
    obtain ⟨q0, a, a0, -⟩ := old r' q1 hq1
    rw [hs]; exact h.sent r' q0 a (by rw [← a0]; exact hk)
  · intro r' q1 hq1 hk he
    obtain ⟨q0, a, a0, -, -, b, c⟩ := old r' q1 hq1
    rw [hh, b]
    refine h.pend r' q0 a (by rw [← a0]; exact hk) ?_
    cases hx : q0.event with
    | false => rfl
    | true => rw [c hx] at he; cases he

theorem Spec.Steady.prefix {v : Version} {g k : Nat} {p : ℚ} {h : List CEvent} {e : CEvent}
    (hs : Spec.Steady v g k p (h ++ [e])) : Spec.Steady v g k p h := by
  obtain ⟨a, b, c, d, f, kk⟩ := hs
  refine ⟨a, ?_, fun r pdu co ti pe t0 t1 dr ch hm => c r pdu co ti pe t0 t1 dr ch (List.mem_append_left _ hm),
    fun h1 h2 r pdu co ti pe t0 t1 dr ch he => d h1 (h2 ++ [e]) r pdu co ti pe t0 t1 dr ch (by rw [he]; simp),
    fun h1 h2 t now dr ch r q he => f h1 (h2 ++ [e]) t now dr ch r q (by rw [he]; simp),
    fun h1 h2 r q he => kk h1 (h2 ++ [e]) r q (by rw [he]; simp)⟩
  unfold Spec.readings at b ⊢
  rw [List.flatMap_append, List.pairwise_append] at b
  exact b.1

/-- Readings of the last step are no earlier than those before. -/
theorem Spec.Steady.later {v : Version} {g k : Nat} {p : ℚ} {h : List CEvent} {e : CEvent}
    (hs : Spec.Steady v g k p (h ++ [e])) {x y : ℚ} (hx : x ∈ Spec.readings h) (hy : y ∈ e.times) : x ≤ y := by
  have b := hs.clock
  unfold Spec.readings at b hx
  rw [List.flatMap_append, List.pairwise_append] at b
  exact b.2.2 x hx y (by simpa using hy)

/-- The first item was resent at `now`. -/
theorem Inv51.resent {v : Version} {k : Nat} {p : ℚ} {s m' : CMgr} {now : ℚ} (hi : Inv51 k p now s) (hp : 0 < p)
    {ref : Ref} {rest : List Ref} {q : CReq} (hh : s.heaps k = ref :: rest)
    (hd : s.deref ref.id = some q) (h3 : now < q.expiration) {draws : Nat → Nat}
    (hs : s.reallySend v ref.id (CMgr.resent q now) draws none = (.ok (), m')) :
    Inv51 k p now { m' with heaps := setAt m'.heaps k (Heap.replace m'.env (m'.heaps k) ref) } := by
  obtain ⟨hq, hdd⟩ := CMgr.deref_some hd
  have hqk : q.manager = k := by
    obtain ⟨q', hq', hk⟩ := hi.known ref (by rw [hh]; exact List.mem_cons_self)
    rw [hq] at hq'; injection hq' with hq'; subst hq'; exact hk
  have hper := (hi.bound _ q hq hqk).2
  obtain ⟨id, cb, cache, sent, hm, k1, -, -, k3⟩ := CMgr.reallySend_spec v s ref.id (CMgr.resent q now) draws none
  rw [hs] at hm k3
  simp only at hm
  have hsent : ∃ w, m'.sent = (ref.id, w) :: s.sent := by
    rcases k3 with ⟨-, w, -, k⟩ | ⟨⟨e, k⟩, -⟩
    · exact ⟨w, by rw [hm]; exact k⟩
    · cases k
  have hheap : m'.heaps k = ref :: rest := by rw [hm]; exact hh
  have hreqs : m'.reqs = setAt s.reqs ref.id (some { CMgr.resent q now with
    pdu := { (CMgr.resent q now).pdu with requestID := id }, callback := cb }) := by rw [hm]
  have hdead : m'.dead = s.dead := by rw [hm]
  have hnd : (ref.id :: rest.map Ref.id).Nodup := by have := hi.nodup; rw [hh] at this; exact this
  have henv : ∀ x ∈ rest, m'.env x.id = s.env x.id := by
    intro x hx
    unfold CMgr.env
    rw [hdead, hreqs, setAt_other]
    intro he
    exact (List.nodup_cons.1 hnd).1 (by rw [← he]; exact List.mem_map_of_mem hx)
  have hmoved : Heap.Moved m'.env (ref :: rest) (Heap.replace m'.env (m'.heaps k) ref) := by
    rw [hheap]
    exact Heap.siftup_moved m'.env _ 0
  have hids : ∀ r, (∃ x ∈ Heap.replace m'.env (m'.heaps k) ref, x.id = r) ↔ ∃ x ∈ s.heaps k, x.id = r := by
    intro r
    rw [hh]
    have := hmoved.perm.mem_iff (a := r)
    simpa [List.mem_map, eq_comm (a := r)] using this
  have hold : ∀ r q1, m'.reqs r = some q1 → (r = ref.id ∧ q1.manager = q.manager ∧
      q1.nextRefresh = (CMgr.resent q now).nextRefresh ∧ q1.period = q.period ∧ q1.expiration = q.expiration) ∨ (r ≠ ref.id ∧ s.reqs r = some q1) := by
    intro r q1 hq1
    rw [hreqs] at hq1
    simp only [setAt_get] at hq1
    split at hq1
    · rename_i he; injection hq1 with hq1; subst hq1
      exact .inl ⟨he, rfl, rfl, rfl, rfl⟩
    · rename_i he; exact .inr ⟨he, hq1⟩
  generalize hH : Heap.replace m'.env (m'.heaps k) ref = H at *
  have hk' : setAt m'.heaps k H k = H := setAt_same _ _ _
  refine ⟨?_, ?_, ?_, ?_, ?_, ?_, ?_⟩
  · intro r q1 hq1 hk1
    show m'.dead r = false
    rw [hdead]
    rcases hold r q1 hq1 with ⟨rfl, -⟩ | ⟨-, a⟩
    · exact hdd
    · exact hi.alive r q1 a hk1
  · intro x hx
    simp only [hk'] at hx
    obtain ⟨y, hy, hyx⟩ := (hids x.id).1 ⟨x, hx, rfl⟩
    obtain ⟨q0, hq0, hk0⟩ := hi.known y hy
    show ∃ q, m'.reqs x.id = some q ∧ _
    rw [hreqs]
    simp only [setAt_get]
    split
    · exact ⟨_, rfl, hqk⟩
    · exact ⟨q0, by rw [← hyx]; exact hq0, hk0⟩
  · simp only [hk']; exact hmoved.perm.nodup_iff.2 hnd
  · intro r q1 hq1 hk1
    rcases hold r q1 hq1 with ⟨-, -, a, b, -⟩ | ⟨-, a⟩
    · rw [a, b, hper]
      refine ⟨?_, rfl⟩
      have := (CMgr.resent_time (q := q) (now := now) (by rw [hper]; exact hp) h3).2.1
      rw [hper] at this; exact le_of_lt this
    · exact hi.bound r q1 a hk1
  · simp only [hk']
    show Heap.Ordered m'.env H
    rw [← hH, hheap]
    apply Heap.replace_ordered
    have ho := hi.ordered
    rw [hh] at ho
    have hv : ∀ i, 0 < i → Heap.val m'.env (ref :: rest) i = Heap.val s.env (ref :: rest) i := by
      intro i hi0
      cases hx : (ref :: rest)[i]? with
      | none => unfold Heap.val; rw [hx]; rfl
      | some b =>
        rw [Heap.val_of hx, Heap.val_of hx]
        obtain ⟨j, rfl⟩ : ∃ j, i = j + 1 := ⟨i - 1, by omega⟩
        exact Heap.value_congr (henv b (List.mem_of_getElem? (l := rest) (by simpa using hx)))
    intro i h0 h1 h2
    rw [hv _ (by omega), hv _ h0]
    exact ho i h0 h1 (by omega)
  · intro r q1 hq1 hk1
    show ∃ w, (r, w) ∈ m'.sent
    obtain ⟨w, hw⟩ := hsent
    rw [hw]
    rcases hold r q1 hq1 with ⟨a, -⟩ | ⟨-, a⟩
    · exact ⟨w, by rw [a]; simp⟩
    · obtain ⟨w1, hw1⟩ := hi.sent r q1 a hk1
      exact ⟨w1, List.mem_cons_of_mem _ hw1⟩
  · intro r q1 hq1 hk1 he
    simp only [hk']
    rw [hids r]
    rcases hold r q1 hq1 with ⟨a, -⟩ | ⟨-, a⟩
    · exact .inl ⟨ref, by rw [hh]; simp, a.symm⟩
    · exact hi.pend r q1 a hk1 he

/-- A request was created. -/
theorem Inv51.created {v : Version} {k : Nat} {p T : ℚ} {s : CMgr} {r : Nat} {pdu : Pdu} {community : Bytes}
    {timeout t0 t1 : ℚ} {draws : Nat → Nat} {chan : Option PyErr} (hi : Inv51 k p T s) (hT : T ≤ t1)
    (hn : s.reqs r = none) (hdr : s.dead r = false)
    (hok : (s.sendRequest v k r pdu community timeout p t0 t1 draws chan).1 = .ok ()) :
    Inv51 k p t1 (s.sendRequest v k r pdu community timeout p t0 t1 draws chan).2 := by
  have hreqs1 : ∀ r', (s.setReq r (CReq.new k pdu community timeout p t0)).env r' =
      if r' = r then some (t0 + timeout) else s.env r' := by
    intro r'
    unfold CMgr.env CMgr.setReq
    simp only [setAt_get]
    by_cases he : r' = r
    · subst he; rw [if_pos rfl, if_pos rfl, hdr]; rfl
    · rw [if_neg he, if_neg he]
  unfold CMgr.sendRequest at hok ⊢
  simp only at hok ⊢
  generalize hE : (s.setReq r (CReq.new k pdu community timeout p t0)).env = env1 at *
  obtain ⟨id, cb, cache, sent, hm, -, -, -, k3⟩ := CMgr.reallySend_spec v
    { s.setReq r (CReq.new k pdu community timeout p t0) with
      heaps := setAt (s.setReq r (CReq.new k pdu community timeout p t0)).heaps k
        (Heap.push env1 ((s.setReq r (CReq.new k pdu community timeout p t0)).heaps k)
          ⟨r, WeakKey.new (CReq.new k pdu community timeout p t0).nextRefresh⟩) } r
    ((CReq.new k pdu community timeout p t0).setNextRefresh (t1 + (CReq.new k pdu community timeout p t0).period)) draws chan
  rw [hm]
  have hsent : ∃ w, sent = (r, w) :: s.sent := by
    rcases k3 with ⟨-, w, -, kk⟩ | ⟨⟨e, kk⟩, -⟩
    · exact ⟨w, kk⟩
    · rw [hok] at kk; cases kk
  have hsame : ∀ r', r' ≠ r → ∀ q, setAt (setAt s.reqs r (some (CReq.new k pdu community timeout p t0))) r q r' = s.reqs r' := by
    intro r' hr q
    rw [setAt_other _ _ hr, setAt_other _ _ hr]
  have hnot : ∀ x ∈ s.heaps k, x.id ≠ r := by
    rintro x hx rfl
    obtain ⟨q, hq, -⟩ := hi.known x hx
    rw [hn] at hq; cases hq
  have hmoved := Heap.push_moved env1 (s.heaps k) ⟨r, WeakKey.new (t0 + timeout)⟩
  have hids : ∀ r', (∃ x ∈ Heap.push env1 (s.heaps k) ⟨r, WeakKey.new (t0 + timeout)⟩, x.id = r') ↔
      (∃ x ∈ s.heaps k, x.id = r') ∨ r' = r := by
    intro r'
    have := hmoved.perm.mem_iff (a := r')
    simp only [List.map_append, List.mem_append, List.mem_map, List.map_cons, List.map_nil, List.mem_singleton] at this
    exact this
  have hold1 : Heap.Ordered env1 (s.heaps k) := by
    refine Heap.ordered_congr hi.ordered ?_
    intro x hx
    rw [hreqs1, if_neg (hnot x hx)]
  have hk' : ∀ H, setAt (s.setReq r (CReq.new k pdu community timeout p t0)).heaps k H k = H := fun H => setAt_same _ _ _
  refine ⟨?_, ?_, ?_, ?_, ?_, ?_, ?_⟩
  · intro r' q hq hk
    by_cases hr : r' = r
    · rw [hr]; exact hdr
    · exact hi.alive r' q ((hsame r' hr _).symm.trans hq) hk
  · intro x hx
    simp only [hk'] at hx
    rcases (hids x.id).1 ⟨x, hx, rfl⟩ with ⟨y, hy, hyx⟩ | h
    · obtain ⟨q, hq, hk⟩ := hi.known y hy
      exact ⟨q, by rw [← hyx]; exact (hsame _ (hnot y hy) _).trans hq, hk⟩
    · rw [h]; exact ⟨_, setAt_same _ _ _, rfl⟩
  · simp only [hk']
    refine hmoved.perm.nodup_iff.2 ?_
    rw [List.map_append, List.nodup_append]
    refine ⟨hi.nodup, by simp, ?_⟩
    intro a ha b hb
    obtain ⟨x, hx, rfl⟩ := List.mem_map.1 ha
    simp only [List.map_cons, List.map_nil, List.mem_singleton] at hb
    rw [hb]; exact hnot x hx
  · intro r' q hq hk
    by_cases hr : r' = r
    · subst hr
      rw [show (CMgr.mk _ _ _ _ _ : CMgr).reqs r' = _ from setAt_same _ _ _] at hq
      injection hq with hq; subst hq
      exact ⟨min_le_right _ _, rfl⟩
    · have := (hsame r' hr _).symm.trans hq
      obtain ⟨a, b⟩ := hi.bound r' q this hk
      exact ⟨by linarith, b⟩
  · simp only [hk']
    refine Heap.ordered_lower (env := env1) (Heap.push_ordered env1 (s.heaps k) _ hold1) r (t0 + timeout) (t1 + p) ?_ ?_ ?_ ?_
    · intro x hx hne
      rw [hreqs1, if_neg hne]
      unfold CMgr.env
      simp only
      rw [show setAt (s.setReq r (CReq.new k pdu community timeout p t0)).reqs r _ x.id = s.reqs x.id from hsame x.id hne _]
      rfl
    · intro x hx hne
      rcases (hids x.id).1 ⟨x, hx, rfl⟩ with ⟨y, hy, hyx⟩ | h
      · obtain ⟨q, hq, hk⟩ := hi.known y hy
        rw [hyx] at hq
        have : env1 x.id = some q.nextRefresh := by
          rw [hreqs1, if_neg hne]; exact hi.env_some hq hk
        rw [Heap.value_live this]
        have := (hi.bound _ q hq hk).1
        linarith
      · exact absurd h hne
    · rw [hreqs1, if_pos rfl]
    · unfold CMgr.env
      simp only
      rw [show (s.setReq r (CReq.new k pdu community timeout p t0)).dead r = false from hdr, setAt_same]
      rfl
  · intro r' q hq hk
    obtain ⟨w, hw⟩ := hsent
    simp only
    rw [hw]
    by_cases hr : r' = r
    · exact ⟨w, by rw [hr]; simp⟩
    · have := (hsame r' hr _).symm.trans hq
      obtain ⟨w', hw'⟩ := hi.sent r' q this hk
      exact ⟨w', List.mem_cons_of_mem _ hw'⟩
  · intro r' q hq hk he
    simp only [hk']
    by_cases hr : r' = r
    · exact .inl ((hids r').2 (.inr hr))
    · have := (hsame r' hr _).symm.trans hq
      rcases hi.pend r' q this hk he with h | h
      · exact .inl ((hids r').2 (.inl h))
      · exact .inr (le_trans h hT)

/-- The first item was taken off the heap at `now`. -/
theorem Inv51.popped {k : Nat} {p now : ℚ} {s : CMgr} (hi : Inv51 k p now s) {ref : Ref} {rest : List Ref}
    (hh : s.heaps k = ref :: rest)
    (hd : ∀ q, s.deref ref.id = some q → q.event = true ∨ (q.nextRefresh ≤ now ∧ q.expiration ≤ now)) :
    Inv51 k p now { s with heaps := setAt s.heaps k (Heap.pop s.env (s.heaps k)) } := by
  have hmoved := Heap.pop_moved s.env ref rest
  rw [← hh] at hmoved
  have hids : ∀ r, (∃ x ∈ Heap.pop s.env (s.heaps k), x.id = r) ↔ ∃ x ∈ rest, x.id = r := by
    intro r
    have := hmoved.perm.mem_iff (a := r)
    simpa [List.mem_map] using this
  have hnd : (ref.id :: rest.map Ref.id).Nodup := by have := hi.nodup; rw [hh] at this; exact this
  have hk' : setAt s.heaps k (Heap.pop s.env (s.heaps k)) k = Heap.pop s.env (s.heaps k) := setAt_same _ _ _
  refine ⟨hi.alive, ?_, ?_, hi.bound, ?_, hi.sent, ?_⟩
  · intro x hx
    simp only [hk'] at hx
    obtain ⟨y, hy, hyx⟩ := (hids x.id).1 ⟨x, hx, rfl⟩
    rw [← hyx]; exact hi.known y (by rw [hh]; exact List.mem_cons_of_mem _ hy)
  · simp only [hk']
    exact hmoved.perm.nodup_iff.2 (List.nodup_cons.1 hnd).2
  · simp only [hk']
    exact Heap.pop_ordered s.env (s.heaps k) (fun i h0 h1 h2 => hi.ordered i h0 h1 (by omega))
  · intro r q hq hk he
    simp only [hk']
    rw [hids r]
    rcases hi.pend r q hq hk he with ⟨x, hx, hxr⟩ | h
    · rw [hh] at hx
      rcases List.mem_cons.1 hx with hx | hx
      · subst hx
        have : s.deref x.id = some q := by unfold CMgr.deref; rw [hxr, hi.alive r q hq hk]; exact hq
        rcases hd q this with k | ⟨-, k⟩
        · rw [k] at he; cases he
        · exact .inr k
      · exact .inl ⟨x, hx, hxr⟩
    · exact .inr h

/-- Sending a request of another manager. -/
theorem Inv51.other {v : Version} {k : Nat} {p T : ℚ} {s : CMgr} (h : Inv51 k p T s) {r : Nat} {q q1 : CReq}
    (hq : s.reqs r = some q) (h0 : q1.manager = q.manager) (hk : q.manager ≠ k) {draws : Nat → Nat}
    {chan : Option PyErr} : Inv51 k p T (s.reallySend v r q1 draws chan).2 := by
  obtain ⟨id, cb, cache, sent, hm, -, -, -, k3⟩ := CMgr.reallySend_spec v s r q1 draws chan
  rw [hm]
  refine h.frame rfl ?_ ?_ ?_
  · intro r' q' hq' hk'
    refine ⟨?_, rfl⟩
    simp only
    rw [setAt_other]
    · exact hq'
    · rintro rfl; rw [hq] at hq'; injection hq' with hq'; subst hq'; exact hk hk'
  · intro r' q' hq' hk'
    simp only [setAt_get] at hq'
    split at hq'
    · injection hq' with hq'; subst hq'; exact absurd (h0.symm.trans hk') hk
    · exact hq'
  · intro x hx
    rcases k3 with ⟨-, w, -, k⟩ | ⟨-, k⟩
    · simp only; rw [k]; exact List.mem_cons_of_mem _ hx
    · simp only; rw [k]; exact hx

theorem Inv51.heaps {k : Nat} {p T : ℚ} {s s' : CMgr} (h : Inv51 k p T s) (h1 : s'.reqs = s.reqs)
    (h2 : s'.dead = s.dead) (h3 : s'.sent = s.sent) (h4 : s'.heaps k = s.heaps k) : Inv51 k p T s' :=
  h.frame h4 (fun r q hq _ => ⟨by rw [h1]; exact hq, by rw [h2]⟩) (fun r q hq _ => by rw [← h1]; exact hq)
    (fun x hx => by rw [h3]; exact hx)

theorem Inv51.after {v : Version} {g k : Nat} {p : ℚ} {h : List CEvent} (hs : Spec.Steady v g k p h) (T : ℚ)
    (hT : ∀ x ∈ Spec.readings h, x ≤ T) : Inv51 k p T (CSys.after v g h).mgr := by
  induction h using List.reverseRecOn generalizing T with
  | nil =>
    exact ⟨fun _ _ _ _ => rfl, fun _ h => (by cases h), List.nodup_nil, fun _ _ h => (by cases h), Heap.ordered_nil _,
      fun _ _ h => (by cases h), fun _ _ h => (by cases h)⟩
  | append_singleton h e ih =>
    have ih := ih hs.prefix
    have hT0 : ∀ x ∈ Spec.readings h, x ≤ T := by
      intro x hx; apply hT; unfold Spec.readings at hx ⊢; rw [List.flatMap_append]; exact List.mem_append_left _ hx
    have hTe : ∀ x ∈ e.times, x ≤ T := by
      intro x hx; apply hT; unfold Spec.readings; rw [List.flatMap_append]; exact List.mem_append_right _ (by simpa using hx)
    have hc := (CSys.Inv.after v g h)
    have hb := (CSys.CbInv.after v g h)
    have hown := fun j x => CSys.owned v g h j x
    rw [CSys.after_snoc]
    have hm := CSys.step_chg v (CSys.after v g h) e
    generalize hS : (CSys.after v g h).step v e = s' at hm
    cases hm
    case same hsame => rw [hsame]; exact ih T hT0
    case created j r pdu community timeout period t0 t1 draws chan hn =>
      have hdr : (CSys.after v g h).mgr.dead r = false := by
        cases hd : (CSys.after v g h).mgr.dead r with
        | false => rfl
        | true => have := hb.known r hd; rw [hn] at this; cases this
      by_cases hj : j = k
      · subst hj
        have hp := hs.period r pdu community timeout period t0 t1 draws chan (by simp)
        subst hp
        have hok := hs.returns h [] r pdu community timeout period t0 t1 draws chan rfl
        have hlate : ∀ x ∈ Spec.readings h, x ≤ t1 := fun x hx => hs.later hx (by simp [CEvent.times])
        exact ((ih t1 hlate).created (le_refl _) hn hdr hok).mono (hTe t1 (by simp [CEvent.times]))
      · simp only
        unfold CMgr.sendRequest
        simp only
        have hq1 : ((CReq.new j pdu community timeout period t0).setNextRefresh (t1 + period)).manager =
            (CReq.new j pdu community timeout period t0).manager := rfl
        refine Inv51.other (q := CReq.new j pdu community timeout period t0) ?_ ?_ hq1 hj
        rotate_left
        · show setAt _ r _ r = _
          rw [setAt_same]
        refine (ih T hT0).frame ?_ ?_ ?_ (fun _ h => h)
        · simp only
          rw [setAt_other _ _ (Ne.symm hj)]; rfl
        · intro r' q' hq' hk'
          refine ⟨?_, rfl⟩
          show setAt _ r _ r' = _
          rw [setAt_other]
          · exact hq'
          · rintro rfl; rw [hn] at hq'; cases hq'
        · intro r' q' hq' hk'
          have hq' : setAt (CSys.after v g h).mgr.reqs r _ r' = _ := hq'
          simp only [setAt_get] at hq'
          split at hq'
          · injection hq' with hq'; subst hq'; exact absurd hk' hj
          · exact hq'
    case closed r q o hq hcb ho heq ht =>
      rw [heq]
      exact (ih T hT0).setReq hq (q' := { q with callback := false }) rfl rfl rfl rfl rfl rfl rfl rfl id
    case popped t now draws chan j ref rest hbody hh hd heq =>
      rw [heq]
      by_cases hj : j = k
      · subst hj
        have hlate : ∀ x ∈ Spec.readings h, x ≤ now := fun x hx => hs.later hx (by simp [CEvent.times])
        exact ((ih now hlate).popped hh hd).mono (hTe now (by simp [CEvent.times]))
      · exact (ih T hT0).heaps rfl rfl rfl (setAt_other _ _ (Ne.symm hj))
    case resent t now draws chan j ref rest q m' hbody hh hd h1 h2 h3 h4 hsend heq =>
      rw [heq]
      by_cases hj : j = k
      · subst hj
        obtain ⟨r0, ht0, hk0⟩ := hbody
        obtain ⟨q0, hq0⟩ := CSys.inside_known v g h t r0 (.inr (.inr (.inl ht0)))
        have hch := hs.channel h [] t now draws chan r0 q0 rfl (.inr (.inr (.inl ht0))) hq0
          (by rw [← CMgr.managerOf_eq hq0]; exact hk0)
        subst hch
        have hlate : ∀ x ∈ Spec.readings h, x ≤ now := fun x hx => hs.later hx (by simp [CEvent.times])
        exact ((ih now hlate).resent hs.positive hh hd h3 hsend).mono (hTe now (by simp [CEvent.times]))
      · obtain ⟨hq, -⟩ := CMgr.deref_some hd
        obtain ⟨q', hq', hkj⟩ := hown j ref (by rw [hh]; exact List.mem_cons_self)
        rw [hq] at hq'; injection hq' with hq'; subst hq'
        have := (ih T hT0).other (v := v) (q1 := CMgr.resent q now) (draws := draws) (chan := chan) hq rfl
          (by rw [hkj]; exact hj)
        rw [hsend] at this
        exact this.heaps rfl rfl rfl (setAt_other _ _ (Ne.symm hj))
    case failed t now draws chan j ref rest q m' err hbody hh hd h1 h2 h3 h4 hsend heq =>
      obtain ⟨hq, hdd⟩ := CMgr.deref_some hd
      obtain ⟨qj, hqj, hkj⟩ := hown j ref (by rw [hh]; exact List.mem_cons_self)
      rw [hq] at hqj; injection hqj with hqj; subst hqj
      by_cases hj : j = k
      · subst hj
        exfalso
        obtain ⟨r0, ht0, hk0⟩ := hbody
        obtain ⟨q0, hq0⟩ := CSys.inside_known v g h t r0 (.inr (.inr (.inl ht0)))
        have hch := hs.channel h [] t now draws chan r0 q0 rfl (.inr (.inr (.inl ht0))) hq0
          (by rw [← CMgr.managerOf_eq hq0]; exact hk0)
        subst hch
        obtain ⟨w, hw⟩ := (ih T hT0).sent _ q hq hkj
        obtain ⟨q', hq', hz, henc⟩ := hc.mgr.sent _ w hw
        rw [hq] at hq'; injection hq' with hq'; subst hq'
        rcases CMgr.reallySend_full v (CSys.after v g h).mgr ref.id (CMgr.resent q now) draws none
          (fun hcb => by have := hc.mgr.callbackID hb hq hcb; exact this) with ⟨hz', -⟩ |
          ⟨id, cb, c, hk, ⟨e2, he2, hz'⟩ | ⟨w, -, -, hz'⟩⟩
        · exact hz hz'
        · rcases hk with ⟨k, -⟩ | ⟨-, k, -⟩
          · exact hz k
          · rcases he2 with he2 | he2
            · rw [k] at he2
              have := henc.symm.trans he2
              cases this
            · cases he2
        · rw [hz'] at hsend; cases hsend
      · rw [heq]
        have := (ih T hT0).other (v := v) (q1 := CMgr.resent q now) (draws := draws) (chan := chan) hq rfl
          (by rw [hkj]; exact hj)
        rw [hsend] at this
        exact this
    case heard w hr =>
      obtain ⟨f1, f2, f3, f4, -⟩ := CMgr.hear_frame v (CSys.after v g h).mgr w
      exact (ih T hT0).heaps f1 f4 f2 (by simp only; rw [f3])
    case pushed r m q hr hq =>
      exact (ih T hT0).setReq hq (q' := q.push m) rfl rfl rfl rfl rfl rfl rfl rfl (fun _ => rfl)
    case collected r =>
      simp only
      unfold CMgr.collect
      cases hd : (CSys.after v g h).mgr.deref r with
      | none => exact ih T hT0
      | some q =>
        obtain ⟨hq, -⟩ := CMgr.deref_some hd
        have hne := hs.kept h [] r q rfl hq
        simp only
        have key : ∀ m : CMgr, Inv51 k p T m → (∃ q', m.reqs r = some q' ∧ q'.manager = q.manager) →
            Inv51 k p T { m with dead := setAt m.dead r true } := by
          intro m hmi ⟨q', hq', hmq⟩
          refine hmi.frame rfl ?_ (fun _ _ h _ => h) (fun _ h => h)
          intro r' q1 hq1 hk1
          refine ⟨hq1, setAt_other _ _ ?_⟩
          rintro rfl
          rw [hq'] at hq1; injection hq1 with hq1; subst hq1
          exact hne (hmq.symm.trans hk1)
        split
        · rcases CMgr.close_cases (CSys.after v g h).mgr r q with ⟨kc, -⟩ | ⟨-, kc⟩
          · rw [kc]; exact key _ (ih T hT0) ⟨q, hq, rfl⟩
          · rw [kc]
            refine key _ ?_ ⟨_, setAt_same _ _ _, rfl⟩
            exact (ih T hT0).setReq hq (q' := { q with callback := false }) rfl rfl rfl rfl rfl rfl rfl rfl id
        · exact key _ (ih T hT0) ⟨q, hq, rfl⟩

/-- **C51** (v1/v2c), the part that holds: in a steady history, the request that `refresh` examines at `now` (the
first of the manager's heap) has the least refresh time of all requests of the manager that are unanswered and
unexpired; and there is one to examine if there is any such request. -/
theorem C51_partial (v : Version) (g k : Nat) (p : ℚ) (h : List CEvent) (hs : Spec.Steady v g k p h) (now : ℚ)
    (hnow : ∀ x ∈ Spec.readings h, x ≤ now) (r : Nat) (q : CReq) (hq : (CSys.after v g h).mgr.reqs r = some q)
    (hk : q.manager = k) (he : q.event = false) (hx : now < q.expiration) :
    ∃ ref rest q0, (CSys.after v g h).mgr.heaps k = ref :: rest ∧ (CSys.after v g h).mgr.reqs ref.id = some q0 ∧
      q0.nextRefresh ≤ q.nextRefresh := by
  have hi := Inv51.after hs now hnow
  rcases hi.pend r q hq hk he with ⟨x, hxm, hxr⟩ | k
  · cases hh : (CSys.after v g h).mgr.heaps k with
    | nil => rw [hh] at hxm; cases hxm
    | cons ref rest =>
      obtain ⟨q0, hq0, hk0⟩ := hi.known ref (by rw [hh]; simp)
      refine ⟨ref, rest, q0, rfl, hq0, ?_⟩
      have ho := hi.ordered
      rw [hh] at ho hxm
      obtain ⟨i, hil, rfl⟩ := List.mem_iff_getElem.1 hxm
      have := ho.head_le hil
      rw [Heap.val_of (a := ref) rfl, Heap.val_of (List.getElem?_eq_getElem hil),
        Heap.value_live (hi.env_some hq0 hk0), Heap.value_live (by rw [hxr]; exact hi.env_some hq hk)] at this
      exact this
  · exact absurd hx (not_lt.2 k)

/-- **C51** (v1/v2c), what the caller sees: in a steady history a thread that waits on a request of the manager
never sleeps beyond the refresh time of any unanswered and unexpired request of it, and never without a time limit while there is one. -/
theorem C51_partial_sleep (v : Version) (g k : Nat) (p : ℚ) (h : List CEvent) (hs : Spec.Steady v g k p h) (e : CEvent)
    (hs' : Spec.Steady v g k p (h ++ [e])) (t r0 : Nat) (d : Option ℚ) (since : ℚ)
    (h0 : (CSys.after v g h).threads t ≠ .sleep r0 d since)
    (h1 : (CSys.after v g (h ++ [e])).threads t = .sleep r0 d since) (r : Nat) (q : CReq)
    (hq : (CSys.after v g h).mgr.reqs r = some q) (hk : q.manager = k) (he : q.event = false)
    (hx : since < q.expiration) (q00 : CReq) (hq00 : (CSys.after v g h).mgr.reqs r0 = some q00) (hk0 : q00.manager = k) :
    ∃ limit, d = some limit ∧ since + limit ≤ q.nextRefresh := by
  rw [CSys.after_snoc] at h1
  rcases CSys.step_threads v (CSys.after v g h) e t with hst | ⟨r', -, -, hst⟩ | ⟨now, draws, chan, hev, hst⟩
  · rw [hst] at h1; exact absurd h1 h0
  · rw [hst] at h1; cases h1
  · rw [hst] at h1
    have hlate : ∀ x ∈ Spec.readings h, x ≤ now := fun x hx => hs'.later hx (by rw [hev]; simp [CEvent.times])
    unfold CSys.advance at h1
    split at h1
    · exact absurd h1 h0
    · exact absurd h1 h0
    · split at h1
      · exact absurd h1 h0
      · rename_i q1 _
        split at h1
        · obtain ⟨-, -, ⟨-, k⟩ | ⟨-, k⟩⟩ := CSys.finish_cases (CSys.after v g h) t _ q1 none <;>
            rw [k, setAt_same] at h1 <;> cases h1
        · simp only [setAt_same] at h1; cases h1
    · rename_i r1 ht
      split at h1
      · rename_i hnil
        simp only [setAt_same] at h1
        injection h1 with a b c; subst c
        obtain ⟨ref, rest, q0, hh, -⟩ := C51_partial v g k p h hs now hlate r q hq hk he hx
        subst a
        rw [CMgr.managerOf_eq hq00, hk0, hh] at hnil; cases hnil
      · simp only [setAt_same] at h1; cases h1
    · split at h1
      · simp only [setAt_same] at h1; cases h1
      · simp only [setAt_same] at h1; cases h1
      · rename_i d' m' hbody
        simp only [setAt_same] at h1
        injection h1 with a b c; subst a; subst b; subst c
        obtain ⟨ref, rest, q0, hh, hq0, hle⟩ := C51_partial v g k p h hs now hlate r q hq hk he hx
        refine ⟨d', rfl, ?_⟩
        have hbody := congrArg Prod.fst hbody
        unfold CMgr.refreshBody at hbody
        rw [CMgr.managerOf_eq hq00, hk0, hh] at hbody
        simp only at hbody
        split at hbody
        · cases hbody
        · rename_i q1 hd
          have := (CMgr.deref_some hd).1
          rw [hq0] at this; injection this with this; subst this
          rcases CMgr.refreshRequest_cases v (CSys.after v g h).mgr ref.id q0 now draws chan with ⟨k, -⟩ |
            ⟨k, -, k1⟩ | ⟨k, -⟩ | ⟨-, -, -, -, ⟨-, k⟩ | ⟨x, -, k⟩⟩
          · rw [k] at hbody; cases hbody
          · rw [k] at hbody; simp only at hbody
            rw [if_pos (by linarith)] at hbody
            injection hbody with hbody; injection hbody with hbody
            linarith
          · rw [k] at hbody; cases hbody
          · rw [k] at hbody; simp only [lt_self_iff_false, ↓reduceIte] at hbody
            injection hbody with hbody; cases hbody
          · rw [k] at hbody; cases hbody
    · split at h1
      · exact absurd h1 h0
      · rename_i q1 _
        split at h1
        · split at h1
          · simp only [setAt_same] at h1; cases h1
          · rename_i m _
            obtain ⟨-, -, ⟨-, k⟩ | ⟨-, k⟩⟩ := CSys.finish_cases (CSys.after v g h) t _ q1 (some m.pdu) <;>
              rw [k, setAt_same] at h1 <;> cases h1
        · split at h1
          · exact absurd h1 h0
          · split at h1
            · simp only [setAt_same] at h1; cases h1
            · exact absurd h1 h0

theorem split_at {α : Type} {h h1 h2 : List α} {e : α} (he : h = h1 ++ e :: h2) :
    ∃ n, n < h.length ∧ h1 = h.take n ∧ h[n]? = some e := by
  subst he
  exact ⟨h1.length, by simp, by simp, by simp⟩

/-- Non-vacuity of C51: two requests of manager 0 with the same refresh period and different timeouts, a
retransmission of the first and a sleep until the refresh time of the second. Meanwhile manager 1, which shares the
message processor, sends a request with another period; its retransmission fails, and its handle is collected. -/
theorem C51_example (v : Version) (hv : v = .v1 ∨ v = .v2c) :
    let h := [Spec.issue 0 10 2, .send 1 2 Spec.emptyGet [] 10 1 0 0 (fun _ => 3) none,
      .send 0 1 Spec.emptyGet [] 5 2 1 1 (fun _ => 2) none, .wait 0 1, .wait 1 2, Spec.tick 1 1, Spec.tick 1 1,
      .step 1 1 (fun _ => 1) (some .osError), .collect 2, Spec.tick 0 1, Spec.tick 0 1, Spec.tick 0 (5/2),
      Spec.tick 0 (5/2), Spec.tick 0 (5/2)]
    Spec.Steady v 1 0 2 h ∧ (CSys.after v 1 h).mgr.sent.map Prod.fst = [0, 1, 2, 0] ∧
    (CSys.after v 1 h).threads 0 = .sleep 1 (some (1/2)) (5/2) ∧
    (CSys.after v 1 h).threads 1 = .done 2 (.raised .osError) := by
  intro h
  have last : (CSys.after v 1 h).mgr.sent.map Prod.fst = [0, 1, 2, 0] ∧
      (CSys.after v 1 h).threads 0 = .sleep 1 (some (1/2)) (5/2) ∧
      (CSys.after v 1 h).threads 1 = .done 2 (.raised .osError) := by
    rcases hv with rfl | rfl <;> decide +kernel
  have mid : (CSys.after v 1 (h.take 7)).threads 1 = .body 2 ∧
      ((CSys.after v 1 (h.take 7)).mgr.reqs 2).map CReq.manager = some 1 ∧
      ((CSys.after v 1 (h.take 8)).mgr.reqs 2).map CReq.manager = some 1 := by
    rcases hv with rfl | rfl <;> decide +kernel
  refine ⟨⟨by norm_num, ?_, ?_, ?_, ?_, ?_⟩, last⟩
  · simp [h, Spec.readings, CEvent.times, Spec.issue, Spec.tick]
    norm_num
  · intro r pdu community timeout period t0 t1 draws chan hm
    simp [h, Spec.issue, Spec.tick] at hm
    rcases hm with ⟨-, -, -, -, rfl, -⟩ | ⟨-, -, -, -, rfl, -⟩ <;> rfl
  · intro h1 h2 r pdu community timeout period t0 t1 draws chan he
    obtain ⟨n, hn, rfl, hg⟩ := split_at he
    clear he mid last
    have hn : n < 14 := hn
    interval_cases n <;> simp [h, Spec.issue, Spec.tick] at hg
    · obtain ⟨rfl, rfl, rfl, rfl, rfl, rfl, rfl, rfl, rfl⟩ := hg
      rcases hv with rfl | rfl <;> decide +kernel
    · obtain ⟨rfl, rfl, rfl, rfl, rfl, rfl, rfl, rfl, rfl⟩ := hg
      rcases hv with rfl | rfl <;> decide +kernel
  · intro h1 h2 t now draws chan r q he hin hq hk
    obtain ⟨n, hn, rfl, hg⟩ := split_at he
    clear he last
    have hn : n < 14 := hn
    by_cases h7 : n = 7
    · exfalso
      subst h7
      simp [h] at hg
      obtain ⟨rfl, -⟩ := hg
      have hr : r = 2 := by
        rw [mid.1] at hin
        rcases hin with hin | hin | hin | ⟨_, _, hin⟩ <;> cases hin
        rfl
      subst hr
      have := mid.2.1
      rw [hq] at this
      simp [hk] at this
    · clear mid hin hq
      interval_cases n <;> simp [h, Spec.issue, Spec.tick] at hg h7
      all_goals exact hg.2.2.2.symm
  · intro h1 h2 r q he hq hk
    obtain ⟨n, hn, rfl, hg⟩ := split_at he
    clear he last
    have hn : n < 14 := hn
    by_cases h8 : n = 8
    · subst h8
      simp [h] at hg
      subst hg
      have := mid.2.2
      rw [hq] at this
      simp [hk] at this
    · clear mid hq
      interval_cases n <;> simp [h, Spec.issue, Spec.tick] at hg h8

end Snmp
