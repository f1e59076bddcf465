import Verif.Props.V3Kept
import Mathlib.Tactic.Linarith
/-!
# C70: the request of a v3 manager that is due first is serviced first
-/

namespace Snmp

variable {cfg : VCfg} {m0 : VMgr}

namespace Heap

/-- The list is in heap order, and the stored keys of a list of several items are current. -/
structure HeapOk (env : Env) (l : List Ref) : Prop where
  ordered : Ordered env l
  fresh : 2 ≤ l.length → ∀ x ∈ l, Fresh env x

theorem ordered_short (env : Env) {l : List Ref} (h : l.length < 2) : Ordered env l := by
  intro i h0 h1; omega

theorem HeapOk.short {env : Env} {l : List Ref} (h : l.length < 2) : HeapOk env l :=
  ⟨ordered_short env h, fun h' => by omega⟩

theorem Fresh.value {env : Env} {r : Ref} (h : Fresh env r) : value env r = r.key.stored := by
  unfold Heap.value WeakKey.value
  cases he : env r.id with
  | none => rfl
  | some k => exact (h k he).symm

theorem Fresh.env {env env' : Env} {r : Ref} (h : Fresh env r) (he : env' r.id = env r.id ∨ env' r.id = none) :
    Fresh env' r := by
  intro k hk
  rcases he with he | he
  · exact h k (by rw [← he]; exact hk)
  · rw [he] at hk; cases hk

/-- Some requests were collected. -/
theorem HeapOk.env {env env' : Env} {l : List Ref} (h : HeapOk env l)
    (he : ∀ x ∈ l, env' x.id = env x.id ∨ env' x.id = none) : HeapOk env' l := by
  by_cases hl : 2 ≤ l.length
  · have hf := h.fresh hl
    refine ⟨?_, fun _ x hx => (hf x hx).env (he x hx)⟩
    have hv : ∀ i, val env' l i = val env l i := by
      intro i
      cases hi : l[i]? with
      | none => unfold val; rw [hi]; rfl
      | some a =>
        rw [val_of hi, val_of hi]
        have ha := List.mem_of_getElem? hi
        rw [(hf a ha).value, ((hf a ha).env (he a ha)).value]
    intro i h0 h1 h2
    rw [hv, hv]
    exact h.ordered i h0 h1 h2
  · exact .short (by omega)

theorem push_fresh_one (env : Env) (a x : Ref) : ∀ y ∈ Heap.push env [a] x, Fresh env y := by
  have h1 : less env [a, x] 1 0 = ((less env [a, x] 1 0).1, [touch env a, touch env x]) := rfl
  unfold push siftdown
  simp only [List.singleton_append, List.length_singleton, Nat.lt_add_one, if_true, Nat.sub_self, Nat.zero_div]
  rw [h1]
  cases (less env [a, x] 1 0).1
  · intro y hy
    simp only [List.mem_cons, List.not_mem_nil, or_false] at hy
    rcases hy with rfl | rfl <;> exact touch_fresh _ _
  · intro y hy
    unfold siftdown at hy
    simp only [swap, Nat.lt_irrefl, if_false] at hy
    simp at hy
    rcases hy with rfl | rfl <;> exact touch_fresh _ _

theorem HeapOk.push {env : Env} {l : List Ref} (h : HeapOk env l) (x : Ref) : HeapOk env (push env l x) := by
  refine ⟨push_ordered env l x h.ordered, fun hl y hy => ?_⟩
  rw [(push_moved env l x).length] at hl
  simp only [List.length_append, List.length_singleton] at hl
  match l, hl, hy, h with
  | [], hl, _, _ => simp at hl
  | [a], _, hy, _ => exact push_fresh_one env a x y hy
  | a :: b :: l, _, hy, h =>
    rcases push_fresh env _ x (by simp) y hy with h1 | h1
    · exact h.fresh (by simp) y h1
    · exact h1

theorem HeapOk.pop {env : Env} {a : Ref} {l : List Ref} (h : HeapOk env (a :: l)) : HeapOk env (pop env (a :: l)) := by
  refine ⟨pop_ordered env _ (fun i h0 h1 h2 => h.ordered i h0 h1 (by omega)), fun hl y hy => ?_⟩
  rw [(pop_moved env a l).length] at hl
  rcases (pop_moved env a l).fresh y hy with h1 | h1
  · exact h.fresh (by simp; omega) y (List.mem_cons_of_mem _ h1)
  · exact h1

/-- The first request was resent. -/
theorem HeapOk.replace {env env' : Env} {a : Ref} {l : List Ref} (h : HeapOk env (a :: l))
    (he : ∀ x ∈ l, env' x.id = env x.id) : HeapOk env' (replace env' (a :: l) a) := by
  have hlen : (Heap.replace env' (a :: l) a).length = (a :: l).length := by
    unfold Heap.replace
    rw [(siftup_moved env' _ 0).length]; simp
  by_cases hl : l = []
  · subst hl
    exact .short (by rw [hlen]; simp)
  · have h2 : 2 ≤ (a :: l).length := by
      have := List.length_pos_iff.2 hl
      simp; omega
    have hf := h.fresh h2
    refine ⟨replace_ordered env' _ a ?_, fun _ y hy => ?_⟩
    · have hv : ∀ i, 0 < i → val env' (a :: l) i = val env (a :: l) i := by
        intro i hi
        cases hx : (a :: l)[i]? with
        | none => unfold val; rw [hx]; rfl
        | some b =>
          rw [val_of hx, val_of hx]
          obtain ⟨j, rfl⟩ : ∃ j, i = j + 1 := ⟨i - 1, by omega⟩
          have hb := List.mem_of_getElem? (l := l) (a := b) (by simpa using hx)
          unfold Heap.value
          rw [he b hb]
      intro i h0 h1 h2
      rw [hv _ (by omega), hv _ h0]
      exact h.ordered i h0 h1 (by omega)
    · obtain ⟨i, hi⟩ := List.mem_iff_getElem?.1 hy
      unfold Heap.replace at hi
      rcases siftup_freshAt env' ((a :: l).set 0 a) 0 (by rw [List.length_set]; omega) i y hi with h3 | ⟨h3, h0, -, -⟩
      · exact h3
      · rw [List.set_cons_zero] at h3
        obtain ⟨j, rfl⟩ : ∃ j, i = j + 1 := ⟨i - 1, by omega⟩
        have hb := List.mem_of_getElem? (l := l) (a := y) (by simpa using h3)
        exact (hf y (List.mem_cons_of_mem _ hb)).env (.inl (he y hb))

theorem HeapOk.heapify (env : Env) (l : List Ref) : HeapOk env (heapify env l) := by
  by_cases hl : 2 ≤ l.length
  · exact ⟨heapify_ordered env l, fun _ => heapify_fresh env l hl⟩
  · exact .short (by rw [(heapify_moved env l).length]; omega)

end Heap

namespace VSys

open VMgr Heap

theorem env_congr {m m' : VMgr} {r : Nat} (hd : m'.dead r = m.dead r)
    (hq : (m'.reqs r).map VReq.nextRefresh = (m.reqs r).map VReq.nextRefresh) : m'.env r = m.env r := by
  unfold VMgr.env; rw [hd, hq]

theorem closed_env (m : VMgr) (r : Nat) (q : VReq) (h : m.reqs r = some q) : (m.closed cfg r q).env = m.env := by
  funext r'
  refine env_congr rfl ?_
  unfold VMgr.closed
  simp only [setAt_get]
  split
  · rename_i hr; subst hr; rw [h]; rfl
  · rfl

theorem closing_env (m : VMgr) (r : Nat) : (m.closing cfg r).env = m.env := by
  unfold VMgr.closing
  cases h : m.reqs r with
  | none => rfl
  | some q => exact closed_env m r q h

theorem finish_env (s : VSys) (t r : Nat) (o : VOutcome) : (s.finish cfg t r o).mgr.env = s.mgr.env := by
  rw [finish_eq]; exact closing_env s.mgr r

theorem sends_env {m m' : VMgr} {r : Nat} {q : VReq} {engineID : Option Bytes} {cause : Why} {i : SendIn}
    {res : Res Unit} (h : VMgr.Sends cfg m r q engineID cause i res m') {r' : Nat} (hr : r' ≠ r) :
    m'.env r' = m.env r' := by
  obtain ⟨q2, h1, -⟩ := h.reqs
  exact env_congr (by rw [h.frame.dead]) (by rw [h1, setAt_other _ _ hr])

theorem HeapOk.same {m m' : VMgr} (h : HeapOk m.env m.active) (ha : m'.active = m.active)
    (he : ∀ x ∈ m.active, m'.env x.id = m.env x.id ∨ m'.env x.id = none) : HeapOk m'.env m'.active := by
  rw [ha]; exact h.env he

/-- No send of a scheduled request raised an exception. -/
def Undisturbed (m : VMgr) : Prop := ∀ r, Fail.refresh r ∉ m.fails ∧ Fail.report r ∉ m.fails

theorem heapOk_move {s s' : VSys} {e : VEvent} {held : List Ref} (hp : Placed s held)
    (h : HeapOk s.mgr.env s.mgr.active) (hm : Move cfg s e s') (hu : Undisturbed s'.mgr) :
    HeapOk s'.mgr.env s'.mgr.active := by
  have hnd : (ids s.mgr.active).Nodup := (List.nodup_append.1 hp.nodup).1
  have hlt : ∀ x ∈ s.mgr.active, x.id < s.mgr.nextReq := fun x hx =>
    hp.lt _ (List.mem_append_left _ (List.mem_map_of_mem hx))
  have hne : ∀ x ∈ s.mgr.active, ∀ y : Ref, y.id ∈ ids held ++ ids s.mgr.unsent → x.id ≠ y.id := fun x hx y hy =>
    (List.nodup_append.1 hp.nodup).2.2 _ (List.mem_map_of_mem hx) _ hy
  have same : ∀ {m' : VMgr}, m'.active = s.mgr.active →
      (∀ x ∈ s.mgr.active, m'.env x.id = s.mgr.env x.id ∨ m'.env x.id = none) → HeapOk m'.env m'.active :=
    fun ha he => HeapOk.same h ha he
  cases hm
  case queued pdu user level timeout period t0 r0 i q hq hl hd hs =>
    refine same rfl fun x hx => .inl (env_congr rfl ?_)
    simp only [VMgr.issue, setAt_other _ _ (Nat.ne_of_lt (hlt x hx))]
  case issued pdu user level timeout period t0 r0 i q hq hl hd next hs m' hm' =>
    have hok : HeapOk m'.env m'.active := by
      refine same (hm'.frame.active.trans (by simp only [propose_eq, VMgr.issue])) fun x hx => .inl ?_
      rw [sends_env hm' (Nat.ne_of_lt (hlt x hx))]
      refine env_congr (by simp only [propose_eq, VMgr.issue]) ?_
      simp only [propose_eq, VMgr.issue, setAt_other _ _ (Nat.ne_of_lt (hlt x hx))]
    simp only [updateState_eq]
    exact hok.push _
  case issueFailed pdu user level timeout period t0 r0 i q hq hl hd next hs m' err hm' =>
    refine same (hm'.frame.active.trans (by simp only [propose_eq, VMgr.issue])) fun x hx => .inl ?_
    show m'.env x.id = _
    rw [sends_env hm' (Nat.ne_of_lt (hlt x hx))]
    refine env_congr (by simp only [propose_eq, VMgr.issue]) ?_
    simp only [propose_eq, VMgr.issue, setAt_other _ _ (Nat.ne_of_lt (hlt x hx))]
  case bodyDead t i r x rest ht ha hx =>
    show HeapOk s.mgr.env (Heap.pop s.mgr.env s.mgr.active)
    rw [ha] at h ⊢
    exact h.pop
  case bodyOver t i r x rest q ht ha hx ho =>
    show HeapOk s.mgr.env (Heap.pop s.mgr.env s.mgr.active)
    rw [ha] at h ⊢
    exact h.pop
  case bodyZero t i r x rest q ht ha hx he hn hx' hz =>
    exfalso
    refine (hu x.id).1 ?_
    rw [(finish_frame cfg _ t r _).fails]
    exact List.mem_cons_self
  case bodySent t i r x rest q ht ha hx he hn hx' hz m' hm' =>
    show HeapOk m'.env (Heap.replace m'.env m'.active x)
    rw [hm'.frame.active, ha]
    rw [ha] at h hnd
    refine h.replace fun y hy => sends_env hm' fun hyx => ?_
    simp only [List.map_cons, List.nodup_cons] at hnd
    exact hnd.1 (by rw [← hyx]; exact List.mem_map_of_mem hy)
  case bodyFailed t i r x rest q ht ha hx he hn hx' hz m' err hm' =>
    exfalso
    refine (hu x.id).1 ?_
    rw [(finish_frame cfg _ t r _).fails]
    exact List.mem_cons_self
  case pokeBegin t i r ht hl =>
    simp only [updateState_eq, propose_eq]
    exact same (m' := { s.mgr with
      unsent := [], locked := true, next := none
      state := (s.mgr.state.onInactive <|> s.mgr.next).getD s.mgr.state }) rfl fun x hx => .inl rfl
  case pokeSent t i r l x a q ht hx next hs m' hm' =>
    have hheld := (hp.owner.poking ht).1
    have hok : HeapOk m'.env m'.active := by
      refine same (hm'.frame.active.trans (by simp only [propose_eq])) fun y hy => .inl ?_
      rw [sends_env hm' (hne y hy x (by rw [hheld]; simp))]
      exact env_congr (by simp only [propose_eq]) (by simp only [propose_eq])
    simp only [updateState_eq]
    exact hok.push _
  case pokeFailed t i r l x a q ht hx next hs m' err hm' =>
    have hheld := (hp.owner.poking ht).1
    refine same ?_ fun y hy => .inl ?_
    · rw [(finish_frame cfg _ t r _).active]
      exact hm'.frame.active.trans (by simp only [propose_eq])
    · rw [finish_env]
      show m'.env y.id = _
      rw [sends_env hm' (hne y hy x (by rw [hheld]; simp))]
      exact env_congr (by simp only [propose_eq]) (by simp only [propose_eq])
  case answered t i r q x ht hq he hx =>
    exact same (finish_frame cfg _ t r _).active fun y hy => .inl (by rw [finish_env])
  case reported t i r q ex ht hq he =>
    exact same (finish_frame cfg _ t r _).active fun y hy => .inl (by rw [finish_env])
  case timedOut t i r q ht hq he =>
    exact same (finish_frame cfg _ t r _).active fun y hy => .inl (by rw [finish_env])
  case reportFailed i m x r q cause sync hr hl all next hs m' err hm' =>
    exact absurd List.mem_cons_self (hu r).2
  case reportOne i m x r q cause sync hr hl next hs m' hm' =>
    exact HeapOk.heapify _ _
  case reportAll i m x r q cause sync hr hl next hs m' hm' =>
    simp only [updateState_eq]
    exact HeapOk.heapify m'.env _
  case excepted i m x msg q v rest e hl hmm hq hi hv hn1 hn2 he =>
    have hq := (VMgr.deref_some hq).2
    refine same rfl fun y hy => .inl (env_congr rfl ?_)
    simp only [VMgr.setReq, setAt_get]
    split
    · rename_i h1
      rw [h1, hq]
      simp only [VReq.processException]
      split <;> split <;> rfl
    · rfl
  case responseBad i m x msg q hl hmm hq hi hlk err m' hp' =>
    rcases processResponse_cases cfg s.mgr x i.seed with ⟨_, -, h'⟩ | ⟨_, _, _, -, -, h'⟩ | ⟨_, _, -, -, h'⟩ | ⟨-, h'⟩ <;>
      rw [hp'] at h' <;> cases h' <;> exact same rfl fun y hy => .inl rfl
  case responded i m x msg q hl hmm hq hi hlk m' hp' =>
    have hq := (VMgr.deref_some hq).2
    have hs : ∀ m'' : VMgr, m''.active = s.mgr.active → m''.reqs = s.mgr.reqs → m''.dead = s.mgr.dead →
        HeapOk (m''.setReq msg.request (q.store x)).env (m''.setReq msg.request (q.store x)).active := by
      intro m'' h1 h2 h3
      refine same h1 fun y hy => .inl (env_congr (by simp only [VMgr.setReq, h3]) ?_)
      simp only [VMgr.setReq, setAt_get, h2]
      split
      · rename_i h4
        rw [h4, hq]
        simp only [VReq.store]
        split <;> rfl
      · rfl
    rcases processResponse_cases cfg s.mgr x i.seed with ⟨_, -, h'⟩ | ⟨_, _, _, -, -, h'⟩ | ⟨_, _, -, -, h'⟩ | ⟨-, h'⟩ <;>
      rw [hp'] at h' <;> cases h' <;> exact hs _ rfl rfl rfl
  case flushSent i r eid sync l x q hl hun hx m' hm' =>
    have hok : HeapOk m'.env m'.active := by
      refine same hm'.frame.active fun y hy => .inl ?_
      rw [sends_env hm' (hne y hy x (by rw [hun]; simp))]
      exact env_congr rfl rfl
    exact hok.push _
  case flushFailed i r eid sync l x q hl hun hx m' err hm' =>
    refine same (m' := { m'.fail (.flush x.id) with locked := false }) hm'.frame.active fun y hy => .inl ?_
    show m'.env y.id = _
    rw [sends_env hm' (hne y hy x (by rw [hun]; simp))]
    exact env_congr rfl rfl
  case synced i r q hl hq =>
    refine same rfl fun y hy => .inl (env_congr rfl ?_)
    simp only [setAt_get]
    split
    · rename_i h1; rw [h1, hq]; rfl
    · rfl
  case collected r q hq =>
    have hq := (VMgr.deref_some hq).2
    refine same rfl fun y hy => ?_
    by_cases hy' : y.id = r
    · right
      unfold VMgr.env
      simp only [hy', setAt_same, if_true]
    · left
      rw [← closed_env (cfg := cfg) s.mgr r q hq]
      exact env_congr (by simp only [setAt_other _ _ hy']; rfl) rfl
  all_goals exact same rfl fun y hy => .inl rfl

theorem Undisturbed.before {s s' : VSys} {e : VEvent} {held : List Ref} (ho : Owner s held) (hm : Move cfg s e s')
    (hu : Undisturbed s'.mgr) : Undisturbed s.mgr := fun r =>
  ⟨fun h => (hu r).1 ((move_flow ho hm).1 _ h), fun h => (hu r).2 ((move_flow ho hm).1 _ h)⟩

end VSys

open VSys

theorem Spec.Created.heapOk (hc : Spec.Created cfg m0) (h : List VEvent) (hu : Undisturbed (after cfg m0 h).mgr) :
    Heap.HeapOk (after cfg m0 h).mgr.env (after cfg m0 h).mgr.active := by
  induction h using List.reverseRecOn with
  | nil =>
    obtain ⟨hok, h0, engineID, g, c0, n0, seed, hu0, hm⟩ := hc
    obtain ⟨usm, hcc, hm0⟩ := VMgr.create_ok hm
    show Heap.HeapOk m0.env m0.active
    refine .short ?_
    rw [hm0]; simp
  | append_singleton h e ih =>
    rw [after_snoc] at hu ⊢
    rcases step_move cfg (after cfg m0 h) e with hm | hm
    · rw [hm] at hu ⊢
      exact ih hu
    · obtain ⟨held, hp, -⟩ := hc.kept h
      exact heapOk_move hp (ih (hu.before hp.owner hm)) hm hu

/-! ## C70 -/

/-- The request that a thread in `refresh` examines next. -/
def Spec.Examined (s : VSys) (r : Nat) : Prop := ∃ x, s.mgr.active.head? = some x ∧ x.id = r

/-- C70, what is true of the code: as long as no send of a scheduled request (a timed resend, or a resend because of
a report) raised an exception, `refresh` examines a request whose refresh time is least among the scheduled requests
that are alive. Missing: the histories in which such a send raised (`C70_false`). -/
theorem C70_partial (hc : Spec.Created cfg m0) (h : List VEvent)
    (hf : ∀ r, Fail.refresh r ∉ (after cfg m0 h).mgr.fails ∧ Fail.report r ∉ (after cfg m0 h).mgr.fails)
    (r : Nat) (hr : Spec.Examined (after cfg m0 h) r) (q : VReq) (hq : (after cfg m0 h).mgr.deref r = some q)
    (r' : Nat) (hr' : Spec.Scheduled (after cfg m0 h) r') (q' : VReq) (hq' : (after cfg m0 h).mgr.deref r' = some q') :
    q.nextRefresh ≤ q'.nextRefresh := by
  have hok := hc.heapOk h hf
  obtain ⟨x, hx, rfl⟩ := hr
  obtain ⟨y, hy, rfl⟩ := hr'
  obtain ⟨rest, ha⟩ : ∃ rest, (after cfg m0 h).mgr.active = x :: rest := by
    cases hl : (after cfg m0 h).mgr.active with
    | nil => rw [hl] at hx; cases hx
    | cons a rest => rw [hl] at hx; injection hx with hx; subst hx; exact ⟨rest, rfl⟩
  have := hok.ordered.head_min ha hy
  have ev : ∀ {z : Ref} {p : VReq}, (after cfg m0 h).mgr.deref z.id = some p →
      Heap.value (after cfg m0 h).mgr.env z = p.nextRefresh := by
    intro z p hz
    obtain ⟨h1, h2⟩ := VMgr.deref_some hz
    refine Heap.value_live ?_
    unfold VMgr.env
    rw [h1, h2]; rfl
  rw [ev hq, ev hq'] at this
  exact this

/-- C70: if the item examined refers to a collected request, exactly that item is dropped, and the thread goes on
to examine the next one. -/
theorem C70_dead (hc : Spec.Created cfg m0) (h : List VEvent)
    (t r : Nat) (i : SendIn) (ht : (after cfg m0 h).threads t = .body r)
    (r0 : Nat) (hr0 : Spec.Examined (after cfg m0 h) r0) (hd : (after cfg m0 h).mgr.deref r0 = none) :
    (after cfg m0 (h ++ [.step t i])).threads t = .body r ∧
    (∀ r', Spec.Scheduled (after cfg m0 (h ++ [.step t i])) r' ↔ Spec.Scheduled (after cfg m0 h) r' ∧ r' ≠ r0) := by
  obtain ⟨x, hx, rfl⟩ := hr0
  obtain ⟨rest, ha⟩ : ∃ rest, (after cfg m0 h).mgr.active = x :: rest := by
    cases hl : (after cfg m0 h).mgr.active with
    | nil => rw [hl] at hx; cases hx
    | cons a rest => rw [hl] at hx; injection hx with hx; subst hx; exact ⟨rest, rfl⟩
  have hst : after cfg m0 (h ++ [.step t i]) =
      { after cfg m0 h with
        mgr := { (after cfg m0 h).mgr with active := Heap.pop (after cfg m0 h).mgr.env (after cfg m0 h).mgr.active }
        threads := setAt (after cfg m0 h).threads t (.body r) } := by
    rw [after_snoc]
    unfold step advance
    simp only [ht, VMgr.refreshBody, ha, hd]
    rfl
  rw [hst]
  refine ⟨setAt_same _ _ _, fun r' => ?_⟩
  obtain ⟨held, hp, -⟩ := hc.kept h
  have hnd : (ids (after cfg m0 h).mgr.active).Nodup := (List.nodup_append.1 hp.nodup).1
  rw [ha] at hnd
  simp only [List.map_cons, List.nodup_cons] at hnd
  have hperm := pop_ids (after cfg m0 h).mgr.env x rest
  have key : ∀ l : List Ref, (∃ y ∈ l, y.id = r') ↔ r' ∈ ids l := by
    intro l; simp
  unfold Spec.Scheduled
  simp only [key]
  rw [ha, hperm.mem_iff]
  simp only [List.map_cons, List.mem_cons]
  constructor
  · intro h1
    exact ⟨.inr h1, fun h2 => hnd.1 (h2 ▸ h1)⟩
  · rintro ⟨h1 | h1, h2⟩
    · exact absurd h1 h2
    · exact h1

/-- C70: under the same condition, a thread that examined the schedule goes to sleep no longer than until the
earliest refresh time of the scheduled requests that are alive. -/
theorem C70_sleep_partial (hc : Spec.Created cfg m0) (h : List VEvent)
    (hf : ∀ r, Fail.refresh r ∉ (after cfg m0 h).mgr.fails ∧ Fail.report r ∉ (after cfg m0 h).mgr.fails)
    (t r : Nat) (i : SendIn) (ht : (after cfg m0 h).threads t = .body r) (timeout since : ℚ)
    (hs : (after cfg m0 (h ++ [.step t i])).threads t = .sleep r timeout since)
    (r' : Nat) (hr' : Spec.Scheduled (after cfg m0 h) r') (q' : VReq) (hq' : (after cfg m0 h).mgr.deref r' = some q') :
    since = i.now ∧ since + timeout ≤ q'.nextRefresh := by
  rw [after_snoc] at hs
  rcases step_move cfg (after cfg m0 h) (.step t i) with hm | hm
  · rw [hm, ht] at hs; cases hs
  · generalize hs' : (after cfg m0 h).step cfg (.step t i) = s' at hs hm
    generalize he' : VEvent.step t i = e at hm
    clear hs'
    cases hm <;> try (exfalso; cases he'; done)
    case bodyWait t1 i1 r0 x rest q ht' ha hx he hn =>
      cases he'
      rw [ht] at ht'
      injection ht' with ht'
      subst ht'
      simp only [goto, setAt_same] at hs
      injection hs with _ h1 h2
      have hmin := C70_partial hc h hf x.id ⟨x, by rw [ha]; rfl, rfl⟩ q hx r' hr' q' hq'
      refine ⟨h2.symm, ?_⟩
      rw [← h1, ← h2]
      linarith
    all_goals
      cases he'
      exfalso
      first
        | (rename_i h0 _; rw [ht] at h0; cases h0; done)
        | (clear hs; simp_all; done)
        | (simp only [finish_eq, goto, setAt_same] at hs; cases hs)

end Snmp
