import Verif.GenericLoop
import Verif.Props.Transport
/-!
# C105: starting and stopping the listening thread, with the generic multiplexor
-/

namespace Snmp

/-- No read in this event raises, and what it brings to the stop channel comes from somebody else. -/
def Spec.Untroubled (w : Address) : GEvent → Prop
  | .round ready _ => ∀ x ∈ ready, ∃ y, x.2 = .ok y
  | .stray read => ∃ a d, read = .ok (a, d) ∧ a ≠ w
  | _ => True

/-- Only datagrams of others. -/
def Spec.Strays (w : Address) (queue : List Read) : Prop := ∀ x ∈ queue, ∃ a d, x = .ok (a, d) ∧ a ≠ w

/-- Reading some watched sockets. -/
theorem genericRound_watched {sockets : List Fd} (r : Fd) (w : Address) {round : List (Fd × Read)}
    (hok : ∀ x ∈ round, ∃ y, x.2 = .ok y) (hin : ∀ x ∈ round, x.1 ∈ sockets) (rest : List (Fd × Read))
    (done : Bool) (heard : List (Fd × Address × Bytes)) :
    genericRound sockets r w (round ++ rest) done heard =
      genericRound sockets r w rest done (heard ++ Spec.datagrams sockets round) := by
  induction round generalizing heard with
  | nil => simp [Spec.datagrams]
  | cons x round ih =>
    obtain ⟨fd, read⟩ := x
    obtain ⟨⟨a, d⟩, h⟩ := hok _ (List.mem_cons_self ..)
    have h1 : fd ∈ sockets := hin _ (List.mem_cons_self ..)
    simp only at h
    subst h
    rw [List.cons_append, genericRound, if_pos h1]
    rw [ih (fun x hx => hok x (List.mem_cons_of_mem _ hx)) (fun x hx => hin x (List.mem_cons_of_mem _ hx))]
    simp [Spec.datagrams, h1]

namespace GSys

/-- What one round of the listening thread does if no read raises. -/
theorem step_round (w : Address) (s : GSys) (ready : List (Fd × Read)) (pos : Nat)
    (hok : ∀ x ∈ ready, ∃ y, x.2 = .ok y) {watched : List Fd} (hr : rFd ∉ watched)
    (ht : s.thread = .running watched) :
    s.step w (.round ready pos) =
      match s.queue with
      | [] => { s with heard := s.heard ++ Spec.datagrams watched ready }
      | .error _ :: _ => s.step w (.round ready pos)
      | .ok (a, d) :: q =>
        { s with
          heard := s.heard ++ Spec.datagrams watched ready
          queue := q
          thread := if a = w ∧ d.take 1 = [0] then .ended else .running watched } := by
  have hfil : Spec.datagrams watched (ready.filter fun x => decide (x.1 ∈ watched)) =
      Spec.datagrams watched ready := by
    unfold Spec.datagrams
    rw [List.filterMap_filter]
    congr 1
    funext x
    obtain ⟨fd, read⟩ := x
    by_cases h : fd ∈ watched
    · simp [h]
    · rcases read with e | ⟨a, d⟩ <;> simp [h]
  have hok' : ∀ x ∈ ready.filter (fun x => decide (x.1 ∈ watched)), ∃ y, x.2 = .ok y :=
    fun x hx => hok x (List.mem_filter.1 hx).1
  have hin : ∀ x ∈ ready.filter (fun x => decide (x.1 ∈ watched)), x.1 ∈ watched :=
    fun x hx => by simpa using (List.mem_filter.1 hx).2
  rcases hq : s.queue with _ | ⟨x, q⟩
  · unfold step
    simp only [ht, hq]
    generalize ready.filter (fun x => decide (x.1 ∈ watched)) = rd at *
    have h1 := genericRound_watched rFd w hok' hin [] false s.heard
    rw [List.append_nil] at h1
    rw [h1, genericRound, hfil]
    simp
  · rcases x with e | ⟨a, d⟩
    · rfl
    · unfold step
      simp only [ht, hq]
      generalize ready.filter (fun x => decide (x.1 ∈ watched)) = rd at *
      have hok1 : ∀ x ∈ rd.take pos, ∃ y, x.2 = .ok y := fun x hx => hok' x (List.mem_of_mem_take hx)
      have hok2 : ∀ x ∈ rd.drop pos, ∃ y, x.2 = .ok y := fun x hx => hok' x (List.mem_of_mem_drop hx)
      have h1 := genericRound_watched rFd w hok1 (fun x hx => hin x (List.mem_of_mem_take hx))
        ((rFd, .ok (a, d)) :: rd.drop pos) false s.heard
      have h2 := genericRound_watched rFd w hok2 (fun x hx => hin x (List.mem_of_mem_drop hx)) []
        (decide (a = w) && decide (d.take 1 = [0])) (s.heard ++ Spec.datagrams watched (rd.take pos))
      rw [List.append_nil] at h2
      have hall : ((rd.take pos ++ (rFd, (.ok (a, d) : Read)) :: rd.drop pos).take pos).all
          (fun x => x.2.isOk) = true := by
        rw [List.all_eq_true]
        intro x hx
        rcases List.mem_append.1 (List.mem_of_mem_take hx) with hx | hx
        · obtain ⟨y, hy⟩ := hok1 x hx
          rw [hy]; rfl
        · rcases List.mem_cons.1 hx with rfl | hx
          · rfl
          · obtain ⟨y, hy⟩ := hok2 x hx
            rw [hy]; rfl
      rw [h1, genericRound, if_neg hr, if_pos rfl]
      rw [h2, genericRound]
      simp only [hall, ↓reduceIte, List.tail_cons]
      have hd : s.heard ++ Spec.datagrams watched (rd.take pos) ++ Spec.datagrams watched (rd.drop pos) =
          s.heard ++ Spec.datagrams watched ready := by
        rw [List.append_assoc, ← hfil]
        congr 1
        unfold Spec.datagrams
        rw [← List.filterMap_append, List.take_append_drop]
      rw [hd]
      by_cases hc : a = w ∧ d.take 1 = [0]
      · rw [if_pos hc]
        simp [hc.1, hc.2]
      · rw [if_neg hc]
        have : (decide (a = w) && decide (d.take 1 = [0])) = false := by
          rw [Bool.eq_false_iff]
          simpa using hc
        rw [this]

/-- What holds as long as nothing troubles the listening thread. -/
structure Inv (w : Address) (s : GSys) : Prop where
  fd : rFd ∉ s.sockets
  arg : ∀ sock, s.main = .connecting sock → sock ≠ rFd
  shut : s.closed = true → s.main = .outside ∧ s.sockets ≠ [] ∧ (s.thread = .absent ∨ s.thread = .ended)
  outside : s.closed = false → s.main = .outside → Spec.Strays w s.queue ∧
    ((s.thread = .absent ∧ s.sockets = []) ∨ (s.thread = .running s.sockets ∧ s.sockets ≠ []))
  inside : s.main ≠ .outside → s.sockets ≠ [] ∧
    ((s.thread = .running s.sockets ∧ ∃ q1 q2, s.queue = q1 ++ .ok (w, [0]) :: q2 ∧
        Spec.Strays w q1 ∧ Spec.Strays w q2) ∨
      (s.thread = .ended ∧ Spec.Strays w s.queue))

theorem inv_init (w : Address) : init.Inv w :=
  ⟨by simp [init], by simp [init], by simp [init], by simp [init, Spec.Strays], by simp [init]⟩

theorem start_sockets (s : GSys) (sock : Fd) :
    sock ∈ (s.start sock).sockets ∧ (∀ x ∈ s.sockets, x ∈ (s.start sock).sockets) ∧
    ∀ x ∈ (s.start sock).sockets, x = sock ∨ x ∈ s.sockets := by
  unfold start
  simp only
  split
  · exact ⟨by assumption, fun x hx => hx, fun x hx => .inr hx⟩
  · exact ⟨by simp, fun x hx => by simp [hx], fun x hx => by simpa [or_comm] using hx⟩

theorem inv_start {w : Address} {s : GSys} (sock : Fd) (hs : sock ≠ rFd) (hf : rFd ∉ s.sockets)
    (hq : s.closed = false → Spec.Strays w s.queue) : (s.start sock).Inv w := by
  obtain ⟨h1, h2, h3⟩ := s.start_sockets sock
  have hne : (s.start sock).sockets ≠ [] := List.ne_nil_of_mem h1
  have hth : (s.start sock).thread = if s.closed then .ended else .running (s.start sock).sockets := rfl
  have hcl : (s.start sock).closed = s.closed := rfl
  refine ⟨?_, by simp [start], fun h => ⟨rfl, hne, .inr ?_⟩, fun h _ => ⟨hq h, .inr ⟨?_, hne⟩⟩, by simp [start]⟩
  · intro h
    rcases h3 _ h with h | h
    · exact hs h.symm
    · exact hf h
  · rw [hth, ← hcl, h]; rfl
  · rw [hth, ← hcl, h]; rfl

theorem inv_close {w : Address} {s : GSys} (hf : rFd ∉ s.sockets)
    (hq : s.sockets = [] → s.closed = false ∧ Spec.Strays w s.queue) : s.close.Inv w := by
  refine ⟨hf, by simp [close], fun h => ⟨rfl, ?_, .inl rfl⟩, fun h _ => ?_, by simp [close]⟩
  · intro hs
    have : s.sockets = [] := hs
    have h' : (s.closed || !s.sockets.isEmpty) = true := h
    rw [this, (hq this).1] at h'
    simp at h'
  · have h' : (s.closed || !s.sockets.isEmpty) = false := h
    have hs : s.sockets = [] := by simpa using (Bool.or_eq_false_iff.1 h').2
    exact ⟨(hq hs).2, .inl ⟨rfl, hs⟩⟩

/-- The thread watches what is registered. -/
theorem Inv.watched {w : Address} {s : GSys} (hi : s.Inv w) {watched : List Fd}
    (ht : s.thread = .running watched) : watched = s.sockets ∧ s.closed = false := by
  have hc : s.closed = false := by
    rcases hc : s.closed with _ | _
    · rfl
    · rcases (hi.shut hc).2.2 with h | h <;> rw [h] at ht <;> cases ht
  refine ⟨?_, hc⟩
  by_cases hm : s.main = .outside
  · obtain ⟨-, h5⟩ := hi.outside hc hm
    rcases h5 with ⟨h5, -⟩ | ⟨h5, -⟩ <;> rw [ht] at h5 <;> cases h5; rfl
  · obtain ⟨-, h5⟩ := hi.inside hm
    rcases h5 with ⟨h5, -⟩ | ⟨h5, -⟩ <;> rw [ht] at h5 <;> cases h5; rfl

theorem Inv.closed_inside {w : Address} {s : GSys} (hi : s.Inv w) (hm : s.main ≠ .outside) :
    s.closed = false := by
  rcases hc : s.closed with _ | _
  · rfl
  · exact absurd (hi.shut hc).1 hm

theorem strays_snoc {w : Address} {q : List Read} (hq : Spec.Strays w q) {read : Read}
    (h : ∃ a d, read = .ok (a, d) ∧ a ≠ w) : Spec.Strays w (q ++ [read]) := by
  intro x hx
  rcases List.mem_append.1 hx with hx | hx
  · exact hq x hx
  · obtain rfl : x = read := by simpa using hx
    exact h

theorem inv_stop {w : Address} {s : GSys} (hi : s.Inv w) (hm : s.main = .outside)
    (ht : s.thread ≠ .absent) {main : LMain} (hmain : main ≠ .outside)
    (harg : ∀ sock, main = .connecting sock → sock ≠ rFd) : (s.stop w main).Inv w := by
  unfold stop
  split
  · rename_i hc
    exact ⟨hi.fd, hi.arg, hi.shut, hi.outside, hi.inside⟩
  · rename_i hc
    have hc' : s.closed = false := by simpa using hc
    obtain ⟨h1, h2⟩ := hi.outside hc' hm
    rcases h2 with ⟨h2, -⟩ | ⟨h2, h3⟩
    · exact absurd h2 ht
    · exact ⟨hi.fd, harg, fun h => absurd h (by simp [hc']), fun _ h => absurd h hmain,
        fun _ => ⟨h3, .inl ⟨h2, _, [], rfl, h1, by simp [Spec.Strays]⟩⟩⟩

theorem inv_step {w : Address} {s : GSys} (hi : s.Inv w) {e : GEvent} (hq : Spec.Untroubled w e) :
    (s.step w e).Inv w := by
  cases e with
  | connect sock =>
    unfold step
    simp only
    split
    · rename_i hc
      split
      · rename_i ht
        exact inv_start sock hc.2 hi.fd fun h => (hi.outside h hc.1).1
      · rename_i ht
        exact inv_stop hi hc.1 ht (by simp) (by intro x hx; cases hx; exact hc.2)
    · exact hi
  | shutdown =>
    unfold step
    simp only
    split
    · rename_i hm
      split
      · refine inv_close hi.fd fun hs => ?_
        have hc : s.closed = false := by
          rcases hc : s.closed with _ | _
          · rfl
          · exact absurd hs (hi.shut hc).2.1
        exact ⟨hc, (hi.outside hc hm).1⟩
      · rename_i ht
        exact inv_stop hi hm ht (by simp) (by simp)
    · exact hi
  | joined =>
    unfold step
    simp only
    split
    · exact hi
    · rename_i hnr
      split
      · exact hi
      · rename_i sock hm
        have hm' : s.main ≠ .outside := by rw [hm]; simp
        obtain ⟨h1, h2⟩ := hi.inside hm'
        rcases h2 with ⟨h2, -⟩ | ⟨-, h2⟩
        · exact absurd h2 (hnr _)
        · exact inv_start sock (hi.arg sock hm) hi.fd fun _ => h2
      · rename_i hm
        have hm' : s.main ≠ .outside := by rw [hm]; simp
        exact inv_close hi.fd fun hs => absurd hs (hi.inside hm').1
  | stray read =>
    unfold step
    simp only
    split
    · exact hi
    · rename_i hc
      push Not at hc
      have hc' : s.closed = false := by simpa using hc.2
      refine ⟨hi.fd, hi.arg, fun h => absurd h (by simp [hc']), fun h1 h2 => ?_, fun hm => ?_⟩
      · obtain ⟨h3, h4⟩ := hi.outside h1 h2
        exact ⟨strays_snoc h3 hq, h4⟩
      · obtain ⟨h1, h2⟩ := hi.inside hm
        refine ⟨h1, ?_⟩
        rcases h2 with ⟨h2, q1, q2, h3, h4, h5⟩ | ⟨h2, h3⟩
        · exact .inl ⟨h2, q1, q2 ++ [read], by simp [h3], h4, strays_snoc h5 hq⟩
        · exact .inr ⟨h2, strays_snoc h3 hq⟩
  | round ready pos =>
    rcases ht : s.thread with _ | watched | _
    · have : s.step w (.round ready pos) = s := by unfold step; simp [ht]
      rw [this]; exact hi
    · obtain ⟨rfl, hc⟩ := hi.watched ht
      have hs := step_round w s ready pos hq hi.fd ht
      by_cases hm : s.main = .outside
      · obtain ⟨h1, h2⟩ := hi.outside hc hm
        have h2' : s.sockets ≠ [] := by
          rcases h2 with ⟨h2, -⟩ | ⟨-, h2⟩
          · rw [ht] at h2; cases h2
          · exact h2
        rcases hqq : s.queue with _ | ⟨x, q⟩
        · rw [hqq] at hs
          simp only at hs
          rw [hs]
          exact ⟨hi.fd, hi.arg, hi.shut, fun h1 h2 => ⟨by simp [Spec.Strays], (hi.outside h1 h2).2⟩,
            fun h => absurd hm h⟩
        · rw [hqq] at h1
          obtain ⟨a, d, rfl, ha⟩ := h1 x (List.mem_cons_self ..)
          rw [hqq] at hs
          simp only [ha, false_and, ↓reduceIte] at hs
          rw [hs]
          exact ⟨hi.fd, hi.arg, fun h => absurd h (by simp [hc]),
            fun _ _ => ⟨fun y hy => h1 y (List.mem_cons_of_mem _ hy), .inr ⟨rfl, h2'⟩⟩, fun h => absurd hm h⟩
      · obtain ⟨h1, h2⟩ := hi.inside hm
        rcases h2 with ⟨-, q1, q2, h3, h4, h5⟩ | ⟨h2, -⟩
        · rcases q1 with _ | ⟨x, q1⟩
          · rw [h3] at hs
            simp only [List.nil_append, true_and, List.take_one, List.head?_cons, Option.toList_some,
              ↓reduceIte] at hs
            rw [hs]
            exact ⟨hi.fd, hi.arg, fun h => absurd h (by simp [hc]), fun _ h => absurd h hm,
              fun _ => ⟨h1, .inr ⟨rfl, h5⟩⟩⟩
          · obtain ⟨a, d, rfl, ha⟩ := h4 x (List.mem_cons_self ..)
            rw [h3] at hs
            simp only [List.cons_append, ha, false_and, ↓reduceIte] at hs
            rw [hs]
            exact ⟨hi.fd, hi.arg, fun h => absurd h (by simp [hc]), fun _ h => absurd h hm,
              fun _ => ⟨h1, .inl ⟨rfl, q1, q2, rfl, fun y hy => h4 y (List.mem_cons_of_mem _ hy), h5⟩⟩⟩
        · rw [ht] at h2; cases h2
    · have : s.step w (.round ready pos) = s := by unfold step; simp [ht]
      rw [this]; exact hi

theorem inv_run {w : Address} {h : List GEvent} (hq : ∀ e ∈ h, Spec.Untroubled w e) :
    (init.run w h).Inv w := by
  unfold run
  suffices ∀ s : GSys, s.Inv w → (h.foldl (step w) s).Inv w from this _ (inv_init w)
  induction h with
  | nil => exact fun s hs => hs
  | cons e h ih =>
    intro s hs
    exact ih (fun x hx => hq x (List.mem_cons_of_mem _ hx)) _ (inv_step hs (hq e (List.mem_cons_self ..)))

end GSys

open GSys in
/-- **C105**, if no read raises: outside of `connectTransport` and `shutdown`, as long as nothing was closed,
either there was no transport yet, or a thread is in its loop and watches every registered socket: no datagram
that others send to the stop channel ends it. -/
theorem C105_partial (w : Address) (h : List GEvent) (hq : ∀ e ∈ h, Spec.Untroubled w e)
    (hm : (init.run w h).main = .outside) (hc : (init.run w h).closed = false) :
    let s := init.run w h
    (s.thread = .absent ∧ s.sockets = []) ∨ (s.thread = .running s.sockets ∧ s.sockets ≠ []) :=
  ((inv_run hq).outside hc hm).2

open GSys in
/-- **C105**: a round of the listening thread hears exactly the datagrams that are there, and outside of the two
calls it goes on. -/
theorem C105_round_partial (w : Address) (h : List GEvent) (hq : ∀ e ∈ h, Spec.Untroubled w e)
    (ready : List (Fd × Read)) (pos : Nat) (hr : ∀ x ∈ ready, ∃ y, x.2 = .ok y) (watched : List Fd)
    (ht : (init.run w h).thread = .running watched) :
    let s := init.run w h
    let s' := init.run w (h ++ [.round ready pos])
    s'.heard = s.heard ++ Spec.datagrams s.sockets ready ∧
    (s.main = .outside → s'.thread = .running s.sockets) := by
  intro s s'
  have hs' : s' = s.step w (.round ready pos) := by simp [s', s, run, List.foldl_append]
  have hi : s.Inv w := inv_run hq
  obtain ⟨rfl, hc⟩ := hi.watched ht
  have hs := step_round w s ready pos hr hi.fd ht
  rw [hs']
  have hqs : ∀ x ∈ s.queue, ∃ y, x = .ok y := by
    by_cases hm : s.main = .outside
    · intro x hx
      obtain ⟨a, d, rfl, -⟩ := (hi.outside hc hm).1 x hx
      exact ⟨_, rfl⟩
    · obtain ⟨-, h2⟩ := hi.inside hm
      rcases h2 with ⟨-, q1, q2, h3, h4, h5⟩ | ⟨h2, -⟩
      · intro x hx
        rw [h3] at hx
        rcases List.mem_append.1 hx with hx | hx
        · obtain ⟨a, d, rfl, -⟩ := h4 x hx
          exact ⟨_, rfl⟩
        · rcases List.mem_cons.1 hx with rfl | hx
          · exact ⟨_, rfl⟩
          · obtain ⟨a, d, rfl, -⟩ := h5 x hx
            exact ⟨_, rfl⟩
      · rw [show s.thread = _ from ht] at h2; cases h2
  have hi' : (s.step w (.round ready pos)).Inv w := inv_step hi hr
  rcases hqq : s.queue with _ | ⟨x, q⟩
  · rw [hqq] at hs
    simp only at hs
    rw [hs]
    exact ⟨rfl, fun _ => ht⟩
  · obtain ⟨⟨a, d⟩, rfl⟩ := hqs x (by rw [hqq]; exact List.mem_cons_self ..)
    have hqq' : s.queue = .ok (a, d) :: q := hqq
    rw [hqq] at hs
    simp only at hs
    rw [hs]
    refine ⟨rfl, fun hm => ?_⟩
    obtain ⟨a', d', he, ha⟩ := (hi.outside hc hm).1 _ (by rw [hqq']; exact List.mem_cons_self ..)
    cases he
    simp only [ha, false_and, ↓reduceIte]

/-- What happens while a call waits: rounds of the listening thread and datagrams of others. -/
def Spec.Meanwhile : GEvent → Prop
  | .round .. => True
  | .stray _ => True
  | _ => False

/-- How many rounds a history has. -/
def Spec.rounds (h : List GEvent) : Nat :=
  (h.filter fun e => match e with | .round .. => true | _ => false).length

open GSys in
theorem GSys.stops {w : Address} (h : List GEvent) (hq : ∀ e ∈ h, Spec.Untroubled w e)
    (hw : ∀ e ∈ h, Spec.Meanwhile e) (s : GSys) (hi : s.Inv w) (hm : s.main ≠ .outside)
    (hn : s.thread = .ended ∨ ∃ q1 q2, s.queue = q1 ++ .ok (w, [0]) :: q2 ∧ Spec.Strays w q1 ∧
      q1.length < Spec.rounds h) :
    (s.run w h).thread = .ended ∧ (s.run w h).main = s.main ∧ (s.run w h).Inv w := by
  induction h generalizing s with
  | nil =>
    rcases hn with hn | ⟨q1, q2, -, -, hn⟩
    · exact ⟨hn, rfl, hi⟩
    · simp [Spec.rounds] at hn
  | cons e h ih =>
    have hi' := inv_step hi (hq e (List.mem_cons_self ..))
    have key : (s.step w e).main = s.main ∧ ((s.step w e).thread = .ended ∨
        ∃ q1 q2, (s.step w e).queue = q1 ++ .ok (w, [0]) :: q2 ∧ Spec.Strays w q1 ∧
          q1.length < Spec.rounds h) := by
      have hwe := hw e (List.mem_cons_self ..)
      have hqe := hq e (List.mem_cons_self ..)
      cases e with
      | connect sock => exact hwe.elim
      | shutdown => exact hwe.elim
      | joined => exact hwe.elim
      | stray read =>
        have hst : s.step w (.stray read) = s ∨
            s.step w (.stray read) = { s with queue := s.queue ++ [read] } := by
          unfold step
          simp only
          split
          · exact .inl rfl
          · exact .inr rfl
        have hn' : s.thread = .ended ∨ ∃ q1 q2, s.queue = q1 ++ .ok (w, [0]) :: q2 ∧ Spec.Strays w q1 ∧
            q1.length < Spec.rounds h := hn
        rcases hst with hst | hst
        · rw [hst]; exact ⟨rfl, hn'⟩
        · rw [hst]
          refine ⟨rfl, ?_⟩
          rcases hn' with hn | ⟨q1, q2, h1, h2, h3⟩
          · exact .inl hn
          · exact .inr ⟨q1, q2 ++ [read], by simp [h1], h2, h3⟩
      | round ready pos =>
        have hlen : Spec.rounds (.round ready pos :: h) = Spec.rounds h + 1 := by simp [Spec.rounds]
        rcases ht : s.thread with _ | watched | _
        · obtain ⟨-, h2⟩ := hi.inside hm
          rcases h2 with ⟨h2, -⟩ | ⟨h2, -⟩ <;> rw [ht] at h2 <;> cases h2
        · obtain ⟨rfl, hc⟩ := hi.watched ht
          have hs := step_round w s ready pos hqe hi.fd ht
          rcases hn with hn | ⟨q1, q2, h1, h2, h3⟩
          · rw [ht] at hn; cases hn
          · rcases q1 with _ | ⟨x, q1⟩
            · rw [h1] at hs
              simp only [List.nil_append, true_and, List.take_one, List.head?_cons, Option.toList_some,
                ↓reduceIte] at hs
              rw [hs]
              exact ⟨rfl, .inl rfl⟩
            · obtain ⟨a, d, rfl, ha⟩ := h2 x (List.mem_cons_self ..)
              rw [h1] at hs
              simp only [List.cons_append, ha, false_and, ↓reduceIte] at hs
              rw [hs]
              refine ⟨rfl, .inr ⟨q1, q2, rfl, fun y hy => h2 y (List.mem_cons_of_mem _ hy), ?_⟩⟩
              rw [hlen, List.length_cons] at h3
              omega
        · have : s.step w (.round ready pos) = s := by unfold step; simp [ht]
          rw [this]
          exact ⟨rfl, .inl ht⟩
    have := ih (fun x hx => hq x (List.mem_cons_of_mem _ hx)) (fun x hx => hw x (List.mem_cons_of_mem _ hx))
      _ hi' (by rw [key.1]; exact hm) key.2
    rw [key.1] at this
    exact this

open GSys in
/-- **C105**: if a call waits for the listening thread, then the thread ends after at most as many rounds as
there are datagrams at the stop channel, whatever else arrives there meanwhile, and then the call completes: a
`connectTransport` with a new thread that watches the new socket and all the others, a `shutdown` with all
closed and no thread. Neither raises. -/
theorem C105_stops_partial (w : Address) (h : List GEvent) (hq : ∀ e ∈ h, Spec.Untroubled w e)
    (hm : (init.run w h).main ≠ .outside) (h' : List GEvent) (hq' : ∀ e ∈ h', Spec.Untroubled w e)
    (hw : ∀ e ∈ h', Spec.Meanwhile e) (hn : (init.run w h).queue.length ≤ Spec.rounds h') :
    let s := init.run w h
    let s' := init.run w (h ++ h' ++ [.joined])
    (init.run w (h ++ h')).thread = .ended ∧ s'.main = .outside ∧ s'.failed = s.failed ∧
    (∀ sock, s.main = .connecting sock → s'.closed = false ∧ ∃ watched, s'.thread = .running watched ∧
      sock ∈ watched ∧ ∀ x ∈ s.sockets, x ∈ watched) ∧
    (s.main = .stopping → s'.closed = true ∧ s'.thread = .absent) := by
  intro s s'
  have hi : s.Inv w := inv_run hq
  have e1 : init.run w (h ++ h') = s.run w h' := by simp [s, run, List.foldl_append]
  have e2 : s' = (s.run w h').step w .joined := by simp [s', s, run, List.foldl_append]
  have hn' : s.thread = .ended ∨ ∃ q1 q2, s.queue = q1 ++ .ok (w, [0]) :: q2 ∧ Spec.Strays w q1 ∧
      q1.length < Spec.rounds h' := by
    obtain ⟨-, h2⟩ := hi.inside hm
    rcases h2 with ⟨-, q1, q2, h3, h4, -⟩ | ⟨h2, -⟩
    · refine .inr ⟨q1, q2, h3, h4, ?_⟩
      have hn0 : s.queue.length ≤ Spec.rounds h' := hn
      rw [h3] at hn0
      simp only [List.length_append, List.length_cons] at hn0
      omega
    · exact .inl h2
  obtain ⟨k1, k2, k3⟩ := GSys.stops h' hq' hw s hi hm hn'
  -- rounds and strays leave these alone
  have hsame : ∀ (l : List GEvent), (∀ e ∈ l, Spec.Meanwhile e) → ∀ x : GSys,
      (x.run w l).sockets = x.sockets ∧ (x.run w l).failed = x.failed := by
    intro l
    induction l with
    | nil => exact fun _ x => ⟨rfl, rfl⟩
    | cons e l ih =>
      intro hl x
      have he := hl e (List.mem_cons_self ..)
      obtain ⟨i1, i2⟩ := ih (fun y hy => hl y (List.mem_cons_of_mem _ hy)) (x.step w e)
      have : (x.step w e).sockets = x.sockets ∧ (x.step w e).failed = x.failed := by
        cases e with
        | connect sock => exact he.elim
        | shutdown => exact he.elim
        | joined => exact he.elim
        | stray read =>
          unfold step
          simp only
          split <;> exact ⟨rfl, rfl⟩
        | round ready pos =>
          unfold step
          simp only
          split
          · split <;> exact ⟨rfl, rfl⟩
          · exact ⟨rfl, rfl⟩
      exact ⟨i1.trans this.1, i2.trans this.2⟩
  obtain ⟨f1, f2⟩ := hsame h' hw s
  rw [e1]
  have hcl : (s.run w h').closed = false := k3.closed_inside (by rw [k2]; exact hm)
  have hne : (s.run w h').sockets ≠ [] := (k3.inside (by rw [k2]; exact hm)).1
  generalize s.run w h' = z at *
  have hj : s' = match s.main with
      | .outside => z
      | .connecting sock => z.start sock
      | .stopping => z.close := by
    rw [e2, ← k2]
    unfold step
    simp only [k1]
    rcases z.main <;> rfl
  refine ⟨k1, ?_⟩
  rcases hmn : s.main with _ | sock | _
  · exact absurd hmn hm
  · rw [hmn] at hj
    simp only at hj
    rw [hj]
    refine ⟨rfl, f2, ?_, by simp⟩
    intro sock' he
    cases he
    refine ⟨hcl, (z.start sock).sockets, ?_, (z.start_sockets sock).1, ?_⟩
    · show (if z.closed then _ else _) = _
      rw [hcl]; rfl
    · intro x hx
      exact (z.start_sockets sock).2.1 x (by rw [f1]; exact hx)
  · rw [hmn] at hj
    simp only at hj
    rw [hj]
    refine ⟨rfl, f2, by simp, fun _ => ⟨?_, rfl⟩⟩
    show (z.closed || !z.sockets.isEmpty) = true
    simp [hne]

open GSys in
/-- **C105**: after `shutdown` it can be called again, any number of times, without an exception; nothing
changes. -/
theorem C105_again (w : Address) (h : List GEvent) (n : Nat)
    (ho : (init.run w h).main = .outside) (ht : (init.run w h).thread = .absent)
    (hs : (init.run w h).sockets = [] ∨ (init.run w h).closed = true) :
    init.run w (h ++ List.replicate n .shutdown) = init.run w h := by
  have key : (init.run w h).step w .shutdown = init.run w h := by
    generalize init.run w h = s at *
    obtain ⟨main, thread, queue, sockets, closed, heard, failed⟩ := s
    simp only at ho ht hs
    subst ho ht
    rcases hs with rfl | rfl <;> simp [step, close]
  induction n with
  | zero => simp
  | succ n ih =>
    rw [List.replicate_succ', ← List.append_assoc]
    have : init.run w (h ++ List.replicate n .shutdown ++ [.shutdown]) =
        (init.run w (h ++ List.replicate n .shutdown)).step w .shutdown := by
      simp [run, List.foldl_append]
    rw [this, ih, key]

open GSys in
/-- Two transports, with datagrams of others at the stop channel before and while the second is connected;
then two shutdowns. -/
theorem C105_example :
    let w : Address := ⟨"127.0.0.1", 40000⟩
    let peer : Address := ⟨"192.0.2.1", 161⟩
    let evil : Address := ⟨"127.0.0.1", 50000⟩
    let h1 : List GEvent := [.connect 7, .stray (.ok (evil, [0])), .stray (.ok (evil, [])), .connect 8]
    let h2 : List GEvent := [.round [(7, .ok (peer, [1]))] 0, .stray (.ok (evil, [0, 0])), .round [] 0,
      .round [(7, .ok (peer, [2]))] 1]
    (∀ e ∈ h1 ++ h2, Spec.Untroubled w e) ∧ (∀ e ∈ h2, Spec.Meanwhile e) ∧
    (init.run w h1).queue.length ≤ Spec.rounds h2 ∧ (init.run w h1).main = .connecting 8 ∧
    init.run w (h1 ++ h2 ++ [.joined]) = ⟨.outside, .running [7, 8], [.ok (evil, [0, 0])], [7, 8], false,
      [(7, peer, [1]), (7, peer, [2])], []⟩ ∧
    init.run w (h1 ++ h2 ++ [.joined, .shutdown, .round [] 0, .round [] 0, .joined, .shutdown]) =
      ⟨.outside, .absent, [], [7, 8], true, [(7, peer, [1]), (7, peer, [2])], []⟩ := by
  refine ⟨?_, ?_, by decide +kernel, by decide +kernel, by decide +kernel, by decide +kernel⟩
  · simp [Spec.Untroubled]
  · simp [Spec.Meanwhile]

open GSys in
/-- **C105** is false of the code without its assumption: a read that raises, even of the stop channel, ends the
listening thread although nothing was shut down, and the stop signal of the next `connectTransport` then ends
the new thread. -/
theorem C105_false :
    let w : Address := ⟨"127.0.0.1", 40000⟩
    let h : List GEvent := [.connect 7, .stray (.error .osError), .round [] 0]
    let s := init.run w h
    (s.main = .outside ∧ s.closed = false ∧ s.thread = .ended) ∧
    (init.run w (h ++ [.connect 8, .joined])).thread = .running [7, 8] ∧
    (init.run w (h ++ [.connect 8, .joined, .round [] 0])).thread = .ended := by
  decide +kernel

open GSys in
/-- **C105**: a dispatcher that was shut down cannot be used again: `connectTransport` returns, but the thread it
starts is dead, and the call after that raises `OSError`. -/
theorem C105_reconnect_false :
    let w : Address := ⟨"127.0.0.1", 40000⟩
    let h : List GEvent := [.connect 7, .shutdown, .round [] 0, .joined, .connect 8]
    (init.run w h).main = .outside ∧ (init.run w h).failed = [] ∧ (init.run w h).thread = .ended ∧
    (init.run w (h ++ [.connect 9])).failed = [.osError] ∧
    (init.run w (h ++ [.shutdown])).failed = [.osError] := by
  decide +kernel

end Snmp
