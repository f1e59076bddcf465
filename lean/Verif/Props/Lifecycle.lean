import Verif.Dispatcher
import Verif.Props.Transport
/-!
# C73 and C74: starting and stopping the listening thread
-/

namespace Snmp

/-- No read in this event raises. -/
def Spec.Quiet : LEvent → Prop
  | .round ready _ => ∀ x ∈ ready, ∃ y, x.2 = .ok y
  | _ => True

/-- What holds whenever no read has raised. -/
structure LSys.Inv (s : LSys) : Prop where
  fd : LSys.pipeFd ∉ s.sockets
  arg : ∀ sock, s.main = .connecting sock → sock ≠ LSys.pipeFd
  outside : s.main = .outside → s.pipe = 0 ∧
    ((s.thread = .absent ∧ (s.sockets = [] ∨ s.closed = true)) ∨
      (s.thread = .running s.sockets ∧ s.closed = false ∧ s.sockets ≠ []))
  inside : s.main ≠ .outside → s.closed = false ∧ s.sockets ≠ [] ∧
    ((s.thread = .running s.sockets ∧ s.pipe = 1) ∨ (s.thread = .ended ∧ s.pipe = 0))

theorem LSys.inv_init : LSys.init.Inv :=
  ⟨by simp [LSys.init], by simp [LSys.init], by simp [LSys.init], by simp [LSys.init]⟩

theorem LSys.inv_start {s : LSys} (sock : Fd) (hs : sock ≠ LSys.pipeFd) (hf : LSys.pipeFd ∉ s.sockets)
    (hp : s.pipe = 0) (hc : s.closed = false) : (s.start sock).Inv := by
  have hmem : sock ∈ (s.start sock).sockets := by
    unfold LSys.start
    simp only
    split
    · assumption
    · simp
  refine ⟨?_, by simp [LSys.start], fun _ => ⟨hp, .inr ⟨rfl, hc, ?_⟩⟩, by simp [LSys.start]⟩
  · unfold LSys.start
    simp only
    split
    · exact hf
    · simp [hf, hs.symm]
  · intro h
    rw [h] at hmem
    cases hmem

theorem posixRound_quiet {sockets : List Fd} {r : Fd} (hr : r ∉ sockets) {round : List (Fd × Read)}
    (hok : ∀ x ∈ round, ∃ y, x.2 = .ok y) (heard : List (Fd × Address × Bytes)) :
    ∃ d, posixRound sockets r round false heard = (.ok d, heard ++ Spec.datagrams sockets round) ∧
      (d = true ↔ Spec.Signalled r round) := by
  obtain ⟨d, h1, h2⟩ := posixRound_ok sockets r hr round (fun fd read h _ => hok _ h) false heard
  exact ⟨d, h1, by simpa using h2⟩

theorem LSys.inv_step {s : LSys} (hi : s.Inv) {e : LEvent} (hq : Spec.Quiet e) : (s.step e).Inv := by
  cases e with
  | connect sock =>
    unfold LSys.step
    simp only
    split
    · rename_i hc
      obtain ⟨h1, h2, h3⟩ := hc
      obtain ⟨h4, h5⟩ := hi.outside h1
      have hcl : s.closed = false := by simpa using h2
      rcases h5 with ⟨h5, h6⟩ | ⟨h5, -, h6⟩
      · rw [h5]
        exact inv_start sock h3 hi.fd h4 hcl
      · rw [h5]
        refine ⟨hi.fd, ?_, by simp, fun _ => ⟨hcl, h6, .inl ⟨rfl, by simp [h4]⟩⟩⟩
        intro sock' h
        cases h
        exact h3
    · exact hi
  | shutdown =>
    unfold LSys.step
    simp only
    split
    · rename_i h1
      obtain ⟨h4, h5⟩ := hi.outside h1
      rcases h5 with ⟨h5, h6⟩ | ⟨h5, h7, h6⟩
      · rw [h5]
        unfold LSys.close
        simp only
        split
        · rename_i hcl
          exact ⟨hi.fd, by simp, fun _ => ⟨h4, .inl ⟨h5, .inr hcl⟩⟩, by simp⟩
        · exact ⟨hi.fd, by simp, fun _ => ⟨h4, .inl ⟨rfl, .inr rfl⟩⟩, by simp⟩
      · rw [h5]
        exact ⟨hi.fd, by simp, by simp, fun _ => ⟨h7, h6, .inl ⟨rfl, by simp [h4]⟩⟩⟩
    · exact hi
  | joined =>
    unfold LSys.step
    simp only
    split
    · exact hi
    · rename_i hnr
      split
      · exact hi
      · rename_i sock hm
        obtain ⟨h1, h2, h3⟩ := hi.inside (by rw [hm]; simp)
        rcases h3 with ⟨h3, -⟩ | ⟨-, h3⟩
        · exact absurd h3 (hnr _)
        · exact inv_start sock (hi.arg sock hm) hi.fd h3 h1
      · rename_i hm
        obtain ⟨h1, h2, h3⟩ := hi.inside (by rw [hm]; simp)
        rcases h3 with ⟨h3, -⟩ | ⟨-, h3⟩
        · exact absurd h3 (hnr _)
        · unfold LSys.close
          rw [h1]
          exact ⟨hi.fd, by simp, fun _ => ⟨h3, .inl ⟨rfl, .inr rfl⟩⟩, by simp⟩
  | round ready pos =>
    unfold LSys.step
    simp only
    split
    · rename_i watched ht
      have hw : watched = s.sockets := by
        by_cases hm : s.main = .outside
        · obtain ⟨-, h5⟩ := hi.outside hm
          rcases h5 with ⟨h5, -⟩ | ⟨h5, -⟩ <;> rw [ht] at h5 <;> cases h5; rfl
        · obtain ⟨-, -, h5⟩ := hi.inside hm
          rcases h5 with ⟨h5, -⟩ | ⟨h5, -⟩ <;> rw [ht] at h5 <;> cases h5; rfl
      subst hw
      have hq' : ∀ x ∈ ready.filter (fun x => decide (x.1 ∈ s.sockets)), ∃ y, x.2 = .ok y :=
        fun x hx => hq x (List.mem_filter.1 hx).1
      have hns : ∀ x ∈ ready.filter (fun x => decide (x.1 ∈ s.sockets)), x.1 ∈ s.sockets :=
        fun x hx => by simpa using (List.mem_filter.1 hx).2
      generalize ready.filter (fun x => decide (x.1 ∈ s.sockets)) = rd at hq' hns
      by_cases hp : s.pipe = 0
      · simp only [hp, ↓reduceIte]
        obtain ⟨d, h1, h2⟩ := posixRound_quiet hi.fd hq' s.heard
        have hd : d = false := by
          cases d
          · rfl
          · obtain ⟨read, hm⟩ := h2.1 rfl
            exact absurd (hns _ hm) hi.fd
        rw [h1, hd]
        exact ⟨hi.fd, hi.arg, fun hm => ⟨rfl, (hi.outside hm).2⟩, fun hm => by
          have := hi.inside hm
          rw [hp] at this
          exact this⟩
      · simp only [hp, ↓reduceIte]
        have hm : s.main ≠ .outside := fun hm => hp (hi.outside hm).1
        obtain ⟨h1, h2, h3⟩ := hi.inside hm
        have hp1 : s.pipe = 1 := by
          rcases h3 with ⟨-, h3⟩ | ⟨-, h3⟩
          · exact h3
          · exact absurd h3 hp
        have hall : ((rd.take pos ++ (pipeFd, (.ok (⟨"", 0⟩, [0]) : Read)) :: rd.drop pos).take pos).all
            (fun x => x.2.isOk) = true := by
          rw [List.all_eq_true]
          intro x hx
          have hx' := List.mem_of_mem_take hx
          rcases List.mem_append.1 hx' with hx' | hx'
          · obtain ⟨y, hy⟩ := hq' x (List.mem_of_mem_take hx')
            rw [hy]; rfl
          · rcases List.mem_cons.1 hx' with rfl | hx'
            · rfl
            · obtain ⟨y, hy⟩ := hq' x (List.mem_of_mem_drop hx')
              rw [hy]; rfl
        obtain ⟨d, k1, k2⟩ := posixRound_quiet (round := rd.take pos ++ (pipeFd, .ok (⟨"", 0⟩, [0])) ::
          rd.drop pos) hi.fd (by
            intro x hx
            rcases List.mem_append.1 hx with hx | hx
            · exact hq' x (List.mem_of_mem_take hx)
            · rcases List.mem_cons.1 hx with rfl | hx
              · exact ⟨_, rfl⟩
              · exact hq' x (List.mem_of_mem_drop hx)) s.heard
        obtain rfl : d = true := k2.2 ⟨_, List.mem_append_right _ (List.mem_cons_self ..)⟩
        rw [k1]
        simp only [hall, ↓reduceIte, hp1]
        exact ⟨hi.fd, hi.arg, fun h => absurd h hm, fun _ => ⟨h1, h2, .inr ⟨rfl, rfl⟩⟩⟩
    · exact hi

theorem LSys.inv_run {h : List LEvent} (hq : ∀ e ∈ h, Spec.Quiet e) : (LSys.init.run h).Inv := by
  unfold LSys.run
  suffices ∀ s : LSys, s.Inv → (h.foldl LSys.step s).Inv from this _ inv_init
  induction h with
  | nil => exact fun s hs => hs
  | cons e h ih =>
    intro s hs
    exact ih (fun x hx => hq x (List.mem_cons_of_mem _ hx)) _
      (inv_step hs (hq e (List.mem_cons_self ..)))

/-- C73, if no read raises: whenever `connectTransport` and `shutdown` are not in progress, either the
dispatcher was shut down or never got a transport, and there is no listening thread; or there is one, in its
loop, which watches every registered socket, and no stop signal is waiting for it. -/
theorem C73_partial (h : List LEvent) (hq : ∀ e ∈ h, Spec.Quiet e)
    (hm : (LSys.init.run h).main = .outside) :
    let s := LSys.init.run h
    (s.thread = .absent ∧ (s.sockets = [] ∨ s.closed = true)) ∨
    (s.thread = .running s.sockets ∧ s.closed = false ∧ s.sockets ≠ [] ∧ s.pipe = 0) := by
  obtain ⟨h1, h2⟩ := (LSys.inv_run hq).outside hm
  rcases h2 with h2 | h2
  · exact .inl h2
  · exact .inr ⟨h2.1, h2.2.1, h2.2.2, h1⟩

/-- C73, if no read raises: the listening thread goes on with every round until it is told to stop, and then
ends with the next round, after which the call in progress completes. -/
theorem C73_stops_partial (h : List LEvent) (hq : ∀ e ∈ h, Spec.Quiet e) (ready : List (Fd × Read)) (pos : Nat)
    (hr : ∀ x ∈ ready, ∃ y, x.2 = .ok y) (hw : ∀ x ∈ ready, x.1 ∈ (LSys.init.run h).sockets)
    (w : List Fd) (ht : (LSys.init.run h).thread = .running w) :
    let s := LSys.init.run h
    let s' := s.step (.round ready pos)
    (s.main = .outside → s'.thread = .running s.sockets) ∧
    (s.main ≠ .outside → s'.thread = .ended ∧ (s'.step .joined).main = .outside) ∧
    s'.heard = s.heard ++ Spec.datagrams s.sockets ready := by
  intro s s'
  have hi : s.Inv := LSys.inv_run hq
  have hw' : w = s.sockets := by
    by_cases hm : s.main = .outside
    · obtain ⟨-, h5⟩ := hi.outside hm
      rcases h5 with ⟨h5, -⟩ | ⟨h5, -⟩ <;> rw [ht] at h5 <;> cases h5; rfl
    · obtain ⟨-, -, h5⟩ := hi.inside hm
      rcases h5 with ⟨h5, -⟩ | ⟨h5, -⟩ <;> rw [ht] at h5 <;> cases h5; rfl
  have hfil : ready.filter (fun x => decide (x.1 ∈ s.sockets)) = ready := by
    rw [List.filter_eq_self]
    intro x hx
    simpa using hw x hx
  have hi' : s'.Inv := LSys.inv_step hi hr
  have hs' : s' = s.step (.round ready pos) := rfl
  unfold LSys.step at hs'
  rw [show s.thread = .running s.sockets from hw' ▸ ht] at hs'
  simp only [hfil] at hs'
  by_cases hp : s.pipe = 0
  · simp only [hp, ↓reduceIte] at hs'
    obtain ⟨d, h1, h2⟩ := posixRound_quiet hi.fd hr s.heard
    have hd : d = false := by
      cases d
      · rfl
      · obtain ⟨read, hm⟩ := h2.1 rfl
        exact absurd (hw _ hm) hi.fd
    rw [h1, hd] at hs'
    simp only at hs'
    refine ⟨fun _ => by rw [hs'], fun hm => ?_, by rw [hs']⟩
    obtain ⟨-, -, h3⟩ := hi.inside hm
    rcases h3 with ⟨-, h3⟩ | ⟨h3, -⟩
    · rw [hp] at h3; cases h3
    · rw [show s.thread = _ from ht] at h3; cases h3
  · simp only [hp, ↓reduceIte] at hs'
    have hm : s.main ≠ .outside := fun hm => hp (hi.outside hm).1
    obtain ⟨d, k1, k2⟩ := posixRound_quiet (round := ready.take pos ++ (LSys.pipeFd, .ok (⟨"", 0⟩, [0])) ::
      ready.drop pos) hi.fd (by
        intro x hx
        rcases List.mem_append.1 hx with hx | hx
        · exact hr x (List.mem_of_mem_take hx)
        · rcases List.mem_cons.1 hx with rfl | hx
          · exact ⟨_, rfl⟩
          · exact hr x (List.mem_of_mem_drop hx)) s.heard
    obtain rfl : d = true := k2.2 ⟨_, List.mem_append_right _ (List.mem_cons_self ..)⟩
    rw [k1] at hs'
    simp only at hs'
    have hth : s'.thread = .ended := by rw [hs']
    refine ⟨fun h => absurd h hm, fun _ => ⟨hth, ?_⟩, ?_⟩
    · unfold LSys.step
      rw [hth]
      simp only
      have hmm : s'.main = s.main := by rw [hs']
      rw [hmm]
      cases hmain : s.main with
      | outside => exact absurd hmain hm
      | connecting sock => rfl
      | stopping =>
        unfold LSys.close
        simp only
        split <;> rfl
    · rw [hs']
      simp only
      congr 1
      have hnp : LSys.pipeFd ∉ s.sockets := hi.fd
      have : ready = ready.take pos ++ ready.drop pos := (List.take_append_drop pos ready).symm
      conv_rhs => rw [this]
      simp [Spec.datagrams, List.filterMap_append, hnp]

/-- C73, if no read raises: outside of the calls, every transport that was connected is watched. -/
theorem C73_registered_partial (h : List LEvent) (sock : Fd) (hs : sock ≠ LSys.pipeFd)
    (ho : (LSys.init.run h).main = .outside) (hc : (LSys.init.run h).closed = false)
    (hq : ∀ e ∈ h, Spec.Quiet e) (ready : List (Fd × Read)) (pos : Nat)
    (hr : ∀ x ∈ ready, ∃ y, x.2 = .ok y) :
    let s := LSys.init.run (h ++ [.connect sock, .round ready pos, .joined])
    s.main = .outside ∧ ∃ w, s.thread = .running w ∧ sock ∈ w ∧ ∀ x ∈ (LSys.init.run h).sockets, x ∈ w := by
  intro s
  have hi := LSys.inv_run hq
  have hs0 : s = ((((LSys.init.run h).step (.connect sock)).step (.round ready pos)).step .joined) := by
    simp [s, LSys.run, List.foldl_append]
  have hi3 : s.Inv := LSys.inv_run (h := h ++ [.connect sock, .round ready pos, .joined]) (by
    intro e he
    rcases List.mem_append.1 he with he | he
    · exact hq e he
    · simp only [List.mem_cons, List.not_mem_nil, or_false] at he
      rcases he with rfl | rfl | rfl
      · trivial
      · exact hr
      · trivial)
  generalize LSys.init.run h = s0 at *
  have hstart : ∀ x : LSys, sock ∈ (x.start sock).sockets ∧ ∀ y ∈ x.sockets, y ∈ (x.start sock).sockets := by
    intro x
    unfold LSys.start
    simp only
    split
    · exact ⟨by assumption, fun y hy => hy⟩
    · exact ⟨by simp, fun y hy => by simp [hy]⟩
  have hround : ∀ x : LSys, (x.step (.round ready pos)).sockets = x.sockets ∧
      (x.step (.round ready pos)).main = x.main ∧ (x.step (.round ready pos)).closed = x.closed := by
    intro x
    unfold LSys.step
    simp only
    split
    · split <;> exact ⟨rfl, rfl, rfl⟩
    · exact ⟨rfl, rfl, rfl⟩
  have hcon : s0.step (.connect sock) = s0.start sock ∨
      ((s0.step (.connect sock)).main = .connecting sock ∧ (s0.step (.connect sock)).sockets = s0.sockets ∧
        (s0.step (.connect sock)).thread = .running s0.sockets) := by
    unfold LSys.step
    simp only [ho, hc, Bool.false_eq_true, not_false_eq_true, true_and, hs, ne_eq, ↓reduceIte]
    obtain ⟨-, h5⟩ := hi.outside ho
    rcases h5 with ⟨h5, -⟩ | ⟨h5, -⟩
    · left; rw [h5]
    · right; rw [h5]; exact ⟨rfl, rfl, rfl⟩
  have hmain : s.main = .outside ∧ sock ∈ s.sockets ∧ (∀ y ∈ s0.sockets, y ∈ s.sockets) ∧ s.closed = false := by
    have hi1 : (s0.step (.connect sock)).Inv := LSys.inv_step hi trivial
    have hi2 : ((s0.step (.connect sock)).step (.round ready pos)).Inv := LSys.inv_step hi1 hr
    rcases hcon with hcon | ⟨k1, k2, k3⟩
    · obtain ⟨r1, r2, r3⟩ := hround (s0.step (.connect sock))
      have ho2 : ((s0.step (.connect sock)).step (.round ready pos)).main = .outside := by
        rw [r2, hcon]; rfl
      have hj : s = (s0.step (.connect sock)).step (.round ready pos) := by
        rw [hs0]
        generalize (s0.step (.connect sock)).step (.round ready pos) = z at *
        unfold LSys.step
        simp only
        split
        · rfl
        · rw [ho2]
      rw [hj]
      refine ⟨ho2, ?_, ?_, ?_⟩
      · rw [r1, hcon]; exact (hstart s0).1
      · rw [r1, hcon]; exact (hstart s0).2
      · rw [r3, hcon]; exact hc
    · obtain ⟨r1, r2, r3⟩ := hround (s0.step (.connect sock))
      have hne : ((s0.step (.connect sock)).step (.round ready pos)).main ≠ .outside := by
        rw [r2, k1]; simp
      have hthr : ((s0.step (.connect sock)).step (.round ready pos)).thread = .ended := by
        obtain ⟨e1, e2, e3⟩ := hi1.inside (by rw [k1]; simp)
        have hp1 : (s0.step (.connect sock)).pipe = 1 := by
          rcases e3 with ⟨-, e3⟩ | ⟨e3, -⟩
          · exact e3
          · rw [k3] at e3; cases e3
        obtain ⟨-, -, e5⟩ := hi2.inside hne
        generalize s0.step (.connect sock) = z at *
        unfold LSys.step
        rw [k3]
        simp only
        split
        · rfl
        · rfl
        · rename_i heard hpr
          simp only [hp1, one_ne_zero, ↓reduceIte] at hpr
          exfalso
          obtain ⟨d, q1, q2⟩ := posixRound_quiet (sockets := s0.sockets) (r := LSys.pipeFd)
            (round := (ready.filter (fun x => decide (x.1 ∈ s0.sockets))).take pos ++
              (LSys.pipeFd, .ok (⟨"", 0⟩, [0])) ::
              (ready.filter (fun x => decide (x.1 ∈ s0.sockets))).drop pos) hi.fd (by
            intro x hx
            rcases List.mem_append.1 hx with hx | hx
            · exact hr x (List.mem_filter.1 (List.mem_of_mem_take hx)).1
            · rcases List.mem_cons.1 hx with rfl | hx
              · exact ⟨_, rfl⟩
              · exact hr x (List.mem_filter.1 (List.mem_of_mem_drop hx)).1) z.heard
          obtain rfl : d = true := q2.2 ⟨_, List.mem_append_right _ (List.mem_cons_self ..)⟩
          rw [q1] at hpr
          cases hpr
      have hj : s = ((s0.step (.connect sock)).step (.round ready pos)).start sock := by
        rw [hs0]
        generalize (s0.step (.connect sock)).step (.round ready pos) = z at *
        unfold LSys.step
        rw [hthr]
        simp only
        rw [r2, k1]
      rw [hj]
      refine ⟨rfl, (hstart _).1, ?_, ?_⟩
      · intro y hy
        apply (hstart _).2
        rw [r1, k2]
        exact hy
      · show ((s0.step (.connect sock)).step (.round ready pos)).closed = false
        exact (hi2.inside hne).1
  refine ⟨hmain.1, s.sockets, ?_, hmain.2.1, hmain.2.2.1⟩
  obtain ⟨-, h5⟩ := hi3.outside hmain.1
  rcases h5 with ⟨-, h5⟩ | ⟨h5, -⟩
  · rcases h5 with h5 | h5
    · rw [h5] at hmain; exact absurd hmain.2.1 (by simp)
    · rw [hmain.2.2.2] at h5; cases h5
  · exact h5

/-- A datagram is heard from the first socket, then a second one is connected, and both are watched. -/
example :
    let peer : Address := ⟨"192.0.2.1", 161⟩
    let s := LSys.init.run [.connect 7, .round [(7, .ok (peer, [1]))] 0, .connect 8,
      .round [(7, .ok (peer, [2]))] 1, .joined]
    s = ⟨.outside, .running [7, 8], 0, [7, 8], false, [(7, peer, [1]), (7, peer, [2])], []⟩ := by
  decide +kernel

/-- **C73** is false of the code: after a read raised, the listening thread is gone although nothing was shut
down; and the thread started by the next `connectTransport` ends with its first round, because the stop
signal for the dead thread is still in the pipe. -/
theorem C73_false :
    let peer : Address := ⟨"192.0.2.1", 161⟩
    let h : List LEvent := [.connect 7, .round [(7, .error .osError)] 0]
    let s := LSys.init.run h
    (s.main = .outside ∧ s.closed = false ∧ s.thread = .ended) ∧
    (LSys.init.run (h ++ [.connect 8, .joined])).thread = .running [7, 8] ∧
    (LSys.init.run (h ++ [.connect 8, .joined, .round [(8, .ok (peer, [1]))] 1])).thread = .ended := by
  decide +kernel

/-- **C74**: the first `shutdown` of a dispatcher does not raise: when it is over, the listening thread is gone
and the sockets and the pipe are closed. -/
theorem C74_partial (h : List LEvent) (hq : ∀ e ∈ h, Spec.Quiet e)
    (ho : (LSys.init.run h).main = .outside) (hc : (LSys.init.run h).closed = false)
    (ready : List (Fd × Read)) (pos : Nat) (hr : ∀ x ∈ ready, ∃ y, x.2 = .ok y) :
    let s := LSys.init.run (h ++ [.shutdown, .round ready pos, .joined])
    s.main = .outside ∧ s.closed = true ∧ s.thread = .absent ∧ s.failed = (LSys.init.run h).failed := by
  intro s
  have hi := LSys.inv_run hq
  have hs0 : s = ((((LSys.init.run h).step .shutdown).step (.round ready pos)).step .joined) := by
    simp [s, LSys.run, List.foldl_append]
  generalize LSys.init.run h = s0 at *
  have hi1 : (s0.step .shutdown).Inv := LSys.inv_step hi trivial
  have hi2 : ((s0.step .shutdown).step (.round ready pos)).Inv := LSys.inv_step hi1 hr
  have hround : ∀ x : LSys, (x.step (.round ready pos)).main = x.main ∧
      (x.step (.round ready pos)).closed = x.closed ∧ (x.step (.round ready pos)).failed = x.failed := by
    intro x
    unfold LSys.step
    simp only
    split
    · split <;> exact ⟨rfl, rfl, rfl⟩
    · exact ⟨rfl, rfl, rfl⟩
  obtain ⟨r1, r2, r3⟩ := hround (s0.step .shutdown)
  obtain ⟨hp, h5⟩ := hi.outside ho
  rcases h5 with ⟨h5, -⟩ | ⟨h5, -, hne⟩
  · have hsd : s0.step .shutdown = { s0 with main := .outside, closed := true, thread := .absent } := by
      unfold LSys.step LSys.close
      simp only [ho, ↓reduceIte, h5, hc, Bool.false_eq_true]
    rw [hs0, hsd]
    refine ⟨rfl, rfl, rfl, rfl⟩
  · have hsd : s0.step .shutdown = { s0 with main := .stopping, pipe := s0.pipe + 1 } := by
      unfold LSys.step
      simp only [ho, ↓reduceIte, h5]
    have hmn : ((s0.step .shutdown).step (.round ready pos)).main = .stopping := by rw [r1, hsd]
    have hth : ((s0.step .shutdown).step (.round ready pos)).thread = .ended := by
      obtain ⟨-, -, e3⟩ := hi2.inside (by rw [hmn]; simp)
      rcases e3 with ⟨e3, e4⟩ | ⟨e3, -⟩
      · exfalso
        rw [hsd] at e3
        unfold LSys.step at e3
        rw [h5] at e3
        simp only [Nat.add_eq_zero_iff, one_ne_zero, and_false, ↓reduceIte] at e3
        obtain ⟨d, q1, q2⟩ := posixRound_quiet (sockets := s0.sockets) (r := LSys.pipeFd)
          (round := (ready.filter (fun x => decide (x.1 ∈ s0.sockets))).take pos ++
            (LSys.pipeFd, .ok (⟨"", 0⟩, [0])) ::
            (ready.filter (fun x => decide (x.1 ∈ s0.sockets))).drop pos) hi.fd (by
          intro x hx
          rcases List.mem_append.1 hx with hx | hx
          · exact hr x (List.mem_filter.1 (List.mem_of_mem_take hx)).1
          · rcases List.mem_cons.1 hx with rfl | hx
            · exact ⟨_, rfl⟩
            · exact hr x (List.mem_filter.1 (List.mem_of_mem_drop hx)).1) s0.heard
        obtain rfl : d = true := q2.2 ⟨_, List.mem_append_right _ (List.mem_cons_self ..)⟩
        rw [q1] at e3
        cases e3
      · exact e3
    have hcl : ((s0.step .shutdown).step (.round ready pos)).closed = false := by rw [r2, hsd]; exact hc
    have hfl : ((s0.step .shutdown).step (.round ready pos)).failed = s0.failed := by rw [r3, hsd]
    rw [hs0]
    generalize (s0.step .shutdown).step (.round ready pos) = z at *
    unfold LSys.step LSys.close
    simp only [hth, hmn, hcl, Bool.false_eq_true, ↓reduceIte]
    exact ⟨trivial, trivial, trivial, hfl⟩

/-- **C74** is false of the code: a second `shutdown`, as when `shutdown` is called inside a `with` block,
raises `OSError`. -/
theorem C74_false :
    let h : List LEvent := [.connect 7, .shutdown, .round [] 0, .joined]
    (LSys.init.run h).failed = [] ∧ (LSys.init.run (h ++ [.shutdown])).failed = [.osError] := by
  decide +kernel

end Snmp
