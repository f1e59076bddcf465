import Verif.Props.V3End
import Verif.Props.V3Demo
/-!
# C93: a concrete case
-/

namespace Snmp

open VSys Spec Demo

namespace Demo

/-- Two requests, and a thread waiting on each: one is asleep, one is about to look at the requests. -/
def twoWaits : List VEvent :=
  [issue 0 5 1, issue 0 5 2, .wait 0 0, .wait 1 1, at_ 0 0, at_ 0 0, at_ 1 0]

/-- A round long after both have expired. -/
def lateRound : List VEvent := [at_ 0 9, at_ 1 9, deliver 9]

end Demo

theorem nine (n : Nat) (x : ℚ) (h : x ∈ (List.replicate n lateRound).flatten.filterMap clock) : x = 9 := by
  obtain ⟨e, he, hx⟩ := List.mem_filterMap.1 h
  obtain ⟨l, hl, he⟩ := List.mem_flatten.1 he
  obtain ⟨-, rfl⟩ := List.mem_replicate.1 hl
  simp only [lateRound, at_, deliver, input, List.mem_cons, List.not_mem_nil, or_false] at he
  rcases he with rfl | rfl | rfl <;> simp [clock] at hx <;> exact hx.symm

/-- The hypotheses of `C93_v3` are met: both threads are inside `wait`, and after enough rounds neither is. -/
theorem C93_v3_example :
    (∀ t, t < 2 → Waiting (after demoCfg (demo (some [1])) twoWaits) t) ∧
    ∃ N, ∀ n, N ≤ n → ∀ t, ¬ Waiting (after demoCfg (demo (some [1])) (twoWaits ++ (List.replicate n lateRound).flatten)) t := by
  have h0 : (after demoCfg (demo (some [1])) twoWaits).threads 0 = .sleep 0 1 0 := by decide +kernel
  have h1 : (after demoCfg (demo (some [1])) twoWaits).threads 1 = .body 1 := by decide +kernel
  have hw : ∀ t, t < 2 → Waiting (after demoCfg (demo (some [1])) twoWaits) t := by
    intro t ht
    have : t = 0 ∨ t = 1 := by omega
    rcases this with rfl | rfl
    · exact ⟨by rw [h0]; nofun, fun _ _ => by rw [h0]; nofun⟩
    · exact ⟨by rw [h1]; nofun, fun _ _ => by rw [h1]; nofun⟩
  refine ⟨hw, ?_⟩
  obtain ⟨N, hN⟩ := C93_v3 (demo_created (some [1]) (.inr rfl)) twoWaits
  refine ⟨N, fun n hn => hN (List.replicate n lateRound) ?_ ?_ ?_ ?_ ?_⟩
  · intro round hr
    obtain ⟨-, rfl⟩ := List.mem_replicate.1 hr
    refine ⟨fun t ht => ?_, input 9, by simp [lateRound, deliver]⟩
    by_cases h2 : t < 2
    · refine ⟨input 9, ?_⟩
      have : t = 0 ∨ t = 1 := by omega
      rcases this with rfl | rfl <;> simp [lateRound, at_]
    · exfalso
      apply ht.1
      have : ∀ h : List VEvent, (∀ r, .wait t r ∉ h) → (after demoCfg (demo (some [1])) h).threads t = .idle := by
        intro h hn
        induction h using List.reverseRecOn with
        | nil => rfl
        | append_singleton h e ih =>
          have ih := ih fun r hr => hn r (List.mem_append_left _ hr)
          rcases step_goes (demo_created (some [1]) (.inr rfl)) h e t with hg | ⟨r, he, -⟩ | ⟨i, f, -, hg, -⟩
          · rw [hg, ih]
          · exact absurd (by rw [he]; simp) (hn r)
          · rw [ih] at hg; cases hg
      refine this twoWaits fun r hr => ?_
      simp [twoWaits, issue, at_] at hr
      omega
  · intro e he
    obtain ⟨l, hl, he⟩ := List.mem_flatten.1 he
    obtain ⟨-, rfl⟩ := List.mem_replicate.1 hl
    simp only [lateRound, at_, deliver, List.mem_cons, List.not_mem_nil, or_false] at he
    rcases he with rfl | rfl | rfl <;> rfl
  · rw [List.filterMap_append]
    refine List.pairwise_append.2 ⟨by decide +kernel, ?_, ?_⟩
    · exact List.pairwise_of_forall_mem_list fun a ha b hb => by rw [nine n a ha, nine n b hb]
    · intro a ha b hb
      rw [nine n b hb]
      simp [twoWaits, issue, at_, clock, input] at ha
      rw [← ha]; norm_num
  · intro now hnow r q hq
    rw [nine n now hnow]
    obtain ⟨base, -, hs⟩ := (demo_created (some [1]) (.inr rfl)).sound twoWaits
    obtain ⟨pdu, timeout, t0, r0, i, id, h2, h3⟩ := (hs.reqs r q hq).issued
    simp [twoWaits, issue, at_] at h2
    rw [h3.2]
    rcases h2 with ⟨-, -, -, rfl, -, rfl, -⟩ | ⟨-, -, -, rfl, -, rfl, -⟩ <;> norm_num
  · rw [List.length_replicate]
    have : (List.replicate n lateRound).flatten.countP isDatagram = 0 := by
      rw [List.countP_eq_zero]
      intro e he
      obtain ⟨l, hl, he⟩ := List.mem_flatten.1 he
      obtain ⟨-, rfl⟩ := List.mem_replicate.1 hl
      simp only [lateRound, at_, deliver, List.mem_cons, List.not_mem_nil, or_false] at he
      rcases he with rfl | rfl | rfl <;> nofun
    omega

end Snmp
