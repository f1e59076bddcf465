import Verif.Props.Engine
/-!
# C83: a remote engine belongs to one namespace
-/

namespace Snmp

open Engine

/-- The registry of an engine is what a sequence of `addUser` and registrations leaves: nothing is released, because
the managers stay. -/
def Engine.Registry (c : Crypto) (e : Engine) (ops : List Spec.RegOp) : Prop :=
  e.usm.getD .new = UserRegistry.after c ops ∧ ∀ i ns, .unregister i ns ∉ ops

/-- What a successful call with an engine ID registered. -/
theorem Engine.manager_v3 (c : Crypto) (pton : Domain → String → Bool) {e : Engine} (a : ManagerArgs)
    (bind : Option PyErr) (seed : Bytes → Nat) (m : ManagerInfo) (ns : String) (name : Bytes) (level : SecurityLevel)
    (id : Bytes) (hm : (e.manager c pton a bind seed).1 = .ok m) (hc : m.config = .v3 ns name level (some id)) :
    a.namespace = ns ∧ a.engineID = some id ∧
    ((e.usm.getD .new).assign c id ns seed).1 = .ok true ∧
    (e.manager c pton a bind seed).2.usm.getD .new = ((e.usm.getD .new).assign c id ns seed).2 := by
  unfold Engine.manager at hm ⊢
  cases hd : e.domainOf a with
  | error err => rw [hd] at hm; cases hm
  | ok d =>
    rw [hd] at hm
    simp only at hm ⊢
    cases ha : normalizeAddress pton d a.address (some .listener) with
    | error err => rw [ha] at hm; cases hm
    | ok address =>
      rw [ha] at hm
      simp only at hm ⊢
      cases hl : normalizeAddress pton d a.localAddress (some .sender) with
      | error err => rw [hl] at hm; cases hm
      | ok localAddress =>
        rw [hl] at hm
        simp only at hm ⊢
        have hu : (e.transportFor d localAddress bind).2.usm.getD .new = e.usm.getD .new := by
          unfold Engine.transportFor
          cases e.transports.get d with
          | none => cases bind <;> rfl
          | some ts =>
            simp only
            cases ts.get localAddress <;> cases bind <;> rfl
        generalize e.transportFor d localAddress bind = z at *
        obtain ⟨r, z⟩ := z
        cases r with
        | error err => cases hm
        | ok transport =>
          simp only at hm hu ⊢
          cases hv : z.versionOf a with
          | error err => rw [hv] at hm; cases hm
          | ok v =>
            rw [hv] at hm
            simp only at hm ⊢
            cases hx : (z.configFor c a seed v).1 with
            | error err => rw [hx] at hm; cases hm
            | ok x =>
              rw [hx] at hm
              have hxc : x = .v3 ns name level (some id) := by cases hm; exact hc
              subst hxc
              cases v with
              | v1 => unfold Engine.configFor Engine.v1Manager at hx; cases hx
              | v2c => unfold Engine.configFor Engine.v2cManager at hx; cases hx
              | v3 =>
                simp only [Engine.configFor] at hx ⊢
                unfold Engine.v3Manager at hx ⊢
                have hlook : (z.withV3.v3Looked a).usm.getD .new = e.usm.getD .new := by
                  rw [(z.withV3.v3Looked_same a).2.2.2, ← hu]
                  unfold Engine.withV3
                  cases z.mpv3 <;> rfl
                cases hmo : z.modelOf a with
                | error err => rw [hmo] at hx; cases hx
                | ok mo =>
                  cases mo
                  rw [hmo] at hx
                  simp only at hx ⊢
                  cases hn : Engine.v3Name (z.usm.getD .new) a with
                  | error err => rw [hn] at hx; cases hx
                  | ok name' =>
                    rw [hn] at hx
                    simp only at hx ⊢
                    cases hlv : Engine.v3Level (z.usm.getD .new) a name' with
                    | error err => rw [hlv] at hx; cases hx
                    | ok level' =>
                      rw [hlv] at hx
                      simp only [Engine.v3Finish] at hx ⊢
                      obtain ⟨-, -, gu, -⟩ := (z.withV3.v3Looked a).getUsm_same
                      rw [hlook] at gu
                      rw [gu] at hx ⊢
                      unfold Engine.v3Create at hx ⊢
                      cases hid : a.engineID with
                      | none => rw [hid] at hx; cases hx
                      | some id' =>
                        rw [hid] at hx
                        simp only at hx ⊢
                        cases hass : (e.usm.getD .new).assign c id' a.namespace seed with
                        | mk res u' =>
                          rw [hass] at hx
                          cases res with
                          | error err => cases hx
                          | ok b =>
                            cases b with
                            | false => cases hx
                            | true =>
                              cases hx
                              rw [hass]
                              exact ⟨rfl, rfl, rfl, rfl⟩

theorem Engine.Registry.step {c : Crypto} {pton : Domain → String → Bool} {e : Engine} (hi : e.Inv)
    {ops : List Spec.RegOp} (hk : e.Registry c ops) (ev : Engine.Event) :
    ∃ l, (e.step c pton ev).Registry c (ops ++ l) := by
  obtain ⟨h1, h2⟩ := hk
  cases ev with
  | manager a bind seed =>
    obtain ⟨-, -, -, h4, -⟩ := Engine.manager_spec c pton hi a bind seed
    rcases h4 with h4 | h4
    · exact ⟨[], by rw [List.append_nil]; exact ⟨h4.trans h1, h2⟩⟩
    · cases hid : a.engineID with
      | none => rw [hid] at h4; exact ⟨[], by rw [List.append_nil]; exact ⟨h4.trans h1, h2⟩⟩
      | some id =>
        rw [hid] at h4
        refine ⟨[.register id a.namespace seed], ?_, ?_⟩
        · rw [UserRegistry.after_snoc, ← h1]; exact h4
        · intro i ns h
          rcases List.mem_append.1 h with h | h
          · exact h2 i ns h
          · simp at h
  | connectTransport d =>
    obtain ⟨-, -, -, h4, -⟩ := Engine.connectTransport_spec hi d
    exact ⟨[], by rw [List.append_nil]; exact ⟨by show (e.connectTransport d).2.usm.getD .new = _; rw [h4]; exact h1, h2⟩⟩
  | addUser a seed =>
    obtain ⟨-, -, h3, -⟩ := e.getUsm_same
    refine ⟨[.addUser a seed], ?_, ?_⟩
    · rw [UserRegistry.after_snoc, ← h1]
      simp only [Engine.step]
      rw [h3]
      rfl
    · intro i ns h
      rcases List.mem_append.1 h with h | h
      · exact h2 i ns h
      · simp at h

theorem Engine.Registry.run {c : Crypto} {pton : Domain → String → Bool} (h : List Engine.Event) {e : Engine}
    (hi : e.Inv) {ops : List Spec.RegOp} (hk : e.Registry c ops) :
    ∃ l, (e.run c pton h).Registry c (ops ++ l) := by
  induction h generalizing e ops with
  | nil => exact ⟨[], by simpa [Engine.run] using hk⟩
  | cons ev h ih =>
    obtain ⟨l, hl⟩ := hk.step hi (pton := pton) ev
    have hi' : (e.step c pton ev).Inv := by
      obtain ⟨k1, -⟩ := Engine.step_spec c pton hi (ops := ops) ⟨ops, hk.1, rfl, rfl⟩ ev
      exact k1
    obtain ⟨l', hl'⟩ := ih hi' hl
    exact ⟨l ++ l', by rw [← List.append_assoc]; exact hl'⟩

/-- Without releases an engine stays registered under its namespace. -/
theorem Spec.Reg.engine_stays (c : Crypto) (ops l : List Spec.RegOp) (hl : ∀ i ns, .unregister i ns ∉ ops ++ l)
    (id : Bytes) (ns : String) (n : Nat) (h : (Spec.Reg.after c ops).engine id = some (ns, n)) :
    ∃ n', (Spec.Reg.after c (ops ++ l)).engine id = some (ns, n') := by
  induction l using List.reverseRecOn with
  | nil => exact ⟨n, by simpa using h⟩
  | append_singleton l op ih =>
    obtain ⟨n', hn⟩ := ih fun i ns hx => hl i ns (by rw [← List.append_assoc]; exact List.mem_append_left _ hx)
    rw [← List.append_assoc, Spec.Reg.after_snoc]
    cases op with
    | addUser a seed =>
      refine ⟨n', ?_⟩
      rw [← hn]
      simp only [Spec.Reg.step, Spec.Reg.addUser]
      split
      · rfl
      · split
        · rfl
        · split
          · split <;> rfl
          · rfl
    | register i ns' seed =>
      simp only [Spec.Reg.step, Spec.Reg.register]
      split
      · rename_i hnone
        simp only
        split
        · rename_i he; subst he; rw [hn] at hnone; cases hnone
        · exact ⟨n', hn⟩
      · rename_i ns2 n2 hsome
        split
        · simp only
          split
          · rename_i heq he; subst he heq; rw [hn] at hsome; cases hsome; exact ⟨_, rfl⟩
          · exact ⟨n', hn⟩
        · exact ⟨n', hn⟩
    | unregister i ns' => exact absurd (by simp) (hl i ns')

/-- **C83.** Two SNMPv3 managers obtained from one engine (and still in use) for the same remote engine ID have the
same namespace, whatever calls were made in between. -/
theorem C83_namespace (c : Crypto) (hok : c.Ok) (pton : Domain → String → Bool) (e : Engine) (hf : Spec.Fresh e)
    (h1 h2 : List Engine.Event) (a a' : ManagerArgs) (bind bind' : Option PyErr) (seed seed' : Bytes → Nat)
    (m m' : ManagerInfo) (ns ns' : String) (name name' : Bytes) (level level' : SecurityLevel) (id : Bytes)
    (hm : ((e.run c pton h1).manager c pton a bind seed).1 = .ok m) (hc : m.config = .v3 ns name level (some id))
    (hm' : ((e.run c pton (h1 ++ .manager a bind seed :: h2)).manager c pton a' bind' seed').1 = .ok m')
    (hc' : m'.config = .v3 ns' name' level' (some id)) : ns' = ns := by
  obtain ⟨hi, -, -⟩ := hf.run c pton h1
  have hinv : e.Inv := (hf.run c pton []).1
  have h0 : e.Registry c [] := by
    obtain ⟨v, d, mo, co, w, rfl⟩ := hf
    exact ⟨rfl, by simp⟩
  obtain ⟨l, hl⟩ := h0.run (pton := pton) h1 hinv
  rw [List.nil_append] at hl
  obtain ⟨-, hid, k1, k2⟩ := Engine.manager_v3 c pton a bind seed m ns name level id hm hc
  have hreg : ((e.run c pton h1).step c pton (.manager a bind seed)).Registry c (l ++ [.register id ns seed]) := by
    refine ⟨?_, ?_⟩
    · rw [UserRegistry.after_snoc, ← hl.1]; exact k2
    · intro i ns h
      rcases List.mem_append.1 h with h | h
      · exact hl.2 i ns h
      · simp at h
  have hi' : ((e.run c pton h1).step c pton (.manager a bind seed)).Inv :=
    (Engine.manager_spec c pton hi a bind seed).1
  obtain ⟨l', hl'⟩ := hreg.run (pton := pton) h2 hi'
  have hrun : e.run c pton (h1 ++ .manager a bind seed :: h2) =
      ((e.run c pton h1).step c pton (.manager a bind seed)).run c pton h2 := by
    unfold Engine.run; rw [List.foldl_append]; rfl
  rw [← hrun] at hl'
  obtain ⟨-, -, k3, -⟩ := Engine.manager_v3 c pton a' bind' seed' m' ns' name' level' id hm' hc'
  have hfirst : ∃ n, (Spec.Reg.after c (l ++ [.register id ns seed])).engine id = some (ns, n) := by
    have hr := C39_register c hok l id ns seed
    rw [← hl.1] at hr
    have hr' : ((e.run c pton h1).usm.getD .new |>.apply c (.register id ns seed)).1 = .ok true := k1
    rw [hr'] at hr
    rw [Spec.Reg.after_snoc]
    simp only [Spec.Reg.step, Spec.Reg.register]
    cases hg : (Spec.Reg.after c l).engine id with
    | none => exact ⟨1, by simp⟩
    | some x =>
      obtain ⟨ns2, n2⟩ := x
      rw [hg] at hr
      simp only at hr
      have : ns2 = ns := by
        injection hr with hr
        exact of_decide_eq_true hr.symm
      subst this
      exact ⟨n2 + 1, by simp⟩
  obtain ⟨n, hn⟩ := hfirst
  obtain ⟨n', hn'⟩ := Spec.Reg.engine_stays c _ l' hl'.2 id ns n hn
  have hr := C39_register c hok (l ++ [.register id ns seed] ++ l') id ns' seed'
  rw [← hl'.1, hn'] at hr
  have hr' : ((e.run c pton (h1 ++ .manager a bind seed :: h2)).usm.getD .new |>.apply c
    (.register id ns' seed')).1 = .ok true := k3
  rw [hr'] at hr
  simp only at hr
  injection hr with hr
  exact (of_decide_eq_true hr.symm).symm

/-- Two managers for one remote engine in one namespace; a third in another namespace is refused, and one for another
engine is not. -/
theorem C83_example :
    let e := Engine.create .v3 .udpIPv4 .usm [112] true
    let args : String → Bytes → ManagerArgs := fun ns id =>
      { address := .host (.str "192.0.2.9"), userName := some [97], securityLevel := some noAuthNoPriv, engineID := some id,
        «namespace» := ns }
    let call : String → Bytes → Engine.Event := fun ns id => .manager (args ns id) none (fun _ => 0)
    let s := e.run Spec.toyCrypto Spec.anyHost [call "x" [1], call "y" [2]]
    Spec.Fresh e ∧
    (s.manager Spec.toyCrypto Spec.anyHost (args "x" [1]) none (fun _ => 0)).1.toOption.map ManagerInfo.config =
      some (.v3 "x" [97] noAuthNoPriv (some [1])) ∧
    (s.manager Spec.toyCrypto Spec.anyHost (args "y" [1]) none (fun _ => 0)).1 = .error .discoveryError ∧
    (s.manager Spec.toyCrypto Spec.anyHost (args "y" [3]) none (fun _ => 0)).1.isOk = true := by
  refine ⟨⟨_, _, _, _, _, rfl⟩, ?_⟩
  decide +kernel

end Snmp
