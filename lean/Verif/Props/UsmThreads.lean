import Verif.UsmThreads
import Verif.Props.Usm
import Verif.Props.Timekeeper
/-!
# C112: the security module called from several threads
-/

namespace Snmp

namespace Spec

/-- Thread `t`, in no call after `h0`, begins the call `k` and is still in it at every moment of the events `r`
that follow. -/
def InCall (b : Backend) (c : Crypto) (h0 : List UEvent) (t : Nat) (k : UCall) (r : List UEvent) : Prop :=
  (USys.after b c h0).pc t = .idle ∧
    ∀ p, p <+: r → (USys.after b c (h0 ++ .call t k :: p)).pc t ≠ .idle

/-- The same module, where the salt counter of the user's key has the value `salt`. -/
def withSalt (u : Usm) (engineID name : Bytes) (salt : Nat) : Usm :=
  match u.users.getCredentials engineID name with
  | .ok ⟨_, some priv⟩ => u.setPriv engineID name { priv with salt }
  | _ => u

/-- The call `k` of thread `t` with result `r` is one of the history `h`: there are two moments at which thread
`t` was in this call, the second not before the first and just before the last step of the call, so that the result
is that of an undisturbed call on a module with the users of the first moment, the clock of the second and
some value of the salt counter; and the last step does to the clock what the undisturbed call does to it, and
nothing else. -/
def Explained (b : Backend) (c : Crypto) (h : List UEvent) (t : Nat) (k : UCall) (r : UResult) : Prop :=
  ∃ h0 x y salt rest, h = h0 ++ .call t k :: (x ++ y ++ .step t salt :: rest) ∧
    InCall b c h0 t k (x ++ y) ∧
    let first := (USys.after b c (h0 ++ .call t k :: x)).usm
    let second := (USys.after b c (h0 ++ .call t k :: (x ++ y))).usm
    let third := (USys.after b c (h0 ++ .call t k :: (x ++ y ++ [.step t salt]))).usm
    let u : Usm := ⟨second.timekeeper, first.users⟩
    match (generalizing := false) k with
    | .outgoing m engineID name ts =>
      r = .sent ((withSalt u engineID name salt).prepareOutgoing b c m engineID name ts).1 ∧ third = second
    | .incoming m ts =>
      r = .received (u.processIncoming b c m ts).1 ∧
      third.timekeeper = (u.processIncoming b c m ts).2.timekeeper ∧ third.users = second.users

/-- The configuration calls of a history. -/
def configsT (h : List UEvent) : List Spec.RegOp :=
  h.filterMap fun
    | .addUser a seed => some (.addUser a seed)
    | .register i ns seed => some (.register i ns seed)
    | .unregister i ns => some (.unregister i ns)
    | _ => none

/-- How many steps a thread takes. -/
def stepsOf (t : Nat) (h : List UEvent) : Nat :=
  h.countP fun
    | .step i _ => i = t
    | _ => false

end Spec

namespace USys

variable {b : Backend} {c : Crypto}

theorem after_snoc (h : List UEvent) (e : UEvent) : after b c (h ++ [e]) = (after b c h).step b c e := by
  simp [after]

/-! ## The undisturbed calls -/

theorem getCredentials_setPriv {u : Usm} {engineID name : Bytes} {user : LocalizedCredentials} {priv : PrivKey}
    (h : u.users.getCredentials engineID name = .ok user) :
    (u.setPriv engineID name priv).users.getCredentials engineID name = .ok ⟨user.auth, some priv⟩ := by
  unfold UserRegistry.getCredentials at h ⊢
  unfold Usm.setPriv
  cases hg : u.users.engines.get engineID with
  | none => rw [hg] at h; cases h
  | some e =>
    rw [hg] at h
    simp only [orRaise, Except.bind, RemoteEngine.getCredentials] at h
    cases hu : e.users.get name with
    | none => rw [hu] at h; cases h
    | some cr =>
      rw [hu] at h
      simp only [Except.ok.injEq] at h
      subst h
      simp only [hu, Dict.get_set, ↓reduceIte, orRaise, Except.bind, RemoteEngine.getCredentials]

theorem setPriv_timekeeper (u : Usm) (engineID name : Bytes) (priv : PrivKey) :
    (u.setPriv engineID name priv).timekeeper = u.timekeeper := by
  unfold Usm.setPriv
  split
  · rfl
  · split <;> rfl

theorem withSalt_timekeeper (u : Usm) (engineID name : Bytes) (salt : Nat) :
    (Spec.withSalt u engineID name salt).timekeeper = u.timekeeper := by
  unfold Spec.withSalt
  split
  · exact setPriv_timekeeper _ _ _ _
  · rfl

theorem withSalt_credentials (u : Usm) (engineID name : Bytes) (salt : Nat) :
    (Spec.withSalt u engineID name salt).users.getCredentials engineID name =
      (u.users.getCredentials engineID name).map fun l =>
        ⟨l.auth, l.priv.map fun k => { k with salt }⟩ := by
  unfold Spec.withSalt
  split
  · rename_i auth priv h
    rw [getCredentials_setPriv h, h]; rfl
  · rename_i h
    cases hg : u.users.getCredentials engineID name with
    | error e => rfl
    | ok l =>
      cases hp : l.priv with
      | none =>
        simp only [Except.map, hp, Option.map_none]
        cases l; cases hp; rfl
      | some k =>
        cases l; cases hp
        exact absurd hg (h _ _)

theorem getCredentials_error {r : UserRegistry} {engineID name : Bytes} {e : PyErr}
    (h : r.getCredentials engineID name = .error e) : e = .invalidEngineID ∨ e = .invalidUserName := by
  unfold UserRegistry.getCredentials at h
  cases hg : r.engines.get engineID with
  | none => rw [hg] at h; simp only [orRaise, Except.bind, Except.error.injEq] at h; exact .inl h.symm
  | some x =>
    rw [hg] at h
    simp only [orRaise, Except.bind, RemoteEngine.getCredentials] at h
    cases hu : x.users.get name with
    | none => rw [hu] at h; simp only [Except.error.injEq] at h; exact .inr h.symm
    | some l => rw [hu] at h; cases h

/-- The call that finds the user. -/
theorem sealUp_eq {u : Usm} {m : V3Message} {engineID name : Bytes} {ts : ℚ} {user : LocalizedCredentials}
    {auth : AuthKey} (salt : Nat) (hm : m.header.flags.level.auth = true)
    (hu : u.users.getCredentials engineID name = .ok user) (ha : user.auth = some auth) :
    ((Spec.withSalt u engineID name salt).prepareOutgoing b c m engineID name ts).1 =
      sealUp b c m engineID name (u.timekeeper.getEngineTime engineID ts).1
        (u.timekeeper.getEngineTime engineID ts).2 user auth salt := by
  unfold Usm.prepareOutgoing sealUp
  rw [if_pos hm, withSalt_credentials, hu, withSalt_timekeeper]
  simp only [Except.map, ha]
  split
  · cases hp : user.priv with
    | none => rfl
    | some priv =>
      simp only [Option.map_some]
      cases m.scopedPDU with
      | none => rfl
      | some s =>
        simp only
        cases s.encode <;> rfl
  · rfl

theorem startOut_error {u : Usm} {m : V3Message} {engineID name : Bytes} {ts : ℚ} (salt : Nat) {e : PyErr}
    (hm : m.header.flags.level.auth = true) (hu : u.users.getCredentials engineID name = .error e) :
    ((Spec.withSalt u engineID name salt).prepareOutgoing b c m engineID name ts).1 = .error e := by
  unfold Usm.prepareOutgoing
  rw [if_pos hm, withSalt_credentials, hu]
  rfl

theorem startOut_disabled {u : Usm} {m : V3Message} {engineID name : Bytes} {ts : ℚ} (salt : Nat)
    {user : LocalizedCredentials}
    (hm : m.header.flags.level.auth = true) (hu : u.users.getCredentials engineID name = .ok user)
    (ha : user.auth = none) :
    ((Spec.withSalt u engineID name salt).prepareOutgoing b c m engineID name ts).1 =
      .error .invalidSecurityLevel := by
  unfold Usm.prepareOutgoing
  rw [if_pos hm, withSalt_credentials, hu]
  simp only [Except.map, ha]

theorem startOut_open {u : Usm} {m : V3Message} {engineID name : Bytes} {ts : ℚ}
    (hm : ¬ m.header.flags.level.auth = true) :
    (u.prepareOutgoing b c m engineID name ts).1 = Usm.finish c m engineID 0 0 name [] [] none := by
  unfold Usm.prepareOutgoing
  rw [if_neg hm]

theorem openUp_eq {u : Usm} {m : V3Message} {ts : ℚ} {p : UsmParams} {user : LocalizedCredentials}
    (hm : m.header.flags.level.auth = true) (hp : UsmParams.decode m.securityParameters = .ok p)
    (hu : u.users.getCredentials p.engineID p.userName = .ok user)
    (ha : Usm.authenticate c { m with securityEngineID := some p.engineID, securityName := some p.userName } p user =
      .ok ()) :
    (u.processIncoming b c m ts).1 =
        openUp b c { m with securityEngineID := some p.engineID, securityName := some p.userName } p user
          (u.timekeeper.updateAndVerify p.engineID p.engineBoots p.engineTime ts).1 ∧
      (u.processIncoming b c m ts).2.timekeeper =
        (u.timekeeper.updateAndVerify p.engineID p.engineBoots p.engineTime ts).2 := by
  unfold Usm.processIncoming openUp
  rw [hp]
  simp only [hm, Bool.not_true, Bool.false_eq_true, ↓reduceIte, hu, ha]
  split
  · exact ⟨rfl, rfl⟩
  · split
    · cases user.priv with
      | none => exact ⟨rfl, rfl⟩
      | some k => cases m.encryptedPDU <;> exact ⟨rfl, rfl⟩
    · exact ⟨rfl, rfl⟩

/-! ## One step -/

/-- What a step of a thread amounts to. -/
inductive Moves (b : Backend) (c : Crypto) (s : USys) (t : Nat) (salt : Nat) : USys → Prop
  | none (h : s.pc t = .idle) : Moves b c s t salt s
  | lookedOut {m engineID name ts user auth} (h : s.pc t = .start (.outgoing m engineID name ts))
      (hm : m.header.flags.level.auth = true)
      (hu : s.usm.users.getCredentials engineID name = .ok user) (ha : user.auth = some auth) :
      Moves b c s t salt (s.goto t (.lookedOut m engineID name ts user auth))
  | lookedIn {m ts p user} (h : s.pc t = .start (.incoming m ts)) (hm : m.header.flags.level.auth = true)
      (hp : UsmParams.decode m.securityParameters = .ok p)
      (hu : s.usm.users.getCredentials p.engineID p.userName = .ok user)
      (ha : Usm.authenticate c { m with securityEngineID := some p.engineID, securityName := some p.userName } p
        user = .ok ()) :
      Moves b c s t salt (s.goto t (.lookedIn m ts p user))
  | outAtOnce {m engineID name ts r} (h : s.pc t = .start (.outgoing m engineID name ts))
      (hr : r = ((Spec.withSalt s.usm engineID name salt).prepareOutgoing b c m engineID name ts).1) :
      Moves b c s t salt (s.ret t (.outgoing m engineID name ts) (.sent r))
  | inAtOnce {m ts r k} (h : s.pc t = .start (.incoming m ts))
      (hr : r = (s.usm.processIncoming b c m ts).1) (hk : k = (s.usm.processIncoming b c m ts).2.timekeeper) :
      Moves b c s t salt
        (({ s with usm := ⟨k, s.usm.users⟩ } : USys).ret t (.incoming m ts) (.received r))
  | outEnd {m engineID name ts user auth} (h : s.pc t = .lookedOut m engineID name ts user auth) :
      Moves b c s t salt (s.ret t (.outgoing m engineID name ts)
        (.sent (sealUp b c m engineID name (s.usm.timekeeper.getEngineTime engineID ts).1
          (s.usm.timekeeper.getEngineTime engineID ts).2 user auth salt)))
  | inEnd {m ts p user} (h : s.pc t = .lookedIn m ts p user) :
      Moves b c s t salt
        (({ s with usm := ⟨(s.usm.timekeeper.updateAndVerify p.engineID p.engineBoots p.engineTime ts).2,
            s.usm.users⟩ } : USys).ret t (.incoming m ts)
          (.received (openUp b c { m with securityEngineID := some p.engineID, securityName := some p.userName } p
            user (s.usm.timekeeper.updateAndVerify p.engineID p.engineBoots p.engineTime ts).1)))

theorem step_moves (s : USys) (t salt : Nat) : Moves b c s t salt (s.step b c (.step t salt)) := by
  unfold step
  simp only
  cases hpc : s.pc t with
  | idle => exact .none hpc
  | start k =>
    cases k with
    | outgoing m engineID name ts =>
      simp only
      unfold startOut
      simp only
      split
      case isTrue hm =>
        cases hu : s.usm.users.getCredentials engineID name with
        | error e => exact .outAtOnce hpc (startOut_error salt hm hu).symm
        | ok user =>
          simp only
          cases ha : user.auth with
          | none => exact .outAtOnce hpc (startOut_disabled salt hm hu ha).symm
          | some auth => exact .lookedOut hpc hm hu ha
      case isFalse hm => exact .outAtOnce hpc (startOut_open hm).symm
    | incoming m ts =>
      simp only
      unfold startIn
      simp only
      cases hp : UsmParams.decode m.securityParameters with
      | error e =>
        refine .inAtOnce (k := s.usm.timekeeper) hpc ?_ ?_ <;>
          (unfold Usm.processIncoming; rw [hp])
      | ok p =>
        simp only
        by_cases hm : m.header.flags.level.auth = true
        · simp only [hm, Bool.not_true, Bool.false_eq_true, ↓reduceIte]
          cases hu : s.usm.users.getCredentials p.engineID p.userName with
          | error e =>
            rcases getCredentials_error hu with rfl | rfl <;>
              (refine .inAtOnce (k := s.usm.timekeeper) hpc ?_ ?_ <;>
                (unfold Usm.processIncoming; rw [hp];
                 simp only [hm, Bool.not_true, Bool.false_eq_true, ↓reduceIte, hu]))
          | ok user =>
            simp only
            split
            · rename_i e ha
              refine .inAtOnce (k := s.usm.timekeeper) hpc ?_ ?_ <;>
                (unfold Usm.processIncoming; rw [hp];
                 simp only [hm, Bool.not_true, Bool.false_eq_true, ↓reduceIte, hu, ha])
            · rename_i ha
              exact .lookedIn hpc hm hp hu ha
        · simp only [hm, Bool.not_false, ↓reduceIte]
          refine .inAtOnce hpc ?_ ?_ <;>
            (unfold Usm.processIncoming; rw [hp]; simp only [hm, Bool.not_false, ↓reduceIte])
  | lookedOut m engineID name ts user auth => exact .outEnd hpc
  | lookedIn m ts p user => exact .inEnd hpc

theorem goto_pc (s : USys) (t i : Nat) (pc : UPc) : (s.goto t pc).pc i = if i = t then pc else s.pc i := rfl

theorem ret_pc (s : USys) (t i : Nat) (k : UCall) (r : UResult) :
    (s.ret t k r).pc i = if i = t then .idle else s.pc i := rfl

/-! ## All steps -/

theorem InCall.snoc {h0 : List UEvent} {t : Nat} {k : UCall} {r : List UEvent} {e : UEvent}
    (h : Spec.InCall b c h0 t k r) (hn : (after b c ((h0 ++ .call t k :: r) ++ [e])).pc t ≠ .idle) :
    Spec.InCall b c h0 t k (r ++ [e]) := by
  refine ⟨h.1, fun p hp => ?_⟩
  rcases List.prefix_concat_iff.mp hp with rfl | hp
  · simpa using hn
  · exact h.2 p hp

/-- What is known about a thread at some point of its call. -/
def PcOk (b : Backend) (c : Crypto) (h : List UEvent) (t : Nat) : UPc → Prop
  | .idle => True
  | .start k => ∃ h0 r, h = h0 ++ .call t k :: r ∧ Spec.InCall b c h0 t k r
  | .lookedOut m engineID name ts user auth =>
    m.header.flags.level.auth = true ∧ user.auth = some auth ∧
    ∃ h0 x y, h = h0 ++ .call t (.outgoing m engineID name ts) :: (x ++ y) ∧
      Spec.InCall b c h0 t (.outgoing m engineID name ts) (x ++ y) ∧
      (after b c (h0 ++ .call t (.outgoing m engineID name ts) :: x)).usm.users.getCredentials engineID name =
        .ok user
  | .lookedIn m ts p user =>
    m.header.flags.level.auth = true ∧ UsmParams.decode m.securityParameters = .ok p ∧
    Usm.authenticate c { m with securityEngineID := some p.engineID, securityName := some p.userName } p user =
      .ok () ∧
    ∃ h0 x y, h = h0 ++ .call t (.incoming m ts) :: (x ++ y) ∧
      Spec.InCall b c h0 t (.incoming m ts) (x ++ y) ∧
      (after b c (h0 ++ .call t (.incoming m ts) :: x)).usm.users.getCredentials p.engineID p.userName = .ok user

theorem PcOk.snoc {h : List UEvent} {t : Nat} {pc : UPc} {e : UEvent} (hp : PcOk b c h t pc)
    (hn : (after b c (h ++ [e])).pc t ≠ .idle) : PcOk b c (h ++ [e]) t pc := by
  cases pc with
  | idle => exact hp
  | start k =>
    obtain ⟨h0, r, rfl, hi⟩ := hp
    exact ⟨h0, r ++ [e], by simp, InCall.snoc hi hn⟩
  | lookedOut m engineID name ts user auth =>
    obtain ⟨h1, h2, h0, x, y, rfl, hi, hu⟩ := hp
    refine ⟨h1, h2, h0, x, y ++ [e], by simp, ?_, hu⟩
    rw [← List.append_assoc]
    exact InCall.snoc hi hn
  | lookedIn m ts p user =>
    obtain ⟨h1, h2, h3, h0, x, y, rfl, hi, hu⟩ := hp
    refine ⟨h1, h2, h3, h0, x, y ++ [e], by simp, ?_, hu⟩
    rw [← List.append_assoc]
    exact InCall.snoc hi hn

theorem Explained.snoc {h : List UEvent} {t : Nat} {k : UCall} {r : UResult} {e : UEvent}
    (hx : Spec.Explained b c h t k r) : Spec.Explained b c (h ++ [e]) t k r := by
  obtain ⟨h0, x, y, salt, rest, rfl, hi, h⟩ := hx
  exact ⟨h0, x, y, salt, rest ++ [e], by simp, hi, h⟩

/-- Events that are not steps of the thread leave it where it is, unless it is in no call. -/
theorem step_other (s : USys) (t : Nat) (e : UEvent) (he : ∀ salt, e ≠ .step t salt) :
    (s.step b c e).pc t = s.pc t ∨ (s.pc t = .idle ∧ ∃ k, e = .call t k ∧ (s.step b c e).pc t = .start k) := by
  cases e with
  | addUser a seed => exact .inl rfl
  | register i ns seed => exact .inl rfl
  | unregister i ns => exact .inl rfl
  | call i k =>
    unfold step
    simp only
    cases hi : s.pc i with
    | idle =>
      simp only [goto_pc]
      by_cases ht : t = i
      · subst ht; exact .inr ⟨hi, k, rfl, by simp⟩
      · rw [if_neg ht]; exact .inl rfl
    | start k => exact .inl rfl
    | lookedOut m engineID name ts user auth => exact .inl rfl
    | lookedIn m ts p user => exact .inl rfl
  | step i salt =>
    have ht : t ≠ i := fun h => he salt (by rw [h])
    have := step_moves (b := b) (c := c) s i salt
    generalize step b c s (.step i salt) = s' at this
    cases this <;> first
      | exact .inl rfl
      | (left; rw [goto_pc, if_neg ht])
      | (left; rw [ret_pc, if_neg ht])

theorem step_returned (s : USys) (e : UEvent) (he : ∀ t salt, e ≠ .step t salt) :
    (s.step b c e).returned = s.returned := by
  cases e with
  | addUser a seed => rfl
  | register i ns seed => rfl
  | unregister i ns => rfl
  | call i k =>
    unfold step
    simp only
    cases s.pc i <;> rfl
  | step i salt => exact absurd rfl (he i salt)

theorem all_ok (h : List UEvent) : (∀ t, PcOk b c h t ((after b c h).pc t)) ∧
    ∀ x ∈ (after b c h).returned, Spec.Explained b c h x.1 x.2.1 x.2.2 := by
  induction h using List.reverseRecOn with
  | nil => exact ⟨fun t => trivial, by intro x hx; cases hx⟩
  | append_singleton h e ih =>
    by_cases hs : ∃ t salt, e = .step t salt
    · obtain ⟨t, salt, rfl⟩ := hs
      have hafter : after b c (h ++ [.step t salt]) = (after b c h).step b c (.step t salt) := after_snoc _ _
      have hothers : ∀ i, i ≠ t → PcOk b c (h ++ [.step t salt]) i ((after b c (h ++ [.step t salt])).pc i) := by
        intro i hi
        rcases step_other (b := b) (c := c) (after b c h) i (.step t salt) (by
          intro v hv; injection hv with h1; exact hi h1.symm) with h1 | ⟨-, k, h1, -⟩
        · rw [← hafter] at h1
          rw [h1]
          by_cases hidle : (after b c h).pc i = .idle
          · rw [hidle]; trivial
          · exact (ih.1 i).snoc (by rw [h1]; exact hidle)
        · cases h1
      have hold : ∀ x ∈ (after b c h).returned, Spec.Explained b c (h ++ [.step t salt]) x.1 x.2.1 x.2.2 :=
        fun x hx => Explained.snoc (ih.2 x hx)
      have hm := step_moves (b := b) (c := c) (after b c h) t salt
      rw [← hafter] at hm
      have hpc := ih.1 t
      suffices hboth : PcOk b c (h ++ [.step t salt]) t ((after b c (h ++ [.step t salt])).pc t) ∧
          ∀ x ∈ (after b c (h ++ [.step t salt])).returned,
            Spec.Explained b c (h ++ [.step t salt]) x.1 x.2.1 x.2.2 by
        refine ⟨fun i => ?_, hboth.2⟩
        by_cases hi : i = t
        · subst hi; exact hboth.1
        · exact hothers i hi
      generalize hs' : after b c (h ++ [.step t salt]) = s' at hm
      cases hm with
      | none hidle => exact ⟨by rw [hidle]; trivial, hold⟩
      | lookedOut hst hm hu ha =>
        rename_i m engineID name ts user auth
        rw [hst] at hpc
        obtain ⟨h0, r, rfl, hi⟩ := hpc
        refine ⟨?_, hold⟩
        rw [goto_pc, if_pos rfl]
        refine ⟨hm, ha, h0, r, [.step t salt], by simp, ?_, hu⟩
        exact InCall.snoc hi (by rw [hs', goto_pc, if_pos rfl]; simp)
      | lookedIn hst hm hp hu ha =>
        rename_i m ts p user
        rw [hst] at hpc
        obtain ⟨h0, r, rfl, hi⟩ := hpc
        refine ⟨?_, hold⟩
        rw [goto_pc, if_pos rfl]
        refine ⟨hm, hp, ha, h0, r, [.step t salt], by simp, ?_, hu⟩
        exact InCall.snoc hi (by rw [hs', goto_pc, if_pos rfl]; simp)
      | outAtOnce hst hr =>
        rename_i m engineID name ts r
        rw [hst] at hpc
        obtain ⟨h0, z, rfl, hi⟩ := hpc
        refine ⟨by rw [ret_pc, if_pos rfl]; trivial, ?_⟩
        intro x hx
        rcases List.mem_cons.mp hx with rfl | hx
        · refine ⟨h0, z, [], salt, [], by simp, by simpa using hi, ?_⟩
          simp only [List.append_nil]
          refine ⟨by rw [hr], ?_⟩
          rw [show h0 ++ .call t (.outgoing m engineID name ts) :: (z ++ [.step t salt]) =
            (h0 ++ .call t (.outgoing m engineID name ts) :: z) ++ [.step t salt] by simp, hs']
          rfl
        · exact hold x hx
      | inAtOnce hst hr hk =>
        rename_i m ts r tk
        rw [hst] at hpc
        obtain ⟨h0, z, rfl, hi⟩ := hpc
        refine ⟨by rw [ret_pc, if_pos rfl]; trivial, ?_⟩
        intro x hx
        rcases List.mem_cons.mp hx with rfl | hx
        · refine ⟨h0, z, [], salt, [], by simp, by simpa using hi, ?_⟩
          simp only [List.append_nil]
          rw [show h0 ++ .call t (.incoming m ts) :: (z ++ [.step t salt]) =
            (h0 ++ .call t (.incoming m ts) :: z) ++ [.step t salt] by simp, hs']
          exact ⟨by rw [hr], hk, rfl⟩
        · exact hold x hx
      | outEnd hst =>
        rename_i m engineID name ts user auth
        rw [hst] at hpc
        obtain ⟨hm, ha, h0, z, y, rfl, hi, hu⟩ := hpc
        refine ⟨by rw [ret_pc, if_pos rfl]; trivial, ?_⟩
        intro x hx
        rcases List.mem_cons.mp hx with rfl | hx
        · refine ⟨h0, z, y, salt, [], by simp, hi, ?_⟩
          simp only
          rw [show h0 ++ .call t (.outgoing m engineID name ts) :: (z ++ y ++ [.step t salt]) =
            (h0 ++ .call t (.outgoing m engineID name ts) :: (z ++ y)) ++ [.step t salt] by simp, hs']
          refine ⟨?_, rfl⟩
          rw [sealUp_eq (u := ⟨(after b c (h0 ++ .call t (.outgoing m engineID name ts) :: (z ++ y))).usm.timekeeper,
            (after b c (h0 ++ .call t (.outgoing m engineID name ts) :: z)).usm.users⟩) salt hm hu ha]
        · exact hold x hx
      | inEnd hst =>
        rename_i m ts p user
        rw [hst] at hpc
        obtain ⟨hm, hp, ha, h0, z, y, rfl, hi, hu⟩ := hpc
        refine ⟨by rw [ret_pc, if_pos rfl]; trivial, ?_⟩
        intro x hx
        rcases List.mem_cons.mp hx with rfl | hx
        · refine ⟨h0, z, y, salt, [], by simp, hi, ?_⟩
          simp only
          rw [show h0 ++ .call t (.incoming m ts) :: (z ++ y ++ [.step t salt]) =
            (h0 ++ .call t (.incoming m ts) :: (z ++ y)) ++ [.step t salt] by simp, hs']
          obtain ⟨k1, k2⟩ := openUp_eq (b := b)
            (u := ⟨(after b c (h0 ++ .call t (.incoming m ts) :: (z ++ y))).usm.timekeeper,
              (after b c (h0 ++ .call t (.incoming m ts) :: z)).usm.users⟩) (ts := ts) hm hp hu ha
          exact ⟨by rw [k1], k2.symm, rfl⟩
        · exact hold x hx
    · have hs : ∀ t salt, e ≠ .step t salt := fun t salt h => hs ⟨t, salt, h⟩
      refine ⟨fun t => ?_, ?_⟩
      · rcases step_other (b := b) (c := c) (after b c h) t e (hs t) with h1 | ⟨hidle, k, rfl, h1⟩
        · rw [← after_snoc] at h1
          rw [h1]
          by_cases hidle : (after b c h).pc t = .idle
          · rw [hidle]; trivial
          · exact (ih.1 t).snoc (by rw [h1]; exact hidle)
        · rw [← after_snoc] at h1
          rw [h1]
          refine ⟨h, [], rfl, hidle, fun p hp => ?_⟩
          rw [List.prefix_nil.mp hp, h1]
          simp
      · rw [after_snoc, step_returned _ _ hs]
        exact fun x hx => Explained.snoc (ih.2 x hx)

end USys

/-- **C112**, each call: whatever any number of threads do at the same time, every call of the security module
that returns or raises does so with the result of an undisturbed call on the module made up of the users as they
were at one moment of this call and the clock as it was at another, not earlier, moment of this call; and its
effect on the module, which it has in one step, is that of this undisturbed call on the clock. -/
theorem C112_calls (b : Backend) (c : Crypto) (h : List UEvent) (t : Nat) (k : UCall) (r : UResult)
    (hr : (t, k, r) ∈ (USys.after b c h).returned) : Spec.Explained b c h t k r :=
  (USys.all_ok h).2 _ hr

namespace USys

variable {b : Backend} {c : Crypto}

/-! ## Calls come to an end -/

/-- The most steps a thread has yet to take in its call. -/
def rank : UPc → Nat
  | .idle => 0
  | .start _ => 2
  | .lookedOut .. => 1
  | .lookedIn .. => 1

theorem rank_step (s : USys) (t salt : Nat) : rank ((s.step b c (.step t salt)).pc t) ≤ rank (s.pc t) - 1 := by
  have := step_moves (b := b) (c := c) s t salt
  generalize step b c s (.step t salt) = s' at this
  cases this with
  | none h => rw [h]; exact le_refl _
  | lookedOut h => rw [goto_pc, if_pos rfl, h]; exact le_refl _
  | lookedIn h => rw [goto_pc, if_pos rfl, h]; exact le_refl _
  | outAtOnce h => rw [ret_pc, if_pos rfl]; exact Nat.zero_le _
  | inAtOnce h => rw [ret_pc, if_pos rfl]; exact Nat.zero_le _
  | outEnd h => rw [ret_pc, if_pos rfl]; exact Nat.zero_le _
  | inEnd h => rw [ret_pc, if_pos rfl]; exact Nat.zero_le _

theorem rank_after (h h' : List UEvent) (t : Nat) (hc : ∀ k, UEvent.call t k ∉ h') :
    rank ((after b c (h ++ h')).pc t) ≤ 2 - Spec.stepsOf t h' := by
  induction h' using List.reverseRecOn with
  | nil =>
    rw [List.append_nil]
    generalize (after b c h).pc t = q
    show rank q ≤ 2
    cases q <;> simp [rank]
  | append_singleton h' e ih =>
    have ih := ih fun k hk => hc k (List.mem_append_left _ hk)
    rw [← List.append_assoc, after_snoc]
    have hcount : Spec.stepsOf t (h' ++ [e]) = Spec.stepsOf t h' + Spec.stepsOf t [e] := by
      unfold Spec.stepsOf; rw [List.countP_append]
    rw [hcount]
    by_cases he : ∃ salt, e = .step t salt
    · obtain ⟨salt, rfl⟩ := he
      have h1 := rank_step (b := b) (c := c) (after b c (h ++ h')) t salt
      have h2 : Spec.stepsOf t [.step t salt] = 1 := by simp [Spec.stepsOf]
      omega
    · have h2 : Spec.stepsOf t [e] = 0 := by
        unfold Spec.stepsOf
        cases e with
        | step i salt =>
          have : i ≠ t := by rintro rfl; exact he ⟨salt, rfl⟩
          simp [this]
        | addUser a seed => rfl
        | register i ns seed => rfl
        | unregister i ns => rfl
        | call i k => rfl
      rcases step_other (b := b) (c := c) (after b c (h ++ h')) t e (fun salt h => he ⟨salt, h⟩) with
        h1 | ⟨-, k, rfl, -⟩
      · rw [h1, h2]; exact ih
      · exact absurd (List.mem_append_right _ (List.mem_singleton.mpr rfl)) (hc k)

/-! ## The users -/

theorem users_after (h : List UEvent) : (after b c h).usm.users = UserRegistry.after c (Spec.configsT h) := by
  induction h using List.reverseRecOn with
  | nil => rfl
  | append_singleton h e ih =>
    rw [after_snoc]
    have hsplit : Spec.configsT (h ++ [e]) = Spec.configsT h ++ Spec.configsT [e] := by
      unfold Spec.configsT; rw [List.filterMap_append]
    rw [hsplit]
    cases e with
    | addUser a seed =>
      show ((after b c h).usm.users.addUser c a seed).2 = UserRegistry.after c (Spec.configsT h ++ [.addUser a seed])
      rw [UserRegistry.after_snoc, ih]; rfl
    | register i ns seed =>
      show ((after b c h).usm.users.assign c i ns seed).2 =
        UserRegistry.after c (Spec.configsT h ++ [.register i ns seed])
      rw [UserRegistry.after_snoc, ih]; rfl
    | unregister i ns =>
      show ((after b c h).usm.users.release i ns).2 = UserRegistry.after c (Spec.configsT h ++ [.unregister i ns])
      rw [UserRegistry.after_snoc, ih]; rfl
    | call t k =>
      have : Spec.configsT [UEvent.call t k] = [] := rfl
      rw [this, List.append_nil, ← ih]
      unfold step
      simp only
      cases (after b c h).pc t <;> rfl
    | step t salt =>
      have : Spec.configsT [UEvent.step t salt] = [] := rfl
      rw [this, List.append_nil, ← ih]
      have hm := step_moves (b := b) (c := c) (after b c h) t salt
      generalize step b c (after b c h) (.step t salt) = s' at hm
      cases hm <;> rfl

/-- As `Usm.credentials_configured`. -/
theorem credentials_configured (hc : c.Ok) (h : List UEvent) {engineID name : Bytes} {user : LocalizedCredentials}
    (hu : (after b c h).usm.users.getCredentials engineID name = .ok user) :
    ∃ ns n cr l, (Spec.Reg.after c (Spec.configsT h)).engine engineID = some (ns, n) ∧
      (Spec.Reg.after c (Spec.configsT h)).user ns name = some (cr, l) ∧
      Spec.Localised c cr engineID user := by
  have ok := RegOk.after hc (Spec.configsT h)
  rw [users_after] at hu
  rw [ok.engine engineID]
  unfold UserRegistry.getCredentials at hu
  cases hg : (UserRegistry.after c (Spec.configsT h)).engines.get engineID with
  | none => rw [hg] at hu; cases hu
  | some e =>
    rw [hg] at hu
    have hl := ok.local_ engineID e hg name
    simp only [orRaise, Except.bind, RemoteEngine.getCredentials] at hu
    cases hs : (Spec.Reg.after c (Spec.configsT h)).user e.namespace name with
    | none => rw [hs] at hl; simp only at hl; rw [hl] at hu; cases hu
    | some x =>
      rw [hs] at hl
      obtain ⟨l, h1, h2⟩ := hl
      rw [h1] at hu
      injection hu with hu; subst hu
      exact ⟨e.namespace, e.count.toNat, x.1, x.2, rfl, by rw [hs], h2⟩

/-! ## The clock -/

theorem params_boots {d : Asn1Data} {p : UsmParams} (h : UsmParams.decode d = .ok p) :
    p.engineBoots ≤ 2147483647 := by
  have key : ∀ {d : Asn1Data} {l : Bool} {x : Int × Subbytes}, decodeInteger d l = .ok x → x.1 ≤ 2147483647 := by
    intro d l x hx
    unfold decodeInteger asn1Decode at hx
    obtain ⟨y, -, hx⟩ := bind_ok hx
    obtain ⟨v, hv, hx⟩ := bind_ok hx
    injection hx with hx; subst hx
    unfold IntType.deserialize at hv
    rw [IntType.construct_eq] at hv
    split at hv
    · rename_i hr
      injection hv with hv; subst hv
      have := (IntType.inRange_iff _ _).1 hr
      simp only at this
      have h2 := this.2
      norm_num at h2
      exact Int.lt_add_one_iff.mp h2
    · cases hv
  unfold UsmParams.decode at h
  obtain ⟨⟨q, tl⟩, hq, h⟩ := bind_ok h
  injection h with h; subst h
  unfold asn1Decode at hq
  obtain ⟨y, -, hq⟩ := bind_ok hq
  obtain ⟨q', hq', hq⟩ := bind_ok hq
  injection hq with hq; injection hq with hq _; subst hq
  unfold UsmParams.deserialize at hq'
  obtain ⟨a1, -, hq'⟩ := bind_ok hq'
  obtain ⟨a2, h2, hq'⟩ := bind_ok hq'
  obtain ⟨a3, -, hq'⟩ := bind_ok hq'
  obtain ⟨a4, -, hq'⟩ := bind_ok hq'
  obtain ⟨a5, -, hq'⟩ := bind_ok hq'
  obtain ⟨a6, -, hq'⟩ := bind_ok hq'
  injection hq' with hq'; subst hq'
  have := key h2
  obtain ⟨sg, tl5⟩ := a5
  cases sg <;> exact this

theorem openUp_label {m r : V3Message} {p : UsmParams} {user : LocalizedCredentials} {w : Bool}
    (h : openUp b c m p user w = .ok r) : r.securityEngineID = m.securityEngineID := by
  unfold openUp at h
  split at h
  · cases h
  · split at h
    · split at h
      · obtain ⟨pl, -, h⟩ := bind_ok (translateErr_ok h)
        obtain ⟨s, -, h⟩ := bind_ok h
        injection h with h; subst h; rfl
      · cases h
    · injection h with h; subst h; rfl

/-- The messages that have reached the clock. -/
structure Heard (b : Backend) (c : Crypto) (h : List UEvent) (evs : List Spec.TimeEvent) : Prop where
  clock : (after b c h).usm.timekeeper = TimeKeeper.after evs
  boots : ∀ i bt tm ts, Spec.TimeEvent.auth i bt tm ts ∈ evs → bt ≤ 2147483647
  accepted : ∀ t m ts r i, (t, UCall.incoming m ts, UResult.received (.ok r)) ∈ (after b c h).returned →
    m.header.flags.level.auth = true → r.securityEngineID = some i → Spec.Authenticated i evs

/-- What an undisturbed `processIncoming` does to the clock. -/
theorem processIncoming_clock (u : Usm) (m : V3Message) (ts : ℚ) :
    ∃ evs, (u.processIncoming b c m ts).2.timekeeper = evs.foldl TimeKeeper.apply u.timekeeper ∧
      (∀ i bt tm ts, Spec.TimeEvent.auth i bt tm ts ∈ evs → bt ≤ 2147483647) ∧
      ∀ r i, (u.processIncoming b c m ts).1 = .ok r → m.header.flags.level.auth = true →
        r.securityEngineID = some i → Spec.Authenticated i evs := by
  cases hp : UsmParams.decode m.securityParameters with
  | error e =>
    refine ⟨[], ?_, by simp, ?_⟩ <;> unfold Usm.processIncoming <;> rw [hp]
    · rfl
    · intro r i h; cases h
  | ok p =>
    by_cases hm : m.header.flags.level.auth = true
    · cases hu : u.users.getCredentials p.engineID p.userName with
      | error e =>
        refine ⟨[], ?_, by simp, ?_⟩ <;> unfold Usm.processIncoming <;> rw [hp] <;>
          simp only [hm, Bool.not_true, Bool.false_eq_true, ↓reduceIte, hu] <;>
          rcases getCredentials_error hu with rfl | rfl
        · rfl
        · rfl
        · intro r i h; cases h
        · intro r i h; cases h
      | ok user =>
        cases ha : Usm.authenticate c
            { m with securityEngineID := some p.engineID, securityName := some p.userName } p user with
        | error e =>
          refine ⟨[], ?_, by simp, ?_⟩ <;> unfold Usm.processIncoming <;> rw [hp] <;>
            simp only [hm, Bool.not_true, Bool.false_eq_true, ↓reduceIte, hu, ha]
          · rfl
          · intro r i h; cases h
        | ok x =>
          obtain ⟨k1, k2⟩ := openUp_eq (b := b) (u := u) (ts := ts) hm hp hu ha
          refine ⟨[.auth p.engineID p.engineBoots p.engineTime ts], k2, ?_, ?_⟩
          · intro i bt tm ts' hmem
            rw [List.mem_singleton] at hmem
            injection hmem with _ h2
            rw [h2]; exact params_boots hp
          · intro r i hr _ hi
            rw [k1] at hr
            have := openUp_label hr
            rw [hi] at this
            injection this with this
            subst this
            exact ⟨_, _, _, List.mem_singleton.mpr rfl⟩
    · refine ⟨[.hint p.engineID p.engineBoots p.engineTime ts], ?_, ?_, ?_⟩
      · unfold Usm.processIncoming
        rw [hp]
        simp only [hm, Bool.not_false, ↓reduceIte]
        rfl
      · intro i bt tm ts' hmem
        rw [List.mem_singleton] at hmem
        cases hmem
      · intro r i _ h; exact absurd h hm

theorem Heard.snoc {h : List UEvent} {evs : List Spec.TimeEvent} (hh : Heard b c h evs) (e : UEvent) :
    ∃ evs', Heard b c (h ++ [e]) (evs ++ evs') := by
  have more : ∀ {evs' : List Spec.TimeEvent} {i}, Spec.Authenticated i evs → Spec.Authenticated i (evs ++ evs') := by
    intro evs' i ⟨x, y, z, hm⟩
    exact ⟨x, y, z, List.mem_append_left _ hm⟩
  by_cases hs : ∃ t salt, e = .step t salt
  · obtain ⟨t, salt, rfl⟩ := hs
    have hm := step_moves (b := b) (c := c) (after b c h) t salt
    have hpc := (all_ok (b := b) (c := c) h).1 t
    rw [← after_snoc] at hm
    generalize hs' : after b c (h ++ [.step t salt]) = s' at hm
    -- a step with a result obtained from an undisturbed call
    have fin : ∀ (u : Usm) m ts k r, u.timekeeper = (after b c h).usm.timekeeper →
        r = (u.processIncoming b c m ts).1 → k = (u.processIncoming b c m ts).2.timekeeper →
        s' = (({ after b c h with usm := ⟨k, (after b c h).usm.users⟩ } : USys).ret t (.incoming m ts)
          (.received r)) → ∃ evs', Heard b c (h ++ [.step t salt]) (evs ++ evs') := by
      intro u m ts k r hu hr hk hs''
      obtain ⟨evs', k1, k2, k3⟩ := processIncoming_clock (b := b) (c := c) u m ts
      refine ⟨evs', ⟨?_, ?_, ?_⟩⟩
      · rw [hs', hs'']
        show k = _
        rw [hk, k1, hu, hh.clock]
        unfold TimeKeeper.after
        rw [List.foldl_append]
      · intro i bt tm ts' hmem
        rcases List.mem_append.mp hmem with hmem | hmem
        · exact hh.boots _ _ _ _ hmem
        · exact k2 _ _ _ _ hmem
      · intro t' m' ts' r' i hmem hauth hi
        rw [hs', hs''] at hmem
        rcases List.mem_cons.mp hmem with hmem | hmem
        · injection hmem with _ hmem
          injection hmem with hmem h2
          injection hmem with h3 h4
          injection h2 with h2
          subst h3
          obtain ⟨x, y, z, hmm⟩ := k3 r' i (by rw [← hr, ← h2]) hauth hi
          exact ⟨x, y, z, List.mem_append_right _ hmm⟩
        · exact more (hh.accepted _ _ _ _ _ hmem hauth hi)
    have same : s'.usm.timekeeper = (after b c h).usm.timekeeper →
        (∀ t m ts r, (t, UCall.incoming m ts, r) ∈ s'.returned → (t, UCall.incoming m ts, r) ∈ (after b c h).returned) →
        ∃ evs', Heard b c (h ++ [.step t salt]) (evs ++ evs') := by
      intro h1 h2
      refine ⟨[], ?_⟩
      rw [List.append_nil]
      refine ⟨by rw [hs', h1, hh.clock], hh.boots, ?_⟩
      intro t' m' ts' r' i hmem
      rw [hs'] at hmem
      exact hh.accepted _ _ _ _ _ (h2 _ _ _ _ hmem)
    cases hm with
    | none hidle => exact same rfl fun _ _ _ _ h => h
    | lookedOut hst hm hu ha => exact same rfl fun _ _ _ _ h => h
    | lookedIn hst hm hp hu ha => exact same rfl fun _ _ _ _ h => h
    | outAtOnce hst hr =>
      refine same rfl fun _ _ _ _ h => ?_
      rcases List.mem_cons.mp h with h | h
      · cases h
      · exact h
    | outEnd hst =>
      refine same rfl fun _ _ _ _ h => ?_
      rcases List.mem_cons.mp h with h | h
      · cases h
      · exact h
    | inAtOnce hst hr hk =>
      rename_i m ts r k
      exact fin _ m ts k r rfl hr hk rfl
    | inEnd hst =>
      rename_i m ts p user
      rw [hst] at hpc
      obtain ⟨hm, hp, ha, h0, z, y, -, -, hu⟩ := hpc
      obtain ⟨k1, k2⟩ := openUp_eq (b := b)
        (u := ⟨(after b c h).usm.timekeeper,
          (after b c (h0 ++ .call t (.incoming m ts) :: z)).usm.users⟩) (ts := ts) hm hp hu ha
      exact fin ⟨(after b c h).usm.timekeeper, (after b c (h0 ++ .call t (.incoming m ts) :: z)).usm.users⟩ m ts _ _
        rfl k1.symm k2.symm rfl
  · have hs : ∀ t salt, e ≠ .step t salt := fun t salt h => hs ⟨t, salt, h⟩
    refine ⟨[], ?_⟩
    rw [List.append_nil]
    refine ⟨?_, hh.boots, ?_⟩
    · rw [after_snoc, ← hh.clock]
      cases e with
      | addUser a seed => rfl
      | register i ns seed => rfl
      | unregister i ns => rfl
      | call i k =>
        unfold step
        simp only
        cases (after b c h).pc i <;> rfl
      | step i salt => exact absurd rfl (hs i salt)
    · rw [after_snoc, step_returned _ _ hs]
      exact hh.accepted

theorem Heard.append {h : List UEvent} {evs : List Spec.TimeEvent} (hh : Heard b c h evs) (h' : List UEvent) :
    ∃ evs', Heard b c (h ++ h') (evs ++ evs') := by
  induction h' using List.reverseRecOn with
  | nil => exact ⟨[], by simpa using hh⟩
  | append_singleton h' e ih =>
    obtain ⟨evs', h1⟩ := ih
    obtain ⟨evs'', h2⟩ := h1.snoc e
    exact ⟨evs' ++ evs'', by simpa using h2⟩

theorem Heard.init : Heard b c [] [] :=
  ⟨rfl, (fun _ _ _ _ h => nomatch h), (fun _ _ _ _ _ h => nomatch h)⟩

end USys

/-- **C112**, calls end: whatever the other threads do meanwhile, a call is over after two steps of its thread;
no thread can make another one wait. -/
theorem C112_returns (b : Backend) (c : Crypto) (h h' : List UEvent) (t : Nat) (hs : 2 ≤ Spec.stepsOf t h')
    (hc : ∀ k, UEvent.call t k ∉ h') : (USys.after b c (h ++ h')).pc t = .idle := by
  have := USys.rank_after (b := b) (c := c) h h' t hc
  generalize (USys.after b c (h ++ h')).pc t = q at this
  cases q with
  | idle => rfl
  | start k => simp only [USys.rank] at this; omega
  | lookedOut m engineID name ts user auth => simp only [USys.rank] at this; omega
  | lookedIn m ts p user => simp only [USys.rank] at this; omega

/-- **C112**, authentication: if a call of a thread accepts a received message with the authentication flag,
then at some moment of this call the engine was registered and the user configured, as the configuration calls up
to then say, and the message is authentic for the key of this user. -/
theorem C112_configured (b : Backend) (c : Crypto) (hc : c.Ok) (h : List UEvent) (t : Nat) (ts : ℚ) (w : Bytes)
    (m r : V3Message) (hdec : V3Message.decode (.bytes w) = .ok m) (hauth : m.header.flags.level.auth = true)
    (hr : (t, UCall.incoming m ts, UResult.received (.ok r)) ∈ (USys.after b c h).returned) :
    ∃ h0 x rest, h = h0 ++ .call t (.incoming m ts) :: (x ++ rest) ∧
      Spec.InCall b c h0 t (.incoming m ts) x ∧
      ∃ engineID name ns n cr l user, r.securityEngineID = some engineID ∧ r.securityName = some name ∧
        (Spec.Reg.after c (Spec.configsT (h0 ++ .call t (.incoming m ts) :: x))).engine engineID = some (ns, n) ∧
        (Spec.Reg.after c (Spec.configsT (h0 ++ .call t (.incoming m ts) :: x))).user ns name = some (cr, l) ∧
        Spec.Localised c cr engineID user ∧ Spec.Authentic c user w r.header.flags.level.priv := by
  obtain ⟨h0, x, y, salt, rest, rfl, hi, hres, -, -⟩ := C112_calls b c h t _ _ hr
  refine ⟨h0, x, y ++ .step t salt :: rest, by simp, ⟨hi.1, fun p hp => hi.2 p (hp.trans (List.prefix_append _ _))⟩, ?_⟩
  injection hres with hres
  obtain ⟨p, user, -, hu, ha, hlab⟩ := C43_authentic _ b c ts w m hdec hauth (.inl ⟨r, hres.symm⟩)
  obtain ⟨h1, h2, h3⟩ := hlab r hres.symm
  obtain ⟨ns, n, cr, l, k1, k2, k3⟩ := USys.credentials_configured hc _ hu
  exact ⟨p.engineID, p.userName, ns, n, cr, l, user, h2, h3, k1, k2, k3, by rw [h1]; exact ha⟩

/-- **C112**, the clock: once any thread has accepted an authenticated message of an engine, no interleaving of
calls makes the estimate of this engine's boots smaller, nor, while it stays the same, the estimate of its time. -/
theorem C112_monotone (b : Backend) (c : Crypto) (h h' : List UEvent) (t : Nat) (ts : ℚ) (m r : V3Message)
    (engineID : Bytes) (hauth : m.header.flags.level.auth = true)
    (hr : (t, UCall.incoming m ts, UResult.received (.ok r)) ∈ (USys.after b c h).returned)
    (hi : r.securityEngineID = some engineID) (now : ℚ) :
    let old := (USys.after b c h).usm.timekeeper.getEngineTime engineID now
    let new := (USys.after b c (h ++ h')).usm.timekeeper.getEngineTime engineID now
    old.1 ≤ new.1 ∧ (new.1 = old.1 → old.2 ≤ new.2) := by
  obtain ⟨evs, he⟩ := (USys.Heard.init (b := b) (c := c)).append h
  rw [List.nil_append, List.nil_append] at he
  obtain ⟨evs', he'⟩ := he.append h'
  rw [he.clock, he'.clock]
  refine C36_monotone evs evs' engineID (he.accepted t m ts r engineID hr hauth hi) ?_ now
  intro bt tm ts' hmem
  exact he'.boots _ _ _ _ (List.mem_append_right _ hmem)

namespace USys

theorem step_idle {b : Backend} {c : Crypto} {s : USys} {t x : Nat} (h : s.pc t = .idle) :
    s.step b c (.step t x) = s := by
  unfold step
  simp only [h]

theorem step_lookedIn {b : Backend} {c : Crypto} {s : USys} {t x : Nat} {m : V3Message} {ts : ℚ} {p : UsmParams}
    {user : LocalizedCredentials} (h : s.pc t = .lookedIn m ts p user) :
    s.step b c (.step t x) =
      (({ s with usm := ⟨(s.usm.timekeeper.updateAndVerify p.engineID p.engineBoots p.engineTime ts).2,
            s.usm.users⟩ } : USys).ret t (.incoming m ts)
          (.received (openUp b c { m with securityEngineID := some p.engineID, securityName := some p.userName } p
            user (s.usm.timekeeper.updateAndVerify p.engineID p.engineBoots p.engineTime ts).1))) := by
  unfold step
  simp only [h]

theorem processIncoming_header {b : Backend} {c : Crypto} {u : Usm} {m r : V3Message} {ts : ℚ}
    (h : (u.processIncoming b c m ts).1 = .ok r) : r.header = m.header := by
  cases hp : UsmParams.decode m.securityParameters with
  | error e => unfold Usm.processIncoming at h; rw [hp] at h; cases h
  | ok p =>
    by_cases hm : m.header.flags.level.auth = true
    · cases hu : u.users.getCredentials p.engineID p.userName with
      | error e =>
        unfold Usm.processIncoming at h
        rw [hp] at h
        simp only [hm, Bool.not_true, Bool.false_eq_true, ↓reduceIte, hu] at h
        rcases getCredentials_error hu with rfl | rfl <;> cases h
      | ok user =>
        cases ha : Usm.authenticate c
            { m with securityEngineID := some p.engineID, securityName := some p.userName } p user with
        | error e =>
          unfold Usm.processIncoming at h
          rw [hp] at h
          simp only [hm, Bool.not_true, Bool.false_eq_true, ↓reduceIte, hu, ha] at h
          cases h
        | ok x =>
          rw [(openUp_eq (b := b) (u := u) (ts := ts) hm hp hu ha).1] at h
          unfold openUp at h
          split at h
          · cases h
          · split at h
            · split at h
              · obtain ⟨pl, -, h⟩ := bind_ok (translateErr_ok h)
                obtain ⟨s, -, h⟩ := bind_ok h
                injection h with h; subst h; rfl
              · cases h
            · injection h with h; subst h; rfl
    · unfold Usm.processIncoming at h
      rw [hp] at h
      simp only [hm, Bool.not_false, ↓reduceIte] at h
      injection h with h; subst h; rfl

end USys

/-- **C112**, alone: a received message handled without interference is handled as in C43: the same result. -/
theorem C112_alone (b : Backend) (c : Crypto) (h : List UEvent) (t : Nat) (m : V3Message) (ts : ℚ) (x y : Nat)
    (hidle : (USys.after b c h).pc t = .idle) :
    (t, .incoming m ts, .received ((USys.after b c h).usm.processIncoming b c m ts).1) ∈
      (USys.after b c (h ++ [.call t (.incoming m ts), .step t x, .step t y])).returned := by
  have e1 : USys.after b c (h ++ [.call t (.incoming m ts), .step t x, .step t y]) =
      (((USys.after b c h).step b c (.call t (.incoming m ts))).step b c (.step t x)).step b c (.step t y) := by
    simp [USys.after]
  rw [e1]
  generalize hs : USys.after b c h = s at hidle
  have e2 : s.step b c (.call t (.incoming m ts)) = s.goto t (.start (.incoming m ts)) := by
    unfold USys.step; simp only [hidle]
  rw [e2]
  have hst : (s.goto t (.start (.incoming m ts))).pc t = .start (.incoming m ts) := by rw [USys.goto_pc, if_pos rfl]
  have hm := USys.step_moves (b := b) (c := c) (s.goto t (.start (.incoming m ts))) t x
  generalize USys.step b c (s.goto t (.start (.incoming m ts))) (.step t x) = s2 at hm
  cases hm with
  | none h1 => rw [hst] at h1; cases h1
  | lookedOut h1 => rw [hst] at h1; cases h1
  | outAtOnce h1 => rw [hst] at h1; cases h1
  | outEnd h1 => rw [hst] at h1; cases h1
  | inEnd h1 => rw [hst] at h1; cases h1
  | inAtOnce h1 hr hk =>
    rename_i m' ts' r k
    rw [hst] at h1
    injection h1 with h1
    injection h1 with h1 h2
    subst h1; subst h2; subst hr
    rw [USys.step_idle (by rw [USys.ret_pc, if_pos rfl])]
    exact List.mem_cons_self
  | lookedIn h1 hm hp hu ha =>
    rename_i m' ts' p user
    rw [hst] at h1
    injection h1 with h1
    injection h1 with h1 h2
    subst h1; subst h2
    obtain ⟨k1, -⟩ := USys.openUp_eq (b := b) (u := s.usm) (ts := ts) hm hp hu ha
    rw [USys.step_lookedIn (by rw [USys.goto_pc, if_pos rfl]), k1]
    exact List.mem_cons_self

/-- Two threads send the same request at once, and a third unregisters the engine in between. -/
def Spec.race : List UEvent :=
  [.addUser Spec.sampleUser (fun _ => 0), .register [1] "" (fun _ => 0),
   .call 0 (.outgoing (Spec.request false) [1] [97] 1), .call 1 (.outgoing (Spec.request false) [1] [97] 1),
   .step 0 0, .step 1 0, .unregister [1] "", .step 1 0, .step 0 0]

/-- The hypotheses of C112 are met: both requests of `Spec.race` are produced. -/
theorem C112_example (b : Backend) (c : Crypto) (hc : c.Ok) :
    ∃ w, (USys.after b c Spec.race).returned =
      [(0, .outgoing (Spec.request false) [1] [97] 1, .sent (.ok w)),
       (1, .outgoing (Spec.request false) [1] [97] 1, .sent (.ok w))] := by
  obtain ⟨w, hw⟩ := request_sent b c hc false 1
  obtain ⟨user, auth, m', salt, h1, h2, -, -⟩ := prepareOutgoing_ok rfl hw
  refine ⟨w, ?_⟩
  have hfin : USys.sealUp b c (Spec.request false) [1] [97] 0 0 user auth 0 = .ok w := by
    rw [← hw]
    unfold Usm.prepareOutgoing USys.sealUp
    rw [if_pos (show (Spec.request false).header.flags.level.auth = true from rfl), h1]
    simp only [h2]
    rfl
  have e1 : ∀ s : USys, s.usm.users = (Usm.after b c Spec.setup).users → ∀ t,
      s.startOut c t (Spec.request false) [1] [97] 1 =
        s.goto t (.lookedOut (Spec.request false) [1] [97] 1 user auth) := by
    intro s hs t
    unfold USys.startOut
    simp only
    rw [if_pos (show (Spec.request false).header.flags.level.auth = true from rfl), hs, h1]
    simp only [h2]
  let k : UCall := .outgoing (Spec.request false) [1] [97] 1
  let q : UPc := .lookedOut (Spec.request false) [1] [97] 1 user auth
  let s0 : USys := ((⟨Usm.after b c Spec.setup, fun _ => .idle, []⟩ : USys).goto 0 (.start k)).goto 1 (.start k)
  have e2 : USys.after b c Spec.race = (([.step 0 0, .step 1 0, .unregister [1] "", .step 1 0, .step 0 0] :
      List UEvent).foldl (USys.step b c) s0) := rfl
  have e3 : s0.step b c (.step 0 0) = s0.goto 0 q := e1 s0 rfl 0
  have e4 : (s0.goto 0 q).step b c (.step 1 0) = (s0.goto 0 q).goto 1 q := e1 (s0.goto 0 q) rfl 1
  have e5 : ∀ s : USys, s.usm.timekeeper = .new → ∀ t, s.pc t = q →
      s.step b c (.step t 0) = s.ret t k (.sent (.ok w)) := by
    intro s hs t hq
    unfold USys.step
    simp only [hq, q]
    rw [hs]
    show s.ret t k (.sent (USys.sealUp b c (Spec.request false) [1] [97] 0 0 user auth 0)) = _
    rw [hfin]
  rw [e2]
  simp only [List.foldl_cons, List.foldl_nil]
  rw [e3, e4, e5 (((s0.goto 0 q).goto 1 q).step b c (.unregister [1] "")) rfl 1 rfl, e5 _ rfl 0 rfl]
  rfl

/-- The hypotheses of C112_configured and C112_monotone are met: an authenticated message is accepted. -/
theorem C112_accepted (b : Backend) (hb : b ≠ .pycryptodome) (c : Crypto) (hc : c.Ok) :
    ∃ w m r, V3Message.decode (.bytes w) = .ok m ∧ m.header.flags.level.auth = true ∧
      r.securityEngineID = some [1] ∧
      (7, UCall.incoming m 2, UResult.received (.ok r)) ∈ (USys.after b c
        ([.addUser Spec.sampleUser (fun _ => 0), .register [1] "" (fun _ => 0)] ++
          [.call 7 (.incoming m 2), .step 7 0, .step 7 0])).returned := by
  obtain ⟨w, m, r, hw, hdec, hr, hh⟩ := request_received b hb c hc
  have hall := C112_alone b c [.addUser Spec.sampleUser (fun _ => 0), .register [1] "" (fun _ => 0)] 7 m 2 0 0 rfl
  have hu : (USys.after b c [.addUser Spec.sampleUser (fun _ => 0), .register [1] "" (fun _ => 0)]).usm =
    Usm.after b c Spec.setup := rfl
  rw [hu, hr] at hall
  have hauth : m.header.flags.level.auth = true := by
    have hacc := USys.processIncoming_header hr
    rw [← hacc, hh]; rfl
  refine ⟨w, m, r, hdec, hauth, ?_, hall⟩
  obtain ⟨engineID, name, ns, n, cr, l, user, k1, -, k2, -⟩ := C43_configured b c hc Spec.setup 2 w m r hdec hauth hr
  rw [k1]
  have : ∀ i, (Spec.Reg.after c (Spec.configs Spec.setup)).engine i = if i = [1] then some ("", 1) else none := by
    intro i
    simp [Spec.Reg.after, Spec.configs, Spec.setup, Spec.sampleUser, Spec.Reg.step, Spec.Reg.register,
      Spec.Reg.addUser, Spec.Reg.empty, Credentials.new, AuthProto.computeKey, orSecret, Except.bind,
      Spec.supported, SecurityLevel.lt, authPriv]
  rw [this] at k2
  split at k2
  · rename_i h; rw [h]
  · cases k2

example : ∃ w, (USys.after (.openssl true) Spec.toyCrypto Spec.race).returned =
    [(0, .outgoing (Spec.request false) [1] [97] 1, .sent (.ok w)),
     (1, .outgoing (Spec.request false) [1] [97] 1, .sent (.ok w))] :=
  C112_example _ _ Spec.toyCrypto_ok

end Snmp
