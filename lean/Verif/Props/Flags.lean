import Verif.Flags
import Verif.DecodeLemmas
/-!
# C108: message flags never claim privacy without authentication
-/

namespace Snmp

/-- What can be assigned: `SecurityLevel` objects, which the constructor made. -/
def Spec.Statable : FlagsStmt → Prop
  | .level value => SecurityLevel.new value.auth value.priv = .ok value
  | _ => True

/-- The six values of the flags octet that RFC 3412 allows. -/
def Spec.flagOctets : List Nat := [0, 1, 3, 4, 5, 7]

/-- The octet of RFC 3412, section 6.4. -/
def Spec.flagOctet (auth priv reportable : Bool) : Nat :=
  (if auth then 1 else 0) + (if priv then 2 else 0) + (if reportable then 4 else 0)

theorem level_new_ok {a p : Bool} {l : SecurityLevel} (h : SecurityLevel.new a p = .ok l) :
    l = ⟨a, p⟩ ∧ (p = true → a = true) := by
  unfold SecurityLevel.new at h
  split at h
  · cases h
  · rename_i hn
    injection h with h
    subst h
    refine ⟨rfl, ?_⟩
    intro hp
    by_contra ha
    exact hn ⟨hp, ha⟩

/-- Privacy only with authentication. -/
def Spec.Sound (f : MessageFlags) : Prop := f.level.priv = true → f.level.auth = true

theorem assign_sound {f f' : MessageFlags} {s : FlagsStmt} (hs : Spec.Statable s) (hf : Spec.Sound f)
    (h : f.assign s = .ok f') : Spec.Sound f' := by
  cases s with
  | auth v =>
    unfold MessageFlags.assign MessageFlags.setAuth at h
    simp only at h
    split at h
    · cases hn : SecurityLevel.new v f.level.priv with
      | error e => rw [hn] at h; cases h
      | ok l =>
        rw [hn] at h
        injection h with h
        subst h
        obtain ⟨rfl, h2⟩ := level_new_ok hn
        exact h2
    · injection h with h
      subst h
      exact hf
  | priv v =>
    unfold MessageFlags.assign MessageFlags.setPriv at h
    simp only at h
    split at h
    · cases hn : SecurityLevel.new f.level.auth v with
      | error e => rw [hn] at h; cases h
      | ok l =>
        rw [hn] at h
        injection h with h
        subst h
        obtain ⟨rfl, h2⟩ := level_new_ok hn
        exact h2
    · injection h with h
      subst h
      exact hf
  | reportable v =>
    injection h with h
    subst h
    exact hf
  | level v =>
    injection h with h
    subst h
    obtain ⟨-, h2⟩ := level_new_ok hs
    exact h2

theorem attempt_sound (f : MessageFlags) (s : FlagsStmt) (hs : Spec.Statable s) (hf : Spec.Sound f) :
    Spec.Sound (f.attempt s) := by
  unfold MessageFlags.attempt
  split
  · rename_i f' h
    exact assign_sound hs hf h
  · exact hf

theorem attempts_sound (ss : List FlagsStmt) (f : MessageFlags) (hs : ∀ s ∈ ss, Spec.Statable s) (hf : Spec.Sound f) :
    Spec.Sound (ss.foldl MessageFlags.attempt f) := by
  induction ss generalizing f with
  | nil => exact hf
  | cons s ss ih =>
    exact ih _ (fun x hx => hs x (List.mem_cons_of_mem _ hx)) (attempt_sound f s (hs s (List.mem_cons_self ..)) hf)

/-- **C108**: whatever is assigned to the attributes of a `MessageFlags` object, in any order, whether the
exceptions are caught or not: the octet it encodes to is one of the six that RFC 3412 allows, it is the octet
for the values that the attributes show, and a receiver reads the same flags from it. -/
theorem C108_octet (level : SecurityLevel) (hl : SecurityLevel.new level.auth level.priv = .ok level)
    (reportable : Bool) (ss : List FlagsStmt) (hs : ∀ s ∈ ss, Spec.Statable s) :
    let f := ss.foldl MessageFlags.attempt (MessageFlags.new level reportable)
    f.byte ∈ Spec.flagOctets ∧ f.byte = Spec.flagOctet f.level.auth f.level.priv f.reportable ∧
      ∀ d : Asn1Data, d.copy = [UInt8.ofNat f.byte] → MessageFlags.construct d = .ok f := by
  intro f
  have h : Spec.Sound f := attempts_sound ss _ hs (fun hp => (level_new_ok hl).2 hp)
  clear_value f
  obtain ⟨⟨a, p⟩, r⟩ := f
  have h : p = true → a = true := h
  refine ⟨?_, ?_, ?_⟩
  · cases a <;> cases p <;> cases r <;> first | decide | (exact absurd (h rfl) (by decide))
  · cases a <;> cases p <;> cases r <;> decide
  · intro d hd
    unfold MessageFlags.construct
    rw [hd]
    cases a <;> cases p <;> cases r <;> first | rfl | (exact absurd (h rfl) (by decide))

/-- **C108**: an assignment either raises `ValueError`, exactly if it would give privacy without
authentication, or gives that attribute that value and leaves the others alone. -/
theorem C108_assign (f : MessageFlags) (hf : Spec.Sound f) (v : Bool) :
    f.assign (.auth v) = (if f.level.priv = true ∧ v = false then .error .valueError
      else .ok ⟨⟨v, f.level.priv⟩, f.reportable⟩) ∧
    f.assign (.priv v) = (if v = true ∧ f.level.auth = false then .error .valueError
      else .ok ⟨⟨f.level.auth, v⟩, f.reportable⟩) ∧
    f.assign (.reportable v) = .ok ⟨f.level, v⟩ := by
  obtain ⟨⟨a, p⟩, r⟩ := f
  have h : p = true → a = true := hf
  cases a <;> cases p <;> cases v <;> first | exact ⟨rfl, rfl, rfl⟩ | (exact absurd (h rfl) (by decide))

/-- **C108**: from any flags, assigning the three attributes gives any flags that are allowed, if privacy is
taken off first or put on last. -/
theorem C108_reachable (f g : MessageFlags) (hf : Spec.Sound f) (hg : Spec.Sound g) :
    [FlagsStmt.priv false, .auth g.level.auth, .priv g.level.priv, .reportable g.reportable].foldl
      MessageFlags.attempt f = g := by
  obtain ⟨⟨a, p⟩, r⟩ := f
  obtain ⟨⟨a', p'⟩, r'⟩ := g
  have h : p = true → a = true := hf
  have h' : p' = true → a' = true := hg
  cases a <;> cases p <;> cases a' <;> cases p' <;>
    first | rfl | (exact absurd (h rfl) (by decide)) | (exact absurd (h' rfl) (by decide))

/-- The order matters: with privacy first the statement is refused, and nothing else is lost. -/
example :
    let ss := [FlagsStmt.priv true, .auth true, .priv true, .auth false, .reportable true, .level authPriv]
    (∀ s ∈ ss, Spec.Statable s) ∧
    (MessageFlags.new noAuthNoPriv false).assign (.priv true) = .error .valueError ∧
    ss.foldl MessageFlags.attempt (MessageFlags.new noAuthNoPriv false) = ⟨authPriv, true⟩ := by
  refine ⟨?_, rfl, rfl⟩
  intro s hs
  simp only [List.mem_cons, List.not_mem_nil, or_false] at hs
  rcases hs with rfl | rfl | rfl | rfl | rfl | rfl <;> trivial

end Snmp
