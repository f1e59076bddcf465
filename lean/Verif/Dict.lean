import Verif.Py
/-!
# Python dictionaries

A dictionary is the list of its items in insertion order; `items()` yields them in this order.
-/

namespace Snmp

/-- `dict`. CPython built-in, not in /repo; used at snmp/engine.py:29-54,
snmp/message/v1.py:42-75, snmp/message/v3.py:485-524, snmp/security/usm/users.py:50-220. -/
abbrev Dict (K V : Type) := List (K × V)

namespace Dict
variable {K V : Type} [DecidableEq K]

/-- `d.get(k)`; `none` is `KeyError` for `d[k]`. CPython built-in, not in /repo; used at
snmp/message/v3.py:515-517. -/
def get : Dict K V → K → Option V
  | [], _ => none
  | (k', v) :: d, k => if k' = k then some v else get d k

/-- `d[k] = v`: replaces in place or appends. CPython built-in, not in /repo; used at
snmp/message/v3.py:500-513. -/
def set : Dict K V → K → V → Dict K V
  | [], k, v => [(k, v)]
  | (k', v') :: d, k, v => if k' = k then (k, v) :: d else (k', v') :: set d k v

/-- `del d[k]` for a key that is present. CPython built-in, not in /repo; used at
snmp/message/v3.py:519-524. -/
def del (d : Dict K V) (k : K) : Dict K V := d.filter fun p => p.1 ≠ k

theorem get_set (d : Dict K V) (k : K) (v : V) (i : K) :
    (d.set k v).get i = if i = k then some v else d.get i := by
  induction d with
  | nil => simp [set, get, eq_comm]
  | cons p d ih =>
    obtain ⟨k', v'⟩ := p
    simp only [set]
    by_cases h : k' = k
    · rw [if_pos h]
      by_cases hi : i = k
      · simp [get, hi]
      · simp [get, hi, h, Ne.symm hi]
    · rw [if_neg h]
      simp only [get]
      rw [ih]
      by_cases hi : k' = i
      · subst hi; simp [h]
      · simp [hi]

theorem get_del (d : Dict K V) (k : K) (i : K) :
    (d.del k).get i = if i = k then none else d.get i := by
  unfold del
  induction d with
  | nil => simp [get]
  | cons p d ih =>
    obtain ⟨k', v'⟩ := p
    by_cases h : k' = k
    · subst h
      rw [List.filter_cons_of_neg (by simp), ih]
      by_cases hi : i = k'
      · simp [hi]
      · simp [get, hi, Ne.symm hi]
    · rw [List.filter_cons_of_pos (by simpa using h)]
      simp only [get]
      rw [ih]
      by_cases hi : k' = i
      · subst hi; simp [h]
      · simp [hi]

/-- The keys. CPython built-in, not in /repo; used at snmp/transport/posix/udp.py:19-38. -/
def keys (d : Dict K V) : List K := d.map Prod.fst

theorem get_eq_none (d : Dict K V) (k : K) : d.get k = none ↔ k ∉ d.keys := by
  induction d with
  | nil => simp [get, keys]
  | cons p d ih =>
    obtain ⟨k', v'⟩ := p
    simp only [get, keys, List.map_cons, List.mem_cons, not_or]
    by_cases h : k' = k
    · simp [h]
    · rw [if_neg h, ih]
      simp [keys, Ne.symm h]

theorem keys_set (d : Dict K V) (k : K) (v : V) :
    (d.set k v).keys = if k ∈ d.keys then d.keys else d.keys ++ [k] := by
  induction d with
  | nil => simp [set, keys]
  | cons p d ih =>
    obtain ⟨k', v'⟩ := p
    simp only [set]
    by_cases h : k' = k
    · rw [if_pos h]; simp [keys, h]
    · rw [if_neg h]
      have : Dict.keys ((k', v') :: set d k v) = k' :: (set d k v).keys := rfl
      rw [this, ih]
      have h2 : Dict.keys ((k', v') :: d) = k' :: Dict.keys d := rfl
      rw [h2]
      by_cases hm : k ∈ Dict.keys d
      · simp [hm]
      · simp [hm, Ne.symm h]

theorem nodup_set (d : Dict K V) (k : K) (v : V) (h : d.keys.Nodup) : (d.set k v).keys.Nodup := by
  rw [keys_set]
  split
  · exact h
  · rename_i hm
    rw [List.nodup_append]
    exact ⟨h, by simp, fun a ha b hb => by simp at hb; subst hb; rintro rfl; exact hm ha⟩

theorem nodup_del (d : Dict K V) (k : K) (h : d.keys.Nodup) : (d.del k).keys.Nodup :=
  (List.filter_sublist.map Prod.fst).nodup h

end Dict

end Snmp
