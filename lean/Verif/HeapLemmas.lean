import Verif.Heap
import Mathlib.Data.List.Perm.Basic
import Mathlib.Tactic.Linarith
/-! # Facts about the heap functions: they permute the items and establish the heap order. -/

namespace Snmp
namespace Heap

/-- The value a comparison uses (snmp/utils.py:33-40). -/
def value (env : Env) (r : Ref) : ℚ := (r.key.value (env r.id)).1

/-- The reference after its value was used. -/
def touch (env : Env) (r : Ref) : Ref := ⟨r.id, (r.key.value (env r.id)).2⟩

/-- The stored key is the current one. -/
def Fresh (env : Env) (r : Ref) : Prop := ∀ k, env r.id = some k → r.key.stored = k

theorem touch_id (env : Env) (r : Ref) : (touch env r).id = r.id := rfl

theorem touch_value (env : Env) (r : Ref) : value env (touch env r) = value env r := by
  unfold value touch WeakKey.value
  cases h : env r.id <;> simp

theorem touch_fresh (env : Env) (r : Ref) : Fresh env (touch env r) := by
  intro k hk
  simp only [touch_id] at hk
  unfold touch WeakKey.value
  rw [hk]

theorem value_live {env : Env} {r : Ref} {k : ℚ} (h : env r.id = some k) : value env r = k := by
  unfold value WeakKey.value; rw [h]

/-- The value at a position. -/
def val (env : Env) (l : List Ref) (i : Nat) : ℚ := ((l[i]?).map (value env)).getD 0

theorem val_of {env : Env} {l : List Ref} {i : Nat} {a : Ref} (h : l[i]? = some a) :
    val env l i = value env a := by unfold val; rw [h]; rfl

/-- What every heap function does to the list: items keep their identity, and stored keys change only
to become current. -/
structure Moved (env : Env) (l l' : List Ref) : Prop where
  perm : (l'.map Ref.id).Perm (l.map Ref.id)
  fresh : ∀ x ∈ l', x ∈ l ∨ Fresh env x

theorem Moved.refl (env : Env) (l : List Ref) : Moved env l l := ⟨List.Perm.refl _, fun _ h => .inl h⟩

theorem Moved.trans {env : Env} {a b c : List Ref} (h : Moved env a b) (h' : Moved env b c) :
    Moved env a c :=
  ⟨h'.perm.trans h.perm, fun x hx => (h'.fresh x hx).elim (h.fresh x) .inr⟩

theorem Moved.length {env : Env} {a b : List Ref} (h : Moved env a b) : b.length = a.length := by
  simpa using h.perm.length_eq

/-- How `less` works. -/
theorem less_spec (env : Env) {l : List Ref} {i j : Nat} (_ : i ≠ j) (hi : i < l.length)
    (hj : j < l.length) :
    (less env l i j).1 = decide (val env l i < val env l j) ∧
    (less env l i j).2 = (l.set i (touch env l[i])).set j (touch env l[j]) := by
  unfold less
  rw [List.getElem?_eq_getElem hi, List.getElem?_eq_getElem hj]
  rw [val_of (List.getElem?_eq_getElem hi), val_of (List.getElem?_eq_getElem hj)]
  exact ⟨rfl, rfl⟩

theorem less_getElem? (env : Env) {l : List Ref} {i j : Nat} (hij : i ≠ j) (hi : i < l.length)
    (hj : j < l.length) (m : Nat) :
    (less env l i j).2[m]? = if m = i ∨ m = j then (l[m]?).map (touch env) else l[m]? := by
  rw [(less_spec env hij hi hj).2]
  rw [List.getElem?_set, List.getElem?_set]
  by_cases hm : m = j
  · subst hm; simp [hj]
  · by_cases hm' : m = i
    · subst hm'; simp [Ne.symm hm, hi]
    · simp [hm, hm', Ne.symm hm, Ne.symm hm']

theorem less_length (env : Env) (l : List Ref) (i j : Nat) : (less env l i j).2.length = l.length := by
  unfold less
  split <;> simp

theorem less_val (env : Env) {l : List Ref} {i j : Nat} (hij : i ≠ j) (hi : i < l.length)
    (hj : j < l.length) (m : Nat) : val env (less env l i j).2 m = val env l m := by
  unfold val
  rw [less_getElem? env hij hi hj]
  split
  · cases l[m]? <;> simp [touch_value]
  · rfl

theorem map_id_set (l : List Ref) (i : Nat) (a b : Ref) (h : l[i]? = some a) (hab : b.id = a.id) :
    (l.set i b).map Ref.id = l.map Ref.id := by
  rw [List.map_set]
  apply List.ext_getElem?
  intro m
  rw [List.getElem?_set]
  split
  · rename_i hm; subst hm
    simp only [List.length_map]
    split
    · rw [List.getElem?_map, h]; simp [hab]
    · rename_i hl; exact absurd (List.getElem?_eq_some_iff.1 h).1 hl
  · rfl

theorem less_moved (env : Env) (l : List Ref) (i j : Nat) (hij : i ≠ j) :
    Moved env l (less env l i j).2 := by
  by_cases hi : i < l.length
  · by_cases hj : j < l.length
    · constructor
      · rw [(less_spec env hij hi hj).2]
        rw [map_id_set _ j l[j] (touch env l[j]) (by rw [List.getElem?_set_ne hij, List.getElem?_eq_getElem hj]) rfl]
        rw [map_id_set _ i l[i] (touch env l[i]) (List.getElem?_eq_getElem hi) rfl]
      · intro x hx
        obtain ⟨m, hm⟩ := List.mem_iff_getElem?.1 hx
        rw [less_getElem? env hij hi hj] at hm
        split at hm
        · right
          cases h : l[m]? with
          | none => rw [h] at hm; cases hm
          | some a => rw [h] at hm; injection hm with hm; rw [← hm]; exact touch_fresh _ _
        · exact .inl (List.mem_iff_getElem?.2 ⟨m, hm⟩)
    · unfold less; rw [List.getElem?_eq_none (Nat.not_lt.1 hj)]; split <;> first | exact Moved.refl _ _ | simp_all
  · unfold less; rw [List.getElem?_eq_none (Nat.not_lt.1 hi)]; exact Moved.refl _ _

theorem swap_eq {l : List Ref} {i j : Nat} (hi : i < l.length) (hj : j < l.length) :
    swap l i j = (l.set i l[j]).set j l[i] := by
  unfold swap; rw [List.getElem?_eq_getElem hi, List.getElem?_eq_getElem hj]

theorem swap_length (l : List Ref) (i j : Nat) : (swap l i j).length = l.length := by
  unfold swap; split <;> simp

theorem swap_getElem? {l : List Ref} {i j : Nat} (hi : i < l.length) (hj : j < l.length) (m : Nat) :
    (swap l i j)[m]? = if m = j then l[i]? else if m = i then l[j]? else l[m]? := by
  rw [swap_eq hi hj, List.getElem?_set, List.getElem?_set]
  by_cases hm : j = m
  · subst hm; simp [hj, List.getElem?_eq_getElem hi]
  · by_cases hm' : i = m
    · subst hm'; simp [hm, Ne.symm hm, hi, List.getElem?_eq_getElem hj]
    · simp [hm, hm', Ne.symm hm, Ne.symm hm']

theorem swap_val (env : Env) {l : List Ref} {i j : Nat} (hi : i < l.length) (hj : j < l.length) (m : Nat) :
    val env (swap l i j) m = if m = j then val env l i else if m = i then val env l j else val env l m := by
  unfold val
  rw [swap_getElem? hi hj]
  split
  · rfl
  · split <;> rfl

theorem swap_perm (l : List Ref) (i j : Nat) : (swap l i j).Perm l := by
  by_cases hi : i < l.length
  · by_cases hj : j < l.length
    · rw [swap_eq hi hj]; exact List.set_set_perm hi hj
    · unfold swap; rw [List.getElem?_eq_none (Nat.not_lt.1 hj)]; split <;> first | exact List.Perm.refl _ | simp_all
  · unfold swap; rw [List.getElem?_eq_none (Nat.not_lt.1 hi)]

theorem swap_moved (env : Env) (l : List Ref) (i j : Nat) : Moved env l (swap l i j) :=
  ⟨(swap_perm l i j).map _, fun _ hx => .inl ((swap_perm l i j).mem_iff.1 hx)⟩

/-! ## Every function permutes -/

theorem siftdown_moved (env : Env) (s : Nat) (l : List Ref) (p : Nat) :
    Moved env l (siftdown env s l p) := by
  induction p using Nat.strong_induction_on generalizing l with
  | _ p ih =>
    unfold siftdown
    split
    · rename_i h
      have hne : p ≠ (p - 1) / 2 := by omega
      have hl := less_moved env l p ((p - 1) / 2) hne
      split
      · rename_i l1 heq
        rw [heq] at hl
        exact hl.trans ((swap_moved env l1 _ _).trans (ih _ (by omega) _))
      · rename_i l1 heq
        rw [heq] at hl
        exact hl
    · exact Moved.refl _ _

theorem smallerChild_moved (env : Env) (l : List Ref) (p : Nat) :
    Moved env l (smallerChild env l p).2 := by
  unfold smallerChild
  split
  · have hl := less_moved env l (2 * p + 1) (2 * p + 2) (by omega)
    split
    · rename_i l1 heq; rw [heq] at hl; exact hl
    · rename_i l1 heq; rw [heq] at hl; exact hl
  · exact Moved.refl _ _

theorem siftupLoop_moved (env : Env) (s fuel : Nat) (l : List Ref) (p : Nat) :
    Moved env l (siftupLoop env s fuel l p) := by
  induction fuel generalizing l p with
  | zero => exact siftdown_moved env s l p
  | succ fuel ih =>
    unfold siftupLoop
    split
    · exact (smallerChild_moved env l p).trans ((swap_moved env _ _ _).trans (ih _ _))
    · exact siftdown_moved env s l p

theorem siftup_moved (env : Env) (l : List Ref) (p : Nat) : Moved env l (siftup env l p) :=
  siftupLoop_moved env p _ l p

/-! ## Heap order -/

/-- Items from position `s` downwards are in heap order. -/
def OrderedFrom (k : Nat → ℚ) (n s : Nat) : Prop :=
  ∀ i, 0 < i → i < n → s ≤ (i - 1) / 2 → k ((i - 1) / 2) ≤ k i

/-- Position `p` is `s` or below it. -/
inductive Desc (s : Nat) : Nat → Prop
  | refl : Desc s s
  | child {p : Nat} : Desc s ((p - 1) / 2) → s < p → Desc s p

theorem Desc.le {s p : Nat} (h : Desc s p) : s ≤ p := by
  cases h with
  | refl => exact Nat.le_refl _
  | child h hp => omega

theorem Desc.parent {s p : Nat} (h : Desc s p) (hp : s < p) : Desc s ((p - 1) / 2) := by
  cases h with
  | refl => omega
  | child h _ => exact h

theorem siftdown_ordered (env : Env) (s : Nat) (l : List Ref) (p : Nat) (hd : Desc s p)
    (hp : p < l.length)
    (ho : ∀ i, 0 < i → i < l.length → s ≤ (i - 1) / 2 → i ≠ p → val env l ((i - 1) / 2) ≤ val env l i)
    (hb : s < p → ∀ i, 0 < i → i < l.length → (i - 1) / 2 = p → val env l ((p - 1) / 2) ≤ val env l i) :
    OrderedFrom (val env (siftdown env s l p)) l.length s := by
  induction p using Nat.strong_induction_on generalizing l with
  | _ p ih =>
    unfold siftdown
    by_cases h : s < p
    · rw [if_pos h]
      have hq := (hd.parent h).le
      have hql : (p - 1) / 2 < l.length := by omega
      have hne : p ≠ (p - 1) / 2 := by omega
      obtain ⟨h1, -⟩ := less_spec env hne hp hql
      have h2 := less_val env hne hp hql
      have h3 := less_length env l p ((p - 1) / 2)
      split
      · rename_i l1 heq
        rw [heq] at h1 h2 h3
        simp only at h1 h2 h3
        have hlt : val env l p < val env l ((p - 1) / 2) := by simpa using h1.symm
        have hv := swap_val env (l := l1) (i := p) (j := (p - 1) / 2) (by omega) (by omega)
        have hlen : (swap l1 p ((p - 1) / 2)).length = l.length := by rw [swap_length, h3]
        rw [← hlen]
        apply ih _ (by omega) _ (hd.parent h) (by omega)
        · intro i hi hil hsi hiq
          rw [hlen] at hil
          rw [hv, hv, h2, h2, h2, h2]
          by_cases hip : i = p
          · subst hip
            rw [if_pos rfl, if_neg (by omega), if_pos rfl]
            exact le_of_lt hlt
          · by_cases h4 : (i - 1) / 2 = p
            · rw [h4, if_neg (by omega), if_pos rfl, if_neg hiq, if_neg hip]
              exact hb h i hi hil h4
            · by_cases h5 : (i - 1) / 2 = (p - 1) / 2
              · rw [if_pos h5, if_neg hiq, if_neg hip]
                have := ho i hi hil hsi hip
                rw [h5] at this
                linarith
              · rw [if_neg h5, if_neg h4, if_neg hiq, if_neg hip]
                exact ho i hi hil hsi hip
        · intro hsq i hi hil hiq
          rw [hlen] at hil
          rw [hv, hv, h2, h2, h2, h2]
          have hpp : val env l (((p - 1) / 2 - 1) / 2) ≤ val env l ((p - 1) / 2) :=
            ho _ (by omega) hql (((hd.parent h).parent hsq).le) (by omega)
          rw [if_neg (by omega), if_neg (by omega)]
          rw [if_neg (by omega)]
          by_cases hip : i = p
          · rw [if_pos hip]; exact hpp
          · rw [if_neg hip]
            have := ho i hi hil (by omega) hip
            rw [hiq] at this
            linarith
      · rename_i l1 heq
        rw [heq] at h1 h2
        simp only at h1 h2
        have hle : val env l ((p - 1) / 2) ≤ val env l p := by
          have := of_decide_eq_false h1.symm
          exact not_lt.1 this
        intro i hi hil hsi
        rw [h2, h2]
        by_cases hip : i = p
        · subst hip; exact hle
        · exact ho i hi hil hsi hip
    · rw [if_neg h]
      have := hd.le
      intro i hi hil hsi
      exact ho i hi hil hsi (by omega)

/-- What `smallerChild` yields. -/
theorem smallerChild_spec (env : Env) {l : List Ref} {p : Nat} (hp : 2 * p + 1 < l.length) :
    ((smallerChild env l p).1 = 2 * p + 1 ∨
      (smallerChild env l p).1 = 2 * p + 2 ∧ 2 * p + 2 < l.length) ∧
    (∀ i, i < l.length → 0 < i → (i - 1) / 2 = p →
      val env l (smallerChild env l p).1 ≤ val env l i) ∧
    (∀ m, val env (smallerChild env l p).2 m = val env l m) ∧
    (smallerChild env l p).2.length = l.length := by
  unfold smallerChild
  by_cases h : 2 * p + 2 < l.length
  · rw [if_pos h]
    have hne : 2 * p + 1 ≠ 2 * p + 2 := by omega
    obtain ⟨h1, -⟩ := less_spec env hne hp h
    have h2 := less_val env hne hp h
    have h3 := less_length env l (2 * p + 1) (2 * p + 2)
    split
    · rename_i l1 heq
      rw [heq] at h1 h2 h3
      have hlt : val env l (2 * p + 1) < val env l (2 * p + 2) := of_decide_eq_true h1.symm
      refine ⟨.inl rfl, ?_, h2, h3⟩
      intro i hi hi0 hip
      have : i = 2 * p + 1 ∨ i = 2 * p + 2 := by omega
      rcases this with rfl | rfl
      · exact le_refl _
      · exact le_of_lt hlt
    · rename_i l1 heq
      rw [heq] at h1 h2 h3
      have hle : val env l (2 * p + 2) ≤ val env l (2 * p + 1) := not_lt.1 (of_decide_eq_false h1.symm)
      refine ⟨.inr ⟨rfl, h⟩, ?_, h2, h3⟩
      intro i hi hi0 hip
      have : i = 2 * p + 1 ∨ i = 2 * p + 2 := by omega
      rcases this with rfl | rfl
      · exact hle
      · exact le_refl _
  · rw [if_neg h]
    refine ⟨.inl rfl, ?_, fun _ => rfl, rfl⟩
    intro i hi hi0 hip
    have : i = 2 * p + 1 := by omega
    subst this
    exact le_refl _

theorem siftupLoop_ordered (env : Env) (s fuel : Nat) (l : List Ref) (p : Nat) (hd : Desc s p)
    (hp : p < l.length) (hf : l.length ≤ p + fuel)
    (ho : ∀ i, 0 < i → i < l.length → s ≤ (i - 1) / 2 → i ≠ p → (i - 1) / 2 ≠ p →
      val env l ((i - 1) / 2) ≤ val env l i)
    (hb : s < p → ∀ i, 0 < i → i < l.length → (i - 1) / 2 = p → val env l ((p - 1) / 2) ≤ val env l i) :
    OrderedFrom (val env (siftupLoop env s fuel l p)) l.length s := by
  induction fuel generalizing l p with
  | zero => omega
  | succ fuel ih =>
    unfold siftupLoop
    by_cases h : 2 * p + 1 < l.length
    · rw [if_pos h]
      obtain ⟨h1, h2, h3, h4⟩ := smallerChild_spec env h
      generalize smallerChild env l p = r at *
      obtain ⟨c, l1⟩ := r
      simp only at h1 h2 h3 h4 ⊢
      have hcl : c < l.length := by omega
      have hcp : (c - 1) / 2 = p := by omega
      have hv := swap_val env (l := l1) (i := p) (j := c) (by omega) (by omega)
      have hlen : (swap l1 p c).length = l.length := by rw [swap_length, h4]
      have hsp := hd.le
      rw [← hlen]
      apply ih _ c (Desc.child (by rw [hcp]; exact hd) (by omega)) (by omega) (by omega)
      · intro i hi hil hsi hic hpc
        rw [hlen] at hil
        rw [hv, hv, h3, h3, h3, h3, if_neg hpc, if_neg hic]
        by_cases h5 : (i - 1) / 2 = p
        · rw [if_pos h5, if_neg (by omega)]
          exact h2 i hil hi h5
        · rw [if_neg h5]
          by_cases hip : i = p
          · rw [if_pos hip]
            subst hip
            exact hb (by omega) c (by omega) hcl hcp
          · rw [if_neg hip]
            exact ho i hi hil hsi hip h5
      · intro _ i hi hil hic
        rw [hlen] at hil
        rw [hcp]
        simp only [hv, h3]
        rw [if_neg (by omega), if_pos trivial, if_neg (by omega), if_neg (by omega)]
        have := ho i hi hil (by omega) (by omega) (by omega)
        rw [hic] at this
        exact this
    · rw [if_neg h]
      apply siftdown_ordered env s l p hd hp
      · intro i hi hil hsi hip
        exact ho i hi hil hsi hip (by omega)
      · intro _ i hi hil hip
        omega

theorem siftup_ordered (env : Env) (l : List Ref) (s : Nat) (hs : s < l.length)
    (ho : OrderedFrom (val env l) l.length (s + 1)) :
    OrderedFrom (val env (siftup env l s)) l.length s := by
  apply siftupLoop_ordered env s l.length l s .refl hs (by omega)
  · intro i hi hil hsi _ hne
    exact ho i hi hil (by omega)
  · intro h; omega

/-- The list is a heap. -/
def Ordered (env : Env) (l : List Ref) : Prop := OrderedFrom (val env l) l.length 0

theorem ordered_nil (env : Env) : Ordered env [] := by intro i _ h; simp at h

theorem push_moved (env : Env) (l : List Ref) (x : Ref) : Moved env (l ++ [x]) (push env l x) :=
  siftdown_moved env 0 _ _

theorem val_append (env : Env) (l : List Ref) (x : Ref) {i : Nat} (h : i < l.length) :
    val env (l ++ [x]) i = val env l i := by
  unfold val; rw [List.getElem?_append_left h]

theorem desc_zero (p : Nat) : Desc 0 p := by
  induction p using Nat.strong_induction_on with
  | _ p ih =>
    rcases Nat.eq_zero_or_pos p with rfl | h
    · exact .refl
    · exact .child (ih _ (by omega)) h

theorem push_ordered (env : Env) (l : List Ref) (x : Ref) (h : Ordered env l) :
    Ordered env (push env l x) := by
  unfold Ordered
  rw [(push_moved env l x).length]
  unfold push
  apply siftdown_ordered env 0 _ _ (desc_zero _) (by simp)
  · intro i hi hil _ hne
    have hlt : i < l.length := by simp at hil; omega
    rw [val_append env l x hlt, val_append env l x (by omega)]
    exact h i hi hlt (by omega)
  · intro _ i hi hil hp
    simp at hil
    omega

theorem set0_ordered (env : Env) (l : List Ref) (x : Ref) (h : Ordered env l) :
    OrderedFrom (val env (l.set 0 x)) l.length 1 := by
  intro i hi hil hp
  have : ∀ m, 0 < m → val env (l.set 0 x) m = val env l m := by
    intro m hm; unfold val; rw [List.getElem?_set_ne (by omega)]
  rw [this _ hi, this _ (by omega)]
  exact h i hi hil (by omega)

theorem replace_ordered (env : Env) (l : List Ref) (x : Ref) (h : OrderedFrom (val env l) l.length 1) :
    Ordered env (replace env l x) := by
  unfold replace Ordered
  rw [(siftup_moved env (l.set 0 x) 0).length]
  cases l with
  | nil => exact fun i _ h => by simp at h
  | cons a l =>
    apply siftup_ordered env _ 0 (by simp)
    intro i hi hil hp
    have : ∀ m, 0 < m → val env ((a :: l).set 0 x) m = val env (a :: l) m := by
      intro m hm; unfold val; rw [List.getElem?_set_ne (by omega)]
    rw [this _ hi, this _ (by omega)]
    rw [List.length_set] at hil
    exact h i hi hil hp

theorem val_dropLast (env : Env) (l : List Ref) {i : Nat} (h : i < l.dropLast.length) :
    val env l.dropLast i = val env l i := by
  unfold val
  rw [List.getElem?_dropLast]
  rw [List.length_dropLast] at h
  rw [if_pos h]

theorem pop_ordered (env : Env) (l : List Ref) (h : OrderedFrom (val env l) l.length 1) :
    Ordered env (pop env l) := by
  unfold pop
  cases hl : l.getLast? with
  | none => 
    rw [List.getLast?_eq_none_iff] at hl
    subst hl
    exact ordered_nil env
  | some last =>
    simp only
    split
    · exact ordered_nil env
    · rename_i hne
      apply replace_ordered env l.dropLast last
      intro i hi hil hp
      rw [val_dropLast env l hil, val_dropLast env l (by omega)]
      exact h i hi (by rw [List.length_dropLast] at hil; omega) hp

theorem heapifyLoop_moved (env : Env) (i : Nat) (l : List Ref) : Moved env l (heapifyLoop env i l) := by
  induction i generalizing l with
  | zero => exact Moved.refl _ _
  | succ i ih => exact (siftup_moved env l i).trans (ih _)

theorem heapify_moved (env : Env) (l : List Ref) : Moved env l (heapify env l) :=
  heapifyLoop_moved env _ l

theorem heapifyLoop_ordered (env : Env) (i : Nat) (l : List Ref) (hi : 2 * i ≤ l.length)
    (h : OrderedFrom (val env l) l.length i) : Ordered env (heapifyLoop env i l) := by
  induction i generalizing l with
  | zero => exact h
  | succ i ih =>
    have hl := (siftup_moved env l i).length
    apply ih _ (by omega)
    rw [hl]
    exact siftup_ordered env l i (by omega) h

theorem heapify_ordered (env : Env) (l : List Ref) : Ordered env (heapify env l) := by
  apply heapifyLoop_ordered env _ l (by omega)
  intro i hi hil hp
  omega

/-- The first item is least. -/
theorem Ordered.head_le {env : Env} {l : List Ref} (h : Ordered env l) {i : Nat} (hi : i < l.length) :
    val env l 0 ≤ val env l i := by
  induction i using Nat.strong_induction_on with
  | _ i ih =>
    rcases Nat.eq_zero_or_pos i with rfl | h0
    · exact le_refl _
    · exact le_trans (ih ((i - 1) / 2) (by omega) (by omega)) (h i h0 hi (by omega))

theorem Ordered.head_min {env : Env} {l : List Ref} (h : Ordered env l) {a : Ref} {rest : List Ref}
    (hl : l = a :: rest) {x : Ref} (hx : x ∈ l) : value env a ≤ value env x := by
  obtain ⟨i, hi⟩ := List.mem_iff_getElem?.1 hx
  have := h.head_le (List.getElem?_eq_some_iff.1 hi).1
  rw [val_of hi, val_of (a := a) (by rw [hl]; rfl)] at this
  exact this

/-! ## Stored keys -/

theorem push_fresh (env : Env) (l : List Ref) (x : Ref) (hl : l ≠ []) :
    ∀ y ∈ push env l x, y ∈ l ∨ Fresh env y := by
  have h0 : 0 < l.length := List.length_pos_iff.2 hl
  unfold push siftdown
  rw [if_pos h0]
  have hne : l.length ≠ (l.length - 1) / 2 := by omega
  have hlt : l.length < (l ++ [x]).length := by simp
  have hqt : (l.length - 1) / 2 < (l ++ [x]).length := by simp; omega
  have key : ∀ y ∈ (less env (l ++ [x]) l.length ((l.length - 1) / 2)).2, y ∈ l ∨ Fresh env y := by
    intro y hy
    obtain ⟨m, hm⟩ := List.mem_iff_getElem?.1 hy
    rw [less_getElem? env hne hlt hqt] at hm
    split at hm
    · right
      cases h : (l ++ [x])[m]? with
      | none => rw [h] at hm; cases hm
      | some a => rw [h] at hm; injection hm with hm; rw [← hm]; exact touch_fresh _ _
    · left
      rename_i hmm
      have hml := (List.getElem?_eq_some_iff.1 hm).1
      simp only [List.length_append, List.length_singleton] at hml
      rw [List.getElem?_append_left (by omega)] at hm
      exact List.mem_iff_getElem?.2 ⟨m, hm⟩
  split
  · rename_i l1 heq
    rw [heq] at key
    intro y hy
    rcases ((swap_moved env l1 _ _).trans (siftdown_moved env 0 _ _)).fresh y hy with h | h
    · exact key y h
    · exact .inr h
  · rename_i l1 heq
    rw [heq] at key
    exact key

/-- Position by position: the item there has a current key, or it is the item that was there and the
position is not `s` or a child of `s`. -/
def FreshAt (env : Env) (s : Nat) (l0 l : List Ref) (i : Nat) : Prop :=
  ∀ x, l[i]? = some x → Fresh env x ∨ (l0[i]? = some x ∧ i ≠ s ∧ i ≠ 2 * s + 1 ∧ i ≠ 2 * s + 2)

theorem freshAt_less {env : Env} {s : Nat} {l0 l : List Ref} {a b : Nat} (hab : a ≠ b) (ha : a < l.length)
    (hb : b < l.length) {i : Nat} (h : i = a ∨ i = b ∨ FreshAt env s l0 l i) :
    FreshAt env s l0 (less env l a b).2 i := by
  intro x hx
  rw [less_getElem? env hab ha hb] at hx
  split at hx
  · left
    cases hl : l[i]? with
    | none => rw [hl] at hx; cases hx
    | some y => rw [hl] at hx; injection hx with hx; rw [← hx]; exact touch_fresh _ _
  · rename_i hi
    rcases h with h | h | h
    · exact absurd (.inl h) hi
    · exact absurd (.inr h) hi
    · exact h x hx

theorem freshAt_swap_fresh {env : Env} {s : Nat} {l0 l : List Ref} {a b : Nat} (ha : a < l.length)
    (hb : b < l.length) (fa : ∀ x, l[a]? = some x → Fresh env x) (fb : ∀ x, l[b]? = some x → Fresh env x)
    (h : ∀ i, FreshAt env s l0 l i) : ∀ i, FreshAt env s l0 (swap l a b) i := by
  intro i x hx
  rw [swap_getElem? ha hb] at hx
  split at hx
  · exact .inl (fa x hx)
  · split at hx
    · exact .inl (fb x hx)
    · exact h i x hx

theorem less_fresh_left {env : Env} {l : List Ref} {a b : Nat} (hab : a ≠ b) (ha : a < l.length)
    (hb : b < l.length) (i : Nat) (hi : i = a ∨ i = b) (x : Ref) (hx : (less env l a b).2[i]? = some x) :
    Fresh env x := by
  rw [less_getElem? env hab ha hb, if_pos hi] at hx
  cases hl : l[i]? with
  | none => rw [hl] at hx; cases hx
  | some y => rw [hl] at hx; injection hx with hx; rw [← hx]; exact touch_fresh _ _

theorem siftdown_freshAt (env : Env) (s s' : Nat) (l0 l : List Ref) (p : Nat) (hp : p < l.length)
    (h : ∀ i, FreshAt env s' l0 l i) : ∀ i, FreshAt env s' l0 (siftdown env s l p) i := by
  induction p using Nat.strong_induction_on generalizing l with
  | _ p ih =>
    unfold siftdown
    split
    · rename_i hs
      have hne : p ≠ (p - 1) / 2 := by omega
      have hq : (p - 1) / 2 < l.length := by omega
      have k1 := fun i => freshAt_less (env := env) (s := s') (l0 := l0) hne hp hq (i := i) (.inr (.inr (h i)))
      have k2 := @less_fresh_left env _ _ _ hne hp hq
      have k3 := less_length env l p ((p - 1) / 2)
      split
      · rename_i l1 heq
        rw [heq] at k1 k2 k3
        simp only at k1 k2 k3
        apply ih _ (by omega) _ (by rw [swap_length]; omega)
        exact freshAt_swap_fresh (by omega) (by omega) (k2 _ (.inl rfl)) (k2 _ (.inr rfl)) k1
      · rename_i l1 heq
        rw [heq] at k1
        exact k1
    · exact h

theorem siftdown_freshAt' (env : Env) (s s' : Nat) (l0 l : List Ref) (p : Nat) (hp : p < l.length)
    (hs : s < p) (h : ∀ i, i ≠ p → i ≠ (p - 1) / 2 → FreshAt env s' l0 l i) :
    ∀ i, FreshAt env s' l0 (siftdown env s l p) i := by
  unfold siftdown
  rw [if_pos hs]
  have hne : p ≠ (p - 1) / 2 := by omega
  have hq : (p - 1) / 2 < l.length := by omega
  have k1 : ∀ i, FreshAt env s' l0 (less env l p ((p - 1) / 2)).2 i := by
    intro i
    apply freshAt_less hne hp hq
    by_cases h1 : i = p
    · exact .inl h1
    · by_cases h2 : i = (p - 1) / 2
      · exact .inr (.inl h2)
      · exact .inr (.inr (h i h1 h2))
  have k2 := @less_fresh_left env _ _ _ hne hp hq
  have k3 := less_length env l p ((p - 1) / 2)
  split
  · rename_i l1 heq
    rw [heq] at k1 k2 k3
    simp only at k1 k2 k3
    apply siftdown_freshAt
    · rw [swap_length]; omega
    · exact freshAt_swap_fresh (by omega) (by omega) (k2 _ (.inl rfl)) (k2 _ (.inr rfl)) k1
  · rename_i l1 heq
    rw [heq] at k1
    exact k1

theorem siftupLoop_freshAt (env : Env) (s fuel : Nat) (l0 l : List Ref) (p : Nat) (hp : p < l.length)
    (hf : l.length ≤ p + fuel) (hsp : s < p)
    (h : ∀ i, i ≠ p → (i = (p - 1) / 2 → p + 1 < l.length ∨ 2 * i + 2 = p) → FreshAt env s l0 l i) :
    ∀ i, FreshAt env s l0 (siftupLoop env s fuel l p) i := by
  induction fuel generalizing l p with
  | zero => omega
  | succ fuel ih =>
    unfold siftupLoop
    by_cases hc : 2 * p + 1 < l.length
    · rw [if_pos hc]
      have hall : ∀ i, i ≠ p → FreshAt env s l0 l i := fun i hi => h i hi (fun _ => .inl (by omega))
      unfold smallerChild
      by_cases hr : 2 * p + 2 < l.length
      · rw [if_pos hr]
        have hne : 2 * p + 1 ≠ 2 * p + 2 := by omega
        have k1 : ∀ i, i ≠ p → FreshAt env s l0 (less env l (2 * p + 1) (2 * p + 2)).2 i :=
          fun i hi => freshAt_less hne hc hr (.inr (.inr (hall i hi)))
        have k2 := @less_fresh_left env _ _ _ hne hc hr
        have k3 := less_length env l (2 * p + 1) (2 * p + 2)
        have fin : ∀ (l1 : List Ref) (c : Nat), (less env l (2 * p + 1) (2 * p + 2)).2 = l1 →
            (c = 2 * p + 1 ∨ c = 2 * p + 2) →
            ∀ i, FreshAt env s l0 (siftupLoop env s fuel (swap l1 p c) c) i := by
          intro l1 c hl1 hcc
          rw [hl1] at k1 k2 k3
          apply ih _ _ (by rw [swap_length]; omega) (by rw [swap_length]; omega) (by omega)
          intro i hic _ x hx
          rw [swap_getElem? (by omega) (by omega), if_neg hic] at hx
          split at hx
          · exact .inl (k2 _ hcc x hx)
          · rename_i hip
            exact k1 i hip x hx
        split
        · rename_i c l1 heq
          split at heq
          · rename_i l2 heq2
            injection heq with e1 e2
            subst e1; subst e2
            exact fin l2 _ (by rw [heq2]) (.inl rfl)
          · rename_i l2 heq2
            injection heq with e1 e2
            subst e1; subst e2
            exact fin l2 _ (by rw [heq2]) (.inr rfl)
      · rw [if_neg hr]
        simp only
        apply ih _ _ (by rw [swap_length]; omega) (by rw [swap_length]; omega) (by omega)
        intro i hic hpi x hx
        rw [swap_length] at hpi
        rw [swap_getElem? (by omega) (by omega), if_neg hic] at hx
        split at hx
        · rename_i hip
          exfalso
          have := hpi (by omega)
          omega
        · rename_i hip
          exact hall i hip x hx
    · rw [if_neg hc]
      apply siftdown_freshAt' env s s l0 l p hp hsp
      intro i hi hi'
      exact h i hi (fun hx => absurd hx hi')

theorem siftup_freshAt (env : Env) (l : List Ref) (s : Nat) (hc : 2 * s + 1 < l.length) :
    ∀ i, FreshAt env s l (siftup env l s) i := by
  unfold siftup
  cases hn : l.length with
  | zero => omega
  | succ fuel =>
  unfold siftupLoop
  rw [if_pos hc]
  have hrefl : ∀ i, i ≠ s → i ≠ 2 * s + 1 → i ≠ 2 * s + 2 → FreshAt env s l l i :=
    fun i h1 h2 h3 x hx => .inr ⟨hx, h1, h2, h3⟩
  unfold smallerChild
  by_cases hr : 2 * s + 2 < l.length
  · rw [if_pos hr]
    have hne : 2 * s + 1 ≠ 2 * s + 2 := by omega
    have k1 : ∀ i, i ≠ s → FreshAt env s l (less env l (2 * s + 1) (2 * s + 2)).2 i := by
      intro i hi
      apply freshAt_less hne hc hr
      by_cases h1 : i = 2 * s + 1
      · exact .inl h1
      · by_cases h2 : i = 2 * s + 2
        · exact .inr (.inl h2)
        · exact .inr (.inr (hrefl i hi h1 h2))
    have k2 := @less_fresh_left env _ _ _ hne hc hr
    have k3 := less_length env l (2 * s + 1) (2 * s + 2)
    have fin : ∀ (l1 : List Ref) (c : Nat), (less env l (2 * s + 1) (2 * s + 2)).2 = l1 →
        (c = 2 * s + 1 ∨ c = 2 * s + 2) →
        ∀ i, FreshAt env s l (siftupLoop env s fuel (swap l1 s c) c) i := by
      intro l1 c hl1 hcc
      rw [hl1] at k1 k2 k3
      apply siftupLoop_freshAt env s fuel l _ _ (by rw [swap_length]; omega) (by rw [swap_length]; omega)
        (by omega)
      intro i hic _ x hx
      rw [swap_getElem? (by omega) (by omega), if_neg hic] at hx
      split at hx
      · exact .inl (k2 _ hcc x hx)
      · rename_i hip
        exact k1 i hip x hx
    split
    · rename_i c l1 heq
      split at heq
      · rename_i l2 heq2
        injection heq with e1 e2
        subst e1; subst e2
        exact fin l2 _ (by rw [heq2]) (.inl rfl)
      · rename_i l2 heq2
        injection heq with e1 e2
        subst e1; subst e2
        exact fin l2 _ (by rw [heq2]) (.inr rfl)
  · rw [if_neg hr]
    simp only
    apply siftupLoop_freshAt env s fuel l _ _ (by rw [swap_length]; omega) (by rw [swap_length]; omega)
      (by omega)
    intro i hic hpi x hx
    rw [swap_length] at hpi
    have hil : i < l.length := by
      have := (List.getElem?_eq_some_iff.1 hx).1
      rw [swap_length] at this; exact this
    rw [swap_getElem? (by omega) (by omega), if_neg hic] at hx
    split at hx
    · rename_i hip
      exfalso
      have := hpi (by omega)
      omega
    · rename_i hip
      exact hrefl i hip hic (by omega) x hx

theorem replace_fresh (env : Env) (l : List Ref) (x : Ref) (hl : 2 ≤ l.length) :
    ∀ y ∈ replace env l x, y ∈ l ∨ Fresh env y := by
  intro y hy
  obtain ⟨i, hi⟩ := List.mem_iff_getElem?.1 hy
  rcases siftup_freshAt env (l.set 0 x) 0 (by rw [List.length_set]; omega) i y hi with h | ⟨h, h0, -, -⟩
  · exact .inr h
  · rw [List.getElem?_set_ne (by omega)] at h
    exact .inl (List.mem_iff_getElem?.2 ⟨i, h⟩)

theorem pop_moved (env : Env) (a : Ref) (l : List Ref) :
    Moved env l (pop env (a :: l)) := by
  unfold pop
  cases hl : (a :: l).getLast? with
  | none => simp at hl
  | some last =>
    simp only
    cases l with
    | nil => exact Moved.refl _ _
    | cons b l =>
      rw [if_neg (by simp)]
      have hperm : ((a :: b :: l).dropLast.set 0 last).Perm (b :: l) := by
        have hlast : last = (b :: l).getLast (by simp) := by
          rw [List.getLast?_cons_cons, List.getLast?_eq_some_getLast (by simp)] at hl
          injection hl with hl; exact hl.symm
        rw [List.dropLast_cons_cons, List.set_cons_zero, hlast]
        have := List.dropLast_append_getLast (l := b :: l) (by simp)
        conv_rhs => rw [← this]
        exact (List.perm_append_singleton _ _).symm
      refine Moved.trans ⟨hperm.map _, fun x hx => .inl (hperm.mem_iff.1 hx)⟩ (siftup_moved env _ 0)

theorem heapifyLoop_fresh (env : Env) (j : Nat) (l : List Ref) (hj : 2 * j ≤ l.length)
    (h : ∀ i, j ≤ (i - 1) / 2 → 0 < i → ∀ x, l[i]? = some x → Fresh env x)
    (h' : ∀ i, j ≤ i → 2 * i + 1 < l.length → ∀ x, l[i]? = some x → Fresh env x) :
    ∀ i, (0 < i ∨ 1 < l.length) → ∀ x, (heapifyLoop env j l)[i]? = some x → Fresh env x := by
  induction j generalizing l with
  | zero =>
    intro i hi x hx
    rcases Nat.eq_zero_or_pos i with h0 | h0
    · exact h' i (by omega) (by omega) x hx
    · exact h i (by omega) h0 x hx
  | succ j ih =>
    have hlen := (siftup_moved env l j).length
    have hf := siftup_freshAt env l j (by omega)
    unfold heapifyLoop
    rw [← hlen]
    apply ih _ (by omega)
    · intro i hji hi x hx
      rcases hf i x hx with hfr | ⟨hx', h1, h2, h3⟩
      · exact hfr
      · exact h i (by omega) hi x hx'
    · intro i hji hil x hx
      rcases hf i x hx with hfr | ⟨hx', h1, h2, h3⟩
      · exact hfr
      · exact h' i (by omega) (by omega) x hx'

theorem heapify_fresh (env : Env) (l : List Ref) (hl : 2 ≤ l.length) :
    ∀ y ∈ heapify env l, Fresh env y := by
  intro y hy
  obtain ⟨i, hi⟩ := List.mem_iff_getElem?.1 hy
  have hil : i < (heapify env l).length := (List.getElem?_eq_some_iff.1 hi).1
  rw [(heapify_moved env l).length] at hil
  refine heapifyLoop_fresh env _ l (by omega) ?_ ?_ i (.inr (by omega)) y hi
  · intro m hm hm0 x hx
    have := (List.getElem?_eq_some_iff.1 hx).1
    omega
  · intro m hm hm0 x hx
    omega

end Heap
end Snmp
