import Verif.Sequences
import Verif.Props.Subbytes
import Mathlib.Data.List.Nodup

/-!
# C111: object identifiers and variable bindings as sequences and as dictionary keys
-/

namespace Snmp

namespace Spec

/-- What an ideal dictionary holds for the key `x` after a sequence of operations: what the last
operation on that very key left. -/
def latest {K V X : Type} [DecidableEq X] (name : K → X) (ops : List (DictOp K V)) (x : X) :
    Option V :=
  ops.foldl (fun cur op => match op with
    | .set k v => if name k = x then some v else cur
    | .del k => if name k = x then none else cur) none

/-- The place a slice bound `i` denotes in a sequence of `n` elements: from the end if it is
negative, and never outside the sequence. -/
def place (n : Nat) (i : Int) : Int :=
  max 0 (min n (if i < 0 then n + i else i))

end Spec

/-! ## Dictionaries -/

section
variable {K V X : Type} [DecidableEq X]

/-- Each chain holds at most one entry for a key, under its own hash. -/
structure Chain (hash : K → Int) (name : K → X) (l : List (Int × K × V)) : Prop where
  own : ∀ e ∈ l, e.1 = hash e.2.1
  once : (l.map fun e => name e.2.1).Nodup

variable {hash : K → Int} {eq : K → K → Bool} {name : K → X}

omit [DecidableEq X] in
theorem hit_iff (heq : ∀ a b, eq a b = true ↔ name a = name b)
    (hh : ∀ a b, name a = name b → hash a = hash b) {k : K} {e : Int × K × V}
    (he : e.1 = hash e.2.1) : HashTable.hit hash eq k e = true ↔ name e.2.1 = name k := by
  unfold HashTable.hit
  simp only [Bool.and_eq_true, decide_eq_true_eq, heq]
  constructor
  · exact fun h => h.2
  · exact fun h => ⟨he.trans (hh _ _ h), h⟩

theorem store_mem {k : K} {v : V} {l : List (Int × K × V)} {e : Int × K × V}
    (h : e ∈ HashTable.store hash eq k v l) :
    e = (hash k, k, v) ∨ ∃ e' ∈ l, e.1 = e'.1 ∧ e.2.1 = e'.2.1 := by
  induction l with
  | nil => left; simpa [HashTable.store] using h
  | cons a l ih =>
    unfold HashTable.store at h
    split at h
    · rcases List.mem_cons.mp h with rfl | h
      · right; exact ⟨a, by simp, rfl, rfl⟩
      · right; exact ⟨e, by simp [h], rfl, rfl⟩
    · rcases List.mem_cons.mp h with rfl | h
      · right; exact ⟨e, by simp, rfl, rfl⟩
      · rcases ih h with h | ⟨e', h1, h2⟩
        · exact .inl h
        · right; exact ⟨e', by simp [h1], h2⟩

omit [DecidableEq X] in
theorem Chain.store (heq : ∀ a b, eq a b = true ↔ name a = name b)
    (hh : ∀ a b, name a = name b → hash a = hash b) {k : K} {v : V} {l : List (Int × K × V)}
    (hl : Chain hash name l) : Chain hash name (HashTable.store hash eq k v l) := by
  induction l with
  | nil => exact ⟨by simp [HashTable.store], by simp [HashTable.store]⟩
  | cons a l ih =>
    have htail : Chain hash name l :=
      ⟨fun e he => hl.own e (by simp [he]), (List.nodup_cons.mp (by simpa using hl.once)).2⟩
    unfold HashTable.store
    split
    case isTrue hit =>
      refine ⟨?_, by simpa using hl.once⟩
      intro e he
      rcases List.mem_cons.mp he with rfl | he
      · exact hl.own a (by simp)
      · exact hl.own e (by simp [he])
    case isFalse miss =>
      have ih := ih htail
      refine ⟨?_, ?_⟩
      · intro e he
        rcases List.mem_cons.mp he with rfl | he
        · exact hl.own e (by simp)
        · exact ih.own e he
      · have h1 := List.nodup_cons.mp (show (name a.2.1 :: l.map fun e => name e.2.1).Nodup by
          simpa using hl.once)
        rw [List.map_cons, List.nodup_cons]
        refine ⟨?_, ih.once⟩
        intro hmem
        obtain ⟨e, he, hname⟩ := List.mem_map.mp hmem
        rcases store_mem he with rfl | ⟨e', he', -, h3⟩
        · exact miss ((hit_iff heq hh (hl.own a (by simp))).mpr hname.symm)
        · rw [h3] at hname
          exact h1.1 (List.mem_map.mpr ⟨e', he', hname⟩)

omit [DecidableEq X] in
theorem Chain.erase {k : K} {l : List (Int × K × V)} (hl : Chain hash name l) :
    Chain hash name (l.eraseP (HashTable.hit hash eq k)) :=
  ⟨fun e he => hl.own e (List.mem_of_mem_eraseP he),
    hl.once.sublist (List.eraseP_sublist.map _)⟩

theorem find_store (heq : ∀ a b, eq a b = true ↔ name a = name b)
    (hh : ∀ a b, name a = name b → hash a = hash b) {k j : K} {v : V} {l : List (Int × K × V)}
    (hl : Chain hash name l) :
    ((HashTable.store hash eq k v l).find? (HashTable.hit hash eq j)).map (fun e => e.2.2) =
      if name k = name j then some v
      else (l.find? (HashTable.hit hash eq j)).map fun e => e.2.2 := by
  induction l with
  | nil =>
    have := hit_iff (V := V) heq hh (k := j) (e := (hash k, k, v)) rfl
    simp only at this
    by_cases hn : name k = name j
    · simp [HashTable.store, this.mpr hn, hn]
    · have h2 : HashTable.hit hash eq j (hash k, k, v) = false := by
        rw [← Bool.not_eq_true, this]; exact hn
      simp [HashTable.store, h2, hn]
  | cons a l ih =>
    have htail : Chain hash name l :=
      ⟨fun e he => hl.own e (by simp [he]), (List.nodup_cons.mp (by simpa using hl.once)).2⟩
    have ha := hl.own a (by simp)
    have hj := hit_iff (V := V) heq hh (k := j) (e := a) ha
    have hjv := hit_iff (V := V) heq hh (k := j) (e := (a.1, a.2.1, v)) ha
    have hk := hit_iff (V := V) heq hh (k := k) (e := a) ha
    simp only at hjv
    unfold HashTable.store
    split
    case isTrue hit =>
      have hak := hk.mp hit
      by_cases hn : name k = name j
      · rw [List.find?_cons, hjv.mpr (hak.trans hn)]
        simp [hn]
      · have h1 : HashTable.hit hash eq j a = false := by
          rw [← Bool.not_eq_true, hj, hak]; exact hn
        have h2 : HashTable.hit hash eq j (a.1, a.2.1, v) = false := by
          rw [← Bool.not_eq_true, hjv, hak]; exact hn
        simp only [List.find?_cons, h1, h2, if_neg hn]
    case isFalse miss =>
      rw [List.find?_cons, List.find?_cons]
      cases hja : HashTable.hit hash eq j a with
      | true =>
        have h1 := hj.mp hja
        have hn : name k ≠ name j := fun h => miss (hk.mpr (h1.trans h.symm))
        simp [hn]
      | false => simpa using ih htail

theorem find_erase (heq : ∀ a b, eq a b = true ↔ name a = name b)
    (hh : ∀ a b, name a = name b → hash a = hash b) {k j : K} {l : List (Int × K × V)}
    (hl : Chain hash name l) :
    ((l.eraseP (HashTable.hit hash eq k)).find? (HashTable.hit hash eq j)).map (fun e => e.2.2) =
      if name k = name j then none
      else (l.find? (HashTable.hit hash eq j)).map fun e => e.2.2 := by
  induction l with
  | nil => simp
  | cons a l ih =>
    have htail : Chain hash name l :=
      ⟨fun e he => hl.own e (by simp [he]), (List.nodup_cons.mp (by simpa using hl.once)).2⟩
    have ha := hl.own a (by simp)
    have hj := hit_iff (V := V) heq hh (k := j) (e := a) ha
    have hk := hit_iff (V := V) heq hh (k := k) (e := a) ha
    have h1 := List.nodup_cons.mp (show (name a.2.1 :: l.map fun e => name e.2.1).Nodup by
      simpa using hl.once)
    rw [List.eraseP_cons]
    cases hka : HashTable.hit hash eq k a with
    | true =>
      have hak := hk.mp hka
      simp only [cond_true]
      by_cases hn : name k = name j
      · rw [if_pos hn]
        have : l.find? (HashTable.hit hash eq j) = none := by
          rw [List.find?_eq_none]
          intro e he hit
          have := (hit_iff heq hh (htail.own e he)).mp hit
          exact h1.1 (List.mem_map.mpr ⟨e, he, this.trans (hn.symm.trans hak.symm)⟩)
        rw [this]; rfl
      · rw [if_neg hn]
        have h3 : HashTable.hit hash eq j a = false := by
          rw [← Bool.not_eq_true, hj, hak]; exact hn
        rw [List.find?_cons, h3]
    | false =>
      simp only [cond_false]
      rw [List.find?_cons, List.find?_cons]
      cases hja : HashTable.hit hash eq j a with
      | true =>
        have h2 := hj.mp hja
        have hn : name k ≠ name j := fun h => by
          have := hk.mpr (h2.trans h.symm); rw [hka] at this; cases this
        simp [hn]
      | false => simpa using ih htail

/-- A hash table whose keys have hashes that respect `==` is a dictionary. -/
theorem run_latest (heq : ∀ a b, eq a b = true ↔ name a = name b)
    (hh : ∀ a b, name a = name b → hash a = hash b) (slot : Int → Nat)
    (ops : List (DictOp K V)) (j : K) :
    (HashTable.run hash eq slot ops).get hash eq slot j = Spec.latest name ops (name j) := by
  unfold HashTable.run Spec.latest
  suffices h : ∀ (ops : List (DictOp K V)) (d : HashTable K V) (cur : Option V),
      (∀ n, Chain hash name (d n)) → d.get hash eq slot j = cur →
      HashTable.get hash eq slot (ops.foldl (fun d op => match op with
        | .set k v => d.set hash eq slot k v
        | .del k => d.del hash eq slot k) d) j =
      ops.foldl (fun cur op => match op with
        | .set k v => if name k = name j then some v else cur
        | .del k => if name k = name j then none else cur) cur by
    refine h ops _ _ (fun n => ⟨?_, ?_⟩) ?_
    · intro e he; cases he
    · exact List.nodup_nil
    · rfl
  intro ops
  induction ops with
  | nil => intro d cur _ h; exact h
  | cons op ops ih =>
    intro d cur hd hcur
    rw [List.foldl_cons, List.foldl_cons]
    cases op with
    | set k v =>
      refine ih _ _ (fun n => ?_) ?_
      · show Chain hash name (if n = slot (hash k) then _ else _)
        split
        · exact (hd n).store heq hh
        · exact hd n
      · show Option.map _ (List.find? _ (if slot (hash j) = slot (hash k) then _ else _)) =
          if name k = name j then some v else cur
        split
        case isTrue hs =>
          rw [find_store heq hh (hd _)]
          unfold HashTable.get at hcur
          rw [hcur]
        case isFalse hs =>
          rw [if_neg (fun h => hs (by rw [hh _ _ h]))]
          exact hcur
    | del k =>
      refine ih _ _ (fun n => ?_) ?_
      · show Chain hash name (if n = slot (hash k) then _ else _)
        split
        · exact (hd n).erase
        · exact hd n
      · show Option.map _ (List.find? _ (if slot (hash j) = slot (hash k) then _ else _)) =
          if name k = name j then none else cur
        split
        case isTrue hs =>
          rw [find_erase heq hh (hd _)]
          unfold HashTable.get at hcur
          rw [hcur]
        case isFalse hs =>
          rw [if_neg (fun h => hs (by rw [hh _ _ h]))]
          exact hcur

end

theorem OidObj.pyEq_iff (a b : OidObj) : a.pyEq b = true ↔ a.subs = b.subs := by
  simp [OidObj.pyEq]

theorem Tag.pyEq_iff (a b : Tag) : a.pyEq b = true ↔ a = b := by
  cases a; cases b
  simp only [Tag.pyEq, Bool.and_eq_true, decide_eq_true_eq, Tag.mk.injEq]
  exact ⟨fun ⟨⟨a, b⟩, c⟩ => ⟨c, b, a⟩, fun ⟨c, b, a⟩ => ⟨⟨a, b⟩, c⟩⟩

/-- **C111**, dictionaries keyed by object identifiers: whatever `hash` makes of a tuple and
however the table is laid out, after any sequence of stores and deletions the dictionary holds for
an object identifier exactly what the last of them that named the same sub-identifiers left,
whichever of the classes the objects belong to. -/
theorem C111_dict_oid {V : Type} (H : List Nat → Int) (slot : Int → Nat)
    (ops : List (DictOp OidObj V)) (o : OidObj) :
    (HashTable.run (OidObj.hash H) OidObj.pyEq slot ops).get (OidObj.hash H) OidObj.pyEq slot o =
      Spec.latest OidObj.subs ops o.subs :=
  run_latest OidObj.pyEq_iff (fun a b h => by unfold OidObj.hash; rw [h]) slot ops o

/-- **C111**, dictionaries keyed by tags. -/
theorem C111_dict_tag {V : Type} (H : TagClass × Bool × Nat → Int) (slot : Int → Nat)
    (ops : List (DictOp Tag V)) (t : Tag) :
    (HashTable.run (Tag.hash H) Tag.pyEq slot ops).get (Tag.hash H) Tag.pyEq slot t =
      Spec.latest id ops t :=
  run_latest Tag.pyEq_iff (fun a b h => by
    have : a = b := h
    rw [this]) slot ops t

/-- **C111**, the table of value types that decoding a variable binding consults: the entry found
for a tag is the one class of the list that has this tag, for any hashing; and there is none, and
decoding fails with `ParseError`, exactly if no class has it. -/
theorem C111_types (H : TagClass × Bool × Nat → Int) (slot : Int → Nat) (t : Tag) :
    (VarBind.lookup t = orRaise .parseError
      ((VarBind.typesTable H slot).get (Tag.hash H) Tag.pyEq slot t)) ∧
    (∀ c, (VarBind.typesTable H slot).get (Tag.hash H) Tag.pyEq slot t = some c ↔
      c ∈ VarBind.types ∧ c.tag = t) := by
  have hget := C111_dict_tag H slot (VarBind.types.map fun c => .set c.tag c) t
  have hmem : ∀ c, Spec.latest id (VarBind.types.map fun c => DictOp.set c.tag c) t = some c ↔
      c ∈ VarBind.types ∧ c.tag = t := by
    suffices h : ∀ (l : List SmiType) (cur : Option SmiType),
        (l.map SmiType.tag).Nodup → (∀ c, cur = some c → c.tag = t ∧ c.tag ∉ l.map SmiType.tag) →
        ∀ c, (l.map fun c => (DictOp.set c.tag c : DictOp Tag SmiType)).foldl
          (fun cur op => match op with
            | .set k v => if id k = t then some v else cur
            | .del k => if id k = t then none else cur) cur = some c ↔
          (c ∈ l ∧ c.tag = t) ∨ cur = some c by
      intro c
      have := h VarBind.types none (by decide) (by simp) c
      exact Iff.trans this (by simp only [reduceCtorEq, or_false])
    intro l
    induction l with
    | nil => intro cur _ _ c; simp
    | cons a l ih =>
      intro cur hnd hcur c
      rw [List.map_cons, List.nodup_cons] at hnd
      rw [List.map_cons, List.foldl_cons]
      simp only [id]
      by_cases hat : a.tag = t
      · rw [if_pos hat]
        have := ih (some a) hnd.2 (by
          intro c hc; cases hc; exact ⟨hat, hnd.1⟩) c
        simp only [id] at this
        rw [this]
        constructor
        · rintro (⟨h1, h2⟩ | h)
          · exact .inl ⟨by simp [h1], h2⟩
          · cases h; exact .inl ⟨by simp, hat⟩
        · rintro (⟨h1, h2⟩ | h)
          · rcases List.mem_cons.mp h1 with rfl | h1
            · exact .inr rfl
            · exact .inl ⟨h1, h2⟩
          · obtain ⟨h2, h3⟩ := hcur c h
            exact absurd (by rw [List.map_cons, hat, h2]; simp) h3
      · rw [if_neg hat]
        have := ih cur hnd.2 (by
          intro c hc; obtain ⟨h1, h2⟩ := hcur c hc
          exact ⟨h1, fun h => h2 (by simp only [List.map_cons, List.mem_cons]; exact .inr h)⟩) c
        simp only [id] at this
        rw [this]
        constructor
        · rintro (⟨h1, h2⟩ | h)
          · exact .inl ⟨by simp [h1], h2⟩
          · exact .inr h
        · rintro (⟨h1, h2⟩ | h)
          · rcases List.mem_cons.mp h1 with rfl | h1
            · exact absurd h2 hat
            · exact .inl ⟨h1, h2⟩
          · exact .inr h
  have key : ∀ c, (VarBind.typesTable H slot).get (Tag.hash H) Tag.pyEq slot t = some c ↔
      c ∈ VarBind.types ∧ c.tag = t := by
    intro c
    rw [← hmem c, ← hget]
    rfl
  refine ⟨?_, key⟩
  unfold VarBind.lookup
  congr 1
  apply Option.ext
  intro c
  rw [key c]
  have hnd : (VarBind.types.map SmiType.tag).Nodup := by decide
  constructor
  · intro h
    exact ⟨List.mem_of_find?_eq_some h, by simpa using List.find?_some h⟩
  · rintro ⟨h1, h2⟩
    cases hf : VarBind.types.find? fun c => c.tag = t with
    | none =>
      have := List.find?_eq_none.mp hf c h1
      simp [h2] at this
    | some c' =>
      have h3 := List.mem_of_find?_eq_some hf
      have h4 : c'.tag = t := by simpa using List.find?_some hf
      rw [List.inj_on_of_nodup_map hnd h3 h1 (h4.trans h2.symm)]

/-! ## Sequences -/

theorem pyIndex_spec {α : Type} (l : List α) (i : Int) :
    (∀ x, pyIndex l i = .ok x ↔
      ∃ n : Nat, l[n]? = some x ∧ (i = n ∨ i = (n : Int) - l.length)) ∧
    (pyIndex l i = .error .indexError ↔ i < -(l.length : Int) ∨ (l.length : Int) ≤ i) ∧
    (∀ e, pyIndex l i = .error e → e = .indexError) := by
  unfold pyIndex
  by_cases hi : i < 0
  · simp only [hi, ↓reduceIte]
    by_cases hj : 0 ≤ i + (l.length : Int)
    · simp only [hj, ↓reduceIte]
      have hlt : (i + (l.length : Int)).toNat < l.length := by omega
      rw [List.getElem?_eq_getElem hlt]
      refine ⟨fun x => ?_, ?_, ?_⟩
      · simp only [orRaise, Except.ok.injEq]
        constructor
        · intro h; subst h
          exact ⟨_, List.getElem?_eq_getElem hlt, .inr (by omega)⟩
        · rintro ⟨n, h1, h2⟩
          have hn : n < l.length := (List.getElem?_eq_some_iff.mp h1).1
          have : (i + (l.length : Int)).toNat = n := by omega
          simp only [this]
          exact (List.getElem?_eq_some_iff.mp h1).2
      · simp only [orRaise, reduceCtorEq, false_iff]; omega
      · intro e h; simp [orRaise] at h
    · simp only [hj, ↓reduceIte]
      refine ⟨fun x => ?_, ?_, ?_⟩
      · simp only [reduceCtorEq, false_iff]
        rintro ⟨n, h1, h2⟩
        have hn : n < l.length := (List.getElem?_eq_some_iff.mp h1).1
        omega
      · simp only [true_iff]; omega
      · intro e h; cases h; rfl
  · simp only [hi, ↓reduceIte]
    have hj : 0 ≤ i := by omega
    simp only [hj, ↓reduceIte]
    by_cases hlt : i.toNat < l.length
    · rw [List.getElem?_eq_getElem hlt]
      refine ⟨fun x => ?_, ?_, ?_⟩
      · simp only [orRaise, Except.ok.injEq]
        constructor
        · intro h; subst h
          exact ⟨_, List.getElem?_eq_getElem hlt, .inl (by omega)⟩
        · rintro ⟨n, h1, h2⟩
          have hn : n < l.length := (List.getElem?_eq_some_iff.mp h1).1
          have : i.toNat = n := by omega
          simp only [this]
          exact (List.getElem?_eq_some_iff.mp h1).2
      · simp only [orRaise, reduceCtorEq, false_iff]; omega
      · intro e h; simp [orRaise] at h
    · rw [List.getElem?_eq_none (by omega)]
      refine ⟨fun x => ?_, ?_, ?_⟩
      · simp only [orRaise, reduceCtorEq, false_iff]
        rintro ⟨n, h1, h2⟩
        have hn : n < l.length := (List.getElem?_eq_some_iff.mp h1).1
        omega
      · simp only [orRaise, true_iff]; omega
      · intro e h; simp only [orRaise] at h; cases h; rfl

theorem clampIndex_place (n : Nat) (i : Int) : (clampIndex n i : Int) = Spec.place n i := by
  unfold clampIndex Spec.place
  split <;> omega

theorem pySlice_spec {α : Type} (l : List α) (a b : Option Int) (n : Nat) :
    (pySlice l a b)[n]? =
      if (a.elim 0 (Spec.place l.length)) + n < b.elim (l.length : Int) (Spec.place l.length)
      then l[((a.elim 0 (Spec.place l.length)) + n).toNat]? else none := by
  rw [Subbytes.pySlice_eq_bounds]
  have ha : ((Subbytes.bounds l.length a b).1 : Int) = a.elim 0 (Spec.place l.length) := by
    cases a with
    | none => rfl
    | some i => exact clampIndex_place _ i
  have hb : ((Subbytes.bounds l.length a b).2 : Int) =
      b.elim (l.length : Int) (Spec.place l.length) := by
    cases b with
    | none => rfl
    | some i => exact clampIndex_place _ i
  rw [← ha, ← hb]
  generalize (Subbytes.bounds l.length a b).1 = lo
  generalize (Subbytes.bounds l.length a b).2 = hi
  simp only [List.getElem?_drop, List.getElem?_take]
  have : ((lo : Int) + n).toNat = lo + n := by omega
  rw [this]
  split <;> split <;> first | rfl | omega

theorem pySlice_split {α : Type} (l : List α) (k : Int) :
    pySlice l none (some k) ++ pySlice l (some k) none = l := by
  simp [pySlice]

theorem pySlice_all {α : Type} (l : List α) : pySlice l none none = l := by
  simp [pySlice]

theorem sliceStep_reverse {α : Type} (l : List α) :
    pySliceStep l none none (-1) = .ok l.reverse := by
  unfold pySliceStep
  rw [if_neg (by decide), if_neg (by decide)]
  have : ∀ (m : Nat), m ≤ l.length →
      ((List.range m).reverse.filterMap fun (i : Nat) =>
        if (i : Int) ≤ (l.length : Int) - 1 ∧ -1 < (i : Int) ∧
          (((l.length : Int) - 1).toNat - i) % (-1 : Int).natAbs = 0 then l[i]? else none) =
      (l.take m).reverse := by
    intro m
    induction m with
    | zero => simp
    | succ m ih =>
      intro hm
      rw [List.range_succ, List.reverse_append, List.reverse_singleton, List.singleton_append,
        List.filterMap_cons, ih (by omega)]
      have hlt : m < l.length := by omega
      rw [if_pos ⟨by omega, by omega, by simp [Nat.mod_one]⟩, List.getElem?_eq_getElem hlt]
      rw [List.take_succ_eq_append_getElem hlt, List.reverse_append]
      rfl
  simpa using this l.length (Nat.le_refl _)

/-- **C111**, object identifiers as sequences: iteration yields the sub-identifiers, `len` counts
them, `o[i]` is the one at position `i` from the front or from the back and `IndexError`, nothing
else, outside; `o[a:b]` has the sub-identifiers between the two places; the parts before and after
any place make up the whole; and `o[::-1]` is the sub-identifiers backwards. -/
theorem C111_oid_sequence (o : OidObj) :
    o.iter = o.subs ∧ o.len = o.subs.length ∧
    (∀ i x, o.getitem i = .ok x ↔
      ∃ n : Nat, o.subs[n]? = some x ∧ (i = n ∨ i = (n : Int) - o.subs.length)) ∧
    (∀ i, o.getitem i = .error .indexError ↔
      i < -(o.subs.length : Int) ∨ (o.subs.length : Int) ≤ i) ∧
    (∀ i e, o.getitem i = .error e → e = .indexError) ∧
    (∀ (a b : Option Int) (n : Nat), (o.slice a b)[n]? =
      if (a.elim 0 (Spec.place o.subs.length)) + n <
        b.elim (o.subs.length : Int) (Spec.place o.subs.length)
      then o.subs[((a.elim 0 (Spec.place o.subs.length)) + n).toNat]? else none) ∧
    (∀ k, o.slice none (some k) ++ o.slice (some k) none = o.subs) ∧
    o.sliceStep none none (-1) = .ok o.subs.reverse :=
  ⟨rfl, rfl, fun i => (pyIndex_spec _ i).1, fun i => (pyIndex_spec _ i).2.1,
    fun i => (pyIndex_spec _ i).2.2, pySlice_spec _, pySlice_split _, sliceStep_reverse _⟩

/-- **C111**, lists of variable bindings as sequences. -/
theorem C111_varbinds_sequence (l : List VarBind) :
    VarBindList.iter l = l ∧ VarBindList.len l = l.length ∧
    (VarBindList.bool l = true ↔ l ≠ []) ∧
    (∀ i x, VarBindList.getitem l i = .ok x ↔
      ∃ n : Nat, l[n]? = some x ∧ (i = n ∨ i = (n : Int) - l.length)) ∧
    (∀ i, VarBindList.getitem l i = .error .indexError ↔
      i < -(l.length : Int) ∨ (l.length : Int) ≤ i) ∧
    (∀ i e, VarBindList.getitem l i = .error e → e = .indexError) ∧
    (∀ (a b : Option Int) (n : Nat), (VarBindList.slice l a b)[n]? =
      if (a.elim 0 (Spec.place l.length)) + n < b.elim (l.length : Int) (Spec.place l.length)
      then l[((a.elim 0 (Spec.place l.length)) + n).toNat]? else none) ∧
    (∀ k, VarBindList.slice l none (some k) ++ VarBindList.slice l (some k) none = l) :=
  ⟨rfl, rfl, by cases l <;> simp [VarBindList.bool], fun i => (pyIndex_spec _ i).1,
    fun i => (pyIndex_spec _ i).2.1, fun i => (pyIndex_spec _ i).2.2, pySlice_spec _,
    pySlice_split _⟩

theorem prefix_new {l m : List Int} {r : List Nat} (h : Oid.new (l ++ m) = .ok r)
    : Oid.new l = .ok (l.map Int.toNat) := by
  unfold Oid.new at h ⊢
  split at h
  · cases h
  rename_i h1
  split at h
  · cases h
  rename_i h2
  rw [if_neg (by rw [List.length_append] at h1; omega)]
  rw [if_neg (fun hc => h2 (by rw [List.any_append, hc]; rfl))]
  unfold ObjId.new at h ⊢
  simp only at h ⊢
  split at h
  · cases h
  rename_i h3
  split at h
  · cases h
  rename_i h4
  split at h
  · cases h
  rename_i h5
  rw [if_neg, if_neg, if_neg]
  · exact fun hc => h5 (by rw [List.any_append, hc]; rfl)
  · intro hc
    apply h4
    cases hl : l[1]? with
    | none => rw [hl] at hc; simp at hc
    | some x =>
      rw [List.getElem?_append_left (List.getElem?_eq_some_iff.mp hl).1]; exact hc
  · intro hc
    apply h3
    cases hl : l[0]? with
    | none => rw [hl] at hc; simp at hc
    | some x =>
      rw [List.getElem?_append_left (List.getElem?_eq_some_iff.mp hl).1]; exact hc

/-- **C111**, taking an object identifier apart and putting it together again: for any `OID` that
can be constructed and any `k`, `OID(*o[:k])` can be constructed too, `o` starts with it, and
extending it by `o[k:]` gives back `o`; and `startswith` holds exactly of the prefixes. -/
theorem C111_oid_parts (args : List Int) (s : List Nat) (h : Oid.new args = .ok s) (k : Int) :
    (∃ p, Oid.new ((OidObj.slice ⟨true, s⟩ none (some k)).map Int.ofNat) = .ok p ∧
      OidObj.startswith ⟨true, s⟩ ⟨true, p⟩ = true ∧
      OidObj.extend ⟨true, p⟩ ((OidObj.slice ⟨true, s⟩ (some k) none).map Int.ofNat) =
        .ok ⟨true, s⟩) ∧
    ∀ a b : OidObj, a.startswith b = true ↔ b.subs <+: a.subs := by
  have hsw : ∀ a b : OidObj, a.startswith b = true ↔ b.subs <+: a.subs := by
    intro a b
    unfold OidObj.startswith OidObj.slice OidObj.len
    rw [pySlice_all]
    simp only [pySlice, decide_eq_true_eq, List.drop_zero, Subbytes.clampIndex_nat]
    rw [List.prefix_iff_eq_take]
    constructor
    · intro h
      have : b.subs.length ≤ a.subs.length := by
        have := congrArg List.length h
        simp at this; omega
      rw [Nat.min_eq_left this] at h
      exact h.symm
    · intro h
      have hl : b.subs.length ≤ a.subs.length := by
        have := congrArg List.length h
        simp at this; omega
      rw [Nat.min_eq_left hl]
      exact h.symm
  refine ⟨?_, hsw⟩
  have hargs : args = s.map Int.ofNat := by
    have h' := h
    unfold Oid.new at h'
    split at h'
    · cases h'
    split at h'
    · cases h'
    unfold ObjId.new at h'
    simp only at h'
    split at h'
    · cases h'
    split at h'
    · cases h'
    split at h'
    · cases h'
    rename_i h5
    cases h'
    rw [List.map_map]
    refine (List.map_id args).symm.trans (List.map_congr_left ?_)
    intro x hx
    have : ¬ x < 0 := fun hc => h5 (List.any_eq_true.mpr ⟨x, hx, by simpa using hc⟩)
    simp; omega
  rw [hargs] at h
  have hsplit := pySlice_split s k
  refine ⟨OidObj.slice ⟨true, s⟩ none (some k), ?_, ?_, ?_⟩
  · have := prefix_new (l := (pySlice s none (some k)).map Int.ofNat)
      (m := (pySlice s (some k) none).map Int.ofNat) (r := s) (by
        rw [← List.map_append, hsplit]; exact h)
    rw [List.map_map] at this
    show Oid.new ((pySlice s none (some k)).map Int.ofNat) = _
    rw [this]
    show _ = Except.ok (pySlice s none (some k))
    congr 1
    refine (List.map_congr_left (g := id) ?_).trans (List.map_id _)
    intro x _
    simp
  · rw [hsw]
    exact ⟨pySlice s (some k) none, hsplit⟩
  · unfold OidObj.extend
    simp only [↓reduceIte]
    show Except.map _ (Oid.new ((pySlice s none (some k)).map Int.ofNat ++
      (pySlice s (some k) none).map Int.ofNat)) = _
    rw [← List.map_append, hsplit, h]
    rfl

/-- **C111** is not vacuous: with a hash that sends everything to one place, a value stored under
an `OID` is found under the equal `OBJECT_IDENTIFIER`, not under a longer one, replaced and
deleted through either; 1.3.6.1 comes apart at −1 into 1.3.6 and 1. -/
theorem C111_example :
    let run := HashTable.run (V := Nat) (OidObj.hash fun _ => 0) OidObj.pyEq fun _ => 0
    let get := fun d o => HashTable.get (V := Nat) (OidObj.hash fun _ => 0) OidObj.pyEq
      (fun _ => 0) d o
    let a : OidObj := ⟨true, [1, 3, 6]⟩
    let a' : OidObj := ⟨false, [1, 3, 6]⟩
    let b : OidObj := ⟨true, [1, 3, 6, 1]⟩
    get (run [.set a 5, .set b 6]) a' = some 5 ∧ get (run [.set a 5]) b = none ∧
    get (run [.set a 5, .set b 6, .set a' 7]) a = some 7 ∧
    get (run [.set a 5, .set b 6, .del a']) a = none ∧
    get (run [.set a 5, .set b 6, .del a']) b = some 6 ∧
    Oid.new [1, 3, 6, 1] = .ok b.subs ∧ b.slice none (some (-1)) = a.subs ∧
    b.slice (some (-1)) none = [1] ∧ b.getitem (-4) = .ok 1 ∧
    b.getitem (-5) = .error .indexError := by
  decide

end Snmp
