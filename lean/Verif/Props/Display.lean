import Verif.Display
import Verif.Props.Str
/-!
# C118: `toString` shows nesting by indentation. C119: what is printed of a message identifies it
-/

namespace Snmp

/-- `text` with `pre` inserted in front of the first character of each line, `start` telling whether a line has just
begun. -/
def Spec.indentFrom (pre : Text) (start : Bool) : Text → Text
  | [] => []
  | c :: text =>
    if c = '\n' then c :: Spec.indentFrom pre true text
    else (if start then pre else []) ++ c :: Spec.indentFrom pre false text

/-- `text` with `pre` in front of each line that is not empty. -/
def Spec.indented (pre text : Text) : Text := Spec.indentFrom pre true text

namespace Display
open Spec

theorem indentFrom_rest (pre : Text) : ∀ (w r : Text), '\n' ∉ w →
    indentFrom pre false (w ++ r) = w ++ indentFrom pre false r
  | [], _, _ => rfl
  | c :: w, r, h => by
    have hc : c ≠ '\n' := fun e => h (e ▸ List.mem_cons_self ..)
    have hw : '\n' ∉ w := fun e => h (List.mem_cons_of_mem _ e)
    show indentFrom pre false (c :: (w ++ r)) = _
    rw [indentFrom, if_neg hc, indentFrom_rest pre w r hw]
    rfl

theorem indented_line {pre w : Text} (h : '\n' ∉ w) (hw : w ≠ []) : indented pre w = pre ++ w := by
  cases w with
  | nil => exact absurd rfl hw
  | cons c w =>
    have hc : c ≠ '\n' := fun e => h (e ▸ List.mem_cons_self ..)
    have h' : '\n' ∉ w := fun e => h (List.mem_cons_of_mem _ e)
    have := indentFrom_rest pre w [] h'
    rw [List.append_nil] at this
    unfold indented
    rw [indentFrom, if_neg hc, this]
    simp [indentFrom]

theorem indentFrom_break (pre : Text) : ∀ (b : Bool) (t r : Text),
    indentFrom pre b (t ++ '\n' :: r) = indentFrom pre b t ++ '\n' :: indented pre r
  | b, [], r => by
    show indentFrom pre b ('\n' :: r) = '\n' :: indentFrom pre true r
    simp [indentFrom]
  | b, c :: t, r => by
    show indentFrom pre b (c :: (t ++ '\n' :: r)) = _
    rw [indentFrom, indentFrom]
    split
    · rw [indentFrom_break pre true t r]
      rfl
    · rw [indentFrom_break pre false t r]
      simp

theorem indented_break (pre t r : Text) : indented pre (t ++ '\n' :: r) = indented pre t ++ '\n' :: indented pre r :=
  indentFrom_break pre true t r

theorem indented_joinLines (pre : Text) : ∀ l : List Text, indented pre (joinLines l) = joinLines (l.map (indented pre))
  | [] => rfl
  | [_] => rfl
  | a :: b :: l => by
    show indented pre (a ++ '\n' :: joinLines (b :: l)) = _
    rw [indented_break, indented_joinLines pre (b :: l)]
    rfl

theorem tabs_add (tab : Text) (a b : Nat) : tabs tab (a + b) = tabs tab a ++ tabs tab b := by
  unfold tabs
  rw [← List.replicate_append_replicate, List.flatten_append]

theorem tabs_one (tab : Text) : tabs tab 1 = tab := by simp [tabs]

theorem tabs_noNewline {tab : Text} (h : '\n' ∉ tab) (d : Nat) : '\n' ∉ tabs tab d := by
  intro hm
  obtain ⟨l, h1, h2⟩ := List.mem_flatten.1 hm
  rw [List.eq_of_mem_replicate h1] at h2
  exact h h2

/-- A line that consists of an indentation, a label and something else. -/
theorem indented_item {pre ind label v : Text} (hi : '\n' ∉ ind) (hl : '\n' ∉ label) (hne : label ≠ [])
    (hv : '\n' ∉ v) : indented pre (ind ++ label ++ v) = pre ++ ind ++ label ++ v := by
  rw [indented_line]
  · simp
  · intro h
    rcases List.mem_append.1 h with h | h
    · rcases List.mem_append.1 h with h | h
      · exact hi h
      · exact hl h
    · exact hv h
  · simp [hne]

theorem indented_head {pre ind label : Text} (hi : '\n' ∉ ind) (hl : '\n' ∉ label) (hne : label ≠ []) :
    indented pre (ind ++ label) = pre ++ ind ++ label := by
  have := indented_item (pre := pre) hi hl hne (v := []) (by simp)
  simpa using this

theorem noNewline_append {a b : Text} (ha : '\n' ∉ a) (hb : '\n' ∉ b) : '\n' ∉ a ++ b := by
  intro h
  rcases List.mem_append.1 h with h | h
  · exact ha h
  · exact hb h

theorem indented_list (pre ind : Text) (hi : '\n' ∉ ind) (l : List VarBind) :
    indented pre (VarBindList.str l ind) = VarBindList.str l (pre ++ ind) := by
  unfold VarBindList.str
  rw [indented_joinLines, List.map_map]
  congr 1
  apply List.map_congr_left
  intro v _
  show indented pre (ind ++ v.str) = _
  rw [indented_head hi (varBindStr_noNewline v) (by simp [VarBind.str])]

theorem decimalInt_noNewline (v : Int) : '\n' ∉ decimalInt v := by
  intro h
  rcases decimalInt_chars v _ h with h | h <;> exact absurd h (by decide)

/-! ## Indentation -/

section
variable {tab : Text} (ht : '\n' ∉ tab) (d k : Nat)
include ht

theorem sub_noNewline : '\n' ∉ tabs tab k ++ tab := noNewline_append (tabs_noNewline ht k) ht

theorem shift_list (l : List VarBind) : indented (tabs tab d) (VarBindList.str l (tabs tab k)) =
    VarBindList.str l (tabs tab (d + k)) := by
  rw [indented_list _ _ (tabs_noNewline ht k), tabs_add]

theorem shift_pdu (p : Pdu) (hp : p.type ≠ .getBulkRequest) :
    (p.toString k tab).map (indented (tabs tab d)) = p.toString (d + k) tab := by
  unfold Pdu.toString
  rw [if_neg hp, if_neg hp]
  split
  · rfl
  · simp only
    cases hn : errorNames[p.first.toNat]? with
    | none => rfl
    | some name =>
      have hname := errorNames_lines name (List.mem_of_getElem? hn)
      have hs := sub_noNewline ht k
      have hk := tabs_noNewline ht k
      simp only [Option.map_some, indented_joinLines, List.map_cons, List.map_nil]
      rw [List.append_assoc, indented_head hk (pduName_lines _) (by simp),
        indented_item hs (by decide) (by decide) (decimalInt_noNewline _),
        indented_item hs (by decide) (by decide) hname,
        indented_item hs (by decide) (by decide) (decimalInt_noNewline _),
        indented_head hs (by decide) (by decide),
        indented_list _ _ (noNewline_append hs ht)]
      simp only [tabs_add, List.append_assoc]

/-- The first line of a bulk request lacks the indentation. -/
theorem shift_bulk (p : Pdu) (hp : p.type = .getBulkRequest) :
    (p.toString k tab).map (indented (tabs tab d)) = (p.toString (d + k) tab).map (tabs tab d ++ ·) := by
  unfold Pdu.toString
  rw [if_pos hp, if_pos hp]
  have hk := tabs_noNewline ht (k + 1)
  simp only [Option.map_some, indented_joinLines, List.map_cons, List.map_nil]
  rw [indented_line (pduName_lines _) (by simp),
    indented_item hk (by decide) (by decide) (decimalInt_noNewline _),
    indented_item hk (by decide) (by decide) (decimalInt_noNewline _),
    indented_item hk (by decide) (by decide) (decimalInt_noNewline _),
    indented_head hk (by decide) (by decide), shift_list ht]
  have e1 : d + k + 1 = d + (k + 1) := by omega
  have e2 : d + k + 2 = d + (k + 2) := by omega
  rw [e1, e2, tabs_add tab d (k + 1)]
  simp [joinLines, List.append_assoc]

theorem shift_flags (f : MessageFlags) :
    indented (tabs tab d) (f.toString k tab) = f.toString (d + k) tab := by
  have hs := sub_noNewline ht k
  have hk := tabs_noNewline ht k
  have h1 : '\n' ∉ f.level.str := by
    obtain ⟨⟨a, p⟩, r⟩ := f
    cases a <;> cases p <;> cases r <;> decide
  have h2 : '\n' ∉ boolStr f.reportable := by
    cases f.reportable <;> decide
  unfold MessageFlags.toString
  simp only [indented_joinLines, List.map_cons, List.map_nil]
  rw [indented_head hk (by decide) (by decide), indented_item hs (by decide) (by decide) h1,
    indented_item hs (by decide) (by decide) h2]
  simp only [tabs_add, List.append_assoc]

theorem shift_header (h : HeaderData) :
    indented (tabs tab d) (h.toString k tab) = h.toString (d + k) tab := by
  have hs := sub_noNewline ht k
  have hk := tabs_noNewline ht k
  have h1 : '\n' ∉ h.securityModel.name := by cases h.securityModel; decide
  unfold HeaderData.toString
  simp only [indented_joinLines, List.map_cons, List.map_nil]
  rw [indented_head hk (by decide) (by decide),
    indented_item hs (by decide) (by decide) (decimalInt_noNewline _),
    indented_item hs (by decide) (by decide) (decimalInt_noNewline _), shift_flags ht,
    indented_item hs (by decide) (by decide) h1]
  simp only [tabs_add, List.append_assoc]
  rfl

theorem shift_params (p : UsmParams) :
    indented (tabs tab d) (p.toString k tab) = p.toString (d + k) tab := by
  have hs := sub_noNewline ht k
  have hk := tabs_noNewline ht k
  unfold UsmParams.toString
  simp only [indented_joinLines, List.map_cons, List.map_nil]
  rw [indented_head hk (by decide) (by decide),
    indented_item hs (by decide) (by decide) (bytesRepr_noNewline _),
    indented_item hs (by decide) (by decide) (decimalInt_noNewline _),
    indented_item hs (by decide) (by decide) (decimalInt_noNewline _),
    indented_item hs (by decide) (by decide) (bytesRepr_noNewline _),
    indented_item hs (by decide) (by decide) (bytesRepr_noNewline _),
    indented_item hs (by decide) (by decide) (bytesRepr_noNewline _)]
  simp only [tabs_add, List.append_assoc]

theorem shift_scoped (s : ScopedPDU) (hp : s.pdu.type ≠ .getBulkRequest) :
    (s.toString k tab).map (indented (tabs tab d)) = s.toString (d + k) tab := by
  have hs := sub_noNewline ht k
  have hk := tabs_noNewline ht k
  unfold ScopedPDU.toString
  have h0 := shift_pdu ht d (k + 1) s.pdu hp
  rw [show d + (k + 1) = d + k + 1 by omega] at h0
  rw [← h0]
  cases s.pdu.toString (k + 1) tab with
  | none => rfl
  | some t =>
    simp only [Option.map_some, indented_joinLines, List.map_cons, List.map_nil]
    rw [indented_head hk (by decide) (by decide),
      indented_item hs (by decide) (by decide) (bytesRepr_noNewline _),
      indented_item hs (by decide) (by decide) (bytesRepr_noNewline _)]
    simp only [tabs_add, List.append_assoc]

theorem shift_message (m : Message) (hp : m.pdu.type ≠ .getBulkRequest) :
    (m.toString k tab).map (indented (tabs tab d)) = m.toString (d + k) tab := by
  have hs := sub_noNewline ht k
  have hk := tabs_noNewline ht k
  unfold Message.toString
  have h0 := shift_pdu ht d (k + 1) m.pdu hp
  rw [show d + (k + 1) = d + k + 1 by omega] at h0
  rw [← h0]
  cases m.pdu.toString (k + 1) tab with
  | none => rfl
  | some t =>
    simp only [Option.map_some, indented_joinLines, List.map_cons, List.map_nil]
    rw [indented_head hk (by decide) (by decide),
      indented_item hs (by decide) (by decide) (bytesRepr_noNewline _)]
    simp only [tabs_add, List.append_assoc]

omit ht in
theorem decimal_noNewline (n : Nat) : '\n' ∉ decimal n := fun h => absurd (decimal_chars n _ h) (by decide)

omit ht in
theorem octetStringRepr_noNewline (x : Asn1Data) : '\n' ∉ octetStringRepr x := by
  have hsub : ∀ s : Subbytes, '\n' ∉ s.repr := by
    intro s
    unfold Subbytes.repr
    refine noNewline_append (noNewline_append (by decide) ?_) (by decide)
    intro h
    rcases List.mem_cons.1 h with h | h
    · exact absurd h (by decide)
    · refine joinComma_noNewline _ ?_ h
      intro w hw
      simp only [List.mem_append, List.mem_cons, List.not_mem_nil, or_false] at hw
      rcases hw with (rfl | hw) | hw
      · exact bytesRepr_noNewline _
      · split at hw
        · cases hw
        · rw [List.mem_singleton.1 hw]
          exact noNewline_append (by decide) (decimal_noNewline _)
      · split at hw
        · rw [List.mem_singleton.1 hw]
          exact noNewline_append (by decide) (decimal_noNewline _)
        · cases hw
  unfold octetStringRepr
  refine noNewline_append (noNewline_append (by decide) ?_) (by decide)
  intro h
  rcases List.mem_cons.1 h with h | h
  · exact absurd h (by decide)
  · cases x with
    | bytes b => exact bytesRepr_noNewline _ h
    | sub s => exact hsub _ h

theorem shift_payload (m : V3Message) (hp : ∀ s, m.scopedPDU = some s → s.pdu.type ≠ .getBulkRequest) :
    (m.payloadStr k tab).map (indented (tabs tab d)) = m.payloadStr (d + k) tab := by
  have hs := sub_noNewline ht k
  unfold V3Message.payloadStr
  split
  · simp only [Option.map_some]
    rw [indented_item hs (by decide) (by decide)]
    · simp only [tabs_add, List.append_assoc]
    · split
      · exact octetStringRepr_noNewline _
      · decide
  · cases h : m.scopedPDU with
    | none => rfl
    | some s =>
      have := shift_scoped ht d (k + 1) s (hp s h)
      rwa [show d + (k + 1) = d + k + 1 by omega] at this

theorem shift_v3 (m : V3Message) (hp : ∀ s, m.scopedPDU = some s → s.pdu.type ≠ .getBulkRequest) :
    (m.toString k tab).map (indented (tabs tab d)) = m.toString (d + k) tab := by
  have hs := sub_noNewline ht k
  have hk := tabs_noNewline ht k
  unfold V3Message.toString
  rw [← shift_payload ht d k m hp]
  cases m.payloadStr k tab with
  | none => rfl
  | some t =>
    simp only [Option.map_some, indented_joinLines, List.map_cons, List.map_nil]
    rw [indented_head hk (by decide) (by decide), shift_header ht,
      indented_item hs (by decide) (by decide) (octetStringRepr_noNewline _)]
    simp only [tabs_add, List.append_assoc]
    rfl

end

/-! ## Different objects are printed differently -/

theorem block_inj : ∀ {t t' r r' : Text}, t.count '\n' = t'.count '\n' → t ++ '\n' :: r = t' ++ '\n' :: r' →
    t = t' ∧ r = r'
  | [], [], _, _, _, h => ⟨rfl, (List.cons.inj h).2⟩
  | [], c :: t', _, _, hc, h => by
    obtain ⟨rfl, -⟩ := List.cons.inj h
    simp at hc
  | c :: t, [], _, _, hc, h => by
    obtain ⟨rfl, -⟩ := List.cons.inj h
    simp at hc
  | c :: t, c' :: t', r, r', hc, h => by
    obtain ⟨rfl, h'⟩ := List.cons.inj h
    rw [List.count_cons, List.count_cons] at hc
    obtain ⟨rfl, rfl⟩ := block_inj (Nat.add_right_cancel hc) h'
    exact ⟨rfl, rfl⟩

theorem item_noNewline {ind label v : Text} (hi : '\n' ∉ ind) (hl : '\n' ∉ label) (hv : '\n' ∉ v) :
    '\n' ∉ ind ++ label ++ v := noNewline_append (noNewline_append hi hl) hv

theorem count_line {w : Text} (h : '\n' ∉ w) (r : Text) : (w ++ '\n' :: r).count '\n' = r.count '\n' + 1 := by
  rw [List.count_append, List.count_eq_zero.2 h, List.count_cons_self, Nat.zero_add]

theorem count_block {w : Text} {n : Nat} (h : w.count '\n' = n) (r : Text) :
    (w ++ '\n' :: r).count '\n' = n + r.count '\n' + 1 := by
  rw [List.count_append, h, List.count_cons_self]
  omega

theorem pdu_eq {p q : Pdu} (h1 : p.type = q.type) (h2 : p.requestID = q.requestID) (h3 : p.first = q.first)
    (h4 : p.second = q.second) (h5 : p.bindings = q.bindings) : p = q := by
  cases p
  cases q
  simp only at h1 h2 h3 h4 h5
  subst h1 h2 h3 h4 h5
  rfl

theorem bytesRepr_inj {d e : Bytes} (h : bytesRepr d = bytesRepr e) : d = e := by
  have h1 := (scans_bytes d).lex_eq
  have h2 := (scans_bytes e).lex_eq
  rw [h, h2] at h1
  injection h1 with h1
  injection h1 with h1
  injection h1 with h1
  exact h1.symm

theorem boolStr_inj : ∀ {a b : Bool}, boolStr a = boolStr b → a = b := by
  intro a b
  cases a <;> cases b <;> decide

theorem levelStr_inj : ∀ {a b : SecurityLevel}, a.str = b.str → a = b := by
  rintro ⟨a, b⟩ ⟨c, d⟩
  cases a <;> cases b <;> cases c <;> cases d <;> decide

section
variable {tab : Text} (ht : '\n' ∉ tab) (d : Nat)
include ht

/-- The lines of a PDU that is no bulk request. -/
theorem pdu_form {p : Pdu} {t : Text} (h : p.toString d tab = some t) :
    ∃ head a b : Text, '\n' ∉ head ∧ '\n' ∉ a ∧ '\n' ∉ b ∧
      ((p.type = .getBulkRequest ∧ head = p.type.name ++ [':'] ∧
        a = tabs tab (d + 1) ++ "Non-Repeaters: ".toList ++ decimalInt p.first ∧
        b = tabs tab (d + 1) ++ "Max Repetitions: ".toList ++ decimalInt p.second) ∨
      (p.type ≠ .getBulkRequest ∧ head = tabs tab d ++ p.type.name ++ [':'] ∧ 0 ≤ p.first ∧
        ∃ name, errorNames[p.first.toNat]? = some name ∧
        a = tabs tab (d + 1) ++ "Error Status: ".toList ++ name ∧
        b = tabs tab (d + 1) ++ "Error Index: ".toList ++ decimalInt p.second)) ∧
      t = head ++ '\n' :: ((tabs tab (d + 1) ++ "Request ID: ".toList ++ decimalInt p.requestID) ++ '\n' ::
        (a ++ '\n' :: (b ++ '\n' :: ((tabs tab (d + 1) ++ "Variable Bindings:".toList) ++ '\n' ::
          VarBindList.str p.bindings (tabs tab (d + 2)))))) := by
  have e1 : tabs tab d ++ tab = tabs tab (d + 1) := by rw [tabs_add, tabs_one]
  have e2 : tabs tab (d + 1) ++ tab = tabs tab (d + 2) := by rw [tabs_add _ (d + 1) 1, tabs_one]
  have n1 := tabs_noNewline ht (d + 1)
  unfold Pdu.toString at h
  simp only at h
  split at h
  · rename_i hb
    injection h with h
    subst h
    exact ⟨_, _, _, pduName_lines _, item_noNewline n1 (by decide) (decimalInt_noNewline _),
      item_noNewline n1 (by decide) (decimalInt_noNewline _), .inl ⟨hb, rfl, rfl, rfl⟩, rfl⟩
  · rename_i hb
    split at h
    · cases h
    · rename_i h0
      cases hn : errorNames[p.first.toNat]? with
      | none => rw [hn] at h; cases h
      | some name =>
        rw [hn, e1, e2] at h
        injection h with h
        subst h
        refine ⟨_, _, _, ?_, item_noNewline n1 (by decide) (errorNames_lines name (List.mem_of_getElem? hn)),
          item_noNewline n1 (by decide) (decimalInt_noNewline _),
          .inr ⟨hb, rfl, by omega, name, rfl, rfl, rfl⟩, rfl⟩
        rw [List.append_assoc]
        exact noNewline_append (tabs_noNewline ht d) (pduName_lines _)

theorem pdu_inj {p q : Pdu} (hp : ∀ v ∈ p.bindings, Buildable v) (hq : ∀ v ∈ q.bindings, Buildable v) {t : Text}
    (h1 : p.toString d tab = some t) (h2 : q.toString d tab = some t) : p = q := by
  obtain ⟨hd, a, b, n0, n1, n2, hm, rfl⟩ := pdu_form ht d h1
  obtain ⟨hd', a', b', n0', n1', n2', hm', h⟩ := pdu_form ht d h2
  have ns := tabs_noNewline ht (d + 1)
  have nr : ∀ v, '\n' ∉ tabs tab (d + 1) ++ "Request ID: ".toList ++ decimalInt v := fun v =>
    item_noNewline ns (by decide) (decimalInt_noNewline _)
  have nv : '\n' ∉ tabs tab (d + 1) ++ "Variable Bindings:".toList := noNewline_append ns (by decide)
  obtain ⟨g0, h⟩ := sep_inj n0 n0' h
  obtain ⟨g2, h⟩ := sep_inj (nr _) (nr _) h
  obtain ⟨g3, h⟩ := sep_inj n1 n1' h
  obtain ⟨g4, h⟩ := sep_inj n2 n2' h
  obtain ⟨-, h⟩ := sep_inj nv nv h
  have e4 := listStr_inj (tabs_noNewline ht (d + 2)) hp hq h
  have e2 := decimalInt_inj (List.append_cancel_left g2)
  subst g0 g3 g4
  have key : p.type = q.type ∧ p.first = q.first ∧ p.second = q.second := by
    rcases hm with ⟨i1, i2, i3, i4⟩ | ⟨i1, i2, i3, name, i4, i5, i6⟩
    · rcases hm' with ⟨j1, j2, j3, j4⟩ | ⟨j1, j2, j3, name', j4, j5, j6⟩
      · rw [i3] at j3
        rw [i4] at j4
        exact ⟨i1.trans j1.symm, decimalInt_inj (List.append_cancel_left j3),
          decimalInt_inj (List.append_cancel_left j4)⟩
      · rw [i3, List.append_assoc, List.append_assoc] at j5
        exact absurd (List.cons.inj (List.append_cancel_left j5)).1 (by decide)
    · rcases hm' with ⟨j1, j2, j3, j4⟩ | ⟨j1, j2, j3, name', j4, j5, j6⟩
      · rw [i5, List.append_assoc, List.append_assoc] at j3
        exact absurd (List.cons.inj (List.append_cancel_left j3)).1 (by decide)
      · rw [i2, List.append_assoc, List.append_assoc] at j2
        rw [i5] at j5
        rw [i6] at j6
        have t1 := pduName_inj _ _ (List.append_cancel_right (List.append_cancel_left j2))
        have t2 := List.append_cancel_left j5
        subst t2
        have hd : errorNames.Nodup := by decide
        have hlt := (List.getElem?_eq_some_iff.1 i4).1
        have := (List.getElem?_inj hlt hd).1 (i4.trans j4.symm)
        exact ⟨t1, by omega, decimalInt_inj (List.append_cancel_left j6)⟩
  obtain ⟨k1, k3, k4⟩ := key
  exact pdu_eq k1 e2 k3 k4 e4

theorem flags_count (f : MessageFlags) : (f.toString d tab).count '\n' = 2 := by
  have hs := sub_noNewline ht d
  have hk := tabs_noNewline ht d
  have h1 : '\n' ∉ f.level.str := by
    obtain ⟨⟨a, p⟩, r⟩ := f
    cases a <;> cases p <;> cases r <;> decide
  have h2 : '\n' ∉ boolStr f.reportable := by
    cases f.reportable <;> decide
  unfold MessageFlags.toString
  simp only [joinLines]
  rw [count_line (noNewline_append hk (by decide)), count_line (item_noNewline hs (by decide) h1),
    List.count_eq_zero.2 (item_noNewline hs (by decide) h2)]

theorem flags_inj {f g : MessageFlags} (h : f.toString d tab = g.toString d tab) : f = g := by
  have hs := sub_noNewline ht d
  have hk := tabs_noNewline ht d
  have h1 : ∀ l : SecurityLevel, '\n' ∉ l.str := by
    rintro ⟨a, p⟩
    cases a <;> cases p <;> decide
  unfold MessageFlags.toString at h
  simp only [joinLines] at h
  obtain ⟨-, h⟩ := sep_inj (noNewline_append hk (by decide)) (noNewline_append hk (by decide)) h
  obtain ⟨k1, h⟩ := sep_inj (item_noNewline hs (by decide) (h1 _)) (item_noNewline hs (by decide) (h1 _)) h
  have k1 := levelStr_inj (List.append_cancel_left k1)
  have k2 := boolStr_inj (List.append_cancel_left h)
  cases f
  cases g
  simp only at k1 k2
  subst k1 k2
  rfl

theorem header_count (x : HeaderData) : (x.toString d tab).count '\n' = 6 := by
  have hs := sub_noNewline ht d
  have hk := tabs_noNewline ht d
  have h1 : '\n' ∉ x.securityModel.name := by cases x.securityModel; decide
  unfold HeaderData.toString
  simp only [joinLines]
  rw [count_line (noNewline_append hk (by decide)),
    count_line (item_noNewline hs (by decide) (decimalInt_noNewline _)),
    count_line (item_noNewline hs (by decide) (decimalInt_noNewline _)), count_block (flags_count ht _ _),
    List.count_eq_zero.2 (item_noNewline hs (by decide) h1)]

theorem header_inj {x y : HeaderData} (h : x.toString d tab = y.toString d tab) : x = y := by
  have hs := sub_noNewline ht d
  have hk := tabs_noNewline ht d
  unfold HeaderData.toString at h
  simp only [joinLines] at h
  obtain ⟨-, h⟩ := sep_inj (noNewline_append hk (by decide)) (noNewline_append hk (by decide)) h
  obtain ⟨k1, h⟩ := sep_inj (item_noNewline hs (by decide) (decimalInt_noNewline _))
    (item_noNewline hs (by decide) (decimalInt_noNewline _)) h
  obtain ⟨k2, h⟩ := sep_inj (item_noNewline hs (by decide) (decimalInt_noNewline _))
    (item_noNewline hs (by decide) (decimalInt_noNewline _)) h
  obtain ⟨k3, -⟩ := block_inj ((flags_count ht _ _).trans (flags_count ht _ _).symm) h
  have k1' := decimalInt_inj (List.append_cancel_left k1)
  have k2' := decimalInt_inj (List.append_cancel_left k2)
  have k3' := flags_inj ht _ k3
  obtain ⟨a, b, c, m⟩ := x
  obtain ⟨a', b', c', m'⟩ := y
  cases m
  cases m'
  exact (HeaderData.mk.injEq ..).mpr ⟨k1', k2', k3', rfl⟩

theorem scoped_inj {x y : ScopedPDU} (hx : ∀ v ∈ x.pdu.bindings, Buildable v) (hy : ∀ v ∈ y.pdu.bindings, Buildable v)
    {t : Text} (h1 : x.toString d tab = some t) (h2 : y.toString d tab = some t) : x = y := by
  have hs := sub_noNewline ht d
  have hk := tabs_noNewline ht d
  unfold ScopedPDU.toString at h1 h2
  obtain ⟨p, hp, h1⟩ := Option.map_eq_some_iff.1 h1
  obtain ⟨q, hq, h2⟩ := Option.map_eq_some_iff.1 h2
  rw [← h2] at h1
  simp only [joinLines] at h1
  obtain ⟨-, h⟩ := sep_inj (noNewline_append hk (by decide)) (noNewline_append hk (by decide)) h1
  obtain ⟨k1, h⟩ := sep_inj (item_noNewline hs (by decide) (bytesRepr_noNewline _))
    (item_noNewline hs (by decide) (bytesRepr_noNewline _)) h
  obtain ⟨k2, rfl⟩ := sep_inj (item_noNewline hs (by decide) (bytesRepr_noNewline _))
    (item_noNewline hs (by decide) (bytesRepr_noNewline _)) h
  have k1' := bytesRepr_inj (List.append_cancel_left k1)
  have k2' := bytesRepr_inj (List.append_cancel_left k2)
  have k3' := pdu_inj ht _ hx hy hp hq
  exact (ScopedPDU.mk.injEq ..).mpr ⟨k3', k1', k2'⟩

theorem message_inj {x y : Message} (hx : ∀ v ∈ x.pdu.bindings, Buildable v) (hy : ∀ v ∈ y.pdu.bindings, Buildable v)
    {t : Text} (h1 : x.toString d tab = some t) (h2 : y.toString d tab = some t) :
    x.community = y.community ∧ x.pdu = y.pdu := by
  have hs := sub_noNewline ht d
  have hk := tabs_noNewline ht d
  unfold Message.toString at h1 h2
  obtain ⟨p, hp, h1⟩ := Option.map_eq_some_iff.1 h1
  obtain ⟨q, hq, h2⟩ := Option.map_eq_some_iff.1 h2
  rw [← h2] at h1
  simp only [joinLines] at h1
  obtain ⟨-, h⟩ := sep_inj (noNewline_append hk (by decide)) (noNewline_append hk (by decide)) h1
  obtain ⟨k1, rfl⟩ := sep_inj (item_noNewline hs (by decide) (bytesRepr_noNewline _))
    (item_noNewline hs (by decide) (bytesRepr_noNewline _)) h
  exact ⟨bytesRepr_inj (List.append_cancel_left k1), pdu_inj ht _ hx hy hp hq⟩

theorem params_inj {x y : UsmParams} (h : x.toString d tab = y.toString d tab) :
    x.engineID = y.engineID ∧ x.engineBoots = y.engineBoots ∧ x.engineTime = y.engineTime ∧
      x.userName = y.userName ∧ x.signature = y.signature ∧ x.salt = y.salt := by
  have hs := sub_noNewline ht d
  have hk := tabs_noNewline ht d
  unfold UsmParams.toString at h
  simp only [joinLines] at h
  obtain ⟨-, h⟩ := sep_inj (noNewline_append hk (by decide)) (noNewline_append hk (by decide)) h
  obtain ⟨k1, h⟩ := sep_inj (item_noNewline hs (by decide) (bytesRepr_noNewline _))
    (item_noNewline hs (by decide) (bytesRepr_noNewline _)) h
  obtain ⟨k2, h⟩ := sep_inj (item_noNewline hs (by decide) (decimalInt_noNewline _))
    (item_noNewline hs (by decide) (decimalInt_noNewline _)) h
  obtain ⟨k3, h⟩ := sep_inj (item_noNewline hs (by decide) (decimalInt_noNewline _))
    (item_noNewline hs (by decide) (decimalInt_noNewline _)) h
  obtain ⟨k4, h⟩ := sep_inj (item_noNewline hs (by decide) (bytesRepr_noNewline _))
    (item_noNewline hs (by decide) (bytesRepr_noNewline _)) h
  obtain ⟨k5, h⟩ := sep_inj (item_noNewline hs (by decide) (bytesRepr_noNewline _))
    (item_noNewline hs (by decide) (bytesRepr_noNewline _)) h
  exact ⟨bytesRepr_inj (List.append_cancel_left k1), decimalInt_inj (List.append_cancel_left k2),
    decimalInt_inj (List.append_cancel_left k3), bytesRepr_inj (List.append_cancel_left k4),
    bytesRepr_inj (List.append_cancel_left k5), bytesRepr_inj (List.append_cancel_left h)⟩

omit ht in
/-- What the text of a `subbytes` says. -/
theorem scans_subbytes (s : Subbytes) : Scans s.repr (Expr.call "subbytes".toList (argsOf
    ([(none, .bytes s.data)] ++ (if s.start = 0 then [] else [(some "start".toList, .int s.start)]) ++
      (if s.stop < s.data.length then [(some "stop".toList, .int s.stop)] else [])))).toks := by
  have num : ∀ n : Nat, Scans (decimal n) (Expr.int n).toks := by
    intro n
    have := scans_int n
    unfold decimalInt at this
    rwa [if_neg (by omega), Int.toNat_natCast] at this
  have b : Scans (bytesRepr s.data) (keyToks none ++ (Expr.bytes s.data).toks) := scans_bytes s.data
  have key : ∀ (k : Text) (n : Nat), NameOk k → Scans (k ++ '=' :: decimal n) (keyToks (some k) ++ (Expr.int n).toks) :=
    fun k n hk => scans_key hk (num n)
  have start := key "start".toList s.start (by decide)
  have stop := key "stop".toList s.stop (by decide)
  let args : List Arg := [⟨bytesRepr s.data, none, .bytes s.data⟩] ++
    (if s.start = 0 then [] else [⟨"start".toList ++ '=' :: decimal s.start, some "start".toList, .int s.start⟩]) ++
    (if s.stop < s.data.length then
      [⟨"stop".toList ++ '=' :: decimal s.stop, some "stop".toList, .int s.stop⟩] else [])
  have h := scans_call_list (f := "subbytes".toList) (by decide) args (by
    intro a ha
    simp only [args, List.mem_append, List.mem_cons, List.not_mem_nil, or_false] at ha
    rcases ha with (rfl | ha) | ha
    · exact b
    · split at ha
      · cases ha
      · rw [List.mem_singleton.1 ha]
        exact start
    · split at ha
      · rw [List.mem_singleton.1 ha]
        exact stop
      · cases ha)
  have e1 : s.repr = "subbytes".toList ++ '(' :: joinComma (args.map (·.text)) ++ [')'] := by
    unfold Subbytes.repr
    simp only [args]
    split <;> split <;> rfl
  have e2 : (args.map fun a => (a.key, a.expr)) =
      [(none, .bytes s.data)] ++ (if s.start = 0 then [] else [(some "start".toList, .int s.start)]) ++
      (if s.stop < s.data.length then [(some "stop".toList, .int s.stop)] else []) := by
    simp only [args]
    split <;> split <;> rfl
  rw [e1, ← e2]
  exact h

omit ht in
theorem subbytes_inj {s t : Subbytes} (hs : s.WF) (ht : t.WF) (h : s.repr = t.repr) : s = t := by
  have h1 := (scans_subbytes s).lex_eq
  have h2 := (scans_subbytes t).lex_eq
  rw [h, h2] at h1
  injection h1 with h1
  clear h h2
  obtain ⟨d, a, b⟩ := s
  obtain ⟨d', a', b'⟩ := t
  obtain ⟨s1, s2⟩ := hs
  obtain ⟨t1, t2⟩ := ht
  simp only at h1 s1 s2 t1 t2
  have ne : ¬ "start".toList = "stop".toList := by decide
  have ne' : ¬ "stop".toList = "start".toList := by decide
  have n1 : ∀ n : Nat, ¬ ((n : Int) < 0) := fun n => by omega
  rw [Subbytes.mk.injEq]
  by_cases c1 : a = 0 <;> by_cases c2 : b < d.length <;> by_cases c3 : a' = 0 <;> by_cases c4 : b' < d'.length <;>
    simp [c1, c2, c3, c4, Expr.toks, Args.toks, argsOf, keyToks, n1] at h1 ⊢ <;>
    first
      | omega
      | (obtain ⟨rfl, h1⟩ := h1; simp; omega)

omit ht in
theorem original_inj {x y : Asn1Data} (hx : x.Valid) (hy : y.Valid) (h : x.repr = y.repr) : x = y := by
  have ne : ∀ (b : Bytes) (s : Subbytes), bytesRepr b ≠ s.repr := by
    intro b s h
    unfold bytesRepr Subbytes.repr at h
    exact absurd (List.cons.inj h).1 (by decide)
  cases x with
  | bytes b => cases y with
    | bytes b' => rw [bytesRepr_inj h]
    | sub s => exact absurd h (ne _ _)
  | sub s => cases y with
    | bytes b => exact absurd h.symm (ne _ _)
    | sub s' => exact congrArg Asn1Data.sub (subbytes_inj hx hy h)

omit ht in
theorem octetString_inj {x y : Asn1Data} (hx : x.Valid) (hy : y.Valid) (h : octetStringRepr x = octetStringRepr y) :
    x = y := by
  unfold octetStringRepr at h
  exact original_inj hx hy (List.cons.inj (List.append_cancel_left (List.append_cancel_right h))).2

theorem v3_inj {x y : V3Message} (hx : x.securityParameters.Valid) (hy : y.securityParameters.Valid)
    (bx : ∀ s, x.scopedPDU = some s → ∀ v ∈ s.pdu.bindings, Buildable v)
    (by' : ∀ s, y.scopedPDU = some s → ∀ v ∈ s.pdu.bindings, Buildable v)
    {t : Text} (h1 : x.toString d tab = some t) (h2 : y.toString d tab = some t) :
    x.header = y.header ∧ x.securityParameters = y.securityParameters ∧
      (if x.header.flags.level.priv then x.encryptedPDU = y.encryptedPDU else x.scopedPDU = y.scopedPDU) := by
  have hs := sub_noNewline ht d
  have hk := tabs_noNewline ht d
  unfold V3Message.toString at h1 h2
  obtain ⟨p, hp, h1⟩ := Option.map_eq_some_iff.1 h1
  obtain ⟨q, hq, h2⟩ := Option.map_eq_some_iff.1 h2
  rw [← h2] at h1
  clear h2
  simp only [joinLines] at h1
  obtain ⟨-, h⟩ := sep_inj (noNewline_append hk (by decide)) (noNewline_append hk (by decide)) h1
  obtain ⟨k1, h⟩ := block_inj ((header_count ht _ _).trans (header_count ht _ _).symm) h
  obtain ⟨k2, h⟩ := sep_inj (item_noNewline hs (by decide) (octetStringRepr_noNewline _))
    (item_noNewline hs (by decide) (octetStringRepr_noNewline _)) h
  have k1' := header_inj ht _ k1
  have k2' := octetString_inj hx hy (List.append_cancel_left k2)
  subst h
  refine ⟨k1', k2', ?_⟩
  unfold V3Message.payloadStr at hp hq
  rw [← k1'] at hq
  split
  · rename_i hpriv
    rw [if_pos hpriv] at hp hq
    injection hp with hp
    injection hq with hq
    have hpq := List.append_cancel_left (hp.trans hq.symm)
    have ne : ∀ b : Bytes, octetStringRepr (.bytes b) ≠ "None".toList := by
      intro b h
      unfold octetStringRepr at h
      exact absurd (List.cons.inj h).1 (by decide)
    cases hx' : x.encryptedPDU with
    | none =>
      cases hy' : y.encryptedPDU with
      | none => rfl
      | some b => rw [hx', hy'] at hpq; exact absurd hpq.symm (ne b)
    | some a =>
      cases hy' : y.encryptedPDU with
      | none => rw [hx', hy'] at hpq; exact absurd hpq (ne a)
      | some b =>
        rw [hx', hy'] at hpq
        have := octetString_inj (x := .bytes a) (y := .bytes b) (Asn1Data.valid_bytes a) (Asn1Data.valid_bytes b) hpq
        injection this with this
        rw [this]
  · rename_i hpriv
    rw [if_neg hpriv] at hp hq
    cases hx' : x.scopedPDU with
    | none => rw [hx'] at hp; cases hp
    | some s =>
      cases hy' : y.scopedPDU with
      | none => rw [hy'] at hq; cases hq
      | some s' =>
        rw [hx'] at hp
        rw [hy'] at hq
        rw [scoped_inj ht _ (bx s hx') (by' s' hy') hp hq]

end

end Display
open Spec Display

/-- `toString` with its arguments left out is what C107 is about. -/
theorem Pdu.toString_str (p : Pdu) : p.toString = p.str := rfl

/-! ## C118 -/

/-- `tab`, `depth` times. -/
def Spec.repeated (tab : Text) (depth : Nat) : Text := (List.replicate depth tab).flatten

/-- **C118** for headers, flags and security parameters: with the argument `depth` the same text is shown, each line
indented by that many tabs. -/
theorem C118_parts (depth : Nat) (tab : Text) (ht : '\n' ∉ tab) :
    (∀ f : MessageFlags, f.toString depth tab = Spec.indented (Spec.repeated tab depth) (f.toString 0 tab)) ∧
    (∀ h : HeaderData, h.toString depth tab = Spec.indented (Spec.repeated tab depth) (h.toString 0 tab)) ∧
    (∀ p : UsmParams, p.toString depth tab = Spec.indented (Spec.repeated tab depth) (p.toString 0 tab)) :=
  ⟨fun f => (shift_flags ht depth 0 f).symm, fun h => (shift_header ht depth 0 h).symm,
    fun p => (shift_params ht depth 0 p).symm⟩

/-- **C118**, for everything without a bulk request: PDUs, scoped PDUs and messages, of which each fails in the
same cases whatever `depth` is. -/
theorem C118_partial (depth : Nat) (tab : Text) (ht : '\n' ∉ tab) :
    (∀ p : Pdu, p.type ≠ .getBulkRequest →
      p.toString depth tab = (p.toString 0 tab).map (Spec.indented (Spec.repeated tab depth))) ∧
    (∀ s : ScopedPDU, s.pdu.type ≠ .getBulkRequest →
      s.toString depth tab = (s.toString 0 tab).map (Spec.indented (Spec.repeated tab depth))) ∧
    (∀ m : Message, m.pdu.type ≠ .getBulkRequest →
      m.toString depth tab = (m.toString 0 tab).map (Spec.indented (Spec.repeated tab depth))) ∧
    (∀ m : V3Message, (∀ s, m.scopedPDU = some s → s.pdu.type ≠ .getBulkRequest) →
      m.toString depth tab = (m.toString 0 tab).map (Spec.indented (Spec.repeated tab depth))) := by
  refine ⟨fun p hp => ?_, fun s hs => ?_, fun m hm => ?_, fun m hm => ?_⟩
  · exact (shift_pdu ht depth 0 p hp).symm
  · exact (shift_scoped ht depth 0 s hs).symm
  · exact (shift_message ht depth 0 m hm).symm
  · exact (shift_v3 ht depth 0 m hm).symm

/-- **C118** fails for every bulk request: its first line is not indented, and that is all that is missing. -/
theorem C118_bulk (p : Pdu) (hp : p.type = .getBulkRequest) (depth : Nat) (tab : Text) (ht : '\n' ∉ tab) :
    ∃ text shown : Text, p.toString 0 tab = some text ∧ p.toString depth tab = some shown ∧
      Spec.indented (Spec.repeated tab depth) text = Spec.repeated tab depth ++ shown ∧
      (depth ≠ 0 → tab ≠ [] → shown ≠ Spec.indented (Spec.repeated tab depth) text) := by
  have h := shift_bulk ht depth 0 p hp
  have some' : ∀ k, ∃ t, p.toString k tab = some t := by
    intro k
    unfold Pdu.toString
    rw [if_pos hp]
    exact ⟨_, rfl⟩
  obtain ⟨a, ha⟩ := some' 0
  obtain ⟨b, hb⟩ := some' depth
  have e : Spec.indented (Spec.repeated tab depth) a = Spec.repeated tab depth ++ b := by
    rw [ha, Nat.add_zero, hb] at h
    injection h
  refine ⟨a, b, ha, hb, e, ?_⟩
  intro hd htab heq
  rw [e] at heq
  have h0 := congrArg List.length heq
  rw [List.length_append] at h0
  have h1 : (Spec.repeated tab depth).length = 0 := by omega
  have h2 : tab.length ≠ 0 := fun h => htab (List.length_eq_zero_iff.1 h)
  cases depth with
  | zero => exact hd rfl
  | succ n =>
    unfold Spec.repeated at h1
    rw [List.replicate_succ, List.flatten_cons, List.length_append] at h1
    omega

/-- What is in an object is shown below it, indented by one more tab. -/
theorem C118_nested (depth : Nat) (tab : Text) (ht : '\n' ∉ tab) :
    (∀ (m : Message) (t : Text), m.pdu.type ≠ .getBulkRequest → m.toString depth tab = some t →
      ∃ above pdu, m.pdu.toString 0 tab = some pdu ∧
        t = above ++ '\n' :: Spec.indented (Spec.repeated tab (depth + 1)) pdu) ∧
    (∀ (s : ScopedPDU) (t : Text), s.pdu.type ≠ .getBulkRequest → s.toString depth tab = some t →
      ∃ above pdu, s.pdu.toString 0 tab = some pdu ∧
        t = above ++ '\n' :: Spec.indented (Spec.repeated tab (depth + 1)) pdu) ∧
    (∀ (m : V3Message) (t : Text), m.toString depth tab = some t →
      ∃ above rest, t = above ++ '\n' :: Spec.indented (Spec.repeated tab (depth + 1)) (m.header.toString 0 tab) ++
        '\n' :: rest) := by
  refine ⟨fun m t hm h => ?_, fun s t hs h => ?_, fun m t h => ?_⟩
  · unfold Message.toString at h
    obtain ⟨p, hp, h⟩ := Option.map_eq_some_iff.1 h
    rw [(C118_partial (depth + 1) tab ht).1 m.pdu hm] at hp
    obtain ⟨q, hq, rfl⟩ := Option.map_eq_some_iff.1 hp
    refine ⟨joinLines [tabs tab depth ++ "Message:".toList,
      tabs tab depth ++ tab ++ "Community: ".toList ++ bytesRepr m.community], q, hq, ?_⟩
    rw [← h]
    simp only [joinLines, List.append_assoc, List.cons_append]
  · unfold ScopedPDU.toString at h
    obtain ⟨p, hp, h⟩ := Option.map_eq_some_iff.1 h
    rw [(C118_partial (depth + 1) tab ht).1 s.pdu hs] at hp
    obtain ⟨q, hq, rfl⟩ := Option.map_eq_some_iff.1 hp
    refine ⟨joinLines [tabs tab depth ++ "ScopedPDU:".toList,
      tabs tab depth ++ tab ++ "Context Engine ID: ".toList ++ bytesRepr s.contextEngineID,
      tabs tab depth ++ tab ++ "Context Name: ".toList ++ bytesRepr s.contextName], q, hq, ?_⟩
    rw [← h]
    simp only [joinLines, List.append_assoc, List.cons_append]
  · unfold V3Message.toString at h
    obtain ⟨p, hp, h⟩ := Option.map_eq_some_iff.1 h
    rw [(C118_parts (depth + 1) tab ht).2.1 m.header] at h
    refine ⟨tabs tab depth ++ "SNMPv3Message:".toList, joinLines [tabs tab depth ++ tab ++
      "Security Parameters: ".toList ++ octetStringRepr m.securityParameters, p], ?_⟩
    rw [← h]
    simp only [joinLines, List.append_assoc, List.cons_append]

/-- A bulk request in a message: its name is not indented, although what is below it is. -/
theorem C118_false : ∃ m : Message, m.pdu.type = .getBulkRequest ∧
    m.toString = some ("Message:\n    Community: b'public'\n" ++
      "GetBulkRequestPDU:\n        Request ID: 7\n        Non-Repeaters: 0\n        Max Repetitions: 5\n" ++
      "        Variable Bindings:\n            1.3: NULL()").toList ∧
    ¬ ∃ above pdu, m.pdu.toString = some pdu ∧
      m.toString = some (above ++ '\n' :: Spec.indented "    ".toList pdu) := by
  refine ⟨⟨.v2c, "public".toList.map (fun c => UInt8.ofNat c.toNat), ⟨.getBulkRequest, 7, 0, 5, [⟨[1, 3], .null⟩]⟩⟩,
    rfl, by decide +kernel, ?_⟩
  rintro ⟨above, pdu, h1, h2⟩
  generalize hm : Message.toString _ = shown at h2
  generalize hp : Pdu.toString _ = text at h1
  subst h1 h2
  have key : ∀ (above pdu shown : Text), shown = above ++ '\n' :: Spec.indented "    ".toList pdu →
      shown.drop (shown.length - ('\n' :: Spec.indented "    ".toList pdu).length) =
        '\n' :: Spec.indented "    ".toList pdu := by
    rintro above pdu _ rfl
    rw [List.length_append, Nat.add_sub_cancel, List.drop_left]
  have h3 : ∀ m p, Message.toString (⟨.v2c, "public".toList.map (fun c => UInt8.ofNat c.toNat),
      ⟨.getBulkRequest, 7, 0, 5, [⟨[1, 3], .null⟩]⟩⟩ : Message) = some m →
      Pdu.toString (⟨.getBulkRequest, 7, 0, 5, [⟨[1, 3], .null⟩]⟩ : Pdu) = some p →
      ∀ above, m ≠ above ++ '\n' :: Spec.indented "    ".toList p := by
    intro m p hm hp above h
    have h := key _ _ _ h
    have e1 : m = (Message.toString (⟨.v2c, "public".toList.map (fun c => UInt8.ofNat c.toNat),
      ⟨.getBulkRequest, 7, 0, 5, [⟨[1, 3], .null⟩]⟩⟩ : Message)).getD [] := by rw [hm]; rfl
    have e2 : p = (Pdu.toString (⟨.getBulkRequest, 7, 0, 5, [⟨[1, 3], .null⟩]⟩ : Pdu)).getD [] := by rw [hp]; rfl
    rw [e1, e2] at h
    revert h
    decide +kernel
  exact h3 _ _ hm hp above rfl

/-! ## C119 -/

/-- **C119** for flags, headers, security parameters (apart from the place of the signature in the message, which is
not printed), scoped PDUs and SNMPv3 messages: with the same arguments, different objects are printed differently;
of an SNMPv3 message the payload that is sent is printed, encrypted or not. -/
theorem C119_partial (depth : Nat) (tab : Text) (ht : '\n' ∉ tab) :
    (∀ f g : MessageFlags, f.toString depth tab = g.toString depth tab → f = g) ∧
    (∀ x y : HeaderData, x.toString depth tab = y.toString depth tab → x = y) ∧
    (∀ x y : UsmParams, x.toString depth tab = y.toString depth tab →
      x.engineID = y.engineID ∧ x.engineBoots = y.engineBoots ∧ x.engineTime = y.engineTime ∧
      x.userName = y.userName ∧ x.signature = y.signature ∧ x.salt = y.salt) ∧
    (∀ (x y : ScopedPDU) (t : Text), (∀ v ∈ x.pdu.bindings, Buildable v) → (∀ v ∈ y.pdu.bindings, Buildable v) →
      x.toString depth tab = some t → y.toString depth tab = some t → x = y) ∧
    (∀ (x y : V3Message) (t : Text), x.securityParameters.Valid → y.securityParameters.Valid →
      (∀ s, x.scopedPDU = some s → ∀ v ∈ s.pdu.bindings, Buildable v) →
      (∀ s, y.scopedPDU = some s → ∀ v ∈ s.pdu.bindings, Buildable v) →
      x.toString depth tab = some t → y.toString depth tab = some t →
      x.header = y.header ∧ x.securityParameters = y.securityParameters ∧
        (if x.header.flags.level.priv then x.encryptedPDU = y.encryptedPDU else x.scopedPDU = y.scopedPDU) ∧
        x.encode = y.encode) ∧
    (∀ (x y : Message) (t : Text), (∀ v ∈ x.pdu.bindings, Buildable v) → (∀ v ∈ y.pdu.bindings, Buildable v) →
      x.toString depth tab = some t → y.toString depth tab = some t → x.version = y.version → x = y) := by
  refine ⟨fun f g => flags_inj ht _, fun x y => header_inj ht _, fun x y => params_inj ht _,
    fun x y t hx hy => scoped_inj ht _ hx hy, ?_, ?_⟩
  · intro x y t hx hy bx by' h1 h2
    obtain ⟨k1, k2, k3⟩ := v3_inj ht _ hx hy bx by' h1 h2
    refine ⟨k1, k2, k3, ?_⟩
    have k4 : x.encodePayload = y.encodePayload := by
      unfold V3Message.encodePayload
      rw [← k1]
      split at k3
      · rename_i hp
        rw [if_pos hp, if_pos hp, k3]
      · rename_i hp
        rw [if_neg hp, if_neg hp, k3]
    unfold V3Message.encode V3Message.serialize
    rw [k1, k2, k4]
  · intro x y t hx hy h1 h2 hv
    obtain ⟨k1, k2⟩ := message_inj ht _ hx hy h1 h2
    exact (Message.mk.injEq ..).mpr ⟨hv, k1, k2⟩

/-- **C119** fails for SNMPv1 and SNMPv2c messages: the version is not printed. -/
theorem C119_false (x : Message) (depth : Nat) (tab : Text) (v : Version) :
    ({ x with version := v } : Message).toString depth tab = x.toString depth tab := rfl

theorem Display.pdu_total (p : Pdu) (depth : Nat) (tab : Text) :
    p.toString depth tab ≠ none ↔ p.type = .getBulkRequest ∨ isErrorStatus p.first = true := by
  rw [← C107_total, ← Pdu.toString_str]
  unfold Pdu.toString
  split
  · simp
  · split
    · simp
    · simp

theorem Display.decodePdu_printable {types : List PduType} {d : Asn1Data} (hd : d.Valid) {p : Pdu}
    (h : decodePdu types d = .ok p) : (∀ v ∈ p.bindings, Buildable v) ∧
      ∀ depth tab, p.toString depth tab ≠ none := by
  unfold decodePdu at h
  obtain ⟨x, -, h⟩ := bind_ok h
  obtain ⟨t, -, h⟩ := bind_ok h
  obtain ⟨⟨q, tail⟩, h1, h⟩ := bind_ok h
  injection h with h
  subst h
  obtain ⟨k1, k2, k3⟩ := buildable_pdu hd h1
  refine ⟨k1, fun depth tab => ?_⟩
  rw [pdu_total, k2]
  by_cases hb : t = .getBulkRequest
  · exact .inl hb
  · exact .inr (k3 hb)

theorem Display.scoped_printable {d : Asn1Data} (hd : d.Valid) {l : Bool} {s : ScopedPDU} {tail : Subbytes}
    (h : ScopedPDU.decode d l = .ok (s, tail)) : (∀ v ∈ s.pdu.bindings, Buildable v) ∧
      ∀ depth tab, s.toString depth tab ≠ none := by
  obtain ⟨b, hb, h1, -⟩ := asn1Decode_ok hd h
  unfold ScopedPDU.deserialize at h1
  obtain ⟨⟨e, d1⟩, h2, h1⟩ := bind_ok h1
  obtain ⟨⟨n, d2⟩, h3, h1⟩ := bind_ok h1
  obtain ⟨p, h4, h1⟩ := bind_ok h1
  injection h1 with h1
  subst h1
  have v2 := decodeOctets_tail (decodeOctets_tail hb h2) h3
  obtain ⟨k1, k2⟩ := decodePdu_printable v2 h4
  refine ⟨k1, fun depth tab => ?_⟩
  unfold ScopedPDU.toString
  simpa using k2 (depth + 1) tab

/-- **C119**: every message that was received can be printed, and has the properties that `C119_partial` asks
for. -/
theorem C119_received (depth : Nat) (tab : Text) :
    (∀ (types : List PduType) (data : Bytes) (m : Message) (tail : Subbytes),
      Message.decode types (.bytes data) = .ok (m, tail) →
      (∀ v ∈ m.pdu.bindings, Buildable v) ∧ m.toString depth tab ≠ none) ∧
    (∀ (data : Bytes) (m : V3Message), V3Message.decode (.bytes data) = .ok m →
      m.securityParameters.Valid ∧ (∀ s, m.scopedPDU = some s → ∀ v ∈ s.pdu.bindings, Buildable v) ∧
      m.toString depth tab ≠ none) := by
  refine ⟨fun types data m tail h => ?_, fun data m h => ?_⟩
  · obtain ⟨b, hb, h1, -⟩ := asn1Decode_ok (Asn1Data.valid_bytes data) h
    unfold Message.deserialize at h1
    obtain ⟨⟨v, d1⟩, h2, h1⟩ := bind_ok h1
    simp only at h1
    split at h1
    · cases h1
    obtain ⟨⟨c, d2⟩, h3, h1⟩ := bind_ok h1
    obtain ⟨p, h4, h1⟩ := bind_ok h1
    injection h1 with h1
    subst h1
    have v2 := decodeOctets_tail (decodeVersion_tail hb h2) h3
    obtain ⟨k1, k2⟩ := decodePdu_printable v2 h4
    refine ⟨k1, ?_⟩
    unfold Message.toString
    simpa using k2 (depth + 1) tab
  · unfold V3Message.decode at h
    obtain ⟨⟨m', tail⟩, h0, h'⟩ := bind_ok h
    injection h' with h'
    subst h'
    obtain ⟨b, hb, h1, -⟩ := asn1Decode_ok (Asn1Data.valid_bytes data) h0
    unfold V3Message.deserialize at h1
    obtain ⟨⟨v, d1⟩, h2, h1⟩ := bind_ok h1
    simp only at h1
    split at h1
    · cases h1
    obtain ⟨⟨hd, d2⟩, h3, h1⟩ := bind_ok h1
    obtain ⟨⟨sp, d3⟩, h4, h1⟩ := bind_ok h1
    have v1 := decodeVersion_tail hb h2
    have v2 := asn1Decode_tail v1 h3
    have v3 := asn1Decode_tail v2 h4
    obtain ⟨b4, hb4, h5, -⟩ := asn1Decode_ok v2 h4
    have hsp : sp.Valid := by
      rw [octetStringConstruct_eq hb4] at h5
      split at h5
      · cases h5
      · injection h5 with h5
        subst h5
        exact hb4
    simp only at h1
    split at h1
    · rename_i hp
      obtain ⟨⟨e, d4⟩, h6, h1⟩ := bind_ok h1
      injection h1 with h1
      subst h1
      refine ⟨hsp, (by intro s hs; cases hs), ?_⟩
      unfold V3Message.toString V3Message.payloadStr
      simp [hp]
    · rename_i hp
      obtain ⟨⟨s, d4⟩, h6, h1⟩ := bind_ok h1
      injection h1 with h1
      subst h1
      obtain ⟨k1, k2⟩ := scoped_printable v3 h6
      refine ⟨hsp, ?_, ?_⟩
      · intro s' hs
        injection hs with hs
        subst hs
        exact k1
      · unfold V3Message.toString V3Message.payloadStr
        simpa [hp] using k2 (depth + 1) tab

/-- An SNMPv3 message, printed; and with an escaped newline in it. -/
theorem C119_example :
    let m : V3Message := { header := ⟨7, 65507, ⟨authNoPriv, true⟩, .usm⟩,
                           scopedPDU := some ⟨⟨.response, 1, 0, 0, [⟨[1, 3], .null⟩]⟩, [0x80, 10], []⟩,
                           securityParameters := .sub ⟨[48, 1, 2, 3], 1, 3⟩ }
    m.securityParameters.Valid ∧ (∀ s, m.scopedPDU = some s → ∀ v ∈ s.pdu.bindings, Buildable v) ∧
    m.toString 0 "\t".toList = some ("SNMPv3Message:\n\tHeaderData:\n\t\tMessage ID: 7\n" ++
      "\t\tSender Message Size Limit: 65507\n\t\tMessageFlags:\n\t\t\tSecurity Level: authNoPriv\n" ++
      "\t\t\tReportable: True\n\t\tSecurity Model: USM\n" ++
      "\tSecurity Parameters: OctetString(subbytes(b'0\\x01\\x02\\x03', start=1, stop=3))\n\tScopedPDU:\n" ++
      "\t\tContext Engine ID: b'\\x80\\n'\n\t\tContext Name: b''\n\t\tResponsePDU:\n\t\t\tRequest ID: 1\n" ++
      "\t\t\tError Status: noError\n\t\t\tError Index: 0\n\t\t\tVariable Bindings:\n\t\t\t\t1.3: NULL()").toList := by
  refine ⟨(by show Subbytes.WF _; decide), ?_, by decide +kernel⟩
  intro s hs
  injection hs with hs
  subst hs
  intro v hv
  rw [List.mem_singleton.1 hv]
  exact ⟨by decide +kernel, trivial⟩

/-! ## C120 -/

/-- The value of a call `subbytes(octets, start=n, stop=m)` in which the keyword arguments may be left out. -/
def Spec.subbytesCall : Expr → Option Subbytes
  | .call f args =>
    if f = "subbytes".toList then
      match args.eval with
      | some [(none, .bytes d)] => some (Subbytes.ofBytes d none none)
      | some [(none, .bytes d), (some k, .int n)] =>
        if k = "start".toList then some (Subbytes.ofBytes d (some n) none)
        else if k = "stop".toList then some (Subbytes.ofBytes d none (some n))
        else none
      | some [(none, .bytes d), (some k, .int n), (some l, .int m)] =>
        if k = "start".toList ∧ l = "stop".toList then some (Subbytes.ofBytes d (some n) (some m)) else none
      | _ => none
    else none
  | _ => none

/-- **C120**: the `repr` of a `subbytes` is an expression for the same slice of the same octets. -/
theorem C120 (s : Subbytes) (hs : s.WF) :
    ∃ e : Expr, lex .start s.repr = some e.toks ∧ Spec.subbytesCall e = some s := by
  refine ⟨_, (scans_subbytes s).lex_eq, ?_⟩
  obtain ⟨d, a, b⟩ := s
  obtain ⟨h1, h2⟩ := hs
  simp only at h1 h2 ⊢
  have ne : ¬ "stop".toList = "start".toList := by decide
  have n1 : ∀ n : Nat, ¬ ((n : Int) < 0) := fun n => by omega
  by_cases c1 : a = 0 <;> by_cases c2 : b < d.length <;>
    simp only [c1, c2, if_true, if_false, List.nil_append, List.cons_append, argsOf, Spec.subbytesCall, Args.eval,
      Expr.eval, Option.bind_some, Option.map_some, ne, and_self, Subbytes.ofBytes, Subbytes.view,
      Subbytes.whole, Subbytes.lowBound, Subbytes.highBound, Subbytes.translate, n1] <;>
    simp <;> omega

/-- All four forms of the text. -/
example : (⟨[97, 98, 99], 1, 2⟩ : Subbytes).WF ∧
    (⟨[97, 98, 99], 1, 2⟩ : Subbytes).repr = "subbytes(b'abc', start=1, stop=2)".toList ∧
    (⟨[97, 98, 99], 0, 2⟩ : Subbytes).repr = "subbytes(b'abc', stop=2)".toList ∧
    (⟨[97, 98, 99], 1, 3⟩ : Subbytes).repr = "subbytes(b'abc', start=1)".toList ∧
    (⟨[97, 98, 39], 0, 3⟩ : Subbytes).repr = "subbytes(b\"ab'\")".toList := by decide +kernel

end Snmp
