import Verif.Props.Repr
import Verif.MessageLemmas
/-!
# C106 for decoded objects, and C107: `str` tells objects apart
-/

namespace Snmp
open Spec

/-! ## What the decoders return can be constructed -/

theorem constructible_oid {o : List Nat} {d : Asn1Data} (h : Oid.deserialize d = .ok o) :
    (Value.oid o).Constructible := by
  have key : ∀ l : List Nat, Oid.construct (l.map Int.ofNat) = .ok o → (Value.oid o).Constructible := by
    intro l hl
    unfold Oid.construct translateErr at hl
    cases hn : Oid.new (l.map Int.ofNat) with
    | error e =>
      rw [hn] at hl
      simp only at hl
      split at hl <;> cases hl
    | ok o' =>
      rw [hn] at hl
      injection hl with hl
      subst hl
      have h' := ((Oid.new_ofNat_iff l o').1 hn)
      obtain ⟨h1, rfl⟩ := h'
      exact hn
  unfold Oid.deserialize at h
  split at h
  · cases h
  · simp only at h
    split at h
    · cases h
    · exact key _ h

theorem map_ok {α β : Type} {r : Res α} {f : α → β} {y : β} (h : r.map f = .ok y) : ∃ x, r = .ok x ∧ f x = y := by
  cases r with
  | error e => cases h
  | ok x => exact ⟨x, rfl, by injection h⟩

theorem constructible_value {t : SmiType} {d : Asn1Data} (hd : d.Valid) {v : Value}
    (h : t.deserialize d = .ok v) : v.Constructible := by
  cases t with
  | int t =>
    obtain ⟨x, h1, rfl⟩ := map_ok h
    unfold IntType.deserialize at h1
    rw [IntType.construct_eq] at h1
    split at h1
    · rename_i hr
      injection h1 with h1
      subst h1
      exact hr
    · cases h1
  | octetString =>
    obtain ⟨x, h1, rfl⟩ := map_ok h
    rw [octetStringConstruct_eq hd] at h1
    split at h1
    · cases h1
    · rename_i hr
      injection h1 with h1
      subst h1
      show d.copy.length ≤ 0xffff
      omega
  | ipAddress =>
    obtain ⟨x, h1, rfl⟩ := map_ok h
    unfold ipAddressConstruct at h1
    split at h1
    · rename_i hr
      injection h1 with h1
      subst h1
      exact hr
    · cases h1
  | oid =>
    obtain ⟨x, h1, rfl⟩ := map_ok h
    exact constructible_oid h1
  | _ => injection h with h; subst h; trivial

theorem buildable_varBind {d : Asn1Data} (hd : d.Valid) {v : VarBind} (h : VarBind.deserialize d = .ok v) :
    Buildable v := by
  unfold VarBind.deserialize at h
  obtain ⟨⟨name, tail⟩, h1, h⟩ := bind_ok h
  obtain ⟨b, -, h2, ht, -⟩ := asn1Decode_ok hd h1
  obtain ⟨⟨tag, body, rest⟩, h3, h⟩ := bind_ok h
  obtain ⟨hb, -⟩ := Ber.decode_ok (data := .sub tail) ht h3
  obtain ⟨t, -, h⟩ := bind_ok h
  obtain ⟨value, h4, h⟩ := bind_ok h
  injection h with h
  subst h
  exact ⟨constructible_oid h2, constructible_value hb h4⟩

theorem buildable_loop {s : Subbytes} (hs : s.WF) {l : List VarBind} (h : VarBindList.deserializeLoop s = .ok l) :
    ∀ v ∈ l, Buildable v := by
  fun_induction VarBindList.deserializeLoop s generalizing l with
  | case1 data _ e _ => cases h
  | case2 data _ var tail hd ih =>
    obtain ⟨l', h1, rfl⟩ := map_ok h
    obtain ⟨b, hb, h2, ht, -⟩ := asn1Decode_ok (data := .sub data) hs hd
    intro v hv
    rcases List.mem_cons.1 hv with rfl | hv
    · exact buildable_varBind hb h2
    · exact ih ht h1 v hv
  | case3 data _ =>
    injection h with h
    subst h
    intro v hv
    cases hv

theorem buildable_list {d : Asn1Data} (hd : d.Valid) {l : List VarBind} (h : VarBindList.deserialize d = .ok l) :
    ∀ v ∈ l, Buildable v := buildable_loop hd h

/-- What is decoded as a PDU can be built with the constructors. -/
theorem buildable_pdu {t : PduType} {d : Asn1Data} (hd : d.Valid) {leftovers copy : Bool} {p : Pdu} {tail : Subbytes}
    (h : t.decode d leftovers copy = .ok (p, tail)) :
    (∀ v ∈ p.bindings, Buildable v) ∧ p.type = t ∧ (t ≠ .getBulkRequest → isErrorStatus p.first = true) := by
  obtain ⟨b, hb, h1, -⟩ := asn1Decode_ok hd h
  unfold PduType.deserialize at h1
  obtain ⟨⟨a1, d1⟩, h2, h1⟩ := bind_ok h1
  obtain ⟨⟨a2, d2⟩, h3, h1⟩ := bind_ok h1
  obtain ⟨⟨a3, d3⟩, h4, h1⟩ := bind_ok h1
  obtain ⟨⟨l, d4⟩, h5, h1⟩ := bind_ok h1
  have v1 := asn1Decode_tail hb h2
  have v2 := asn1Decode_tail v1 h3
  have v3 := asn1Decode_tail v2 h4
  obtain ⟨b', hb', h6, -⟩ := asn1Decode_ok v3 h5
  have hl := buildable_list hb' h6
  simp only at h1
  split at h1
  · rename_i hbulk
    split at h1
    · cases h1
    split at h1
    · cases h1
    injection h1 with h1
    subst h1
    refine ⟨hl, rfl, ?_⟩
    intro hne
    cases t <;> simp_all [PduType.isBulk]
  · split at h1
    · cases h1
    split at h1
    · cases h1
    rename_i hs _
    injection h1 with h1
    subst h1
    exact ⟨hl, rfl, fun _ => by simpa using hs⟩

/-- **C106**: what was decoded is written in such a way that `eval` gives it back. -/
theorem C106_decoded (t : PduType) (data : Bytes) (leftovers copy : Bool) (p : Pdu) (tail : Subbytes)
    (h : t.decode (.bytes data) leftovers copy = .ok (p, tail)) : Evaluates p.repr (.pdu p) :=
  C106_constructed.2.2 p (buildable_pdu (Asn1Data.valid_bytes data) h).1

/-! ## `str` -/

theorem sep_inj {c : Char} {a a' r r' : Text} (ha : c ∉ a) (ha' : c ∉ a') (h : a ++ c :: r = a' ++ c :: r') :
    a = a' ∧ r = r' := by
  induction a generalizing a' with
  | nil =>
    cases a' with
    | nil => simpa using h
    | cons x a' =>
      simp only [List.nil_append, List.cons_append, List.cons.injEq] at h
      exact absurd (h.1 ▸ List.mem_cons_self ..) ha'
  | cons x a ih =>
    cases a' with
    | nil =>
      simp only [List.nil_append, List.cons_append, List.cons.injEq] at h
      exact absurd (h.1 ▸ List.mem_cons_self ..) ha
    | cons y a' =>
      simp only [List.cons_append, List.cons.injEq] at h
      obtain ⟨rfl, h⟩ := h
      obtain ⟨rfl, h'⟩ := ih (fun hx => ha (List.mem_cons_of_mem _ hx)) (fun hx => ha' (List.mem_cons_of_mem _ hx)) h
      exact ⟨rfl, h'⟩

theorem decimal_inj {m n : Nat} (h : decimal m = decimal n) : m = n := by
  have h1 := pyInt_decimal m
  rw [h, pyInt_decimal n] at h1
  have := Option.some.inj h1
  omega

theorem map_decimal_inj {o o' : List Nat} (h : o.map decimal = o'.map decimal) : o = o' :=
  List.map_inj_right (fun _ _ => decimal_inj) |>.1 h

theorem oidStr_inj {o o' : List Nat} (h : Oid.str o = Oid.str o') : o = o' := by
  have key : ∀ o : List Nat, o ≠ [] → splitDot (Oid.str o) = o.map decimal := by
    intro o ho
    refine splitDot_join _ (by simpa using ho) ?_
    intro w hw
    obtain ⟨m, -, rfl⟩ := List.mem_map.1 hw
    exact decimal_noDot m
  have nil : ∀ o : List Nat, Oid.str o = [] → o = [] := by
    intro o h
    by_contra hne
    have h1 := key o hne
    rw [h] at h1
    cases o with
    | nil => exact hne rfl
    | cons n o =>
      simp only [splitDot, List.map_cons, List.cons.injEq] at h1
      exact decimal_ne_nil n h1.1.symm
  by_cases h1 : o = []
  · subst h1
    exact (nil o' (by rw [← h]; rfl)).symm
  by_cases h2 : o' = []
  · subst h2
    exact nil o (by rw [h]; rfl)
  · apply map_decimal_inj
    rw [← key o h1, ← key o' h2, h]

theorem oidStr_chars (o : List Nat) : ∀ c ∈ Oid.str o, c.isDigit = true ∨ c = '.' := by
  refine joinDot_chars _ (fun c => c.isDigit = true ∨ c = '.') (.inr rfl) ?_
  intro w hw c hc
  obtain ⟨m, -, rfl⟩ := List.mem_map.1 hw
  exact .inl (decimal_chars m c hc)

theorem decimalInt_chars (v : Int) : ∀ c ∈ decimalInt v, c.isDigit = true ∨ c = '-' := by
  unfold decimalInt
  intro c hc
  split at hc
  · rcases List.mem_cons.1 hc with rfl | hc
    · exact .inr rfl
    · exact .inl (decimal_chars _ c hc)
  · exact .inl (decimal_chars _ c hc)

theorem decimalInt_inj {m n : Int} (h : decimalInt m = decimalInt n) : m = n := by
  have hneg : ∀ k : Nat, ∀ t : Text, decimal k ≠ '-' :: t := by
    intro k t hk
    have := decimal_chars k '-' (by rw [hk]; exact List.mem_cons_self ..)
    exact absurd this (by decide)
  unfold decimalInt at h
  split at h <;> split at h
  · have := decimal_inj (List.cons.inj h).2
    omega
  · exact absurd h.symm (hneg _ _)
  · exact absurd h (hneg _ _)
  · have := decimal_inj h
    omega

theorem joinComma_noNewline (l : List Text) (h : ∀ w ∈ l, '\n' ∉ w) : '\n' ∉ joinComma l := by
  induction l with
  | nil => simp [joinComma]
  | cons w l ih =>
    have ih := ih fun x hx => h x (List.mem_cons_of_mem _ hx)
    have hw := h w (List.mem_cons_self ..)
    cases l with
    | nil => exact hw
    | cons v l =>
      show '\n' ∉ w ++ ',' :: ' ' :: joinComma (v :: l)
      simp only [List.mem_append, List.mem_cons, not_or]
      exact ⟨hw, by decide, by decide, ih⟩

theorem byteRepr_noNewline (q : Char) (hq : q = '\'' ∨ q = '"') (b : UInt8) : '\n' ∉ byteRepr q b := by
  have key : ∀ n : Fin 256, '\n' ∉ byteRepr '\'' (UInt8.ofNat n) ∧ '\n' ∉ byteRepr '"' (UInt8.ofNat n) := by
    decide +kernel
  have hb : b = UInt8.ofNat b.toNat := by simp
  have := key ⟨b.toNat, b.toNat_lt⟩
  simp only [← hb] at this
  rcases hq with rfl | rfl
  · exact this.1
  · exact this.2

theorem bytesRepr_noNewline (d : Bytes) : '\n' ∉ bytesRepr d := by
  have key : ∀ q : Char, (q = '\'' ∨ q = '"') → '\n' ∉ 'b' :: q :: d.flatMap (byteRepr q) ++ [q] := by
    intro q hq h
    have hne : '\n' ≠ q := by rcases hq with rfl | rfl <;> decide
    simp only [List.cons_append, List.mem_cons, List.mem_append, List.mem_flatMap, List.not_mem_nil, or_false] at h
    rcases h with h | h | ⟨b, -, h⟩ | h
    · exact absurd h (by decide)
    · exact hne h
    · exact byteRepr_noNewline q hq b h
    · exact hne h
  unfold bytesRepr
  simp only
  split
  · exact key _ (.inr rfl)
  · exact key _ (.inl rfl)

theorem name_chars (t : SmiType) : '\n' ∉ t.name := by
  cases t with
  | int t => cases t <;> decide
  | _ => decide

theorem repr_noNewline (v : Value) : '\n' ∉ v.repr := by
  have hargs : '\n' ∉ v.reprArgs := by
    cases v with
    | int t n =>
      intro h
      rcases decimalInt_chars n _ h with h | h <;> exact absurd h (by decide)
    | octets d => exact bytesRepr_noNewline d
    | opaqueData d => exact bytesRepr_noNewline d
    | ipAddress d =>
      intro h
      have h : '\n' ∈ '\'' :: inetNtoa d ++ ['\''] := h
      simp only [List.cons_append, List.mem_cons, List.mem_append, List.not_mem_nil, or_false] at h
      rcases h with h | h | h
      · exact absurd h (by decide)
      · have := joinDot_chars _ (fun c => c.isDigit = true ∨ c = '.') (.inr rfl) (by
          intro w hw c hc
          obtain ⟨m, -, rfl⟩ := List.mem_map.1 hw
          exact .inl (decimal_chars _ c hc)) _ h
        exact absurd this (by decide)
      · exact absurd h (by decide)
    | oid o =>
      refine joinComma_noNewline _ ?_
      intro w hw h
      obtain ⟨m, -, rfl⟩ := List.mem_map.1 hw
      exact absurd (decimal_chars m _ h) (by decide)
    | _ => exact List.not_mem_nil
  unfold Value.repr
  intro h
  simp only [List.mem_append, List.mem_cons, List.not_mem_nil, or_false] at h
  rcases h with (h | h | h) | h
  · exact name_chars _ h
  · exact absurd h (by decide)
  · exact hargs h
  · exact absurd h (by decide)

theorem valueStr_noNewline (v : Value) : '\n' ∉ v.str := by
  cases v with
  | oid o =>
    intro h
    rcases oidStr_chars o _ h with h | h <;> exact absurd h (by decide)
  | _ => exact repr_noNewline _

theorem repr_inj {v w : Value} (hv : v.Constructible) (hw : w.Constructible) (h : v.repr = w.repr) : v = w := by
  have h1 := C106_value v hv
  have h2 := C106_value w hw
  rw [h] at h1
  have := C106_unambiguous _ _ _ h1 h2
  injection this

theorem repr_ne_oidStr (v : Value) (o : List Nat) : v.repr ≠ Oid.str o := by
  intro h
  have : '(' ∈ Oid.str o := by
    rw [← h]
    unfold Value.repr
    simp
  rcases oidStr_chars o _ this with h | h <;> exact absurd h (by decide)

theorem valueStr_inj {v w : Value} (hv : v.Constructible) (hw : w.Constructible) (h : v.str = w.str) : v = w := by
  have notOid : ∀ v : Value, (∃ o, v = .oid o) ∨ v.str = v.repr := by
    intro v
    cases v with
    | oid o => exact .inl ⟨o, rfl⟩
    | _ => exact .inr rfl
  rcases notOid v with ⟨o, rfl⟩ | h1
  · rcases notOid w with ⟨o', rfl⟩ | h2
    · rw [oidStr_inj h]
    · rw [h2] at h
      exact absurd h.symm (repr_ne_oidStr w o)
  · rcases notOid w with ⟨o', rfl⟩ | h2
    · rw [h1] at h
      exact absurd h (repr_ne_oidStr v o')
    · rw [h1, h2] at h
      exact repr_inj hv hw h

theorem varBindStr_inj {v w : VarBind} (hv : Buildable v) (hw : Buildable w) (h : v.str = w.str) : v = w := by
  have hc : ∀ o : List Nat, ':' ∉ Oid.str o := by
    intro o h
    rcases oidStr_chars o _ h with h | h <;> exact absurd h (by decide)
  obtain ⟨h1, h2⟩ := sep_inj (hc _) (hc _) h
  have h1 := oidStr_inj h1
  have h2 := valueStr_inj hv.2 hw.2 (List.cons.inj h2).2
  cases v
  cases w
  cases h1
  cases h2
  rfl

theorem varBindStr_noNewline (v : VarBind) : '\n' ∉ v.str := by
  unfold VarBind.str
  intro h
  simp only [List.mem_append, List.mem_cons] at h
  rcases h with h | h | h | h
  · rcases oidStr_chars _ _ h with h | h <;> exact absurd h (by decide)
  · exact absurd h (by decide)
  · exact absurd h (by decide)
  · exact valueStr_noNewline _ h

theorem joinLines_inj {l l' : List Text} (h1 : ∀ w ∈ l, '\n' ∉ w ∧ w ≠ []) (h2 : ∀ w ∈ l', '\n' ∉ w ∧ w ≠ [])
    (h : joinLines l = joinLines l') : l = l' := by
  have ne : ∀ (w : Text) (l : List Text), w ≠ [] → joinLines (w :: l) ≠ [] := by
    intro w l hw
    cases l with
    | nil => exact hw
    | cons v l => simp [joinLines]
  induction l generalizing l' with
  | nil =>
    cases l' with
    | nil => rfl
    | cons w l' => exact absurd h.symm (ne w l' (h2 w (List.mem_cons_self ..)).2)
  | cons w l ih =>
    cases l' with
    | nil => exact absurd h (ne w l (h1 w (List.mem_cons_self ..)).2)
    | cons w' l' =>
      have hw := (h1 w (List.mem_cons_self ..)).1
      have hw' := (h2 w' (List.mem_cons_self ..)).1
      have t1 : ∀ x ∈ l, '\n' ∉ x ∧ x ≠ [] := fun x hx => h1 x (List.mem_cons_of_mem _ hx)
      have t2 : ∀ x ∈ l', '\n' ∉ x ∧ x ≠ [] := fun x hx => h2 x (List.mem_cons_of_mem _ hx)
      cases l with
      | nil =>
        cases l' with
        | nil => exact congrArg (fun t => [t]) h
        | cons v' l' =>
          have h : w = w' ++ '\n' :: joinLines (v' :: l') := h
          exact absurd (by rw [h]; simp) hw
      | cons v l =>
        cases l' with
        | nil =>
          have h : w ++ '\n' :: joinLines (v :: l) = w' := h
          exact absurd (by rw [← h]; simp) hw'
        | cons v' l' =>
          obtain ⟨rfl, h'⟩ := sep_inj hw hw' h
          rw [ih t1 t2 h']

theorem listStr_inj {l m : List VarBind} {indent : Text} (hi : '\n' ∉ indent) (hl : ∀ v ∈ l, Buildable v)
    (hm : ∀ v ∈ m, Buildable v) (h : VarBindList.str l indent = VarBindList.str m indent) : l = m := by
  have ok : ∀ l : List VarBind, ∀ w ∈ l.map (fun v => indent ++ v.str), '\n' ∉ w ∧ w ≠ [] := by
    intro l w hw
    obtain ⟨v, -, rfl⟩ := List.mem_map.1 hw
    refine ⟨?_, by simp [VarBind.str]⟩
    intro h
    rcases List.mem_append.1 h with h | h
    · exact hi h
    · exact varBindStr_noNewline v h
  have h' := joinLines_inj (ok l) (ok m) h
  clear ok h
  induction l generalizing m with
  | nil =>
    cases m with
    | nil => rfl
    | cons w m => cases h'
  | cons v l ih =>
    cases m with
    | nil => cases h'
    | cons w m =>
      obtain ⟨h1, h2⟩ := List.cons.inj h'
      rw [varBindStr_inj (hl v (List.mem_cons_self ..)) (hm w (List.mem_cons_self ..)) (List.append_cancel_left h1),
        ih (fun x hx => hl x (List.mem_cons_of_mem _ hx)) (fun x hx => hm x (List.mem_cons_of_mem _ hx)) h2]

/-! ### PDUs -/

/-- The third and fourth line. -/
def Middle (p : Pdu) (a b : Text) : Prop :=
  (p.type = .getBulkRequest ∧ a = "    Non-Repeaters: ".toList ++ decimalInt p.first ∧
    b = "    Max Repetitions: ".toList ++ decimalInt p.second) ∨
  (p.type ≠ .getBulkRequest ∧ 0 ≤ p.first ∧ ∃ name, errorNames[p.first.toNat]? = some name ∧
    a = "    Error Status: ".toList ++ name ∧ b = "    Error Index: ".toList ++ decimalInt p.second)

theorem pduStr_form {p : Pdu} {t : Text} (h : p.str = some t) :
    ∃ a b : Text, Middle p a b ∧ t = (p.type.name ++ [':']) ++ '\n' ::
      (("    Request ID: ".toList ++ decimalInt p.requestID) ++ '\n' :: (a ++ '\n' :: (b ++ '\n' ::
        ("    Variable Bindings:".toList ++ '\n' :: VarBindList.str p.bindings "        ".toList)))) := by
  unfold Pdu.str at h
  simp only at h
  split at h
  · rename_i hb
    injection h with h
    subst h
    exact ⟨_, _, .inl ⟨hb, rfl, rfl⟩, rfl⟩
  · rename_i hb
    split at h
    · cases h
    · rename_i h0
      cases hn : errorNames[p.first.toNat]? with
      | none => rw [hn] at h; cases h
      | some name =>
        rw [hn] at h
        injection h with h
        subst h
        exact ⟨_, _, .inr ⟨hb, by omega, name, hn, rfl, rfl⟩, rfl⟩

theorem int_line {label : Text} (hl : '\n' ∉ label) (v : Int) : '\n' ∉ label ++ decimalInt v := by
  intro h
  rcases List.mem_append.1 h with h | h
  · exact hl h
  · rcases decimalInt_chars v _ h with h | h <;> exact absurd h (by decide)

theorem errorNames_lines : ∀ name ∈ errorNames, '\n' ∉ name := by decide

theorem Middle.lines {p : Pdu} {a b : Text} (h : Middle p a b) : '\n' ∉ a ∧ '\n' ∉ b := by
  rcases h with ⟨-, rfl, rfl⟩ | ⟨-, -, name, hn, rfl, rfl⟩
  · exact ⟨int_line (by decide) _, int_line (by decide) _⟩
  · refine ⟨?_, int_line (by decide) _⟩
    intro h
    rcases List.mem_append.1 h with h | h
    · exact absurd h (by decide)
    · exact errorNames_lines name (List.mem_of_getElem? hn) h

theorem Middle.inj {p q : Pdu} (ht : p.type = q.type) {a b : Text} (hp : Middle p a b) (hq : Middle q a b) :
    p.first = q.first ∧ p.second = q.second := by
  rcases hp with ⟨h1, rfl, rfl⟩ | ⟨h1, h2, name, hn, rfl, rfl⟩
  · rcases hq with ⟨-, h3, h4⟩ | ⟨h3, -⟩
    · exact ⟨decimalInt_inj (List.append_cancel_left h3), decimalInt_inj (List.append_cancel_left h4)⟩
    · exact absurd (ht ▸ h1) h3
  · rcases hq with ⟨h3, -⟩ | ⟨-, h4, name', hn', h5, h6⟩
    · exact absurd (ht.trans h3) h1
    · have h5 := List.append_cancel_left h5
      subst h5
      refine ⟨?_, decimalInt_inj (List.append_cancel_left h6)⟩
      have hd : errorNames.Nodup := by decide
      have hlt := (List.getElem?_eq_some_iff.1 hn).1
      have := (List.getElem?_inj hlt hd).1 (hn.trans hn'.symm)
      omega

theorem pduName_inj : ∀ t u : PduType, t.name = u.name → t = u := by
  intro t u
  cases t <;> cases u <;> decide

theorem pduName_lines (t : PduType) : '\n' ∉ t.name ++ [':'] := by
  cases t <;> decide

theorem pduStr_inj {p q : Pdu} (hp : ∀ v ∈ p.bindings, Buildable v) (hq : ∀ v ∈ q.bindings, Buildable v) {t : Text}
    (h1 : p.str = some t) (h2 : q.str = some t) : p = q := by
  obtain ⟨a, b, hm, rfl⟩ := pduStr_form h1
  obtain ⟨a', b', hm', h⟩ := pduStr_form h2
  obtain ⟨k1, h⟩ := sep_inj (pduName_lines _) (pduName_lines _) h
  obtain ⟨k2, h⟩ := sep_inj (int_line (by decide) _) (int_line (by decide) _) h
  obtain ⟨k3, h⟩ := sep_inj hm.lines.1 hm'.lines.1 h
  obtain ⟨k4, h⟩ := sep_inj hm.lines.2 hm'.lines.2 h
  have e4 := listStr_inj (by decide) hp hq (List.cons.inj (List.append_cancel_left h)).2
  have e1 := pduName_inj _ _ (List.append_cancel_right k1)
  have e2 := decimalInt_inj (List.append_cancel_left k2)
  subst k3 k4
  have e3 := hm.inj e1 hm'
  cases p
  cases q
  simp only at e1 e2 e3 e4
  obtain ⟨e3, e5⟩ := e3
  subst e1 e2 e3 e4 e5
  rfl

/-- **C107**: `str` tells apart any two values, bindings or lists of bindings (however indented) that the
constructors accept. -/
theorem C107_distinct :
    (∀ v w : Value, v.Constructible → w.Constructible → v.str = w.str → v = w) ∧
    (∀ v w : VarBind, Buildable v → Buildable w → v.str = w.str → v = w) ∧
    (∀ (l m : List VarBind) (indent : Text), '\n' ∉ indent → (∀ v ∈ l, Buildable v) → (∀ v ∈ m, Buildable v) →
      VarBindList.str l indent = VarBindList.str m indent → l = m) :=
  ⟨fun _ _ => valueStr_inj, fun _ _ => varBindStr_inj, fun _ _ _ => listStr_inj⟩

/-- **C107**: and any two PDUs that it can print. -/
theorem C107_pdu (p q : Pdu) (hp : ∀ v ∈ p.bindings, Buildable v) (hq : ∀ v ∈ q.bindings, Buildable v) (t : Text)
    (h1 : p.str = some t) (h2 : q.str = some t) : p = q := pduStr_inj hp hq h1 h2

/-- **C107**: it prints each binding on a line of its own. -/
theorem C107_lines (l : List VarBind) (indent : Text) (hi : '\n' ∉ indent) :
    (VarBindList.str l indent).count '\n' = l.length - 1 := by
  have key : ∀ l : List Text, (∀ w ∈ l, '\n' ∉ w) → (joinLines l).count '\n' = l.length - 1 := by
    intro l hl
    induction l with
    | nil => rfl
    | cons w l ih =>
      have hw := List.count_eq_zero.2 (hl w (List.mem_cons_self ..))
      cases l with
      | nil => exact hw
      | cons v l =>
        have ih := ih fun x hx => hl x (List.mem_cons_of_mem _ hx)
        show (w ++ '\n' :: joinLines (v :: l)).count '\n' = _
        rw [List.count_append, hw, List.count_cons_self, ih]
        simp
  unfold VarBindList.str
  rw [key]
  · simp
  · intro w hw
    obtain ⟨v, -, rfl⟩ := List.mem_map.1 hw
    intro h
    rcases List.mem_append.1 h with h | h
    · exact hi h
    · exact varBindStr_noNewline v h

/-- **C107**: `str` fails for exactly the PDUs whose error status is no `ErrorStatus`. -/
theorem C107_total (p : Pdu) : p.str ≠ none ↔ p.type = .getBulkRequest ∨ isErrorStatus p.first = true := by
  have hlen : errorNames.length = 19 := rfl
  unfold Pdu.str isErrorStatus
  simp only
  split
  · rename_i h; simp [h]
  · rename_i h
    split
    · rename_i h0
      simp [h]
      omega
    · rename_i h0
      simp only [ne_eq, Option.map_eq_none_iff, List.getElem?_eq_none_iff, h, false_or, hlen, Bool.and_eq_true,
        decide_eq_true_eq]
      omega

/-- **C107**: in particular it succeeds on every PDU that was received. -/
theorem C107_decoded (t : PduType) (data : Bytes) (leftovers copy : Bool) (p : Pdu) (tail : Subbytes)
    (h : t.decode (.bytes data) leftovers copy = .ok (p, tail)) : p.str ≠ none := by
  obtain ⟨-, h1, h2⟩ := buildable_pdu (Asn1Data.valid_bytes data) h
  rw [C107_total, h1]
  by_cases hb : t = .getBulkRequest
  · exact .inl hb
  · exact .inr (h2 hb)

/-- Two PDUs that differ only in the type of a value; and one that cannot be printed. -/
example :
    let p : Pdu := ⟨.response, 7, 2, 1, [⟨[1, 3, 6, 1], .octets [0x61, 0x0a]⟩, ⟨[1, 3], .oid [1, 3, 6]⟩]⟩
    (∀ v ∈ p.bindings, Buildable v) ∧
    p.str = some ("ResponsePDU:\n    Request ID: 7\n    Error Status: noSuchName\n    Error Index: 1\n" ++
      "    Variable Bindings:\n        1.3.6.1: OctetString(b'a\\n')\n        1.3: 1.3.6").toList ∧
    ({ p with first := 19 } : Pdu).str = none := by
  refine ⟨?_, by decide +kernel, by decide +kernel⟩
  intro v hv
  simp only [List.mem_cons, List.not_mem_nil, or_false] at hv
  rcases hv with rfl | rfl <;> exact ⟨by decide +kernel, by decide +kernel⟩

end Snmp
