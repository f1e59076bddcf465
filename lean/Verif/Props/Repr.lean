import Verif.Repr
import Verif.Spec.PyEval
import Verif.Props.Oid
/-!
# C106: `eval(repr(x))` gives `x` back
-/

namespace Snmp
open Spec

/-! ## Scanning -/

/-- What may follow a token. -/
def Delim (rest : Text) : Prop := rest = [] ∨ ∃ c cs, rest = c :: cs ∧ (c = '(' ∨ c = ')' ∨ c = ',' ∨ c = '=')

theorem delim_cons {c : Char} (h : c = '(' ∨ c = ')' ∨ c = ',' ∨ c = '=') (cs : Text) : Delim (c :: cs) :=
  .inr ⟨c, cs, rfl, h⟩

/-- The text `p` has the tokens `ts`, whatever follows. -/
def Scans (p : Text) (ts : List Tok) : Prop :=
  ∀ rest, Delim rest → lex .start (p ++ rest) = (lex .start rest).map (ts ++ ·)

theorem Scans.lex_eq {p : Text} {ts : List Tok} (h : Scans p ts) : lex .start p = some ts := by
  have := h [] (.inl rfl)
  simpa [lex, lexEnd] using this

/-- After a name or a number. -/
theorem lex_flush (st : Lex) (t : Tok)
    (hstep : ∀ c, c = '(' ∨ c = ')' ∨ c = ',' ∨ c = '=' →
      lexStep st c = (lexStart c).map fun x => (t :: x.1, x.2))
    (hend : lexEnd st = some [t]) {rest : Text} (hd : Delim rest) :
    lex st rest = (lex .start rest).map ([t] ++ ·) := by
  rcases hd with rfl | ⟨c, cs, rfl, hc⟩
  · rw [lex, hend]; simp [lex, lexEnd]
  · rw [lex, lex, hstep c hc]
    show _ = ((lexStart c).bind _).map _
    cases lexStart c with
    | none => rfl
    | some x =>
      obtain ⟨ts, st'⟩ := x
      simp only [Option.map_some, Option.bind_some]
      cases lex st' cs <;> simp

/-- A name, perhaps dotted. -/
def NameOk (s : Text) : Prop :=
  ∃ c cs, s = c :: cs ∧ c.isAlpha = true ∧ ∀ x ∈ cs, x.isAlphanum = true ∨ x = '.'

instance (s : Text) : Decidable (NameOk s) :=
  match s with
  | [] => isFalse (by rintro ⟨c, cs, h, -⟩; cases h)
  | c :: cs => decidable_of_iff (c.isAlpha = true ∧ ∀ x ∈ cs, x.isAlphanum = true ∨ x = '.')
      ⟨fun h => ⟨c, cs, rfl, h⟩, fun ⟨_, _, h, h'⟩ => by cases h; exact h'⟩

theorem lex_name_more (acc cs : Text) (h : ∀ x ∈ cs, x.isAlphanum = true ∨ x = '.') (rest : Text) :
    lex (.name acc) (cs ++ rest) = lex (.name (acc ++ cs)) rest := by
  induction cs generalizing acc with
  | nil => simp
  | cons c cs ih =>
    rw [List.cons_append, lex]
    have hc : c.isAlphanum = true ∨ c = '_' ∨ c = '.' := (h c (List.mem_cons_self ..)).elim .inl fun h => .inr (.inr h)
    simp only [lexStep, hc, ↓reduceIte, Option.bind_some, List.nil_append, Option.map_id']
    rw [ih _ fun x hx => h x (List.mem_cons_of_mem _ hx)]
    simp

theorem scans_name {s : Text} (h : NameOk s) : Scans s [.name s] := by
  obtain ⟨c, cs, rfl, hc, hcs⟩ := h
  intro rest hd
  have hstart : lexStart c = some ([], .name [c]) := by
    unfold lexStart
    have : ∀ x : Char, x.isAlpha = false → c ≠ x := by rintro x hx rfl; rw [hx] at hc; cases hc
    rw [if_neg (this ' ' (by decide)), if_neg (this '(' (by decide)), if_neg (this ')' (by decide)),
      if_neg (this ',' (by decide)), if_neg (this '=' (by decide)), if_neg (this '-' (by decide)), if_neg,
      if_pos (.inl hc)]
    rintro (h | h)
    · exact this '\'' (by decide) h
    · exact this '"' (by decide) h
  rw [List.cons_append, lex]
  simp only [lexStep, hstart, Option.bind_some, List.nil_append, Option.map_id']
  rw [lex_name_more _ _ hcs, List.singleton_append]
  refine lex_flush _ _ ?_ rfl hd
  rintro x hx
  have h1 : ¬(x.isAlphanum = true ∨ x = '_' ∨ x = '.') := by
    rcases hx with rfl | rfl | rfl | rfl <;> decide
  have h2 : ¬(x = '\'' ∨ x = '"') := by
    rcases hx with rfl | rfl | rfl | rfl <;> decide
  simp only [lexStep, if_neg h1, h2, and_false, ↓reduceIte]

theorem lexStart_digit {d : Nat} (h : d < 10) : lexStart (Char.ofNat ('0'.toNat + d)) = some ([], .num d) := by
  have : ∀ d : Nat, d < 10 → lexStart (Char.ofNat ('0'.toNat + d)) = some ([], .num d) := by decide
  exact this d h

theorem lex_decimal (n : Nat) (rest : Text) : lex .start (decimal n ++ rest) = lex (.num n) rest := by
  induction n using Nat.strongRecOn generalizing rest with
  | ind n ih =>
    unfold decimal
    split
    · rename_i h
      rw [List.singleton_append, lex]
      simp only [lexStep, lexStart_digit h, Option.bind_some, List.nil_append, Option.map_id']
    · rename_i h
      rw [List.append_assoc, ih (n / 10) (by omega), List.singleton_append, lex]
      have hd : digitValue (Char.ofNat ('0'.toNat + n % 10)) = some (n % 10) :=
        (digitChar_facts (show n % 10 < 10 by omega)).1
      simp only [lexStep, hd]
      rw [if_neg (show n / 10 ≠ 0 by omega)]
      simp only [Option.bind_some, List.nil_append, Option.map_id']
      rw [show n / 10 * 10 + n % 10 = n by omega]

theorem scans_decimal (n : Nat) : Scans (decimal n) [.num n] := by
  intro rest hd
  rw [lex_decimal]
  refine lex_flush _ _ ?_ rfl hd
  rintro c (rfl | rfl | rfl | rfl) <;> rfl

theorem scans_int (v : Int) : Scans (decimalInt v) (Expr.int v).toks := by
  unfold decimalInt Expr.toks
  split
  · intro rest hd
    rw [List.cons_append, lex]
    simp only [lexStep, show lexStart '-' = some ([.minus], .start) from rfl, Option.bind_some]
    rw [scans_decimal _ rest hd]
    cases lex .start rest <;> simp
  · exact scans_decimal _

/-! ### Literals -/

/-- Characters of a literal, none of which ends it. -/
def litRun (isBytes : Bool) (q : Char) : Phase → Text → Option (List Nat × Phase)
  | ph, [] => some ([], ph)
  | ph, c :: cs =>
    match litStep isBytes q ph c with
    | some (.go out ph) => (litRun isBytes q ph cs).map fun x => (out ++ x.1, x.2)
    | _ => none

theorem lex_litRun {isBytes : Bool} {q : Char} {ph ph' : Phase} {p : Text} {out : List Nat}
    (h : litRun isBytes q ph p = some (out, ph')) (acc : List Nat) (rest : Text) :
    lex (.lit isBytes q ph acc) (p ++ rest) = lex (.lit isBytes q ph' (acc ++ out)) rest := by
  induction p generalizing ph acc out with
  | nil => simp [litRun] at h; simp [h.1, h.2]
  | cons c p ih =>
    unfold litRun at h
    split at h
    · rename_i out1 ph1 hs
      cases hr : litRun isBytes q ph1 p with
      | none => rw [hr] at h; cases h
      | some x =>
        obtain ⟨out2, ph2⟩ := x
        rw [hr] at h
        simp only [Option.map_some, Option.some.injEq, Prod.mk.injEq] at h
        obtain ⟨rfl, rfl⟩ := h
        rw [List.cons_append, lex]
        simp only [lexStep, hs, Option.map_some, Option.bind_some, List.nil_append, Option.map_id']
        rw [ih hr, List.append_assoc]
    · cases h

theorem litRun_byte (b : UInt8) (q : Char) (hq : q = '\'' ∨ q = '"') :
    litRun true q .plain (byteRepr q b) = some ([b.toNat], .plain) := by
  have key : ∀ n : Fin 256, litRun true '\'' .plain (byteRepr '\'' (UInt8.ofNat n)) = some ([n.val], .plain) ∧
      litRun true '"' .plain (byteRepr '"' (UInt8.ofNat n)) = some ([n.val], .plain) := by
    decide +kernel
  have hb : b = UInt8.ofNat b.toNat := by simp
  have := key ⟨b.toNat, b.toNat_lt⟩
  simp only [← hb] at this
  rcases hq with rfl | rfl
  · exact this.1
  · exact this.2

theorem lex_bytes (q : Char) (hq : q = '\'' ∨ q = '"') (d : Bytes) (acc : List Nat) (rest : Text) :
    lex (.lit true q .plain acc) (d.flatMap (byteRepr q) ++ rest) =
      lex (.lit true q .plain (acc ++ d.map UInt8.toNat)) rest := by
  induction d generalizing acc with
  | nil => simp
  | cons b d ih =>
    rw [List.flatMap_cons, List.append_assoc, lex_litRun (litRun_byte b q hq), ih]
    simp

theorem scans_bytes (d : Bytes) : Scans (bytesRepr d) [.bytes d] := by
  intro rest _
  unfold bytesRepr
  have hq : ∀ q : Char, q = '\'' ∨ q = '"' →
      lex .start (('b' :: q :: d.flatMap (byteRepr q) ++ [q]) ++ rest) =
        (lex .start rest).map ([.bytes d] ++ ·) := by
    intro q hq
    rw [List.append_assoc, List.cons_append, List.cons_append, lex]
    have h1 : lexStep .start 'b' = some ([], .name ['b']) := by decide
    have h2 : lexStep (.name ['b']) q = some ([], .lit true q .plain []) := by
      rcases hq with rfl | rfl <;> decide
    have h3 : litStep true q .plain q = some .close := by simp [litStep]
    simp only [h1, Option.bind_some, List.nil_append, Option.map_id']
    rw [lex]
    simp only [h2, Option.bind_some, List.nil_append, Option.map_id']
    rw [lex_bytes q hq, List.singleton_append, lex]
    simp only [lexStep, h3, Option.map_some, Option.bind_some, ↓reduceIte, List.nil_append, List.map_map]
    have : List.map (UInt8.ofNat ∘ UInt8.toNat) d = d := by
      conv_rhs => rw [← List.map_id d]
      congr 1
      funext x
      simp
    rw [this]
  simp only
  split
  · exact hq _ (.inr rfl)
  · exact hq _ (.inl rfl)

theorem litRun_plain (s : Text) (h : ∀ c ∈ s, c ≠ '\'' ∧ c ≠ '\\' ∧ c ≠ '\n') :
    litRun false '\'' .plain s = some (s.map Char.toNat, .plain) := by
  induction s with
  | nil => rfl
  | cons c s ih =>
    obtain ⟨h1, h2, h3⟩ := h c (List.mem_cons_self ..)
    simp [litRun, litStep, h1, h2, h3, ih fun x hx => h x (List.mem_cons_of_mem _ hx)]

theorem scans_str (s : Text) (h : ∀ c ∈ s, c ≠ '\'' ∧ c ≠ '\\' ∧ c ≠ '\n') :
    Scans ('\'' :: s ++ ['\'']) [.str s] := by
  intro rest _
  rw [List.append_assoc, List.cons_append, lex]
  have h1 : lexStep .start '\'' = some ([], .lit false '\'' .plain []) := by decide
  have h3 : litStep false '\'' .plain '\'' = some .close := by decide
  simp only [h1, Option.bind_some, List.nil_append, Option.map_id']
  rw [lex_litRun (litRun_plain s h), List.singleton_append, lex]
  simp only [lexStep, h3, Option.map_some, Option.bind_some, Bool.false_eq_true, ↓reduceIte, List.nil_append,
    List.map_map]
  have : List.map (Char.ofNat ∘ Char.toNat) s = s := by
    conv_rhs => rw [← List.map_id s]
    congr 1
    funext x
    simp
  rw [this]

/-! ### Calls -/

theorem lex_punct {c : Char} {t : Tok} (h : lexStart c = some ([t], .start)) (rest : Text) :
    lex .start (c :: rest) = (lex .start rest).map (t :: ·) := by
  rw [lex]
  simp only [lexStep, h, Option.bind_some]
  rfl

theorem lex_space (rest : Text) : lex .start (' ' :: rest) = lex .start rest := by
  rw [lex]
  simp [lexStep, lexStart]

/-- Arguments in a list. -/
def argsOf : List (Option Text × Expr) → Args
  | [] => .nil
  | (k, e) :: rest => .cons k e (argsOf rest)

/-- A printed argument. -/
structure Arg where
  text : Text
  key : Option Text
  expr : Expr

/-- The texts of the arguments are scanned as they should. -/
def ArgsScan (l : List Arg) : Prop := ∀ a ∈ l, Scans a.text (keyToks a.key ++ a.expr.toks)

theorem scans_args (l : List Arg) (h : ArgsScan l) :
    Scans (joinComma (l.map (·.text))) (argsOf (l.map fun a => (a.key, a.expr))).toks := by
  induction l with
  | nil => intro rest _; simp [joinComma, argsOf, Args.toks]
  | cons a l ih =>
    have ha := h a (List.mem_cons_self ..)
    have ih := ih fun x hx => h x (List.mem_cons_of_mem _ hx)
    cases l with
    | nil => exact ha
    | cons b l =>
      intro rest hd
      have e1 : joinComma ((a :: b :: l).map (·.text)) =
          a.text ++ ',' :: ' ' :: joinComma ((b :: l).map (·.text)) := rfl
      rw [e1, List.append_assoc, List.cons_append, ha _ (delim_cons (.inr (.inr (.inl rfl))) _),
        lex_punct (t := .comma) rfl, List.cons_append, lex_space, ih rest hd]
      have e2 : (argsOf ((a :: b :: l).map fun a => (a.key, a.expr))).toks =
          keyToks a.key ++ a.expr.toks ++ .comma :: (argsOf ((b :: l).map fun a => (a.key, a.expr))).toks := rfl
      rw [e2]
      cases lex .start rest <;> simp

theorem scans_call {f : Text} (hf : NameOk f) {p : Text} {args : Args} (h : Scans p args.toks) :
    Scans (f ++ '(' :: p ++ [')']) (Expr.call f args).toks := by
  intro rest _
  rw [List.append_assoc, List.append_assoc, List.cons_append, scans_name hf _ (delim_cons (.inl rfl) _),
    lex_punct (t := .lpar) rfl, List.singleton_append, h _ (delim_cons (.inr (.inl rfl)) _),
    lex_punct (t := .rpar) rfl, Expr.toks]
  cases lex .start rest <;> simp

theorem scans_call_list {f : Text} (hf : NameOk f) (l : List Arg) (h : ArgsScan l) :
    Scans (f ++ '(' :: joinComma (l.map (·.text)) ++ [')'])
      (Expr.call f (argsOf (l.map fun a => (a.key, a.expr)))).toks :=
  scans_call hf (scans_args l h)

theorem scans_key {k : Text} (hk : NameOk k) {p : Text} {ts : List Tok} (h : Scans p ts) :
    Scans (k ++ '=' :: p) (keyToks (some k) ++ ts) := by
  intro rest hd
  rw [List.append_assoc, List.cons_append, scans_name hk _ (delim_cons (.inr (.inr (.inr rfl))) _),
    lex_punct (t := .eq) rfl, h rest hd, keyToks]
  cases lex .start rest <;> simp

/-! ## Evaluation -/

/-- The text is an expression with that value, whatever follows it. -/
def Denotes (p : Text) (x : Obj) : Prop := ∃ e : Expr, Scans p e.toks ∧ e.eval = some x

theorem Denotes.evaluates {p : Text} {x : Obj} (h : Denotes p x) : Evaluates p x := by
  obtain ⟨e, h1, h2⟩ := h
  exact ⟨e, h1.lex_eq, h2⟩

theorem argsOf_eval (l : List (Option Text × Expr)) (xs : List (Option Text × Obj))
    (h : List.Forall₂ (fun a x => a.1 = x.1 ∧ a.2.eval = some x.2) l xs) : (argsOf l).eval = some xs := by
  induction h with
  | nil => rfl
  | cons h _ ih =>
    rename_i a x l xs _
    obtain ⟨k, e⟩ := a
    obtain ⟨k', x⟩ := x
    simp only at h
    obtain ⟨rfl, h⟩ := h
    simp [argsOf, Args.eval, h, ih]

/-- A call with printed arguments: texts, keywords, values. -/
theorem denotes_call {f : Text} (hf : NameOk f) (l : List (Text × Option Text × Obj))
    (h : ∀ a ∈ l, ∃ e : Expr, Scans a.1 (keyToks a.2.1 ++ e.toks) ∧ e.eval = some a.2.2) {y : Obj}
    (hy : callValue f (l.map (·.2)) = some y) :
    Denotes (f ++ '(' :: joinComma (l.map (·.1)) ++ [')']) y := by
  have key : ∃ m : List Arg, m.map (·.text) = l.map (·.1) ∧ ArgsScan m ∧
      List.Forall₂ (fun a x => a.1 = x.1 ∧ a.2.eval = some x.2) (m.map fun a => (a.key, a.expr)) (l.map (·.2)) := by
    clear hy
    induction l with
    | nil => exact ⟨[], rfl, (by intro a ha; cases ha), .nil⟩
    | cons a l ih =>
      obtain ⟨e, h1, h2⟩ := h a (List.mem_cons_self ..)
      obtain ⟨m, k1, k2, k3⟩ := ih fun x hx => h x (List.mem_cons_of_mem _ hx)
      refine ⟨⟨a.1, a.2.1, e⟩ :: m, by simp [k1], ?_, .cons ⟨rfl, h2⟩ k3⟩
      intro b hb
      rcases List.mem_cons.1 hb with rfl | hb
      · exact h1
      · exact k2 b hb
  obtain ⟨m, k1, k2, k3⟩ := key
  refine ⟨.call f (argsOf (m.map fun a => (a.key, a.expr))), ?_, ?_⟩
  · rw [← k1]
    exact scans_call_list hf m k2
  · rw [Expr.eval, argsOf_eval _ _ k3]
    exact hy

theorem denotes_int (v : Int) : Denotes (decimalInt v) (.int v) := ⟨.int v, scans_int v, rfl⟩

theorem denotes_nat (n : Nat) : Denotes (decimal n) (.int n) := by
  refine ⟨.int n, ?_, rfl⟩
  have := scans_int n
  unfold decimalInt at this
  rwa [if_neg (by omega), Int.toNat_natCast] at this

theorem denotes_bytes (d : Bytes) : Denotes (bytesRepr d) (.bytes d) := ⟨.bytes d, scans_bytes d, rfl⟩

theorem Denotes.arg {p : Text} {x : Obj} (h : Denotes p x) :
    ∃ e : Expr, Scans p (keyToks none ++ e.toks) ∧ e.eval = some x := h

theorem Denotes.keyArg {p : Text} {x : Obj} (h : Denotes p x) {k : Text} (hk : NameOk k) :
    ∃ e : Expr, Scans (k ++ '=' :: p) (keyToks (some k) ++ e.toks) ∧ e.eval = some x := by
  obtain ⟨e, h1, h2⟩ := h
  exact ⟨e, scans_key hk h1, h2⟩

/-- A call with one positional argument. -/
theorem denotes_call1 {f : Text} (hf : NameOk f) {p : Text} {x y : Obj} (h : Denotes p x)
    (hy : callValue f [(none, x)] = some y) : Denotes (f ++ '(' :: p ++ [')']) y :=
  denotes_call hf [(p, none, x)] (by
    intro a ha
    obtain rfl : a = (p, none, x) := by simpa using ha
    exact h.arg) hy

theorem octet_decimal (b : UInt8) : octet (decimal b.toNat) = some b := by
  have h : scanDigits (decimal b.toNat) 0 false = some b.toNat := by
    have := scanDigits_append (decimal b.toNat) [] (decimal_digits _) (decimal_ne_nil _) 0 false
    rw [List.append_nil, decimal_value] at this
    rw [this]; rfl
  have hb : b.toNat < 256 := b.toNat_lt
  unfold octet
  rw [h]
  simp [hb]

theorem inetAton_ntoa {d : Bytes} (h : d.length = 4) : inetAton (inetNtoa d) = some d := by
  match d, h with
  | [a, b, c, e], _ =>
    unfold inetAton inetNtoa
    rw [splitDot_join _ (by simp) (by
      intro w hw c hc
      simp only [List.map_cons, List.map_nil, List.mem_cons, List.not_mem_nil, or_false] at hw
      rcases hw with rfl | rfl | rfl | rfl <;> exact decimal_noDot _ c hc)]
    simp [octet_decimal]

theorem joinDot_chars (ws : List Text) (P : Char → Prop) (hdot : P '.') (h : ∀ w ∈ ws, ∀ c ∈ w, P c) :
    ∀ c ∈ joinDot ws, P c := by
  induction ws with
  | nil => intro c hc; cases hc
  | cons w ws ih =>
    cases ws with
    | nil => exact h w (by simp)
    | cons v ws =>
      intro c hc
      have hc : c ∈ w ++ '.' :: joinDot (v :: ws) := hc
      rcases List.mem_append.1 hc with hc | hc
      · exact h w (by simp) c hc
      · rcases List.mem_cons.1 hc with rfl | hc
        · exact hdot
        · exact ih (fun x hx => h x (List.mem_cons_of_mem _ hx)) c hc

theorem decimal_chars (n : Nat) : ∀ c ∈ decimal n, c.isDigit = true := by
  intro c hc
  obtain ⟨d, hd, rfl⟩ := decimal_digits n c hc
  have : ∀ d : Nat, d < 10 → (Char.ofNat ('0'.toNat + d)).isDigit = true := by decide
  exact this d hd

theorem ints_eq (l : List Int) : ints (l.map fun n => (none, .int n)) = some l := by
  induction l with
  | nil => rfl
  | cons n l ih => simp [ints, ih]

theorem typeName_ok (t : SmiType) : NameOk t.name := by
  cases t with
  | int t => cases t <;> decide
  | _ => decide

theorem callValue_oid (args : List (Option Text × Obj)) :
    callValue (SmiType.name .oid) args = match ints args with
      | some l => match Oid.new l with
        | .ok o => some (.val (.oid o))
        | .error _ => none
      | none => none := by
  unfold callValue
  simp only [show intClass (SmiType.name .oid) = none from rfl,
    show emptyClass (SmiType.name .oid) = none from rfl, show pduClass (SmiType.name .oid) = none from rfl]
  rw [if_neg (by decide), if_neg (by decide), if_neg (by decide), if_pos (by decide)]
  cases ints args <;> rfl

theorem callValue_varBind (o : List Nat) (v : Value) :
    callValue "VarBind".toList [(none, .val (.oid o)), (none, .val v)] = some (.varBind ⟨o, v⟩) := by
  unfold callValue
  simp only [show intClass "VarBind".toList = none from rfl,
    show emptyClass "VarBind".toList = none from rfl, show pduClass "VarBind".toList = none from rfl]
  rw [if_neg (by decide), if_neg (by decide), if_neg (by decide), if_neg (by decide), if_pos trivial]

theorem callValue_list (args : List (Option Text × Obj)) :
    callValue "VarBindList".toList args = (varBinds args).map .varBindList := by
  unfold callValue
  simp only [show intClass "VarBindList".toList = none from rfl,
    show emptyClass "VarBindList".toList = none from rfl, show pduClass "VarBindList".toList = none from rfl]
  rw [if_neg (by decide), if_neg (by decide), if_neg (by decide), if_neg (by decide), if_neg (by decide),
    if_pos trivial]

theorem denotes_value (v : Value) (hv : v.Constructible) : Denotes v.repr (.val v) := by
  unfold Value.repr
  cases v with
  | int t n =>
    refine denotes_call1 (typeName_ok _) (denotes_int n) ?_
    have hn : t.new n = .ok n := by
      unfold IntType.new
      have hv' : t.inRange n = true := hv
      rw [if_pos hv']
    have : intClass (SmiType.name (Value.int t n).type) = some t := by cases t <;> rfl
    unfold callValue
    rw [this]
    simp only [hn]
  | octets d =>
    refine denotes_call1 (typeName_ok _) (denotes_bytes d) ?_
    have hd : d.length ≤ 0xffff := hv
    show (if d.length ≤ 0xffff then _ else _) = _
    rw [if_pos hd]
  | ipAddress d =>
    have hd : d.length = 4 := hv
    refine denotes_call1 (x := .str (inetNtoa d)) (typeName_ok _) ⟨.str (inetNtoa d), scans_str _ ?_, rfl⟩ ?_
    · refine joinDot_chars _ _ (by decide) ?_
      intro w hw c hc
      obtain ⟨b, -, rfl⟩ := List.mem_map.1 hw
      have := decimal_chars _ c hc
      refine ⟨?_, ?_, ?_⟩ <;> · rintro rfl; revert this; decide
    · show (inetAton (inetNtoa d)).map _ = _
      rw [inetAton_ntoa hd]
      rfl
  | opaqueData d => exact denotes_call1 (typeName_ok _) (denotes_bytes d) rfl
  | null => exact denotes_call (by decide) [] (by simp) rfl
  | noSuchObject => exact denotes_call (by decide) [] (by simp) rfl
  | noSuchInstance => exact denotes_call (by decide) [] (by simp) rfl
  | endOfMibView => exact denotes_call (by decide) [] (by simp) rfl
  | oid o =>
    have := denotes_call (f := SmiType.name .oid) (by decide)
      (o.map fun n => (decimal n, none, Obj.int n)) (y := .val (.oid o)) (by
        intro a ha
        obtain ⟨n, -, rfl⟩ := List.mem_map.1 ha
        exact (denotes_nat n).arg) (by
        have h1 : (o.map fun n => (decimal n, (none : Option Text), Obj.int n)).map (·.2) =
            (o.map Int.ofNat).map fun n => (none, Obj.int n) := by simp
        have ho : Oid.new (o.map Int.ofNat) = .ok o := hv
        rw [h1]
        rw [callValue_oid, ints_eq]
        simp only [ho])
    rw [List.map_map] at this
    exact this

/-- Objects that the constructors accept. -/
def Spec.Buildable (v : VarBind) : Prop := (Value.oid v.name).Constructible ∧ v.value.Constructible

theorem denotes_varBind (v : VarBind) (hv : Spec.Buildable v) : Denotes v.repr (.varBind v) := by
  have h1 := denotes_value _ hv.1
  have h2 := denotes_value _ hv.2
  have hc := callValue_varBind v.name v.value
  have hf : NameOk "VarBind".toList := by decide
  unfold VarBind.repr
  generalize (Value.oid v.name).repr = a at *
  generalize v.value.repr = b at *
  generalize "VarBind".toList = f at *
  have h3 := denotes_call hf [(a, none, .val (.oid v.name)), (b, none, .val v.value)] (by
    intro x hx
    simp only [List.mem_cons, List.not_mem_nil, or_false] at hx
    rcases hx with rfl | rfl
    · exact h1.arg
    · exact h2.arg) hc
  simp only [List.map_cons, List.map_nil, joinComma, List.append_assoc, List.cons_append] at h3
  simp only [List.append_assoc, List.cons_append]
  exact h3

theorem varBinds_eq (l : List VarBind) : varBinds (l.map fun v => (none, .varBind v)) = some l := by
  induction l with
  | nil => rfl
  | cons n l ih => simp [varBinds, ih]

theorem denotes_list (l : List VarBind) (hl : ∀ v ∈ l, Spec.Buildable v) :
    Denotes (VarBindList.repr l) (.varBindList l) := by
  have := denotes_call (f := "VarBindList".toList) (by decide)
    (l.map fun v => (v.repr, none, Obj.varBind v)) (y := .varBindList l) (by
      intro a ha
      obtain ⟨v, hv, rfl⟩ := List.mem_map.1 ha
      exact (denotes_varBind v (hl v hv)).arg) (by
      have h1 : (l.map fun v => (v.repr, (none : Option Text), Obj.varBind v)).map (·.2) =
          l.map fun v => (none, Obj.varBind v) := by simp
      rw [h1]
      rw [callValue_list, varBinds_eq]
      rfl)
  rw [List.map_map] at this
  exact this

/-- An integer argument, left out if it is zero. -/
def optArg (k : Text) (v : Int) : List (Option Text × Obj) := if v = 0 then [] else [(some k, .int v)]

theorem callPdu_fields (t : PduType) (rid fst snd : Int) (vbs : List VarBind) :
    callPdu t (optArg "requestID".toList rid ++ optArg (pduKeywords t).1 fst ++ optArg (pduKeywords t).2 snd ++
      [(some "variableBindings".toList, .varBindList vbs)]) = some ⟨t, rid, fst, snd, vbs⟩ := by
  have hk : ("requestID".toList ≠ (pduKeywords t).1 ∧ "requestID".toList ≠ (pduKeywords t).2 ∧
      (pduKeywords t).1 ≠ (pduKeywords t).2) ∧ ("variableBindings".toList ≠ "requestID".toList ∧
      "variableBindings".toList ≠ (pduKeywords t).1 ∧ "variableBindings".toList ≠ (pduKeywords t).2) := by
    cases t <;> decide
  obtain ⟨⟨k1, k2, k3⟩, k4, k5, k6⟩ := hk
  unfold callPdu
  generalize "requestID".toList = a at *
  generalize "variableBindings".toList = b at *
  generalize (pduKeywords t).1 = c at *
  generalize (pduKeywords t).2 = d at *
  by_cases r0 : rid = 0 <;> by_cases f0 : fst = 0 <;> by_cases s0 : snd = 0 <;>
    simp [optArg, r0, f0, s0, intKeyword, keyword, k1, k2, k3, k4, k5, k6, k1.symm, k2.symm, k3.symm,
      k4.symm, k5.symm, k6.symm]

theorem denotes_pdu (p : Pdu) (hp : ∀ v ∈ p.bindings, Spec.Buildable v) : Denotes p.repr (.pdu p) := by
  obtain ⟨t, rid, fst, snd, vbs⟩ := p
  have hfl : PduType.fields t = pduKeywords t := by cases t <;> rfl
  -- one optional argument
  let field (k : Text) (v : Int) : List (Text × Option Text × Obj) :=
    if v = 0 then [] else [(k ++ '=' :: decimalInt v, some k, .int v)]
  have hfield : ∀ k v, (field k v).map (·.1) = reprField k v := by
    intro k v
    simp only [field, reprField]
    split <;> rfl
  have hfield2 : ∀ k v, (field k v).map (·.2) = optArg k v := by
    intro k v
    simp only [field, optArg]
    split <;> rfl
  have hok : ∀ k, NameOk k → ∀ v, ∀ a ∈ field k v,
      ∃ e : Expr, Scans a.1 (keyToks a.2.1 ++ e.toks) ∧ e.eval = some a.2.2 := by
    intro k hk v a ha
    simp only [field] at ha
    split at ha
    · cases ha
    · obtain rfl : a = (k ++ '=' :: decimalInt v, some k, .int v) := by simpa using ha
      exact (denotes_int v).keyArg hk
  have h1 : NameOk "requestID".toList := by decide
  have h2 : NameOk (pduKeywords t).1 ∧ NameOk (pduKeywords t).2 := by cases t <;> decide
  have h3 : NameOk "variableBindings".toList := by decide
  have := denotes_call (f := t.name) (by cases t <;> decide)
    (field "requestID".toList rid ++ field (pduKeywords t).1 fst ++ field (pduKeywords t).2 snd ++
      [("variableBindings".toList ++ '=' :: VarBindList.repr vbs, some "variableBindings".toList,
        .varBindList vbs)]) (y := .pdu ⟨t, rid, fst, snd, vbs⟩) (by
      intro a ha
      simp only [List.mem_append, List.mem_singleton] at ha
      rcases ha with ((ha | ha) | ha) | rfl
      · exact hok _ h1 _ a ha
      · exact hok _ h2.1 _ a ha
      · exact hok _ h2.2 _ a ha
      · exact (denotes_list vbs hp).keyArg h3) (by
      have hc : callValue t.name = fun args => (callPdu t args).map .pdu := by
        funext args
        unfold callValue
        cases t <;> rfl
      rw [hc]
      simp only [List.map_append, hfield2, List.map_cons, List.map_nil]
      rw [callPdu_fields]
      rfl)
  have he : Pdu.repr ⟨t, rid, fst, snd, vbs⟩ = t.name ++ '(' :: joinComma
      ((field "requestID".toList rid ++ field (pduKeywords t).1 fst ++ field (pduKeywords t).2 snd ++
      [("variableBindings".toList ++ '=' :: VarBindList.repr vbs, some "variableBindings".toList,
        Obj.varBindList vbs)]).map (·.1)) ++ [')'] := by
    unfold Pdu.repr
    simp only [List.map_append, hfield, hfl]
    rfl
  rw [he]
  exact this

/-! ## Expressions are unambiguous -/

/-- What an expression starts with. -/
theorem Expr.toks_head (e : Expr) : ∃ t ts, e.toks = t :: ts ∧ t ≠ .rpar ∧ t ≠ .comma ∧
    (∀ k, t = .name k → ts = [] ∨ ∃ ts', ts = .lpar :: ts') := by
  cases e with
  | int n =>
    unfold Expr.toks
    split
    · exact ⟨_, _, rfl, by simp, by simp, by simp⟩
    · exact ⟨_, _, rfl, by simp, by simp, by simp⟩
  | bytes b => exact ⟨_, _, rfl, by simp, by simp, by simp⟩
  | str s => exact ⟨_, _, rfl, by simp, by simp, by simp⟩
  | name s => exact ⟨.name s, [], rfl, by simp, by simp, fun k _ => .inl rfl⟩
  | call f args =>
    exact ⟨.name f, .lpar :: (args.toks ++ [.rpar]), by simp [Expr.toks], by simp, by simp, fun k _ => .inr ⟨_, rfl⟩⟩

/-- What may follow an expression. -/
def Closes (r : List Tok) : Prop := ∀ t ts, r = t :: ts → t = .rpar ∨ t = .comma

theorem closes_nil : Closes [] := by rintro t ts h; cases h

theorem closes_rpar (r : List Tok) : Closes (.rpar :: r) := by rintro t ts h; cases h; exact .inl rfl

theorem closes_comma (r : List Tok) : Closes (.comma :: r) := by rintro t ts h; cases h; exact .inr rfl

theorem keyed_inj {k k' : Option Text} {e e' : Expr} {r r' : List Tok} (hr : Closes r) (hr' : Closes r')
    (h : keyToks k ++ (e.toks ++ r) = keyToks k' ++ (e'.toks ++ r')) : k = k' ∧ e.toks ++ r = e'.toks ++ r' := by
  obtain ⟨t, ts, h1, -, -, h2⟩ := Expr.toks_head e
  obtain ⟨t', ts', h1', -, -, h2'⟩ := Expr.toks_head e'
  cases k with
  | none =>
    cases k' with
    | none => exact ⟨rfl, h⟩
    | some b =>
      exfalso
      rw [h1] at h
      simp only [keyToks, List.nil_append, List.cons_append, List.cons.injEq] at h
      obtain ⟨rfl, h⟩ := h
      rcases h2 b rfl with rfl | ⟨ts2, rfl⟩
      · rw [List.nil_append] at h
        rcases hr _ _ h with h | h <;> cases h
      · simp at h
  | some a =>
    cases k' with
    | none =>
      exfalso
      rw [h1'] at h
      simp only [keyToks, List.nil_append, List.cons_append, List.cons.injEq] at h
      obtain ⟨rfl, h⟩ := h
      rcases h2' a rfl with rfl | ⟨ts2, rfl⟩
      · rw [List.nil_append] at h
        rcases hr' _ _ h.symm with h | h <;> cases h
      · simp at h
    | some b =>
      simp only [keyToks, List.nil_append, List.cons_append, List.cons.injEq, Tok.name.injEq, true_and] at h
      obtain ⟨rfl, h⟩ := h
      exact ⟨rfl, h⟩

theorem Args.toks_cons (k : Option Text) (e : Expr) (rest : Args) (r : List Tok) :
    (Args.cons k e rest).toks ++ .rpar :: r = keyToks k ++ (e.toks ++
      match rest with
      | .nil => .rpar :: r
      | .cons k' e' rest' => .comma :: ((Args.cons k' e' rest').toks ++ .rpar :: r)) := by
  cases rest with
  | nil => simp [Args.toks]
  | cons k' e' rest' => simp [Args.toks]

mutual
theorem Expr.toks_inj : ∀ (e e' : Expr) (r r' : List Tok), Closes r → Closes r' → e.toks ++ r = e'.toks ++ r' → e = e' ∧ r = r'
  | .int n, e', r, r', hr, hr', h => by
    cases e' with
    | int m =>
      unfold Expr.toks at h
      split at h <;> split at h <;> simp at h
      · obtain ⟨h1, h2⟩ := h
        refine ⟨?_, h2⟩
        congr 1
        omega
      · obtain ⟨h1, h2⟩ := h
        refine ⟨?_, h2⟩
        congr 1
        omega
    | bytes b => unfold Expr.toks at h; split at h <;> simp at h
    | str s => unfold Expr.toks at h; split at h <;> simp at h
    | name s => unfold Expr.toks at h; split at h <;> simp at h
    | call f args => unfold Expr.toks at h; split at h <;> simp at h
  | .bytes b, e', r, r', hr, hr', h => by
    cases e' with
    | int m => unfold Expr.toks at h; split at h <;> simp at h
    | bytes c => simpa [Expr.toks] using h
    | str s => simp [Expr.toks] at h
    | name s => simp [Expr.toks] at h
    | call f args => simp [Expr.toks] at h
  | .str s, e', r, r', hr, hr', h => by
    cases e' with
    | int m => unfold Expr.toks at h; split at h <;> simp at h
    | bytes c => simp [Expr.toks] at h
    | str t => simpa [Expr.toks] using h
    | name t => simp [Expr.toks] at h
    | call f args => simp [Expr.toks] at h
  | .name s, e', r, r', hr, hr', h => by
    cases e' with
    | int m => unfold Expr.toks at h; split at h <;> simp at h
    | bytes c => simp [Expr.toks] at h
    | str t => simp [Expr.toks] at h
    | name t => simpa [Expr.toks] using h
    | call f args =>
      exfalso
      simp only [Expr.toks, List.cons_append, List.cons.injEq, List.nil_append] at h
      rcases hr _ _ h.2 with h | h <;> cases h
  | .call f args, e', r, r', hr, hr', h => by
    cases e' with
    | int m => unfold Expr.toks at h; split at h <;> simp at h
    | bytes c => simp [Expr.toks] at h
    | str t => simp [Expr.toks] at h
    | name t =>
      exfalso
      simp only [Expr.toks, List.cons_append, List.cons.injEq, List.nil_append] at h
      rcases hr' _ _ h.2.symm with h | h <;> cases h
    | call f' args' =>
      simp only [Expr.toks, List.cons_append, List.cons.injEq, Tok.name.injEq, true_and, List.append_assoc,
        List.nil_append] at h
      obtain ⟨rfl, h⟩ := h
      obtain ⟨rfl, h'⟩ := Args.toks_inj args args' r r' h
      exact ⟨rfl, h'⟩
theorem Args.toks_inj : ∀ (a a' : Args) (r r' : List Tok), a.toks ++ .rpar :: r = a'.toks ++ .rpar :: r' →
    a = a' ∧ r = r'
  | .nil, a', r, r', h => by
    cases a' with
    | nil => simpa [Args.toks] using h
    | cons k e rest =>
      exfalso
      rw [Args.toks_cons] at h
      obtain ⟨t, ts, h1, h2, -, -⟩ := Expr.toks_head e
      rw [h1] at h
      cases k with
      | none =>
        simp only [Args.toks, keyToks, List.nil_append, List.cons_append, List.cons.injEq] at h
        exact h2 h.1.symm
      | some k => simp [Args.toks, keyToks] at h
  | .cons k e rest, a', r, r', h => by
    cases a' with
    | nil =>
      exfalso
      rw [Args.toks_cons] at h
      obtain ⟨t, ts, h1, h2, -, -⟩ := Expr.toks_head e
      rw [h1] at h
      cases k with
      | none =>
        simp only [Args.toks, keyToks, List.nil_append, List.cons_append, List.cons.injEq] at h
        exact h2 h.1
      | some k => simp [Args.toks, keyToks] at h
    | cons k' e' rest' =>
      rw [Args.toks_cons, Args.toks_cons] at h
      have c1 : ∀ (rest : Args) (r : List Tok), Closes (match rest with
          | .nil => .rpar :: r
          | .cons k' e' rest' => .comma :: ((Args.cons k' e' rest').toks ++ .rpar :: r)) := by
        intro rest r
        cases rest
        · exact closes_rpar _
        · exact closes_comma _
      obtain ⟨rfl, h1⟩ := keyed_inj (c1 _ _) (c1 _ _) h
      obtain ⟨rfl, h2⟩ := Expr.toks_inj e e' _ _ (c1 _ _) (c1 _ _) h1
      clear h h1
      cases rest with
      | nil =>
        cases rest' with
        | nil => simp only [List.cons.injEq, true_and] at h2; exact ⟨rfl, h2⟩
        | cons k2 e2 rest2 => simp at h2
      | cons k2 e2 rest2 =>
        cases rest' with
        | nil => simp at h2
        | cons k3 e3 rest3 =>
          simp only [List.cons.injEq, true_and] at h2
          obtain ⟨h3, h4⟩ := Args.toks_inj (.cons k2 e2 rest2) (.cons k3 e3 rest3) r r' h2
          rw [h3]
          exact ⟨rfl, h4⟩
end

/-- A text has at most one value. -/
theorem C106_unambiguous (text : Text) (x y : Obj) (hx : Evaluates text x) (hy : Evaluates text y) : x = y := by
  obtain ⟨e, h1, h2⟩ := hx
  obtain ⟨e', h3, h4⟩ := hy
  rw [h1] at h3
  have h5 : e.toks = e'.toks := Option.some.inj h3
  obtain ⟨rfl, -⟩ := Expr.toks_inj e e' [] [] closes_nil closes_nil (by simp [h5])
  rw [h2] at h4
  exact Option.some.inj h4

/-- **C106**: `eval(repr(x))` is `x`, for every value that the constructors accept. -/
theorem C106_value (v : Value) (hv : v.Constructible) : Evaluates v.repr (.val v) :=
  (denotes_value v hv).evaluates

/-- **C106**: the same for variable bindings, lists of them, and PDUs. -/
theorem C106_constructed :
    (∀ v : VarBind, Spec.Buildable v → Evaluates v.repr (.varBind v)) ∧
    (∀ l : List VarBind, (∀ v ∈ l, Spec.Buildable v) → Evaluates (VarBindList.repr l) (.varBindList l)) ∧
    (∀ p : Pdu, (∀ v ∈ p.bindings, Spec.Buildable v) → Evaluates p.repr (.pdu p)) :=
  ⟨fun v hv => (denotes_varBind v hv).evaluates, fun l hl => (denotes_list l hl).evaluates,
    fun p hp => (denotes_pdu p hp).evaluates⟩

/-- **C106**: so `repr` tells PDUs apart. -/
theorem C106_distinct (p q : Pdu) (hp : ∀ v ∈ p.bindings, Spec.Buildable v)
    (hq : ∀ v ∈ q.bindings, Spec.Buildable v) (h : p.repr = q.repr) : p = q := by
  have h1 := (C106_constructed.2.2 p hp)
  have h2 := (C106_constructed.2.2 q hq)
  rw [h] at h1
  have := C106_unambiguous _ _ _ h1 h2
  cases this
  rfl

/-- Quotation marks, escapes, negative numbers, a keyword left out. -/
example :
    let l : List VarBind := [⟨[1, 3, 6, 1], .octets [0x61, 0x27, 0x00, 0xff, 0x5c, 0x0a]⟩,
      ⟨[], .ipAddress [192, 0, 2, 1]⟩, ⟨[1, 3], .int .integer32 (-5)⟩]
    let p : Pdu := ⟨.response, 7, 0, 2, l⟩
    (∀ v ∈ p.bindings, Spec.Buildable v) ∧
    p.repr = ("ResponsePDU(requestID=7, errorIndex=2, variableBindings=VarBindList(" ++
      "VarBind(OID(1, 3, 6, 1), OctetString(b\"a'\\x00\\xff\\\\\\n\")), " ++
      "VarBind(OID(), IpAddress('192.0.2.1')), VarBind(OID(1, 3), Integer32(-5))))").toList := by
  refine ⟨?_, by decide +kernel⟩
  intro v hv
  simp only [List.mem_cons, List.not_mem_nil, or_false] at hv
  rcases hv with rfl | rfl | rfl <;> exact ⟨by decide +kernel, by decide +kernel⟩

end Snmp
