import Verif.Oid
import Verif.Pdu
import Verif.Message
/-!
# A fragment of Python expressions

For C106 and C121: which expression a text is, and what it evaluates to, according to the Python language reference
(2.3 identifiers, 2.4 literals, 6.3.1 attribute references, 6.3.4 calls) and the constructors of the library, with
the names that `snmp.smi`, `snmp.pdu`, `snmp.message`, `snmp.security` and `snmp.utils` export in scope. Text outside the fragment is not given a meaning.
-/

namespace Snmp.Spec

/-- Tokens. A name may be dotted. -/
inductive Tok
  | name (s : Text)
  | num (n : Nat)
  | bytes (b : Bytes)
  | str (s : Text)
  | minus | lpar | rpar | comma | eq
  deriving DecidableEq, Repr

/-! ## String and bytes literals -/

/-- Where we are in an escape sequence. -/
inductive Phase
  | plain | esc | hex | hex2 (high : Nat)
  deriving DecidableEq, Repr

/-- The value of a hexadecimal digit. -/
def hexValue (c : Char) : Option Nat :=
  if '0' ≤ c ∧ c ≤ '9' then some (c.toNat - 48)
  else if 'a' ≤ c ∧ c ≤ 'f' then some (c.toNat - 87)
  else if 'A' ≤ c ∧ c ≤ 'F' then some (c.toNat - 55)
  else none

/-- What a character in a literal does: it may add a character (its code), or end the literal. -/
inductive LitMove
  | go (out : List Nat) (ph : Phase)
  | close
  deriving DecidableEq, Repr

/-- One character of a literal with quotation mark `q`; a bytes literal has only ASCII characters. -/
def litStep (isBytes : Bool) (q : Char) : Phase → Char → Option LitMove
  | .plain, c =>
    if c = q then some .close
    else if c = '\\' then some (.go [] .esc)
    else if c = '\n' then none
    else if isBytes ∧ 128 ≤ c.toNat then none
    else some (.go [c.toNat] .plain)
  | .esc, c =>
    if c = '\\' ∨ c = '\'' ∨ c = '"' then some (.go [c.toNat] .plain)
    else if c = 't' then some (.go [9] .plain)
    else if c = 'n' then some (.go [10] .plain)
    else if c = 'r' then some (.go [13] .plain)
    else if c = 'x' then some (.go [] .hex)
    else none
  | .hex, c => (hexValue c).map fun h => .go [] (.hex2 h)
  | .hex2 h, c => (hexValue c).map fun l => .go [16 * h + l] .plain

/-! ## Tokens -/

/-- The state of the scanner. -/
inductive Lex
  | start
  | name (s : Text)
  | num (n : Nat)
  | lit (isBytes : Bool) (q : Char) (ph : Phase) (acc : List Nat)
  deriving DecidableEq, Repr

/-- The first character of a token, or a space. -/
def lexStart (c : Char) : Option (List Tok × Lex) :=
  if c = ' ' then some ([], .start)
  else if c = '(' then some ([.lpar], .start)
  else if c = ')' then some ([.rpar], .start)
  else if c = ',' then some ([.comma], .start)
  else if c = '=' then some ([.eq], .start)
  else if c = '-' then some ([.minus], .start)
  else if c = '\'' ∨ c = '"' then some ([], .lit false c .plain [])
  else if c.isAlpha ∨ c = '_' then some ([], .name [c])
  else (digitValue c).map fun d => ([], .num d)

/-- The next character. No leading zeros in numbers. -/
def lexStep : Lex → Char → Option (List Tok × Lex)
  | .start, c => lexStart c
  | .name s, c =>
    if c.isAlphanum ∨ c = '_' ∨ c = '.' then some ([], .name (s ++ [c]))
    else if s = ['b'] ∧ (c = '\'' ∨ c = '"') then some ([], .lit true c .plain [])
    else (lexStart c).map fun (t, st) => (.name s :: t, st)
  | .num n, c =>
    match digitValue c with
    | some d => if n = 0 then none else some ([], .num (n * 10 + d))
    | none =>
      if c.isAlpha ∨ c = '_' then none else (lexStart c).map fun (t, st) => (.num n :: t, st)
  | .lit isBytes q ph acc, c =>
    (litStep isBytes q ph c).map fun
      | .go out ph => ([], .lit isBytes q ph (acc ++ out))
      | .close => ([if isBytes then .bytes (acc.map UInt8.ofNat) else .str (acc.map Char.ofNat)], .start)

/-- The end of the text. -/
def lexEnd : Lex → Option (List Tok)
  | .start => some []
  | .name s => some [.name s]
  | .num n => some [.num n]
  | .lit .. => none

/-- The tokens of a text. -/
def lex : Lex → Text → Option (List Tok)
  | st, [] => lexEnd st
  | st, c :: cs => (lexStep st c).bind fun (t, st) => (lex st cs).map (t ++ ·)

/-! ## Expressions -/

mutual
/-- Literals, names, and calls. -/
inductive Expr
  | int (n : Int)
  | bytes (b : Bytes)
  | str (s : Text)
  | name (s : Text)
  | call (f : Text) (args : Args)
/-- Arguments, some with a keyword. -/
inductive Args
  | nil
  | cons (keyword : Option Text) (e : Expr) (rest : Args)
end

/-- The tokens that make a keyword argument. -/
def keyToks : Option Text → List Tok
  | none => []
  | some k => [.name k, .eq]

mutual
/-- The tokens of an expression. -/
def Expr.toks : Expr → List Tok
  | .int n => if n < 0 then [.minus, .num n.natAbs] else [.num n.toNat]
  | .bytes b => [.bytes b]
  | .str s => [.str s]
  | .name s => [.name s]
  | .call f args => .name f :: .lpar :: args.toks ++ [.rpar]
/-- The tokens of arguments. -/
def Args.toks : Args → List Tok
  | .nil => []
  | .cons k e .nil => keyToks k ++ e.toks
  | .cons k e (.cons k' e' rest) => keyToks k ++ e.toks ++ .comma :: (Args.cons k' e' rest).toks
end

/-! ## Evaluation -/

deriving instance DecidableEq for V3Message

/-- What expressions give. -/
inductive Obj
  | int (n : Int)
  | bytes (b : Bytes)
  | str (s : Text)
  | val (v : Value)
  | varBind (v : VarBind)
  | varBindList (l : List VarBind)
  | pdu (p : Pdu)
  | bool (b : Bool)
  | level (l : SecurityLevel)
  | version (v : Version)
  | model (m : SecurityModel)
  | flags (f : MessageFlags)
  | header (h : HeaderData)
  | scoped (s : ScopedPDU)
  | slice (s : Subbytes)
  | octetSlice (s : Subbytes)
  | params (p : UsmParams)
  | versionOnly (v : Version)
  | message (m : Message)
  | v3Message (m : V3Message)
  deriving DecidableEq

/-- The integer classes. -/
def intClass (f : Text) : Option IntType :=
  if f = "INTEGER".toList then some .integer
  else if f = "Integer32".toList then some .integer32
  else if f = "Unsigned32".toList then some .unsigned32
  else if f = "Counter32".toList then some .counter32
  else if f = "Gauge32".toList then some .gauge32
  else if f = "TimeTicks".toList then some .timeTicks
  else if f = "Counter64".toList then some .counter64
  else none

/-- The classes without arguments. -/
def emptyClass (f : Text) : Option Value :=
  if f = "NULL".toList then some .null
  else if f = "NoSuchObject".toList then some .noSuchObject
  else if f = "NoSuchInstance".toList then some .noSuchInstance
  else if f = "EndOfMibView".toList then some .endOfMibView
  else none

/-- The PDU classes. -/
def pduClass (f : Text) : Option PduType :=
  if f = "GetRequestPDU".toList then some .getRequest
  else if f = "GetNextRequestPDU".toList then some .getNextRequest
  else if f = "ResponsePDU".toList then some .response
  else if f = "SetRequestPDU".toList then some .setRequest
  else if f = "GetBulkRequestPDU".toList then some .getBulkRequest
  else if f = "InformRequestPDU".toList then some .informRequest
  else if f = "SNMPv2TrapPDU".toList then some .snmpv2Trap
  else if f = "ReportPDU".toList then some .report
  else none

/-- An octet of a dotted address, in decimal. -/
def octet (w : Text) : Option UInt8 :=
  match scanDigits w 0 false with
  | some n => if n < 256 ∧ w = decimal n then some (UInt8.ofNat n) else none
  | none => none

/-- `inet_aton` of four decimal numbers (its other formats are left out). -/
def inetAton (s : Text) : Option Bytes :=
  match splitDot s with
  | [a, b, c, d] =>
    (octet a).bind fun a => (octet b).bind fun b => (octet c).bind fun c => (octet d).map fun d => [a, b, c, d]
  | _ => none

/-- Positional integers. -/
def ints : List (Option Text × Obj) → Option (List Int)
  | [] => some []
  | (none, .int n) :: rest => (ints rest).map (n :: ·)
  | _ => none

/-- Positional variable bindings. -/
def varBinds : List (Option Text × Obj) → Option (List VarBind)
  | [] => some []
  | (none, .varBind v) :: rest => (varBinds rest).map (v :: ·)
  | _ => none

/-- The value of a keyword argument. -/
def keyword (k : Text) (args : List (Option Text × Obj)) : Option Obj := (args.find? fun a => a.1 = some k).map (·.2)

/-- An integer argument that is zero unless it is given. -/
def intKeyword (k : Text) (args : List (Option Text × Obj)) : Option Int :=
  match keyword k args with
  | none => some 0
  | some (.int n) => some n
  | _ => none

/-- The keywords of a PDU class. -/
def pduKeywords (t : PduType) : Text × Text :=
  match t with
  | .getBulkRequest => ("nonRepeaters".toList, "maxRepetitions".toList)
  | _ => ("errorStatus".toList, "errorIndex".toList)

/-- A call of a PDU class, with keyword arguments only, each at most once. -/
def callPdu (t : PduType) (args : List (Option Text × Obj)) : Option Pdu :=
  let keys := [some "requestID".toList, some (pduKeywords t).1, some (pduKeywords t).2,
    some "variableBindings".toList]
  if (args.map (·.1)).Nodup ∧ ∀ a ∈ args, a.1 ∈ keys then
    (intKeyword "requestID".toList args).bind fun requestID =>
    (intKeyword (pduKeywords t).1 args).bind fun first =>
    (intKeyword (pduKeywords t).2 args).bind fun second =>
    match keyword "variableBindings".toList args with
    | none => some ⟨t, requestID, first, second, []⟩
    | some (.varBindList l) => some ⟨t, requestID, first, second, l⟩
    | _ => none
  else none

/-- What a name stands for: the Boolean constants, the three security levels that `snmp.security.levels` defines,
and the members of two enumerations. -/
def nameValue (s : Text) : Option Obj :=
  if s = "True".toList then some (.bool true)
  else if s = "False".toList then some (.bool false)
  else if s = "noAuthNoPriv".toList then some (.level ⟨false, false⟩)
  else if s = "authNoPriv".toList then some (.level ⟨true, false⟩)
  else if s = "authPriv".toList then some (.level ⟨true, true⟩)
  else if s = "ProtocolVersion.SNMPv1".toList then some (.version .v1)
  else if s = "ProtocolVersion.SNMPv2c".toList then some (.version .v2c)
  else if s = "ProtocolVersion.SNMPv3".toList then some (.version .v3)
  else if s = "SecurityModel.USM".toList then some (.model .usm)
  else none

/-- `subbytes(octets, start=n, stop=m)` in which the keyword arguments may be left out. -/
def callSubbytes (args : List (Option Text × Obj)) : Option Subbytes :=
  match args with
  | [(none, .bytes d)] => some (Subbytes.ofBytes d none none)
  | [(none, .bytes d), (some k, .int n)] =>
    if k = "start".toList then some (Subbytes.ofBytes d (some n) none)
    else if k = "stop".toList then some (Subbytes.ofBytes d none (some n))
    else none
  | [(none, .bytes d), (some k, .int n), (some l, .int m)] =>
    if k = "start".toList ∧ l = "stop".toList then some (Subbytes.ofBytes d (some n) (some m)) else none
  | _ => none

/-- The octets of an argument that is `bytes` or a `subbytes`. -/
def octetsArg : Obj → Option Asn1Data
  | .bytes d => some (.bytes d)
  | .slice s => some (.sub s)
  | _ => none

/-- The contents of an argument that is an `OctetString`. -/
def stringArg : Obj → Option Asn1Data
  | .val (.octets d) => some (.bytes d)
  | .octetSlice s => some (.sub s)
  | _ => none

/-- `SNMPv3Message(header, scopedPDU=..., securityParameters=...)`, or with `encryptedPDU`, an `OctetString`. -/
def callV3Message (args : List (Option Text × Obj)) : Option V3Message :=
  match args with
  | [(none, .header h), (some k, x), (some l, y)] =>
    if l = "securityParameters".toList then
      (stringArg y).bind fun params =>
      match x with
      | .scoped s =>
        if k = "scopedPDU".toList then
          some { header := h, scopedPDU := some s, securityParameters := params } else none
      | .val (.octets d) =>
        if k = "encryptedPDU".toList then
          some { header := h, encryptedPDU := some d, securityParameters := params } else none
      | _ => none
    else none
  | _ => none

/-- The members of `SecurityModel` are integers, and their numbers serve as well. -/
def modelArg : Obj → Option SecurityModel
  | .model m => some m
  | .int n => if n = 3 then some .usm else none
  | _ => none

/-- Calls of the classes that messages are made of. -/
def callMessage (f : Text) (args : List (Option Text × Obj)) : Option Obj :=
  if f = "subbytes".toList then (callSubbytes args).map .slice
  else if f = "SecurityLevel".toList then match args with
    | [(some k, .bool auth), (some l, .bool priv)] =>
      if k = "auth".toList ∧ l = "priv".toList then
        match SecurityLevel.new auth priv with
        | .ok level => some (.level level)
        | .error _ => none
      else none
    | _ => none
  else if f = "MessageFlags".toList then match args with
    | [(none, .level l), (none, .bool b)] => some (.flags ⟨l, b⟩)
    | _ => none
  else if f = "HeaderData".toList then match args with
    | [(none, .int id), (none, .int size), (none, .flags f), (none, x)] =>
      (modelArg x).map fun m => .header ⟨id, size, f, m⟩
    | _ => none
  else if f = "ScopedPDU".toList then match args with
    | [(none, .pdu p), (none, .bytes e), (some k, .bytes n)] =>
      if k = "contextName".toList then some (.scoped ⟨p, e, n⟩) else none
    | _ => none
  else if f = "UsmSecurityParameters".toList then match args with
    | [(none, .bytes e), (none, .int b), (none, .int t), (none, .bytes u), (none, x), (none, .bytes s)] =>
      (octetsArg x).map fun signature => .params (UsmParams.new e b t u signature s)
    | _ => none
  else if f = "VersionOnlyMessage".toList then match args with
    | [(none, .version v)] => some (.versionOnly v)
    | _ => none
  else if f = "Message".toList then match args with
    | [(none, .version v), (none, .bytes c), (none, .pdu p)] => some (.message ⟨v, c, p⟩)
    | _ => none
  else if f = "SNMPv3Message".toList then (callV3Message args).map .v3Message
  else none

/-- What a call gives, if it raises no exception. -/
def callValue (f : Text) (args : List (Option Text × Obj)) : Option Obj :=
  match intClass f with
  | some t => match args with
    | [(none, .int n)] => match t.new n with
      | .ok n => some (.val (.int t n))
      | .error _ => none
    | _ => none
  | none => match emptyClass f with
  | some v => match args with
    | [] => some (.val v)
    | _ => none
  | none => match pduClass f with
  | some t => (callPdu t args).map .pdu
  | none =>
    if f = "OctetString".toList then match args with
      | [(none, .bytes b)] => if b.length ≤ 0xffff then some (.val (.octets b)) else none
      | [(none, .slice s)] => if s.stop - s.start ≤ 0xffff then some (.octetSlice s) else none
      | _ => none
    else if f = "IpAddress".toList then match args with
      | [(none, .str s)] => (inetAton s).map fun b => .val (.ipAddress b)
      | _ => none
    else if f = "Opaque".toList then match args with
      | [(none, .bytes b)] => some (.val (.opaqueData b))
      | _ => none
    else if f = "OID".toList then match ints args with
      | some l => match Oid.new l with
        | .ok o => some (.val (.oid o))
        | .error _ => none
      | none => none
    else if f = "VarBind".toList then match args with
      | [(none, .val (.oid o)), (none, .val v)] => some (.varBind ⟨o, v⟩)
      | _ => none
    else if f = "VarBindList".toList then (varBinds args).map .varBindList
    else callMessage f args

mutual
/-- The value of an expression, if evaluating it raises no exception. -/
def Expr.eval : Expr → Option Obj
  | .int n => some (.int n)
  | .bytes b => some (.bytes b)
  | .str s => some (.str s)
  | .name s => nameValue s
  | .call f args => args.eval.bind (callValue f)
/-- The values of arguments. -/
def Args.eval : Args → Option (List (Option Text × Obj))
  | .nil => some []
  | .cons k e rest => e.eval.bind fun x => rest.eval.map ((k, x) :: ·)
end

/-- `eval(text)` gives `x`: the text is an expression, and that is its value. -/
def Evaluates (text : Text) (x : Obj) : Prop := ∃ e : Expr, lex .start text = some e.toks ∧ e.eval = some x

end Snmp.Spec
