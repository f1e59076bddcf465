import Verif.MessageRepr
import Verif.Props.Display
import Verif.UsmLemmas
/-!
# C121: `eval(repr(message))` gives the message back
-/

namespace Snmp
open Spec Display

namespace Display

theorem denotes_name {s : Text} (h : NameOk s) {x : Obj} (hx : nameValue s = some x) : Denotes s x :=
  ⟨.name s, scans_name h, hx⟩

theorem denotes_version (v : Version) : Denotes v.str (.version v) := by
  cases v <;> exact denotes_name (by decide) (by decide)

theorem denotes_bool (b : Bool) : Denotes (boolStr b) (.bool b) := by
  cases b <;> exact denotes_name (by decide) (by decide)

theorem denotes_level {l : SecurityLevel} (h : l.priv = true → l.auth = true) : Denotes l.str (.level l) := by
  obtain ⟨a, p⟩ := l
  cases a <;> cases p
  · exact denotes_name (by decide) (by decide)
  · exact absurd (h rfl) (by simp)
  · exact denotes_name (by decide) (by decide)
  · exact denotes_name (by decide) (by decide)

theorem denotes_model (modern : Bool) (m : SecurityModel) :
    ∃ x, Denotes (m.str modern) x ∧ modelArg x = some m := by
  cases m
  cases modern
  · exact ⟨.model .usm, denotes_name (by decide) (by decide), rfl⟩
  · exact ⟨.int 3, denotes_int 3, rfl⟩

theorem denotes_versionOnly (v : Version) : Denotes (versionOnlyRepr v) (.versionOnly v) :=
  denotes_call1 (by decide) (denotes_version v) (by cases v <;> rfl)

/-- Each text denotes the value beside it. -/
def Printed : List (Text × Option Text × Obj) → Prop
  | [] => True
  | a :: l => (∃ e : Expr, Scans a.1 (keyToks a.2.1 ++ e.toks) ∧ e.eval = some a.2.2) ∧ Printed l

/-- A call with arguments that are known one by one. -/
theorem denotes_args {f : Text} (hf : NameOk f) (l : List (Text × Option Text × Obj))
    (h : Printed l) {y : Obj}
    (hy : callValue f (l.map (·.2)) = some y) :
    Denotes (f ++ '(' :: joinComma (l.map (·.1)) ++ [')']) y :=
  denotes_call hf l (by
    clear hy
    induction l with
    | nil => intro a ha; cases ha
    | cons b l ih =>
      intro a ha
      rcases List.mem_cons.1 ha with rfl | ha
      · exact h.1
      · exact ih h.2 a ha) hy

theorem denotes_flags {f : MessageFlags} (h : f.level.priv = true → f.level.auth = true) :
    Denotes f.repr (.flags f) :=
  denotes_args (f := "MessageFlags".toList) (by decide)
    [(_, none, .level f.level), (_, none, .bool f.reportable)]
    ⟨(denotes_level h).arg, (denotes_bool _).arg, trivial⟩ rfl

theorem denotes_levelRepr {l : SecurityLevel} (h : l.priv = true → l.auth = true) : Denotes l.repr (.level l) := by
  refine denotes_args (f := "SecurityLevel".toList) (by decide)
    [(_, some "auth".toList, .bool l.auth), (_, some "priv".toList, .bool l.priv)]
    ⟨(denotes_bool _).keyArg (by decide), (denotes_bool _).keyArg (by decide), trivial⟩ ?_
  obtain ⟨a, p⟩ := l
  cases a <;> cases p
  · decide
  · exact absurd (h rfl) (by simp)
  · decide
  · decide

theorem denotes_header (modern : Bool) {h : HeaderData} (hl : h.flags.level.priv = true → h.flags.level.auth = true) :
    Denotes (h.repr modern) (.header h) := by
  obtain ⟨x, hx, hm⟩ := denotes_model modern h.securityModel
  refine denotes_args (f := "HeaderData".toList) (by decide)
    [(_, none, .int h.id), (_, none, .int h.maxSize), (_, none, .flags h.flags), (_, none, x)]
    ⟨(denotes_int _).arg, (denotes_int _).arg, (denotes_flags hl).arg, hx.arg, trivial⟩ ?_
  show (modelArg x).map _ = _
  rw [hm]
  rfl

theorem denotes_scoped {s : ScopedPDU} (hs : ∀ v ∈ s.pdu.bindings, Buildable v) : Denotes s.repr (.scoped s) :=
  denotes_args (f := "ScopedPDU".toList) (by decide)
    [(_, none, .pdu s.pdu), (_, none, .bytes s.contextEngineID), (_, some "contextName".toList, .bytes s.contextName)]
    ⟨(denotes_pdu _ hs).arg, (denotes_bytes _).arg, (denotes_bytes _).keyArg (by decide), trivial⟩ rfl

theorem denotes_message {m : Message} (hm : ∀ v ∈ m.pdu.bindings, Buildable v) : Denotes m.repr (.message m) :=
  denotes_args (f := "Message".toList) (by decide)
    [(_, none, .version m.version), (_, none, .bytes m.community), (_, none, .pdu m.pdu)]
    ⟨(denotes_version _).arg, (denotes_bytes _).arg, (denotes_pdu _ hm).arg, trivial⟩ rfl

theorem denotes_slice {s : Subbytes} (hs : s.WF) : Denotes s.repr (.slice s) := by
  refine ⟨_, scans_subbytes s, ?_⟩
  obtain ⟨d, a, b⟩ := s
  obtain ⟨h1, h2⟩ := hs
  simp only at h1 h2 ⊢
  have ne : ¬ "stop".toList = "start".toList := by decide
  have n1 : ∀ n : Nat, ¬ ((n : Int) < 0) := fun n => by omega
  have call : ∀ args, callValue "subbytes".toList args = (callSubbytes args).map .slice := fun _ => rfl
  by_cases c1 : a = 0 <;> by_cases c2 : b < d.length <;>
    simp only [c1, c2, if_true, if_false, List.nil_append, List.cons_append, argsOf, Args.eval,
      Expr.eval, Option.bind_some, Option.map_some, call, callSubbytes, ne, and_self, Subbytes.ofBytes, Subbytes.view,
      Subbytes.whole, Subbytes.lowBound, Subbytes.highBound, Subbytes.translate, n1] <;>
    simp <;> omega

/-- The octets that an `OctetString` has. -/
def size : Asn1Data → Nat
  | .bytes d => d.length
  | .sub s => s.stop - s.start

theorem denotes_string {d : Asn1Data} (hd : d.Valid) (hl : size d ≤ 0xffff) :
    ∃ x, Denotes (octetStringRepr d) x ∧ stringArg x = some d := by
  cases d with
  | bytes b =>
    refine ⟨.val (.octets b), denotes_call1 (f := "OctetString".toList) (by decide) (denotes_bytes b) ?_, rfl⟩
    show (if b.length ≤ 0xffff then _ else _) = _
    exact if_pos hl
  | sub s =>
    refine ⟨.octetSlice s, denotes_call1 (f := "OctetString".toList) (by decide) (denotes_slice (s := s) hd) ?_, rfl⟩
    show (if s.stop - s.start ≤ 0xffff then _ else _) = _
    exact if_pos hl

theorem denotes_octetString {b : Bytes} (hl : b.length ≤ 0xffff) :
    Denotes (octetStringRepr (.bytes b)) (.val (.octets b)) :=
  denotes_call1 (f := "OctetString".toList) (by decide) (denotes_bytes b)
    (by show (if b.length ≤ 0xffff then _ else _) = _; exact if_pos hl)

theorem denotes_v3 (modern : Bool) {m : V3Message} (hl : m.header.flags.level.priv = true → m.header.flags.level.auth = true)
    (hp : m.securityParameters.Valid) (hn : size m.securityParameters ≤ 0xffff)
    (hs : m.header.flags.level.priv = false → ∃ s, m.scopedPDU = some s ∧ ∀ v ∈ s.pdu.bindings, Buildable v)
    (he : m.header.flags.level.priv = true → ∃ d, m.encryptedPDU = some d ∧ d.length ≤ 0xffff) :
    Denotes (m.repr modern) (.v3Message
      { header := m.header,
        scopedPDU := if m.header.flags.level.priv then none else m.scopedPDU,
        encryptedPDU := if m.header.flags.level.priv then m.encryptedPDU else none,
        securityParameters := m.securityParameters }) := by
  obtain ⟨x, hx, hsx⟩ := denotes_string hp hn
  have key : (some "securityParameters".toList = some "securityParameters".toList) := rfl
  unfold V3Message.repr
  by_cases c : m.header.flags.level.priv = true
  · obtain ⟨d, hd, hlen⟩ := he c
    simp only [c, hd, if_true]
    refine denotes_args (f := "SNMPv3Message".toList) (by decide)
      [(_, none, .header m.header), (_, some "encryptedPDU".toList, .val (.octets d)),
       (_, some "securityParameters".toList, x)]
      ⟨(denotes_header modern hl).arg, (denotes_octetString hlen).keyArg (by decide), hx.keyArg (by decide), trivial⟩ ?_
    show (callV3Message _).map _ = _
    simp [callV3Message, hsx]
  · have c : m.header.flags.level.priv = false := by simpa using c
    obtain ⟨s, hs, hb⟩ := hs c
    simp only [c, hs, Bool.false_eq_true, if_false]
    refine denotes_args (f := "SNMPv3Message".toList) (by decide)
      [(_, none, .header m.header), (_, some "scopedPDU".toList, .scoped s),
       (_, some "securityParameters".toList, x)]
      ⟨(denotes_header modern hl).arg, (denotes_scoped hb).keyArg (by decide), hx.keyArg (by decide), trivial⟩ ?_
    show (callV3Message _).map _ = _
    simp [callV3Message, hsx]

theorem denotes_params (e : Bytes) (b t : Int) (u : Bytes) (signature : Asn1Data) (s : Bytes)
    (h : signature.Valid) :
    ∃ text, (UsmParams.new e b t u signature s).repr = some text ∧
      Denotes text (.params (UsmParams.new e b t u signature s)) := by
  cases signature with
  | bytes d =>
    exact ⟨_, rfl, denotes_args (f := "UsmSecurityParameters".toList) (by decide)
      [(_, none, .bytes e), (_, none, .int b), (_, none, .int t), (_, none, .bytes u), (_, none, .bytes d),
       (_, none, .bytes s)]
      ⟨(denotes_bytes _).arg, (denotes_int _).arg, (denotes_int _).arg, (denotes_bytes _).arg,
        (denotes_bytes _).arg, (denotes_bytes _).arg, trivial⟩ rfl⟩
  | sub d =>
    have hd : d.WF := h
    have e1 : Subbytes.ofBytes d.data (some (d.start : Int)) (some ((d.start + d.copy.length : Nat) : Int)) = d := by
      have : d.start + d.copy.length = d.stop := by
        rw [Subbytes.copy_eq_contents, Subbytes.contents_length hd]
        exact Nat.add_sub_cancel' hd.1
      rw [this, Subbytes.ofBytes_range hd.1 hd.2]
    refine ⟨_, rfl, ?_⟩
    simp only [UsmParams.new]
    rw [e1]
    exact denotes_args (f := "UsmSecurityParameters".toList) (by decide)
      [(_, none, .bytes e), (_, none, .int b), (_, none, .int t), (_, none, .bytes u), (_, none, .slice d),
       (_, none, .bytes s)]
      ⟨(denotes_bytes _).arg, (denotes_int _).arg, (denotes_int _).arg, (denotes_bytes _).arg,
        (denotes_slice hd).arg, (denotes_bytes _).arg, trivial⟩ rfl

end Display

/-- A security level that the constructor accepts: no privacy without authentication. -/
def Spec.LevelOk (l : SecurityLevel) : Prop := l.priv = true → l.auth = true

/-- An SNMPv3 message as it is printed: with the payload that is sent, and without what is not sent. -/
def Spec.asSent (m : V3Message) : V3Message :=
  { header := m.header,
    scopedPDU := if m.header.flags.level.priv then none else m.scopedPDU,
    encryptedPDU := if m.header.flags.level.priv then m.encryptedPDU else none,
    securityParameters := m.securityParameters }

/-- The parts of an SNMPv3 message are objects that the constructors accept, and it has the payload that its flags
call for. -/
structure Spec.Complete (m : V3Message) : Prop where
  level : Spec.LevelOk m.header.flags.level
  slice : ∀ s, m.securityParameters = .sub s → s.start ≤ s.stop ∧ s.stop ≤ s.data.length
  size : m.securityParameters.copy.length ≤ 65535
  plain : m.header.flags.level.priv = false → ∃ s, m.scopedPDU = some s ∧ ∀ v ∈ s.pdu.bindings, Spec.Buildable v
  encrypted : m.header.flags.level.priv = true → ∃ d, m.encryptedPDU = some d ∧ d.length ≤ 65535

theorem Spec.Complete.valid {m : V3Message} (h : Spec.Complete m) : m.securityParameters.Valid := by
  have := h.slice
  cases hm : m.securityParameters with
  | bytes b => exact Asn1Data.valid_bytes b
  | sub s => exact this s hm

theorem Display.size_eq {d : Asn1Data} (h : d.Valid) : Display.size d = d.copy.length := by
  cases d with
  | bytes b => rfl
  | sub s =>
    show _ = s.copy.length
    have hw : s.WF := h
    rw [Subbytes.copy_eq_contents, Subbytes.contents_length hw]
    rfl

/-- **C121**: `eval(repr(x))` gives `x` back, for community messages, security levels, flags, headers, scoped PDUs, security
parameters, and SNMPv3 messages, whatever the version of Python. -/
theorem C121 :
    (∀ v : Version, Evaluates (versionOnlyRepr v) (.versionOnly v)) ∧
    (∀ m : Message, (∀ v ∈ m.pdu.bindings, Spec.Buildable v) → Evaluates m.repr (.message m)) ∧
    (∀ l : SecurityLevel, Spec.LevelOk l → Evaluates l.repr (.level l) ∧ Evaluates l.str (.level l)) ∧
    (∀ f : MessageFlags, Spec.LevelOk f.level → Evaluates f.repr (.flags f)) ∧
    (∀ (modern : Bool) (h : HeaderData), Spec.LevelOk h.flags.level → Evaluates (h.repr modern) (.header h)) ∧
    (∀ s : ScopedPDU, (∀ v ∈ s.pdu.bindings, Spec.Buildable v) → Evaluates s.repr (.scoped s)) ∧
    (∀ (e : Bytes) (b t : Int) (u : Bytes) (signature : Asn1Data) (s : Bytes), signature.Valid →
      ∃ text, (UsmParams.new e b t u signature s).repr = some text ∧
        Evaluates text (.params (UsmParams.new e b t u signature s))) ∧
    (∀ (modern : Bool) (m : V3Message), Spec.Complete m →
      Evaluates (m.repr modern) (.v3Message (Spec.asSent m))) := by
  refine ⟨fun v => (denotes_versionOnly v).evaluates, fun m h => (denotes_message h).evaluates,
    fun l h => ⟨(denotes_levelRepr h).evaluates, (denotes_level h).evaluates⟩, fun f h => (denotes_flags h).evaluates, fun n h hl => (denotes_header n hl).evaluates,
    fun s h => (denotes_scoped h).evaluates, fun e b t u g s h => ?_, fun n m h => ?_⟩
  · obtain ⟨text, h1, h2⟩ := denotes_params e b t u g s h
    exact ⟨text, h1, h2.evaluates⟩
  · exact (denotes_v3 n h.level h.valid (by rw [size_eq h.valid]; exact h.size) h.plain h.encrypted).evaluates

/-- **C121**: so `repr` tells messages apart, unlike `str` (C119): community messages with their versions, and
SNMPv3 messages by what is sent, which decides their encoding. -/
theorem C121_distinct :
    (∀ m n : Message, (∀ v ∈ m.pdu.bindings, Spec.Buildable v) → (∀ v ∈ n.pdu.bindings, Spec.Buildable v) →
      m.repr = n.repr → m = n) ∧
    (∀ (modern : Bool) (m n : V3Message), Spec.Complete m → Spec.Complete n →
      m.repr modern = n.repr modern → Spec.asSent m = Spec.asSent n ∧ m.encode = n.encode) := by
  refine ⟨fun m n hm hn h => ?_, fun modern m n hm hn h => ?_⟩
  · have h1 := C121.2.1 m hm
    rw [h] at h1
    have := C106_unambiguous _ _ _ h1 (C121.2.1 n hn)
    injection this
  · have h1 := C121.2.2.2.2.2.2.2 modern m hm
    rw [h] at h1
    have := C106_unambiguous _ _ _ h1 (C121.2.2.2.2.2.2.2 modern n hn)
    injection this with this
    refine ⟨this, ?_⟩
    have enc : ∀ m : V3Message, m.encode = (Spec.asSent m).encode := by
      intro m
      obtain ⟨hd, sp, ep, pr, a, b⟩ := m
      cases hp : hd.flags.level.priv <;>
        simp [V3Message.encode, V3Message.serialize, V3Message.encodePayload, Spec.asSent, hp]
    rw [enc m, enc n, this]

theorem Display.decodeOctets_size {d : Asn1Data} (hv : d.Valid) {l : Bool} {x : Bytes} {tail : Subbytes}
    (h : decodeOctets d l = .ok (x, tail)) : x.length ≤ 65535 := by
  unfold decodeOctets at h
  obtain ⟨⟨o, t⟩, h1, h2⟩ := bind_ok h
  injection h2 with h2
  simp only [Prod.mk.injEq] at h2
  obtain ⟨rfl, -⟩ := h2
  obtain ⟨b, hb, h3, -⟩ := asn1Decode_ok hv h1
  rw [octetStringConstruct_eq hb] at h3
  split at h3
  · cases h3
  · injection h3 with h3
    subst h3
    omega

/-- **C121**: every message that was received has the properties that `C121` asks for, and is printed whole; so
evaluating its `repr` gives the message that was received. -/
theorem C121_received :
    (∀ (types : List PduType) (data : Bytes) (m : Message) (tail : Subbytes),
      Message.decode types (.bytes data) = .ok (m, tail) → Evaluates m.repr (.message m)) ∧
    (∀ (modern : Bool) (data : Bytes) (m : V3Message), V3Message.decode (.bytes data) = .ok m →
      Spec.Complete m ∧ Evaluates (m.repr modern) (.v3Message m)) := by
  refine ⟨fun types data m tail h => C121.2.1 m (((C119_received 0 []).1 types data m tail h).1),
    fun modern data m h => ?_⟩
  obtain ⟨r1, r2, -⟩ := (C119_received 0 []).2 data m h
  have key : Spec.Complete m ∧ Spec.asSent m = m := by
    unfold V3Message.decode at h
    obtain ⟨⟨m', tail⟩, h0, h'⟩ := bind_ok h
    injection h' with h'
    subst h'
    obtain ⟨b, hb, h1, -⟩ := asn1Decode_ok (Asn1Data.valid_bytes data) h0
    unfold V3Message.deserialize at h1
    obtain ⟨⟨v, d1⟩, h2, h1⟩ := bind_ok h1
    simp only at h1
    split at h1
    · cases h1
    obtain ⟨⟨hd, d2⟩, h3, h1⟩ := bind_ok h1
    obtain ⟨⟨sp, d3⟩, h4, h1⟩ := bind_ok h1
    have v1 := decodeVersion_tail hb h2
    have v2 := asn1Decode_tail v1 h3
    have v3 := asn1Decode_tail v2 h4
    obtain ⟨b4, hb4, h5, -⟩ := asn1Decode_ok v2 h4
    have hsize : sp.copy.length ≤ 65535 := by
      rw [octetStringConstruct_eq hb4] at h5
      split at h5
      · cases h5
      · injection h5 with h5
        subst h5
        omega
    have hlevel : Spec.LevelOk hd.flags.level := by
      obtain ⟨b3, hb3, h6, -⟩ := asn1Decode_ok v1 h3
      unfold HeaderData.deserialize at h6
      obtain ⟨⟨i, e1⟩, k1, h6⟩ := bind_ok h6
      obtain ⟨⟨j, e2⟩, k2, h6⟩ := bind_ok h6
      obtain ⟨⟨fl, e3⟩, k3, h6⟩ := bind_ok h6
      obtain ⟨⟨mo, e4⟩, k4, h6⟩ := bind_ok h6
      simp only at h6
      split at h6
      · cases h6
      split at h6
      · cases h6
      split at h6
      · cases h6
      obtain ⟨sm, k5, h6⟩ := bind_ok h6
      injection h6 with h6
      subst h6
      obtain ⟨b5, hb5, k6, -⟩ := asn1Decode_ok (asn1Decode_tail (asn1Decode_tail hb3 k1) k2) k3
      unfold MessageFlags.construct at k6
      split at k6
      · cases k6
      · obtain ⟨l, k7, k8⟩ := bind_ok k6
        injection k8 with k8
        subst k8
        unfold SecurityLevel.new at k7
        split at k7
        · cases k7
        · rename_i hnew
          injection k7 with k7
          subst k7
          intro hp
          simp only [decide_eq_true_eq] at hp hnew ⊢
          by_contra hc
          exact hnew ⟨by simpa using hp, by simpa using hc⟩
    simp only at h1
    split at h1
    · rename_i hp
      obtain ⟨⟨e, d4⟩, h6, h1⟩ := bind_ok h1
      injection h1 with h1
      subst h1
      refine ⟨⟨hlevel, ?_, hsize, (by intro hn; simp [hp] at hn), fun _ => ⟨e, rfl, decodeOctets_size v3 h6⟩⟩, ?_⟩
      · intro s hs
        simp only at hs r1
        rw [hs] at r1
        exact r1
      · simp [Spec.asSent, hp]
    · rename_i hp
      obtain ⟨⟨s, d4⟩, h6, h1⟩ := bind_ok h1
      injection h1 with h1
      subst h1
      refine ⟨⟨hlevel, ?_, hsize, fun _ => ⟨s, rfl, r2 s rfl⟩, (by intro hn; exact absurd hn hp)⟩, ?_⟩
      · intro s hs
        simp only at hs r1
        rw [hs] at r1
        exact r1
      · simp [Spec.asSent, hp]
  refine ⟨key.1, ?_⟩
  have := C121.2.2.2.2.2.2.2 modern m key.1
  rwa [key.2] at this

/-- **C121**: evaluating the `repr` of security parameters that were received gives those parameters, including the
place of the signature in the message. -/
theorem C121_received_usm (d : Asn1Data) (hd : d.Valid) (p : UsmParams) (h : UsmParams.decode d = .ok p) :
    ∃ text, p.repr = some text ∧ Evaluates text (.params p) := by
  unfold UsmParams.decode at h
  obtain ⟨⟨p', tail⟩, h0, h'⟩ := bind_ok h
  injection h' with h'
  subst h'
  obtain ⟨b, hb, h1, -⟩ := asn1Decode_ok hd h0
  unfold UsmParams.deserialize at h1
  obtain ⟨⟨x1, d1⟩, k1, h1⟩ := bind_ok h1
  obtain ⟨⟨x2, d2⟩, k2, h1⟩ := bind_ok h1
  obtain ⟨⟨x3, d3⟩, k3, h1⟩ := bind_ok h1
  obtain ⟨⟨x4, d4⟩, k4, h1⟩ := bind_ok h1
  obtain ⟨⟨x5, d5⟩, k5, h1⟩ := bind_ok h1
  obtain ⟨⟨x6, d6⟩, k6, h1⟩ := bind_ok h1
  injection h1 with h1
  subst h1
  have v4 := decodeOctets_tail (asn1Decode_tail (asn1Decode_tail (decodeOctets_tail hb k1) k2) k3) k4
  obtain ⟨b5, hb5, k7, -⟩ := asn1Decode_ok v4 k5
  rw [octetStringConstruct_eq hb5] at k7
  split at k7
  · cases k7
  injection k7 with k7
  subst k7
  exact C121.2.2.2.2.2.2.1 _ _ _ _ _ _ hb5

/-- A signature that is a slice of the octets received. -/
example : ∃ p, UsmParams.decode (.sub ⟨[9, 48, 18, 4, 1, 65, 2, 1, 1, 2, 1, 2, 4, 1, 66, 4, 2, 7, 8, 4, 0, 9], 1, 21⟩) =
      .ok p ∧
    p.repr = some ("UsmSecurityParameters(b'A', 1, 2, b'B', subbytes(b'\\t0\\x12\\x04\\x01A\\x02\\x01\\x01\\x02\\x01\\x02\\x04\\x01B\\x04\\x02\\x07\\x08\\x04\\x00\\t', " ++
      "start=17, stop=19), b'')").toList := ⟨_, rfl, by decide +kernel⟩

/-- An SNMPv3 message whose security parameters are a slice, printed by old and new versions of Python; an encrypted
one; security parameters with a slice for a signature; and a community message. -/
theorem C121_example :
    let m : V3Message := { header := ⟨7, 65507, ⟨authNoPriv, true⟩, .usm⟩,
                           scopedPDU := some ⟨⟨.response, 1, 0, 0, [⟨[1, 3], .null⟩]⟩, [0x80, 10], []⟩,
                           securityParameters := .sub ⟨[48, 1, 2, 3], 1, 3⟩ }
    let c : V3Message := { header := ⟨7, 484, ⟨authPriv, false⟩, .usm⟩, encryptedPDU := some [1, 65] }
    Spec.Complete m ∧ Spec.Complete c ∧
    m.repr true = ("SNMPv3Message(HeaderData(7, 65507, MessageFlags(authNoPriv, True), 3), " ++
      "scopedPDU=ScopedPDU(ResponsePDU(requestID=1, variableBindings=VarBindList(VarBind(OID(1, 3), NULL()))), " ++
      "b'\\x80\\n', contextName=b''), " ++
      "securityParameters=OctetString(subbytes(b'0\\x01\\x02\\x03', start=1, stop=3)))").toList ∧
    c.repr false = ("SNMPv3Message(HeaderData(7, 484, MessageFlags(authPriv, False), SecurityModel.USM), " ++
      "encryptedPDU=OctetString(b'\\x01A'), securityParameters=OctetString(b''))").toList ∧
    (UsmParams.new [65] 1 2 [66] (.sub ⟨[48, 1, 2, 3], 1, 3⟩) []).repr =
      some "UsmSecurityParameters(b'A', 1, 2, b'B', subbytes(b'0\\x01\\x02\\x03', start=1, stop=3), b'')".toList ∧
    (⟨.v2c, [65, 66], ⟨.getRequest, 0, 0, 0, []⟩⟩ : Message).repr =
      "Message(ProtocolVersion.SNMPv2c, b'AB', GetRequestPDU(variableBindings=VarBindList()))".toList := by
  refine ⟨⟨fun _ => rfl, ?_, by decide, ?_, (by intro h; cases h)⟩, ⟨fun _ => rfl, by simp, by decide, (by intro h; cases h), ?_⟩, by decide +kernel,
    by decide +kernel, by decide +kernel, by decide +kernel⟩
  · intro s hs
    injection hs with hs
    subst hs
    decide
  · intro _
    refine ⟨_, rfl, ?_⟩
    intro v hv
    rw [List.mem_singleton.1 hv]
    exact ⟨by decide +kernel, trivial⟩
  · exact fun _ => ⟨_, rfl, by decide⟩

end Snmp
