import Verif.Spec.Usm
import Verif.MessageLemmas
import Verif.Props.Subbytes
/-!
# Lemmas about the security module: where decoded views lie
-/

namespace Snmp

/-! ## Views stay in the message they were decoded from -/

theorem Ber.decode_data {d : Asn1Data} (hv : d.Valid) {exp : Option Tag} {lo copy : Bool} {t : Tag}
    {b : Asn1Data} {tail : Subbytes} (h : Ber.decode d exp lo copy = .ok (t, b, tail)) :
    tail.data = d.toSub.data ∧ (copy = false → ∃ s, b = .sub s ∧ s.data = d.toSub.data) := by
  rw [Ber.decode_refines hv] at h
  split at h
  · cases h
  · split at h
    · cases h
    · split at h
      · cases h
      · simp only [Except.ok.injEq, Prod.mk.injEq] at h
        obtain ⟨-, h2, h3⟩ := h
        refine ⟨by rw [← h3]; rfl, ?_⟩
        rintro rfl
        exact ⟨_, h2.symm, rfl⟩

theorem asn1Decode_data {α : Type} {tag : Tag} {des : Asn1Data → Res α} {d : Asn1Data}
    (hv : d.Valid) {lo copy : Bool} {obj : α} {tail : Subbytes}
    (h : asn1Decode tag des d lo copy = .ok (obj, tail)) :
    tail.data = d.toSub.data ∧ tail.WF ∧
    ∃ b : Asn1Data, b.Valid ∧ des b = .ok obj ∧
      (copy = false → ∃ s, b = .sub s ∧ s.data = d.toSub.data) := by
  unfold asn1Decode at h
  obtain ⟨⟨t, b, tl⟩, h1, h2⟩ := bind_ok h
  obtain ⟨x, h3, h4⟩ := bind_ok h2
  simp only [Except.ok.injEq, Prod.mk.injEq] at h4
  obtain ⟨rfl, rfl⟩ := h4
  obtain ⟨d1, d2⟩ := Ber.decode_data hv h1
  obtain ⟨v1, v2, -⟩ := Ber.decode_ok hv h1
  exact ⟨d1, v2, b, v1, h3, d2⟩

theorem decodeOctets_data {d : Asn1Data} (hv : d.Valid) {l : Bool} {x : Bytes} {tail : Subbytes}
    (h : decodeOctets d l = .ok (x, tail)) : tail.data = d.toSub.data ∧ tail.WF := by
  unfold decodeOctets at h
  obtain ⟨⟨o, t⟩, h1, h2⟩ := bind_ok h
  simp only [Except.ok.injEq, Prod.mk.injEq] at h2
  obtain ⟨-, rfl⟩ := h2
  exact ⟨(asn1Decode_data hv h1).1, (asn1Decode_data hv h1).2.1⟩

theorem decodeVersion_data {d : Asn1Data} (hv : d.Valid) {x : Version} {tail : Subbytes}
    (h : decodeVersion d = .ok (x, tail)) : tail.data = d.toSub.data ∧ tail.WF := by
  unfold decodeVersion at h
  obtain ⟨⟨o, t⟩, h1, h2⟩ := bind_ok h
  obtain ⟨v, -, h3⟩ := bind_ok h2
  simp only [Except.ok.injEq, Prod.mk.injEq] at h3
  obtain ⟨-, rfl⟩ := h3
  exact ⟨(asn1Decode_data hv h1).1, (asn1Decode_data hv h1).2.1⟩

theorem octetStringDecode_data {d : Asn1Data} (hv : d.Valid) {l : Bool} {x : Asn1Data}
    {tail : Subbytes} (h : octetStringDecode d l false = .ok (x, tail)) :
    tail.data = d.toSub.data ∧ tail.WF ∧ ∃ s, x = .sub s ∧ s.WF ∧ s.data = d.toSub.data := by
  obtain ⟨h1, h2, b, hb, hdes, hs⟩ := asn1Decode_data hv h
  obtain ⟨s, rfl, hsd⟩ := hs rfl
  rw [octetStringConstruct_eq hb] at hdes
  split at hdes
  · cases hdes
  · injection hdes with hdes
    exact ⟨h1, h2, s, hdes.symm, hb, hsd⟩

/-- The security parameters of a decoded message are a view of exactly the bytes received. -/
theorem V3Message.decode_data {w : Bytes} {m : V3Message} (h : V3Message.decode (.bytes w) = .ok m) :
    ∃ s, m.securityParameters = .sub s ∧ s.WF ∧ s.data = w ∧
      (m.header.flags.level.priv = true → ∃ ct, m.encryptedPDU = some ct) := by
  unfold V3Message.decode at h
  obtain ⟨⟨m', t⟩, h1, h2⟩ := bind_ok h
  injection h2 with h2; subst h2
  obtain ⟨-, -, b, hb, hdes, hs⟩ := asn1Decode_data (Asn1Data.valid_bytes w) h1
  obtain ⟨s, rfl, hsd⟩ := hs rfl
  have hsd : s.data = w := hsd
  unfold V3Message.deserialize at hdes
  obtain ⟨⟨v, p1⟩, e1, hdes⟩ := bind_ok hdes
  obtain ⟨d1, w1⟩ := decodeVersion_data hb e1
  dsimp only at hdes
  split at hdes
  · cases hdes
  · obtain ⟨⟨hd, p2⟩, e2, hdes⟩ := bind_ok hdes
    obtain ⟨d2, w2, -⟩ := asn1Decode_data (Asn1Data.valid_sub w1) e2
    obtain ⟨⟨ps, p3⟩, e3, hdes⟩ := bind_ok hdes
    obtain ⟨d3, w3, s', rfl, hw', hd'⟩ := octetStringDecode_data (Asn1Data.valid_sub w2) e3
    have hfin : s'.data = w := by
      rw [hd']
      show p2.data = w
      rw [d2]
      show p1.data = w
      rw [d1]
      exact hsd
    dsimp only at hdes
    split at hdes
    · obtain ⟨⟨ct, p4⟩, e4, hdes⟩ := bind_ok hdes
      injection hdes with hdes; subst hdes
      exact ⟨s', rfl, hw', hfin, fun _ => ⟨ct, rfl⟩⟩
    · rename_i hpriv
      obtain ⟨⟨sp, p4⟩, e4, hdes⟩ := bind_ok hdes
      injection hdes with hdes; subst hdes
      exact ⟨s', rfl, hw', hfin, fun h => absurd h hpriv⟩

/-- The signature of decoded security parameters lies in the message at the recorded place. -/
theorem UsmParams.decode_data {s : Subbytes} (hw : s.WF) {p : UsmParams}
    (h : UsmParams.decode (.sub s) = .ok p) :
    p.wholeMsg = some s.data ∧ ∃ v : Subbytes, v.WF ∧ v.data = s.data ∧
      p.signatureIndex = some v.start ∧ p.signature = v.copy := by
  unfold UsmParams.decode at h
  obtain ⟨⟨p', t⟩, h1, h2⟩ := bind_ok h
  injection h2 with h2; subst h2
  obtain ⟨-, -, b, hb, hdes, hs⟩ := asn1Decode_data (Asn1Data.valid_sub hw) h1
  obtain ⟨s0, rfl, hsd⟩ := hs rfl
  have hsd : s0.data = s.data := hsd
  unfold UsmParams.deserialize at hdes
  obtain ⟨⟨x1, p1⟩, e1, hdes⟩ := bind_ok hdes
  obtain ⟨d1, w1⟩ := decodeOctets_data hb e1
  obtain ⟨⟨x2, p2⟩, e2, hdes⟩ := bind_ok hdes
  obtain ⟨d2, w2, -⟩ := asn1Decode_data (Asn1Data.valid_sub w1) e2
  obtain ⟨⟨x3, p3⟩, e3, hdes⟩ := bind_ok hdes
  obtain ⟨d3, w3, -⟩ := asn1Decode_data (Asn1Data.valid_sub w2) e3
  obtain ⟨⟨x4, p4⟩, e4, hdes⟩ := bind_ok hdes
  obtain ⟨d4, w4⟩ := decodeOctets_data (Asn1Data.valid_sub w3) e4
  obtain ⟨⟨x5, p5⟩, e5, hdes⟩ := bind_ok hdes
  obtain ⟨d5, w5, v, rfl, hv, hvd⟩ := octetStringDecode_data (Asn1Data.valid_sub w4) e5
  obtain ⟨⟨x6, p6⟩, e6, hdes⟩ := bind_ok hdes
  injection hdes with hdes
  subst hdes
  have hvd : v.data = s.data := by
    rw [hvd]; show p4.data = _
    rw [d4]; show p3.data = _
    rw [d3]; show p2.data = _
    rw [d2]; show p1.data = _
    rw [d1]; exact hsd
  exact ⟨congrArg some hvd, v, hv, hvd, rfl, rfl⟩

/-! ## Where the signature lies, on the wire -/

theorem asn1Decode_view {α : Type} {tag : Tag} {des : Asn1Data → Res α} {d : Asn1Data}
    (hv : d.Valid) {lo copy : Bool} {obj : α} {tail : Subbytes}
    (h : asn1Decode tag des d lo copy = .ok (obj, tail)) :
    ∃ b : Asn1Data, b.Valid ∧ des b = .ok obj ∧ tail.WF ∧
      readTLV d.copy = some (tag, b.copy, tail.copy) ∧ (lo = false → tail.copy = []) ∧
      tail.stop = d.toSub.stop ∧
      (copy = false → ∃ s, b = .sub s ∧ s.stop + tail.copy.length = d.toSub.stop) := by
  unfold asn1Decode at h
  obtain ⟨⟨t, b, tl⟩, h1, h2⟩ := bind_ok h
  obtain ⟨x, h3, h4⟩ := bind_ok h2
  simp only [Except.ok.injEq, Prod.mk.injEq] at h4
  obtain ⟨rfl, rfl⟩ := h4
  obtain ⟨v1, v2, v3, v4, v5, v6⟩ := Ber.decode_ok hv h1
  have ht : t = tag := by
    rcases v6 with v6 | v6
    · cases v6
    · injection v6 with v6; exact v6.symm
  subst ht
  have hdl : d.copy.length = d.toSub.stop - d.toSub.start := by
    rw [Asn1Data.copy_eq, Subbytes.contents_length hv]
  rw [Ber.decode_refines hv] at h1
  split at h1
  · cases h1
  · rename_i tag' body' tail' hr
    split at h1
    · cases h1
    · split at h1
      · cases h1
      · simp only [Except.ok.injEq, Prod.mk.injEq] at h1
        obtain ⟨-, h2', h3'⟩ := h1
        refine ⟨b, v1, h3, v2, v4, v5, by rw [← h3']; rfl, ?_⟩
        rintro rfl
        refine ⟨_, h2'.symm, ?_⟩
        rw [Asn1Data.copy_eq, hr] at v4
        injection v4 with v4
        injection v4 with _ v4
        injection v4 with _ v4
        rw [← v4] at v3 ⊢
        show d.toSub.stop - tail'.length + tail'.length = _
        omega

theorem inside_skip {w : Bytes} {t : Tag} {x y : Bytes} (h : readTLV w = some (t, x, y)) :
    Spec.inside w = some x ∧ Spec.skip w = some y := by
  unfold Spec.inside Spec.skip; rw [h]; exact ⟨rfl, rfl⟩

/-- The fields of a decoded message. -/
theorem V3Message.decode_fields {w : Bytes} {m : V3Message}
    (h : V3Message.decode (.bytes w) = .ok m) :
    ∃ s m0 m1 m2 pay, m.securityParameters = .sub s ∧ s.WF ∧ Spec.inside w = some m0 ∧
      Spec.skip m0 = some m1 ∧ Spec.skip m1 = some m2 ∧ Spec.inside m2 = some s.copy ∧
      Spec.skip m2 = some pay ∧ s.stop + pay.length = w.length := by
  unfold V3Message.decode at h
  obtain ⟨⟨m', t⟩, h1, h2⟩ := bind_ok h
  injection h2 with h2; subst h2
  obtain ⟨b, hb, hdes, hw0, hr0, hlo0, hst0, hs⟩ := asn1Decode_view (Asn1Data.valid_bytes w) h1
  obtain ⟨s, rfl, hsd⟩ := hs rfl
  have hs0 : s.stop = w.length := by
    rw [hlo0 rfl] at hsd; exact hsd
  unfold V3Message.deserialize at hdes
  obtain ⟨⟨v, p1⟩, e1, hdes⟩ := bind_ok hdes
  have k1 : p1.WF ∧ Spec.skip s.copy = some p1.copy ∧ p1.stop = s.stop := by
    unfold decodeVersion at e1
    obtain ⟨⟨o, t'⟩, f1, f2⟩ := bind_ok e1
    obtain ⟨x, -, f2⟩ := bind_ok f2
    simp only [Except.ok.injEq, Prod.mk.injEq] at f2
    obtain ⟨-, rfl⟩ := f2
    obtain ⟨b, -, -, a1, a2, -, a3, -⟩ := asn1Decode_view hb f1
    exact ⟨a1, (inside_skip a2).2, a3⟩
  obtain ⟨w1, r1, st1⟩ := k1
  dsimp only at hdes
  split at hdes
  · cases hdes
  · obtain ⟨⟨hd, p2⟩, e2, hdes⟩ := bind_ok hdes
    obtain ⟨_, -, -, w2, r2, -, st2, -⟩ := asn1Decode_view (Asn1Data.valid_sub w1) e2
    obtain ⟨⟨ps, p3⟩, e3, hdes⟩ := bind_ok hdes
    obtain ⟨b3, v3, d3, w3, r3, -, st3, x3⟩ := asn1Decode_view (Asn1Data.valid_sub w2) e3
    obtain ⟨s3, rfl, y3⟩ := x3 rfl
    rw [octetStringConstruct_eq v3] at d3
    split at d3
    · cases d3
    · injection d3 with d3
      have hfin : ∀ x : V3Message, x.securityParameters = ps →
          ∃ s m0 m1 m2 pay, x.securityParameters = .sub s ∧ s.WF ∧ Spec.inside w = some m0 ∧
            Spec.skip m0 = some m1 ∧ Spec.skip m1 = some m2 ∧ Spec.inside m2 = some s.copy ∧
            Spec.skip m2 = some pay ∧ s.stop + pay.length = w.length := by
        intro x hx
        refine ⟨s3, s.copy, p1.copy, p2.copy, p3.copy, by rw [hx, ← d3], v3, (inside_skip hr0).1, r1,
          (inside_skip r2).2, (inside_skip r3).1, (inside_skip r3).2, ?_⟩
        have a1 : p2.stop = p1.stop := st2
        have a2 : s3.stop + p3.copy.length = p2.stop := y3
        omega
      dsimp only at hdes
      split at hdes
      · obtain ⟨⟨ct, p4⟩, e4, hdes⟩ := bind_ok hdes
        injection hdes with hdes; subst hdes
        exact hfin _ rfl
      · obtain ⟨⟨sp, p4⟩, e4, hdes⟩ := bind_ok hdes
        injection hdes with hdes; subst hdes
        exact hfin _ rfl

theorem decodeOctets_view {d : Asn1Data} (hv : d.Valid) {l : Bool} {x : Bytes} {tail : Subbytes}
    (h : decodeOctets d l = .ok (x, tail)) :
    tail.WF ∧ Spec.skip d.copy = some tail.copy ∧ tail.stop = d.toSub.stop := by
  unfold decodeOctets at h
  obtain ⟨⟨o, t⟩, h1, h2⟩ := bind_ok h
  simp only [Except.ok.injEq, Prod.mk.injEq] at h2
  obtain ⟨-, rfl⟩ := h2
  obtain ⟨b, -, -, a1, a2, -, a3, -⟩ := asn1Decode_view hv h1
  exact ⟨a1, (inside_skip a2).2, a3⟩

/-- The fields of decoded security parameters. -/
theorem UsmParams.decode_fields {s : Subbytes} (hw : s.WF) {p : UsmParams}
    (h : UsmParams.decode (.sub s) = .ok p) :
    ∃ (v : Subbytes) (f0 f1 f2 f3 f4 z : Bytes), v.WF ∧ v.data = s.data ∧ p.wholeMsg = some s.data ∧
      p.signatureIndex = some v.start ∧ p.signature = v.copy ∧
      Spec.inside s.copy = some f0 ∧ Spec.skip f0 = some f1 ∧ Spec.skip f1 = some f2 ∧
      Spec.skip f2 = some f3 ∧ Spec.skip f3 = some f4 ∧ Spec.inside f4 = some v.copy ∧
      Spec.skip f4 = some z ∧ v.stop + z.length = s.stop := by
  have hdata := UsmParams.decode_data hw h
  unfold UsmParams.decode at h
  obtain ⟨⟨p', t⟩, h1, h2⟩ := bind_ok h
  injection h2 with h2; subst h2
  obtain ⟨b, hb, hdes, hw0, hr0, hlo0, hst0, hs⟩ := asn1Decode_view (Asn1Data.valid_sub hw) h1
  obtain ⟨s0, rfl, hsd⟩ := hs rfl
  have hs0 : s0.stop = s.stop := by rw [hlo0 rfl] at hsd; exact hsd
  unfold UsmParams.deserialize at hdes
  obtain ⟨⟨x1, p1⟩, e1, hdes⟩ := bind_ok hdes
  obtain ⟨w1, r1, st1⟩ := decodeOctets_view hb e1
  obtain ⟨⟨x2, p2⟩, e2, hdes⟩ := bind_ok hdes
  obtain ⟨_, -, -, w2, r2, -, st2, -⟩ := asn1Decode_view (Asn1Data.valid_sub w1) e2
  obtain ⟨⟨x3, p3⟩, e3, hdes⟩ := bind_ok hdes
  obtain ⟨_, -, -, w3, r3, -, st3, -⟩ := asn1Decode_view (Asn1Data.valid_sub w2) e3
  obtain ⟨⟨x4, p4⟩, e4, hdes⟩ := bind_ok hdes
  obtain ⟨w4, r4, st4⟩ := decodeOctets_view (Asn1Data.valid_sub w3) e4
  obtain ⟨⟨x5, p5⟩, e5, hdes⟩ := bind_ok hdes
  obtain ⟨b5, v5, d5, w5, r5, -, st5, y5⟩ := asn1Decode_view (Asn1Data.valid_sub w4) e5
  obtain ⟨v, rfl, y6⟩ := y5 rfl
  rw [octetStringConstruct_eq v5] at d5
  split at d5
  · cases d5
  · injection d5 with d5
    obtain ⟨⟨x6, p6⟩, e6, hdes⟩ := bind_ok hdes
    injection hdes with hdes
    subst d5
    obtain ⟨i1, v', i2, i3, i4, i5⟩ := hdata
    subst hdes
    have i1 : v.data = s.data := by simpa [UsmParams.new] using i1
    refine ⟨v, s0.copy, p1.copy, p2.copy, p3.copy, p4.copy, p5.copy, v5, i1, congrArg some i1, rfl,
      rfl, (inside_skip hr0).1, r1, (inside_skip r2).2, (inside_skip r3).2, r4, (inside_skip r5).1,
      (inside_skip r5).2, ?_⟩
    have a1 : p1.stop = s0.stop := st1
    have a2 : p2.stop = p1.stop := st2
    have a3 : p3.stop = p2.stop := st3
    have a4 : p4.stop = p3.stop := st4
    have a5 : v.stop + p5.copy.length = p4.stop := y6
    omega

/-- The decoded signature is the signature field of the message, and lies where it was found. -/
theorem signatureField_of {w : Bytes} {m : V3Message} (h : V3Message.decode (.bytes w) = .ok m)
    {p : UsmParams} (hp : UsmParams.decode m.securityParameters = .ok p) :
    ∃ v : Subbytes, v.WF ∧ v.data = w ∧ p.wholeMsg = some w ∧ p.signatureIndex = some v.start ∧
      p.signature = v.copy ∧ Spec.signatureField w = some (p.signature, w.length - v.stop) := by
  obtain ⟨s, m0, m1, m2, pay, hs, hw, a1, a2, a3, a4, a5, a6⟩ := V3Message.decode_fields h
  obtain ⟨s', hs', -, hd, -⟩ := V3Message.decode_data h
  rw [hs] at hs'
  injection hs' with hs'; subst hs'
  rw [hs] at hp
  obtain ⟨v, f0, f1, f2, f3, f4, z, b1, b2, b3, b4, b5, c0, c1, c2, c3, c4, c5, c6, c7⟩ :=
    UsmParams.decode_fields hw hp
  rw [hd] at b2 b3
  refine ⟨v, b1, b2, b3, b4, b5, ?_⟩
  have hl : z.length + pay.length = w.length - v.stop := by omega
  simp only [Spec.signatureField, Option.bind_eq_bind, Option.bind_some, a1, a2, a3, a4, a5, c0, c1, c2, c3,
    c4, c5, c6, b5, ← hl]
  rfl

theorem Subbytes.ofBytes_range {d : Bytes} {a b : Nat} (h1 : a ≤ b) (h2 : b ≤ d.length) :
    Subbytes.ofBytes d (some (a : Int)) (some (b : Int)) = ⟨d, a, b⟩ := by
  unfold Subbytes.ofBytes
  rw [Subbytes.view_eq (Subbytes.whole_WF d)]
  simp only [Subbytes.whole, Subbytes.bounds, Subbytes.clampIndex_nat, Nat.sub_zero, Nat.zero_add]
  rw [Nat.min_eq_left h2, Nat.min_eq_left (by omega)]

end Snmp
