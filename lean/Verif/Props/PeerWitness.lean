import Verif.Props.Octets
import Verif.Props.PeerV3
import Verif.Props.V3Witness7
/-! # C102: an example -/

namespace Snmp

open VSys Spec Demo

/-- The datagrams of the examples are what the engine [1] sends, at its first boot, to a user named `name` with the secrets of user "a". -/
theorem datagram_protected {level : SecurityLevel} (hl : level.priv = false) {id : Int} {name : Bytes} {pdu : Pdu}
    (hok : datagram level id [1] name pdu ≠ []) (hf : ∀ v ∈ pdu.bindings, BindingFaithful v) (hcan : pdu.canon = pdu)
    (hlen : (datagram level id [1] name pdu).length < 65536) :
    IsProtected flatCrypto { sampleUser with userName := name } ⟨id, 1472, ⟨level, false⟩, .usm⟩ [1] 0 0 ⟨pdu, [1], []⟩
      (datagram level id [1] name pdu) := by
  have hlim : 65536 ≤ Spec.lengthLimit := by
    unfold Spec.lengthLimit
    exact le_trans (by norm_num : 65536 ≤ 256 ^ 2) (Nat.pow_le_pow_right (by decide) (by decide))
  generalize hsig : (if level.auth then List.replicate 12 2 else [] : Bytes) = signature
  have hsl : signature.length = if level.auth then 12 else 0 := by rw [← hsig]; split <;> rfl
  have hw : datagram level id [1] name pdu = Spec.v3Octets ⟨id, 1472, ⟨level, false⟩, .usm⟩
      (Spec.usmOctets (UsmParams.new [1] 0 0 name (.bytes signature) [])) (.inl ⟨pdu, [1], []⟩) := by
    unfold datagram at hok ⊢
    rw [hsig] at hok ⊢
    cases h1 : (UsmParams.new [1] 0 0 name (.bytes signature) []).encode with
    | error e => rw [h1] at hok; exact absurd rfl hok
    | ok p =>
      rw [h1] at hok
      have h2 := C98_usm _ _ h1
      simp only [bind, Except.bind] at hok ⊢
      split at hok
      · rename_i w hw
        obtain ⟨s, h3, h4⟩ := (C98_v3_partial _ w hw (by rintro s hs; cases hs; exact hf)).2 hl
        cases h3
        rw [← h2]
        exact h4
      · exact absurd rfl hok
  rw [hw] at hlen ⊢
  have hsc : (Spec.scopedOctets ⟨pdu, [1], []⟩).length < Spec.lengthLimit := by
    have hl := Spec.tlv_length 0x30 (Spec.integer 3 ++ Spec.headerOctets ⟨id, 1472, ⟨level, false⟩, .usm⟩ ++
      Spec.octetString (Spec.usmOctets (UsmParams.new [1] 0 0 name (.bytes signature) [])) ++ Spec.scopedOctets ⟨pdu, [1], []⟩)
    rw [List.length_append] at hl
    have h' : (Spec.tlv 0x30 (Spec.integer 3 ++ Spec.headerOctets ⟨id, 1472, ⟨level, false⟩, .usm⟩ ++
      Spec.octetString (Spec.usmOctets (UsmParams.new [1] 0 0 name (.bytes signature) [])) ++ Spec.scopedOctets ⟨pdu, [1], []⟩)).length <
        65536 := hlen
    omega
  have hpay := Spec.scoped_is (s := ⟨pdu, [1], []⟩) (fun v hv => (hf v hv).encodable) hsc
  simp only [hcan] at hpay
  obtain ⟨before, after, h⟩ := Spec.secured_is ⟨id, 1472, ⟨level, false⟩, .usm⟩ [1] 0 0 name [] (.inl ⟨pdu, [1], []⟩)
    (Spec.scopedOctets ⟨pdu, [1], []⟩) (if level.auth then 12 else 0) hpay
  obtain ⟨h1, h2⟩ := h signature hsl
  have h3 : Spec.v3Octets ⟨id, 1472, ⟨level, false⟩, .usm⟩ (Spec.usmOctets (UsmParams.new [1] 0 0 name (.bytes signature) []))
      (.inl ⟨pdu, [1], []⟩) = before ++ signature ++ after := h1
  rw [h3] at hlen
  refine ⟨before, signature, after, [], .inl ⟨pdu, [1], []⟩, h3, h2 (by omega), fun ha => ⟨.hmacSha, rfl, ?_⟩, fun _ => rfl, fun hp => ?_⟩
  · rw [← hsig, if_pos ha]; rfl
  · rw [hl] at hp; cases hp

/-- Every binding of the examples is readable. -/
theorem demo_readable {t : PduType} {name : List Nat} {v : Value} (hv : ValueReadable v) (h : OidReadable name) :
    PduReadable ⟨t, 0, 0, 0, [⟨name, v⟩]⟩ := by
  refine ⟨⟨by show (_ : Int) ≤ 0; decide, by show (0 : Int) ≤ _; decide⟩, ⟨by show (_ : Int) ≤ 0; decide, by show (0 : Int) ≤ _; decide⟩,
    ⟨by show (_ : Int) ≤ 0; decide, by show (0 : Int) ≤ _; decide⟩, le_refl _, le_refl _, fun _ => ⟨by show (0 : Int) ≤ 18; decide, ?_⟩, ?_⟩
  · show (0 : Int) ≤ ((List.length [(⟨name, v⟩ : VarBind)] : Nat) : Int); simp
  · intro x hx
    simp only [List.mem_singleton] at hx
    subst hx
    exact ⟨h, hv⟩

/-- An agent sends such a datagram, in the first second of its first boot. -/
theorem demo_sends {h : List VEvent} {level : SecurityLevel} (hl : level.priv = false) {id : Int} (hid : 0 ≤ id ∧ id ≤ 2147483647)
    {name : Bytes} {pdu : Pdu} (hr : PduReadable pdu) (hf : ∀ v ∈ pdu.bindings, BindingFaithful v) (hcan : pdu.canon = pdu)
    (hlen : (datagram level id [1] name pdu).length < 65536 ∧ (datagram level id [1] name pdu).length ≠ 0)
    (ht : level.auth = true → name = [97] ∧ Timely demoCfg (demo none) demoUsers h [1] 0 0 0) :
    PeerSends demoCfg (demo none) demoUsers h [1] name ⟨id, 1472, ⟨level, false⟩, .usm⟩ ⟨pdu, [1], []⟩ (datagram level id [1] name pdu) 0 := by
  refine ⟨{ sampleUser with userName := name }, 0, 0, rfl, ⟨hid, ⟨by show (484 : Int) ≤ 1472; decide, by show (1472 : Int) ≤ _; decide⟩, ?_,
    by simp, by simp, hr, by omega⟩, by decide, by decide,
    datagram_protected hl (fun h0 => hlen.2 (by rw [h0]; rfl)) hf hcan hlen.1, ?_, ?_⟩
  · intro hp; rw [show level.priv = false from hl] at hp; cases hp
  · intro hp; rw [show level.priv = false from hl] at hp; cases hp
  · intro ha
    obtain ⟨rfl, ht'⟩ := ht ha
    exact ⟨⟨rfl, [], fun _ => 0, [], true, rfl, by decide +kernel⟩, ht'⟩

/-- Non-vacuity of C102: the hypotheses are met in turn by an authenticated request of a manager that knows no engine ID, and by the datagrams of
an agent whose engine ID is [1]. -/
theorem C102_example :
    (after demoCfg (demo none) (Demo.third ++ [.hear (datagram authNoPriv 3 [1] [97] aResponse) 0, deliver 0, at_ 0 0, at_ 0 0])).threads
      0 = .done 0 (.bindings aResponse.bindings) := by
  have hc := demo_createdOn none (.inl rfl)
  have hs := demo_seeded none (.inl rfl)
  have hw0 : FromWire demoUsers := by intro m t h; simp [demoUsers] at h
  have p2 : Possible Demo.second := possible_left (b := gets _ 0 _ _ _) third_possible
  have p1 : Possible Demo.first := possible_left (b := gets _ 0 _ _ _) p2
  have e1 : (demo none).engineID = none ∧
      (after demoCfg (demo none) Demo.first).mgr.fails.length = 0 ∧ (after demoCfg (demo none) Demo.second).mgr.fails.length = 0 ∧
      (after demoCfg (demo none) Demo.third).mgr.fails.length = 0 ∧
      (after demoCfg (demo none) Demo.third).mgr.sent.map Demo.marks =
        [some ((3, true, authNoPriv), ([1], [97])), some ((2, true, authNoPriv), ([1], [97])), some ((1, true, noAuthNoPriv), ([], []))] := by
    decide +kernel
  obtain ⟨m1, f1, f2, f3, marks⟩ := e1
  rw [List.length_eq_zero_iff] at f1 f2 f3
  have hn : ∀ n : Nat, n ≤ 9 → OidReadable [1, 3, 6, 1, 6, 3, 15, 1, 1, n, 0] ∧ OidFaithful [1, 3, 6, 1, 6, 3, 15, 1, 1, n, 0] := by
    intro n hn
    refine ⟨⟨⟨by simp, ?_, 1, 3, _, rfl, by decide, by decide⟩, by simp⟩, 1, 3, _, rfl, by decide, by decide, by simp [firstPairOk]⟩
    intro x hx
    simp only [List.mem_cons, List.not_mem_nil, or_false] at hx
    omega
  have report : ∀ {h : List VEvent} {level : SecurityLevel}, level.priv = false → ∀ {id : Int}, 0 ≤ id ∧ id ≤ 2147483647 → ∀ {name : Bytes} {n : Nat}, n ≤ 9 →
      (datagram level id [1] name (aReport [1, 3, 6, 1, 6, 3, 15, 1, 1, n, 0])).length < 65536 ∧
      (datagram level id [1] name (aReport [1, 3, 6, 1, 6, 3, 15, 1, 1, n, 0])).length ≠ 0 →
      (level.auth = true → name = [97] ∧ Timely demoCfg (demo none) demoUsers h [1] 0 0 0) →
      PeerSends demoCfg (demo none) demoUsers h [1] name ⟨id, 1472, ⟨level, false⟩, .usm⟩ ⟨aReport [1, 3, 6, 1, 6, 3, 15, 1, 1, n, 0], [1], []⟩
        (datagram level id [1] name (aReport [1, 3, 6, 1, 6, 3, 15, 1, 1, n, 0])) 0 := by
    intro h level hl id hid name n hn' hlen ht
    refine demo_sends hl hid (demo_readable (by show (0 : Int) ≤ 1 ∧ (1 : Int) ≤ _; decide) (hn n hn').1) ?_ rfl hlen ht
    intro v hv
    simp only [aReport, List.mem_singleton] at hv
    subst hv
    exact ⟨(hn n hn').2, fun o ho => by cases ho⟩
  obtain ⟨d0, s0, -, k⟩ := C102_unknown_partial hc hw0 hs (by decide) m1 ⟨.getRequest, 0, 0, 0, []⟩ [97] authNoPriv 10 1 0 1 (input 0) 0 (input 0) (input 0)
    (by show (0 : ℚ) < 0 + 10; norm_num) (by show (0 : ℚ) < min (0 + 10) (0 + 1); norm_num) Demo.first rfl p1 f1
  have marks1 : (after demoCfg (demo none) Demo.first).mgr.sent.map Demo.marks = [some ((1, true, noAuthNoPriv), ([], []))] := by
    decide +kernel
  rw [s0] at marks1
  simp only [List.map_cons, List.map_nil, List.cons.injEq, and_true] at marks1
  obtain ⟨d1, q, id, s1, q1, q2, q3, -, -, k⟩ :
      ∃ d1 q id, (after demoCfg (demo none) Demo.second).mgr.sent = [d1, d0] ∧ _ ∧ _ ∧ _ ∧ _ ∧ _ ∧ _ :=
    k _ _ [1] (datagram noAuthNoPriv 1 [1] [] (aReport unknownEngineIDs)) 0 (input 0) (input 0) (input 0)
      (report (n := 4) rfl (by decide) (by decide) (by decide +kernel) nofun) rfl
      (answer_to marks1 rfl rfl rfl (.inl rfl)) ⟨rfl, _, _, rfl, rfl⟩ p2 f2
  have marks2 : (after demoCfg (demo none) Demo.second).mgr.sent.map Demo.marks =
        [some ((2, true, authNoPriv), ([1], [97])), some ((1, true, noAuthNoPriv), ([], []))] := by
      decide +kernel
  rw [s1] at marks2
  simp only [List.map_cons, List.map_nil, List.cons.injEq, and_true] at marks2
  have unheard : ¬ HeardFrom demoCfg.crypto demoUsers [1] ∧ ∀ w t m p, VEvent.hear w t ∈ Demo.second → V3Message.decode (.bytes w) = .ok m →
        m.header.flags.level.auth = true → UsmParams.decode m.securityParameters = .ok p → p.engineID ≠ [1] := by
    refine ⟨?_, ?_⟩
    · rintro ⟨h1, w, m, t, h2, e, -⟩
      have : UsmOp.receive m t ∈ demoUsers := by rw [e]; simp
      simp [demoUsers] at this
    · intro w t m p hw hd ha
      simp only [Demo.second, Demo.first, waits, gets, List.cons_append, List.nil_append, List.mem_cons, VEvent.hear.injEq,
        reduceCtorEq, List.not_mem_nil, or_false, false_or] at hw
      obtain ⟨rfl, rfl⟩ := hw
      have : (V3Message.decode (.bytes (datagram noAuthNoPriv 1 [1] [] (aReport unknownEngineIDs)))).toOption.map
          (fun m => m.header.flags.level.auth) = some false := by decide +kernel
      rw [hd] at this
      simp only [Except.toOption, Option.map_some, Option.some.injEq] at this
      rw [this] at ha; cases ha
  obtain ⟨d2, s2, -, k⟩ : ∃ d2, (after demoCfg (demo none) Demo.third).mgr.sent = d2 :: (after demoCfg (demo none) Demo.second).mgr.sent ∧
      _ ∧ _ :=
    k _ _ (datagram authNoPriv 2 [1] [97] (aReport notInTimeWindows)) 0 (input 0) (input 0) (input 0)
      (report (n := 2) rfl (by decide) (by decide) (by decide +kernel) (fun _ => ⟨rfl, by decide, .inl unheard⟩))
      (answer_to marks2.1 rfl rfl rfl (.inl rfl)) ⟨rfl, _, _, rfl, rfl⟩ third_possible f3
  rw [s2, s1] at marks
  simp only [List.map_cons, List.map_nil, List.cons.injEq, and_true] at marks
  have hv : BindingReadable ⟨[1, 3, 6], .null⟩ := ⟨⟨⟨by decide, by decide, 1, 3, _, rfl, by decide, by decide⟩, by simp⟩, trivial⟩
  have := k _ _ (datagram authNoPriv 3 [1] [97] aResponse) 0 (input 0) (input 0) (input 0)
    (demo_sends rfl (by decide) (demo_readable hv.2 hv.1) ?_ rfl (by decide +kernel) (fun _ => ⟨rfl, by decide, .inr (.inr ?_)⟩))
    (answer_to marks.1 rfl rfl rfl (.inr ⟨rfl, rfl, rfl, ⟨fun _ => rfl, fun _ h => h⟩⟩)) rfl
  · rw [q1] at this; exact this
  · intro v hv
    obtain rfl := List.mem_singleton.1 hv
    exact ⟨⟨1, 3, _, rfl, by decide, by decide, by simp [firstPairOk]⟩, fun o ho => by cases ho⟩
  · decide +kernel

end Snmp
