import Verif.Props.Usm
import Verif.Props.Timekeeper
/-!
# C89: which authenticated messages are accepted
-/

namespace Snmp

/-! ## Specification -/

/-- The datagram `w` decodes to the message `m` with authentication flag, which names the engine `engineID`; that
engine is registered after the configuration calls `ops`, the user named by the message is configured in the engine's
namespace, and the message is authentic for that user (see `Spec.Authentic`). -/
def Spec.Genuine (c : Crypto) (ops : List Spec.RegOp) (w : Bytes) (m : V3Message) (engineID : Bytes) : Prop :=
  V3Message.decode (.bytes w) = .ok m ∧ m.header.flags.level.auth = true ∧
  ∃ p ns n cr l user, UsmParams.decode m.securityParameters = .ok p ∧ p.engineID = engineID ∧
    (Spec.Reg.after c ops).engine engineID = some (ns, n) ∧
    (Spec.Reg.after c ops).user ns p.userName = some (cr, l) ∧
    Spec.Localised c cr engineID user ∧ Spec.Authentic c user w m.header.flags.level.priv

/-- A genuine message of the engine was received before. -/
def Spec.HeardFrom (c : Crypto) (h : List Spec.UsmOp) (engineID : Bytes) : Prop :=
  ∃ h1 w m t h2, h = h1 ++ .receive m t :: h2 ∧ Spec.Genuine c (Spec.configs h1) w m engineID

/-- Every message received is a decoded datagram. -/
def Spec.FromWire (h : List Spec.UsmOp) : Prop :=
  ∀ m t, Spec.UsmOp.receive m t ∈ h → ∃ w, V3Message.decode (.bytes w) = .ok m

/-- RFC 3414 section 3.2 (7b), with the local estimate of boots and time: not the last boot, and no earlier message of
the engine, or a later boot than estimated, or the same boot and not more than 150 seconds late. -/
def Spec.InWindow (heard : Prop) (estimate : Int × Int) (boots time : Int) : Prop :=
  boots < 2147483647 ∧ (¬ heard ∨ estimate.1 < boots ∨ boots = estimate.1 ∧ estimate.2 - time ≤ 150)

/-- The scoped PDU of the message is `s`: in the clear, or, with the privacy flag, what the user's key decrypts it
to. -/
def Spec.PayloadIs (b : Backend) (c : Crypto) (user : LocalizedCredentials) (m : V3Message) (p : UsmParams)
    (s : ScopedPDU) : Prop :=
  if m.header.flags.level.priv then
    ∃ k ct plain, user.priv = some k ∧ m.encryptedPDU = some ct ∧
      k.decrypt b c ct p.engineBoots p.engineTime p.salt = .ok plain ∧ decodePlaintext plain = .ok s
  else m.scopedPDU = some s

/-! ## Authentication succeeds -/

theorem authenticate_authentic {c : Crypto} (hc : c.Ok) {w : Bytes} {m m' : V3Message} {p : UsmParams}
    {user : LocalizedCredentials} (hdec : V3Message.decode (.bytes w) = .ok m)
    (hp : UsmParams.decode m.securityParameters = .ok p) (hm : m'.header = m.header)
    (ha : Spec.Authentic c user w m.header.flags.level.priv) : Usm.authenticate c m' p user = .ok () := by
  obtain ⟨v, hv, hvd, h1, h2, h3, h4⟩ := signatureField_of hdec hp
  obtain ⟨auth, before, sig, after, q1, q2, q3, q4, q5, q6⟩ := ha
  rw [h4] at q3
  simp only [Option.some.injEq, Prod.mk.injEq] at q3
  obtain ⟨q0, q3⟩ := q3
  subst q0
  have hl : v.copy.length = v.stop - v.start := by
    rw [Subbytes.copy_eq_contents, Subbytes.contents_length hv]
  have hwl := congrArg List.length q2
  simp only [List.length_append] at hwl
  obtain ⟨w1, w2⟩ := hv
  rw [hvd] at w2
  rw [h3] at hwl
  have hsig : p.signature = auth.sign c (before ++ auth.proto.padding ++ after) := by
    rw [q4] at q5
    exact q5
  refine authenticate_signed hc q1 (by rw [hm]; exact q6) (before := before) (after := after) (w := w) ?_ hsig ?_ h1
  · rw [← hsig]; exact q2
  · rw [h2]; congr 1; omega

theorem Usm.accepted_iff (u : Usm) (b : Backend) {c : Crypto} (hc : c.Ok) (t : ℚ) {w : Bytes} {m : V3Message}
    {p : UsmParams} (hdec : V3Message.decode (.bytes w) = .ok m) (hauth : m.header.flags.level.auth = true)
    (hp : UsmParams.decode m.securityParameters = .ok p) {user : LocalizedCredentials}
    (hu : u.users.getCredentials p.engineID p.userName = .ok user) (s : ScopedPDU) :
    (∃ r, (u.processIncoming b c m t).1 = .ok r ∧ r.scopedPDU = some s) ↔
      Spec.Authentic c user w m.header.flags.level.priv ∧
      (u.timekeeper.updateAndVerify p.engineID p.engineBoots p.engineTime t).1 = true ∧
      Spec.PayloadIs b c user m p s := by
  have core : Spec.Authentic c user w m.header.flags.level.priv →
      ((∃ r, (u.processIncoming b c m t).1 = .ok r ∧ r.scopedPDU = some s) ↔
      (u.timekeeper.updateAndVerify p.engineID p.engineBoots p.engineTime t).1 = true ∧
      Spec.PayloadIs b c user m p s) := by
    intro ha
    have hau := authenticate_authentic (m' := { m with
          securityEngineID := some p.engineID, securityName := some p.userName }) hc hdec hp rfl ha
    unfold Usm.processIncoming Spec.PayloadIs
    simp only [hp, hauth, Bool.not_true, Bool.false_eq_true, ↓reduceIte, hu, hau]
    cases hv : (u.timekeeper.updateAndVerify p.engineID p.engineBoots p.engineTime t).1 with
    | false => simp
    | true =>
      simp only [Bool.not_true, Bool.false_eq_true, ↓reduceIte, true_and]
      cases hpr : m.header.flags.level.priv with
      | false => simp
      | true =>
        simp only [↓reduceIte]
        cases hk : user.priv with
        | none => simp
        | some k =>
          cases hct : m.encryptedPDU with
          | none => simp
          | some ct =>
            simp only
            constructor
            · rintro ⟨r, hr, hs⟩
              obtain ⟨pl, x1, hr⟩ := bind_ok (translateErr_ok hr)
              obtain ⟨s', x2, hr⟩ := bind_ok hr
              injection hr with hr; subst hr
              simp only [Option.some.injEq] at hs
              subst hs
              exact ⟨k, ct, pl, rfl, rfl, x1, x2⟩
            · rintro ⟨k', ct', pl, e1, e2, x1, x2⟩
              injection e1 with e1; injection e2 with e2; subst e1; subst e2
              rw [x1]
              simp only [Except.bind, x2, translateErr]
              exact ⟨_, rfl, rfl⟩
  constructor
  · rintro ⟨r, hr, hs⟩
    obtain ⟨p', user', k1, k2, k3, -⟩ := C43_authentic u b c t w m hdec hauth (.inl ⟨r, hr⟩)
    rw [hp] at k1; injection k1 with k1; subst k1
    rw [hu] at k2; injection k2 with k2; subst k2
    exact ⟨k3, (core k3).1 ⟨r, hr, hs⟩⟩
  · rintro ⟨k3, h⟩
    exact (core k3).2 h

/-! ## The time keeper after a history of datagrams -/

theorem Usm.prepareOutgoing_time (u : Usm) (b : Backend) (c : Crypto) (m : V3Message) (e n : Bytes) (t : ℚ) :
    (u.prepareOutgoing b c m e n t).2.timekeeper = u.timekeeper := by
  have hset : ∀ k, (u.setPriv e n k).timekeeper = u.timekeeper := by
    intro k
    unfold Usm.setPriv
    split
    · rfl
    · split <;> rfl
  unfold Usm.prepareOutgoing
  split
  · split
    · rfl
    · split
      · rfl
      · simp only
        split
        · split
          · rfl
          · split
            · rfl
            · split
              · rfl
              · exact hset _
        · rfl
  · rfl

theorem Usm.receive_unauth (u : Usm) (b : Backend) (c : Crypto) (m : V3Message) (t : ℚ)
    (hauth : m.header.flags.level.auth = false) :
    (u.processIncoming b c m t).2.timekeeper = u.timekeeper ∨
    ∃ p : UsmParams, (u.processIncoming b c m t).2.timekeeper = u.timekeeper.hint p.engineID p.engineBoots p.engineTime t := by
  unfold Usm.processIncoming
  cases hp : UsmParams.decode m.securityParameters with
  | error e => exact .inl rfl
  | ok p =>
    simp only [hauth, Bool.not_false, ↓reduceIte]
    exact .inr ⟨p, rfl⟩

theorem Usm.receive_auth (u : Usm) (b : Backend) {c : Crypto} (hc : c.Ok) {w : Bytes} {m : V3Message} (t : ℚ)
    {p : UsmParams} {user : LocalizedCredentials} (hdec : V3Message.decode (.bytes w) = .ok m)
    (hauth : m.header.flags.level.auth = true) (hp : UsmParams.decode m.securityParameters = .ok p)
    (hu : u.users.getCredentials p.engineID p.userName = .ok user)
    (ha : Spec.Authentic c user w m.header.flags.level.priv) :
    (u.processIncoming b c m t).2.timekeeper =
      (u.timekeeper.updateAndVerify p.engineID p.engineBoots p.engineTime t).2 := by
  have hau := authenticate_authentic (m' := { m with
        securityEngineID := some p.engineID, securityName := some p.userName }) hc hdec hp rfl ha
  unfold Usm.processIncoming
  simp only [hp, hauth, Bool.not_true, Bool.false_eq_true, ↓reduceIte, hu, hau]
  split
  · rfl
  · split
    · split <;> rfl
    · rfl

/-- Credentials that the specification says are configured are the ones found. -/
theorem Usm.configured_credentials {c : Crypto} (hc : c.Ok) (b : Backend) (h : List Spec.UsmOp)
    {engineID name : Bytes} {ns : String} {n : Nat} {cr : Credentials} {l : SecurityLevel}
    (he : (Spec.Reg.after c (Spec.configs h)).engine engineID = some (ns, n))
    (hu : (Spec.Reg.after c (Spec.configs h)).user ns name = some (cr, l)) :
    ∃ user, (Usm.after b c h).users.getCredentials engineID name = .ok user ∧ Spec.Localised c cr engineID user := by
  have hx := Usm.after_users hc b h
  have he2 := hx.engine engineID
  rw [he] at he2
  unfold UserRegistry.getCredentials
  cases hg : (Usm.after b c h).users.engines.get engineID with
  | none => rw [hg] at he2; cases he2
  | some e =>
    rw [hg] at he2
    simp only [Option.map_some, Option.some.injEq, Prod.mk.injEq] at he2
    have hl := hx.local_ engineID e hg name
    rw [← he2.1, hu] at hl
    obtain ⟨l1, a1, a2⟩ := hl
    refine ⟨l1, ?_, a2⟩
    simp only [orRaise, Except.bind, RemoteEngine.getCredentials, a1]

/-- Two localisations of the same credentials accept the same messages. -/
theorem Spec.Authentic.same {c : Crypto} (hc : c.Ok) {cr : Credentials} {engineID : Bytes}
    {l l' : LocalizedCredentials} (h : Spec.Localised c cr engineID l) (h' : Spec.Localised c cr engineID l')
    {w : Bytes} {f : Bool} (ha : Spec.Authentic c l w f) : Spec.Authentic c l' w f := by
  obtain ⟨f1, f2⟩ := Localised.keys hc h h'
  obtain ⟨auth, before, sig, after, q1, q2, q3, q4, q5, q6⟩ := ha
  refine ⟨auth, before, sig, after, f1.trans q1, q2, q3, q4, q5, fun hf => ?_⟩
  cases hk : l.priv with
  | none => have := q6 hf; rw [hk] at this; cases this
  | some k =>
    obtain ⟨p, key, k', -, y, -⟩ := f2 k hk
    rw [y]; rfl

theorem Spec.PayloadIs.same {b : Backend} {c : Crypto} (hc : c.Ok) {cr : Credentials} {engineID : Bytes}
    {l l' : LocalizedCredentials} (h : Spec.Localised c cr engineID l) (h' : Spec.Localised c cr engineID l')
    {m : V3Message} {p : UsmParams} {s : ScopedPDU} (hx : Spec.PayloadIs b c l m p s) : Spec.PayloadIs b c l' m p s := by
  obtain ⟨f1, f2⟩ := Localised.keys hc h h'
  unfold Spec.PayloadIs at *
  split
  · rename_i hp
    rw [if_pos hp] at hx
    obtain ⟨k, ct, pl, x1, x2, x3, x4⟩ := hx
    obtain ⟨pr, key, k', -, y, z1, z2⟩ := f2 k x1
    refine ⟨k', ct, pl, y, x2, ?_, x4⟩
    rw [← x3]
    have e1 : k'.proto = k.proto ∧ k'.key = k.key ∧ k'.preIV = k.preIV := by
      obtain ⟨a1, a2, a3, a4⟩ := PrivKey.new_ok z1
      obtain ⟨b1, b2, b3, b4⟩ := PrivKey.new_ok z2
      refine ⟨b1.trans a1.symm, ?_⟩
      cases hpr : pr.1 with
      | aesCfb128 => exact ⟨(b3 hpr).1.trans (a3 hpr).1.symm, (b3 hpr).2.trans (a3 hpr).2.symm⟩
      | desCbc => exact ⟨(b4 hpr).1.trans (a4 hpr).1.symm, (b4 hpr).2.1.trans (a4 hpr).2.1.symm⟩
    obtain ⟨e1, e2, e3⟩ := e1
    unfold PrivKey.decrypt PrivKey.computeIV
    rw [e1, e2, e3]
  · rename_i hp
    rw [if_neg hp] at hx
    exact hx

theorem Spec.configs_snoc_receive (h : List Spec.UsmOp) (m : V3Message) (t : ℚ) :
    Spec.configs (h ++ [.receive m t]) = Spec.configs h := by
  simp [Spec.configs]

theorem Spec.HeardFrom.snoc {c : Crypto} {h : List Spec.UsmOp} {op : Spec.UsmOp} {i : Bytes} :
    Spec.HeardFrom c (h ++ [op]) i ↔ Spec.HeardFrom c h i ∨
      ∃ w m t, op = .receive m t ∧ Spec.Genuine c (Spec.configs h) w m i := by
  constructor
  · rintro ⟨h1, w, m, t, h2, e, g⟩
    rcases List.eq_nil_or_concat h2 with rfl | ⟨h2', x, rfl⟩
    · have := List.append_inj' e rfl
      obtain ⟨rfl, e2⟩ := this
      injection e2 with e2
      exact .inr ⟨w, m, t, e2, g⟩
    · rw [List.concat_eq_append] at e
      have e' : h ++ [op] = (h1 ++ .receive m t :: h2') ++ [x] := by rw [e]; simp
      exact .inl ⟨h1, w, m, t, h2', (List.append_inj' e' rfl).1, g⟩
  · rintro (⟨h1, w, m, t, h2, rfl, g⟩ | ⟨w, m, t, rfl, g⟩)
    · exact ⟨h1, w, m, t, h2 ++ [op], by simp, g⟩
    · exact ⟨h, w, m, t, [], rfl, g⟩

/-- After any history of calls and received datagrams, the time keeper is as after some sequence of messages, of which
the authenticated ones come from the engines that sent a genuine datagram. -/
theorem Usm.after_time {c : Crypto} (hc : c.Ok) (b : Backend) (h : List Spec.UsmOp) (hw : Spec.FromWire h) :
    ∃ ev, (Usm.after b c h).timekeeper = TimeKeeper.after ev ∧
      ∀ i, Spec.Authenticated i ev ↔ Spec.HeardFrom c h i := by
  induction h using List.reverseRecOn with
  | nil =>
    refine ⟨[], rfl, fun i => ⟨?_, ?_⟩⟩
    · rintro ⟨_, _, _, hm⟩; cases hm
    · rintro ⟨h1, _, _, _, h2, e, -⟩; simp at e
  | append_singleton h op ih =>
    obtain ⟨ev, e1, e2⟩ := ih fun m t hm => hw m t (List.mem_append_left _ hm)
    have same : (Usm.after b c (h ++ [op])).timekeeper = (Usm.after b c h).timekeeper →
        (∀ i, ¬ ∃ w m t, op = .receive m t ∧ Spec.Genuine c (Spec.configs h) w m i) →
        ∃ ev, (Usm.after b c (h ++ [op])).timekeeper = TimeKeeper.after ev ∧
          ∀ i, Spec.Authenticated i ev ↔ Spec.HeardFrom c (h ++ [op]) i := by
      intro k1 k2
      refine ⟨ev, k1.trans e1, fun i => ?_⟩
      rw [e2 i, Spec.HeardFrom.snoc]
      exact ⟨.inl, fun x => x.resolve_right (k2 i)⟩
    rw [Usm.after_snoc] at same ⊢
    cases op with
    | config op =>
      refine same rfl ?_
      rintro i ⟨w, m, t, e, -⟩; cases e
    | send m e n t =>
      refine same (Usm.prepareOutgoing_time _ b c m e n t) ?_
      rintro i ⟨w, m, t, e, -⟩; cases e
    | receive m t =>
      obtain ⟨w, hdec⟩ := hw m t (by simp)
      cases hauth : m.header.flags.level.auth with
      | false =>
        have hn : ∀ i, ¬ ∃ w' m' t', Spec.UsmOp.receive m t = .receive m' t' ∧
            Spec.Genuine c (Spec.configs h) w' m' i := by
          rintro i ⟨w, m', t', e, -, g, -⟩
          injection e with e; subst e
          rw [hauth] at g; cases g
        rcases Usm.receive_unauth (Usm.after b c h) b c m t hauth with hx | ⟨p, hx⟩
        · exact same hx hn
        · refine ⟨ev ++ [.hint p.engineID p.engineBoots p.engineTime t], ?_, fun i => ?_⟩
          · rw [TimeKeeper.after_snoc, ← e1]; exact hx
          · rw [Spec.HeardFrom.snoc, ← e2 i]
            constructor
            · rintro ⟨x, y, z, hm⟩
              rcases List.mem_append.1 hm with hm | hm
              · exact .inl ⟨x, y, z, hm⟩
              · simp at hm
            · rintro (⟨x, y, z, hm⟩ | hg)
              · exact ⟨x, y, z, List.mem_append_left _ hm⟩
              · exact absurd hg (hn i)
      | true =>
        by_cases hg : ∃ i, Spec.Genuine c (Spec.configs h) w m i
        · obtain ⟨i, hg⟩ := hg
          obtain ⟨-, -, p, ns, n, cr, l, user, g1, g2, g3, g4, g5, g6⟩ := id hg
          subst g2
          obtain ⟨user', k1, k2⟩ := Usm.configured_credentials hc b h g3 g4
          have hx := Usm.receive_auth (Usm.after b c h) b hc t hdec hauth g1 k1 (g6.same hc g5 k2)
          refine ⟨ev ++ [.auth p.engineID p.engineBoots p.engineTime t], ?_, fun j => ?_⟩
          · rw [TimeKeeper.after_snoc, ← e1]; exact hx
          · rw [Spec.HeardFrom.snoc, ← e2 j]
            constructor
            · rintro ⟨x, y, z, hm⟩
              rcases List.mem_append.1 hm with hm | hm
              · exact .inl ⟨x, y, z, hm⟩
              · simp only [List.mem_singleton, Spec.TimeEvent.auth.injEq] at hm
                obtain ⟨rfl, -⟩ := hm
                exact .inr ⟨w, m, t, rfl, hg⟩
            · rintro (⟨x, y, z, hm⟩ | ⟨w', m', t', e, -, -, p', -, -, -, -, -, g', rfl, -⟩)
              · exact ⟨x, y, z, List.mem_append_left _ hm⟩
              · injection e with e; subst e
                rw [g1] at g'; injection g' with g'; subst g'
                exact ⟨p.engineBoots, p.engineTime, t, by simp⟩
        · have hno : ∀ w' m' t' i, Spec.UsmOp.receive m t = .receive m' t' →
              ¬ Spec.Genuine c (Spec.configs h) w' m' i := by
            intro w' m' t' i e g
            injection e with e; subst e
            obtain ⟨a1, a2, p, ns, n, cr, l, user, g1, -⟩ := id g
            obtain ⟨v, -, -, x1, -⟩ := signatureField_of hdec g1
            obtain ⟨v', -, -, x2, -⟩ := signatureField_of a1 g1
            rw [x1] at x2; injection x2 with x2; subst x2
            exact hg ⟨i, g⟩
          refine same ?_ ?_
          · by_contra hne
            have hne' : ((Usm.after b c h).processIncoming b c m t).2 ≠ Usm.after b c h := by
              intro hh; exact hne (congrArg Usm.timekeeper hh)
            obtain ⟨p, user, k1, k2, k3, -⟩ := C43_authentic _ b c t w m hdec hauth (.inr (.inr hne'))
            obtain ⟨ns, n, cr, l, q1, q2, q3⟩ := Usm.credentials_configured hc b h k2
            exact hg ⟨p.engineID, hdec, hauth, p, ns, n, cr, l, user, k1, rfl, q1, q2, q3, k3⟩
          · rintro i ⟨w', m', t', e, g⟩
            exact hno w' m' t' i e g

/-! ## C89 -/

/-- **C89**. After any history of configuration calls, sends and received datagrams, a datagram with authentication
flag that decodes is accepted, with `s` as its scoped PDU, exactly if its engine is registered, its user is configured
in that engine's namespace, it is authentic under the user's key for that engine, it is inside the time window, and it
carries `s`. -/
theorem C89_accepted (b : Backend) (c : Crypto) (hc : c.Ok) (h : List Spec.UsmOp) (hw : Spec.FromWire h) (t : ℚ)
    (w : Bytes) (m : V3Message) (p : UsmParams) (hdec : V3Message.decode (.bytes w) = .ok m)
    (hp : UsmParams.decode m.securityParameters = .ok p) (hauth : m.header.flags.level.auth = true) (s : ScopedPDU) :
    (∃ r, ((Usm.after b c h).processIncoming b c m t).1 = .ok r ∧ r.scopedPDU = some s) ↔
      ∃ ns n cr l user, (Spec.Reg.after c (Spec.configs h)).engine p.engineID = some (ns, n) ∧
        (Spec.Reg.after c (Spec.configs h)).user ns p.userName = some (cr, l) ∧
        Spec.Localised c cr p.engineID user ∧ Spec.Authentic c user w m.header.flags.level.priv ∧
        Spec.InWindow (Spec.HeardFrom c h p.engineID)
          ((Usm.after b c h).timekeeper.getEngineTime p.engineID t) p.engineBoots p.engineTime ∧
        Spec.PayloadIs b c user m p s := by
  obtain ⟨ev, e1, e2⟩ := Usm.after_time hc b h hw
  have hwin : ((Usm.after b c h).timekeeper.updateAndVerify p.engineID p.engineBoots p.engineTime t).1 = true ↔
      Spec.InWindow (Spec.HeardFrom c h p.engineID)
        ((Usm.after b c h).timekeeper.getEngineTime p.engineID t) p.engineBoots p.engineTime := by
    rw [e1, C35_window, e2]
    rfl
  constructor
  · rintro ⟨r, hr, hs⟩
    obtain ⟨p', user, k1, k2, -⟩ := C43_authentic _ b c t w m hdec hauth (.inl ⟨r, hr⟩)
    rw [hp] at k1; injection k1 with k1; subst k1
    obtain ⟨ns, n, cr, l, q1, q2, q3⟩ := Usm.credentials_configured hc b h k2
    obtain ⟨a1, a2, a3⟩ := (Usm.accepted_iff _ b hc t hdec hauth hp k2 s).1 ⟨r, hr, hs⟩
    exact ⟨ns, n, cr, l, user, q1, q2, q3, a1, hwin.1 a2, a3⟩
  · rintro ⟨ns, n, cr, l, user, q1, q2, q3, a1, a2, a3⟩
    obtain ⟨user', k1, k2⟩ := Usm.configured_credentials hc b h q1 q2
    exact (Usm.accepted_iff _ b hc t hdec hauth hp k1 s).2 ⟨a1.same hc q3 k2, hwin.2 a2, a3.same hc q3 k2⟩

/-- Non-vacuity of C89: for a user with both keys and a registered engine there is a datagram, with or without
privacy, that meets the hypotheses and is accepted, whatever the back end, the cryptography and the clock. -/
theorem C89_example (b : Backend) (c : Crypto) (hc : c.Ok) (priv : Bool) (t : ℚ) :
    Spec.FromWire Spec.setup ∧
    ∃ w m p r s, V3Message.decode (.bytes w) = .ok m ∧ UsmParams.decode m.securityParameters = .ok p ∧
      m.header.flags.level = ⟨true, priv⟩ ∧ p.engineID = [1] ∧ p.userName = [97] ∧
      ((Usm.after b c Spec.setup).processIncoming b c m t).1 = .ok r ∧ r.scopedPDU = some s ∧
      s.pdu.type = .getRequest ∧ s.pdu.requestID = 1 := by
  refine ⟨fun m t hm => by simp [Spec.setup] at hm, ?_⟩
  obtain ⟨w, hsend⟩ := request_sent b c hc priv t
  obtain ⟨cr, l, h1, h2, -⟩ := setup_user c
  obtain ⟨r0, hdec, hif⟩ := C44_peer b b c hc Spec.setup Spec.setup [1] [97] "" "" 1 1 cr l l
    (fun _ _ e => by rw [e]; exact fun x => by cases x) h1 h2 h1 h2 (Spec.request priv) _ t t w
    ⟨by show (0 : Int) ≤ 7; decide, by show (484 : Int) ≤ 1472; decide, fun _ => rfl⟩ rfl request_sendable rfl hsend
  have hwin : ((Usm.after b c Spec.setup).timekeeper.updateAndVerify [1]
      ((Usm.after b c Spec.setup).timekeeper.getEngineTime [1] t).1
      ((Usm.after b c Spec.setup).timekeeper.getEngineTime [1] t).2 t).1 = true := by
    obtain ⟨ev, e1, e2⟩ := Usm.after_time hc b Spec.setup (fun m t hm => by simp [Spec.setup] at hm)
    have e3 : (Usm.after b c Spec.setup).timekeeper.getEngineTime [1] t = (0, 0) := rfl
    rw [e3, e1, C35_window, e2]
    refine ⟨by decide, .inl ?_⟩
    rintro ⟨a, w, m, t, d, e, -⟩
    have : Spec.UsmOp.receive m t ∈ Spec.setup := by rw [e]; simp
    simp [Spec.setup] at this
  rw [if_pos hwin] at hif
  obtain ⟨r, s, g1, g2, g3, g4, g5, -, -, g6⟩ := hif
  have hhd : r0.header = (Spec.request priv).header := by
    by_cases ha : r0.header.flags.level.auth = true
    · obtain ⟨p, user, -, -, -, k⟩ := C43_authentic _ b c t w r0 hdec ha (.inl ⟨r, g1⟩)
      rw [← (k r g1).1, g2]
    · exfalso
      unfold Usm.processIncoming at g1
      cases hp : UsmParams.decode r0.securityParameters with
      | error e => rw [hp] at g1; cases g1
      | ok p =>
        simp only [hp, ha, Bool.not_false, ↓reduceIte, Except.ok.injEq] at g1
        rw [← g1] at g2
        exact ha (by rw [show r0.header = _ from g2]; rfl)
  have hauth : r0.header.flags.level.auth = true := by rw [hhd]; rfl
  obtain ⟨p, user, k1, -, -, k4⟩ := C43_authentic _ b c t w r0 hdec hauth (.inl ⟨r, g1⟩)
  obtain ⟨-, k5, k6⟩ := k4 r g1
  rw [g3] at k5; rw [g4] at k6
  injection k5 with k5; injection k6 with k6
  refine ⟨w, r0, p, r, s, hdec, k1, by rw [hhd]; rfl, k5.symm, k6.symm, g1, g5, g6.1, g6.2.1⟩

end Snmp
