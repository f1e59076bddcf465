import Verif.Spec.Usm
import Verif.Props.Users
import Verif.Props.Priv
import Verif.UsmLemmas
/-!
# Properties C37, C43, C44: the security module
-/

namespace Snmp

/-- One event at the security module. -/
def Usm.apply (b : Backend) (c : Crypto) (u : Usm) : Spec.UsmOp → Usm
  | .config op => ⟨u.timekeeper, (u.users.apply c op).2⟩
  | .send m i n t => (u.prepareOutgoing b c m i n t).2
  | .receive m t => (u.processIncoming b c m t).2

/-- The security module after a sequence of events. -/
def Usm.after (b : Backend) (c : Crypto) (h : List Spec.UsmOp) : Usm := h.foldl (Usm.apply b c) .new

theorem Usm.after_snoc (b : Backend) (c : Crypto) (h : List Spec.UsmOp) (op : Spec.UsmOp) :
    Usm.after b c (h ++ [op]) = (Usm.after b c h).apply b c op := by simp [Usm.after]

/-! ## The registry under all events -/

theorem Localised.salt {c : Crypto} {cr : Credentials} {engineID : Bytes} {l : LocalizedCredentials}
    (h : Spec.Localised c cr engineID l) {k k' : PrivKey} (hk : l.priv = some k)
    (hk' : k' = { k with salt := k'.salt }) :
    Spec.Localised c cr engineID ⟨l.auth, some k'⟩ := by
  unfold Spec.Localised at *
  cases ha : cr.auth with
  | none => rw [ha] at h; simp only at h; rw [h.2] at hk; cases hk
  | some p =>
    obtain ⟨a, key⟩ := p
    rw [ha] at h
    simp only at h ⊢
    refine ⟨h.1, ?_⟩
    cases hp : cr.priv with
    | none => rw [hp] at h; simp only at h; rw [h.2] at hk; cases hk
    | some q =>
      obtain ⟨q, key'⟩ := q
      rw [hp] at h
      obtain ⟨-, salt, h2⟩ := h
      rw [hk] at h2
      injection h2 with h2
      refine ⟨k'.salt, congrArg some ?_⟩
      rw [hk', h2]
      cases q <;> rfl

theorem PrivKey.encrypt_key (k : PrivKey) (b : Backend) (c : Crypto) (d : Bytes) (boots time : Int) :
    (k.encrypt b c d boots time).2 = { k with salt := (k.encrypt b c d boots time).2.salt } := by
  unfold PrivKey.encrypt
  cases k.proto <;> rfl

theorem RegOk.setPriv {c : Crypto} {s : Spec.Reg} {u : Usm} (h : RegOk c s u.users)
    {engineID name : Bytes} {user : LocalizedCredentials}
    (hu : u.users.getCredentials engineID name = .ok user) {k k' : PrivKey} (hk : user.priv = some k)
    (hk' : k' = { k with salt := k'.salt }) :
    RegOk c s (u.setPriv engineID name k').users := by
  unfold UserRegistry.getCredentials at hu
  unfold Usm.setPriv
  cases he : u.users.engines.get engineID with
  | none => exact h
  | some e =>
    rw [he] at hu
    simp only [orRaise, Except.bind, RemoteEngine.getCredentials] at hu
    cases hg : e.users.get name with
    | none => rw [hg] at hu; cases hu
    | some cr =>
      rw [hg] at hu
      injection hu with hu; subst hu
      simp only
      rw [hg]
      simp only
      have hold := h.local_ engineID e he
      refine h.set_engine (e := ⟨e.count, e.namespace, e.users.set name ⟨cr.auth, some k'⟩⟩) ?_
        (h.count engineID e he) ?_
      · intro n
        have hn := hold n
        simp only
        revert hn
        cases hs : s.user e.namespace n with
        | none =>
          simp only
          intro hn
          rw [Dict.get_set]
          split
          · rename_i heq; subst heq; rw [hg] at hn; cases hn
          · exact hn
        | some x =>
          rintro ⟨l, h1, h2⟩
          simp only
          rw [Dict.get_set]
          by_cases heq : n = name
          · rw [if_pos heq]; subst heq
            rw [hg] at h1; injection h1 with h1; subst h1
            exact ⟨_, rfl, Localised.salt h2 hk hk'⟩
          · rw [if_neg heq]; exact ⟨l, h1, h2⟩
      · cases s with
        | mk a d f =>
          simp only [Spec.Reg.mk.injEq, true_and]
          funext i
          split
          · rename_i hi
            subst hi
            have := h.engine i
            simp only at this
            rw [this, he]; rfl
          · rfl

theorem Usm.prepareOutgoing_users {c : Crypto} {s : Spec.Reg} {u : Usm} (h : RegOk c s u.users)
    (b : Backend) (m : V3Message) (i n : Bytes) (t : ℚ) :
    RegOk c s (u.prepareOutgoing b c m i n t).2.users := by
  unfold Usm.prepareOutgoing
  split
  · split
    · exact h
    · rename_i user hu
      split
      · exact h
      · simp only
        split
        · split
          · exact h
          · rename_i k hk
            split
            · exact h
            · split
              · exact h
              · exact h.setPriv hu hk (PrivKey.encrypt_key _ _ _ _ _ _)
        · exact h
  · exact h

theorem Usm.processIncoming_users (u : Usm) (b : Backend) (c : Crypto) (m : V3Message) (t : ℚ) :
    (u.processIncoming b c m t).2.users = u.users := by
  unfold Usm.processIncoming
  split
  · rfl
  · simp only
    split
    · rfl
    · split
      · rfl
      · rfl
      · rfl
      · split
        · rfl
        · split
          · rfl
          · split
            · split <;> rfl
            · rfl

/-- Sending and receiving change nothing in the registry but salts. -/
theorem Usm.after_users {c : Crypto} (hc : c.Ok) (b : Backend) (h : List Spec.UsmOp) :
    RegOk c (Spec.Reg.after c (Spec.configs h)) (Usm.after b c h).users := by
  induction h using List.reverseRecOn with
  | nil => exact .empty c
  | append_singleton h op ih =>
    rw [Usm.after_snoc]
    unfold Spec.configs at *
    rw [List.filterMap_append]
    cases op with
    | config op =>
      simp only [List.filterMap_cons, List.filterMap_nil, Usm.apply]
      rw [Spec.Reg.after_snoc]
      exact (ih.step hc op).2
    | send m i n t =>
      simp only [List.filterMap_cons, List.filterMap_nil, List.append_nil]
      exact Usm.prepareOutgoing_users ih b m i n t
    | receive m t =>
      simp only [List.filterMap_cons, List.filterMap_nil, List.append_nil]
      show RegOk c _ (Usm.processIncoming _ b c m t).2.users
      rw [Usm.processIncoming_users]
      exact ih

theorem Usm.credentials_configured {c : Crypto} (hc : c.Ok) (b : Backend) (h : List Spec.UsmOp)
    {engineID name : Bytes} {user : LocalizedCredentials}
    (hu : (Usm.after b c h).users.getCredentials engineID name = .ok user) :
    ∃ ns n cr l, (Spec.Reg.after c (Spec.configs h)).engine engineID = some (ns, n) ∧
      (Spec.Reg.after c (Spec.configs h)).user ns name = some (cr, l) ∧
      Spec.Localised c cr engineID user := by
  have ok := Usm.after_users hc b h
  rw [ok.engine engineID]
  unfold UserRegistry.getCredentials at hu
  cases hg : (Usm.after b c h).users.engines.get engineID with
  | none => rw [hg] at hu; cases hu
  | some e =>
    rw [hg] at hu
    have hl := ok.local_ engineID e hg name
    simp only [orRaise, Except.bind, RemoteEngine.getCredentials] at hu
    cases hs : (Spec.Reg.after c (Spec.configs h)).user e.namespace name with
    | none => rw [hs] at hl; simp only at hl; rw [hl] at hu; cases hu
    | some x =>
      rw [hs] at hl
      obtain ⟨l, h1, h2⟩ := hl
      rw [h1] at hu
      injection hu with hu; subst hu
      exact ⟨e.namespace, e.count.toNat, x.1, x.2, rfl, by rw [hs], h2⟩

/-! ## C43 -/

theorem translateErr_ok {α : Type} {p : PyErr → Bool} {e : PyErr} {r : Res α} {x : α}
    (h : translateErr p e r = .ok x) : r = .ok x := by
  unfold translateErr at h
  split at h
  · exact h
  · split at h <;> cases h

theorem authenticate_ok {c : Crypto} {m : V3Message} {p : UsmParams} {user : LocalizedCredentials}
    (h : Usm.authenticate c m p user = .ok ()) {v : Subbytes} (hv : v.WF)
    (hm : p.wholeMsg = some v.data) (hi : p.signatureIndex = some v.start) (hs : p.signature = v.copy) :
    ∃ auth before after, user.auth = some auth ∧
      (m.header.flags.level.priv = true → user.priv.isSome = true) ∧
      v.data = before ++ p.signature ++ after ∧ after.length = v.data.length - v.stop ∧
      p.signature.length = auth.proto.n ∧
      p.signature =
        (c.hmac auth.proto auth.key (before ++ List.replicate auth.proto.n 0 ++ after)).take
          auth.proto.n := by
  unfold Usm.authenticate at h
  split at h
  · cases h
  · rename_i auth ha
    split at h
    · cases h
    · rename_i hp
      simp only at h
      split at h
      · cases h
      · rename_i hlen
        rw [hm, hi] at h
        simp only [orRaise, Except.bind] at h
        split at h
        · cases h
        · rename_i hsig
          have hlen : p.signature.length = auth.proto.n := by
            rw [Decidable.not_not] at hlen
            simpa [AuthProto.padding] using hlen
          have hcl : v.copy.length = v.stop - v.start := by
            rw [Subbytes.copy_eq_contents, Subbytes.contents_length hv]
          obtain ⟨hw1, hw2⟩ := hv
          have hsub : Subbytes.ofBytes v.data (some (v.start : Int))
              (some ((v.start + auth.proto.padding.length : Nat) : Int)) = v := by
            have e1 : v.start + auth.proto.padding.length = v.stop := by
              have : auth.proto.padding.length = v.stop - v.start := by
                rw [← hcl, ← hs, hlen]; simp [AuthProto.padding]
              omega
            rw [e1]
            exact Subbytes.ofBytes_range hw1 hw2
          have hpv : user.priv.isNone = false ∨ m.header.flags.level.priv = false := by
            simp only [Bool.and_eq_true, not_and, Bool.not_eq_true] at hp
            cases hpf : m.header.flags.level.priv with
            | false => exact .inr rfl
            | true => exact .inl (hp hpf)
          obtain ⟨before, after, q1, q2, q3⟩ := C02_replace v ⟨hw1, hw2⟩ auth.proto.padding
          refine ⟨auth, before, after, ha, ?_, by rw [hs]; exact q1, ?_, hlen, ?_⟩
          · intro hpf
            rcases hpv with hpv | hpv
            · cases hu : user.priv with
              | none => rw [hu] at hpv; cases hpv
              | some x => rfl
            · rw [hpf] at hpv; cases hpv
          · rw [q1]
            simp only [List.length_append]
            omega
          · rw [Decidable.not_not] at hsig
            rw [← hsig, AuthKey.sign]
            rw [hsub, q3]
            rfl

/-- What C43 asks of the message `w`, the user's keys and the flag: the signature field of the message
has the length of the user's authentication protocol and is the MAC, under the user's key, of the message
with that field zeroed; and with the privacy flag the user has a privacy key. -/
def Spec.Authentic (c : Crypto) (user : LocalizedCredentials) (w : Bytes) (privFlag : Bool) : Prop :=
  ∃ (auth : AuthKey) (before signature after : Bytes), user.auth = some auth ∧
    w = before ++ signature ++ after ∧
    Spec.signatureField w = some (signature, after.length) ∧
    signature.length = auth.proto.n ∧
    signature = (c.hmac auth.proto auth.key
      (before ++ List.replicate signature.length 0 ++ after)).take signature.length ∧
    (privFlag = true → user.priv.isSome = true)

/-- C43: if a received message with the authentication flag is accepted, or is refused only for its
time, or has any effect on the security module, then its engine and user were registered and it is
authentic for that user; and an accepted message is labelled with that engine and user. -/
theorem C43_authentic (u : Usm) (b : Backend) (c : Crypto) (t : ℚ) (w : Bytes) (m : V3Message)
    (hdec : V3Message.decode (.bytes w) = .ok m) (hauth : m.header.flags.level.auth = true)
    (heff : (∃ r, (u.processIncoming b c m t).1 = .ok r) ∨
      (u.processIncoming b c m t).1 = .error .notInTimeWindow ∨ (u.processIncoming b c m t).2 ≠ u) :
    ∃ p user, UsmParams.decode m.securityParameters = .ok p ∧
      u.users.getCredentials p.engineID p.userName = .ok user ∧
      Spec.Authentic c user w m.header.flags.level.priv ∧
      ∀ r, (u.processIncoming b c m t).1 = .ok r →
        r.header = m.header ∧ r.securityEngineID = some p.engineID ∧ r.securityName = some p.userName := by
  unfold Usm.processIncoming at heff ⊢
  cases hp : UsmParams.decode m.securityParameters with
  | error e =>
    have hinc : ParseOnly (UsmParams.decode m.securityParameters) := by
      obtain ⟨s, hs, hw, -⟩ := V3Message.decode_data hdec
      rw [hs]
      intro e he
      unfold UsmParams.decode at he
      cases hd : asn1Decode sequenceTag UsmParams.deserialize (.sub s) false false with
      | error e' =>
        rw [hd] at he
        injection he with he; subst he
        exact asn1Decode_parseOnly (Asn1Data.valid_sub hw)
          (fun d hd _ => UsmParams.deserialize_parseOnly hd) _ _ _ hd
      | ok x => rw [hd] at he; cases he
    have := hinc e hp
    subst this
    simp [hp] at heff
  | ok p =>
    simp only [hp, hauth, Bool.not_true, Bool.false_eq_true, ↓reduceIte] at heff ⊢
    cases hu : u.users.getCredentials p.engineID p.userName with
    | error e =>
      rw [hu] at heff
      exfalso
      have : e = .invalidEngineID ∨ e = .invalidUserName := by
        unfold UserRegistry.getCredentials RemoteEngine.getCredentials at hu
        cases he : u.users.engines.get p.engineID with
        | none => rw [he] at hu; left; simpa [orRaise, Except.bind] using hu.symm
        | some x =>
          rw [he] at hu
          cases he' : x.users.get p.userName with
          | none =>
            simp only [orRaise, Except.bind, he'] at hu
            right; simpa using hu.symm
          | some y => simp [orRaise, Except.bind, he'] at hu
      rcases this with rfl | rfl <;> simp at heff
    | ok user =>
      rw [hu] at heff
      simp only at heff
      refine ⟨p, user, rfl, hu, ?_⟩
      simp only
      cases ha : Usm.authenticate c { m with
          securityEngineID := some p.engineID, securityName := some p.userName } p user with
      | error e =>
        exfalso
        rw [ha] at heff
        have he : e ≠ .notInTimeWindow := by
          rintro rfl
          unfold Usm.authenticate at ha
          split at ha
          · cases ha
          · split at ha
            · cases ha
            · simp only at ha
              split at ha
              · cases ha
              · obtain ⟨v, -, -, h1, h2, -⟩ := signatureField_of hdec hp
                rw [h1, h2] at ha
                simp only [orRaise, Except.bind] at ha
                split at ha <;> cases ha
        simp [he] at heff
      | ok x =>
        obtain ⟨v, hv, hvd, h1, h2, h3, h4⟩ := signatureField_of hdec hp
        obtain ⟨auth, before, after, q1, q2, q3, q4, q5, q6⟩ :=
          authenticate_ok ha hv (by rw [hvd]; exact h1) h2 h3
        rw [hvd] at q3 q4
        refine ⟨⟨auth, before, p.signature, after, q1, q3, by rw [h4, q4], q5, ?_, q2⟩, ?_⟩
        · rw [q5]; exact q6
        · intro r hr
          simp only at hr
          split at hr
          · cases hr
          · split at hr
            · split at hr
              · have hx := translateErr_ok hr
                · obtain ⟨pl, -, hx⟩ := bind_ok hx
                  obtain ⟨s, -, hx⟩ := bind_ok hx
                  injection hx with hx; subst hx
                  exact ⟨rfl, rfl, rfl⟩
              · cases hr
            · injection hr with hr; subst hr; exact ⟨rfl, rfl, rfl⟩

/-- C43 over histories: the key used is that configured for the named user in the namespace of the
registered engine, localised to the engine. -/
theorem C43_configured (b : Backend) (c : Crypto) (hc : c.Ok) (h : List Spec.UsmOp) (t : ℚ) (w : Bytes)
    (m r : V3Message) (hdec : V3Message.decode (.bytes w) = .ok m)
    (hauth : m.header.flags.level.auth = true)
    (hok : ((Usm.after b c h).processIncoming b c m t).1 = .ok r) :
    ∃ engineID name ns n cr l user, r.securityEngineID = some engineID ∧ r.securityName = some name ∧
      (Spec.Reg.after c (Spec.configs h)).engine engineID = some (ns, n) ∧
      (Spec.Reg.after c (Spec.configs h)).user ns name = some (cr, l) ∧
      Spec.Localised c cr engineID user ∧ Spec.Authentic c user w r.header.flags.level.priv := by
  obtain ⟨p, user, -, hu, ha, hr⟩ := C43_authentic _ b c t w m hdec hauth (.inl ⟨r, hok⟩)
  obtain ⟨h1, h2, h3⟩ := hr r hok
  obtain ⟨ns, n, cr, l, k1, k2, k3⟩ := Usm.credentials_configured hc b h hu
  exact ⟨p.engineID, p.userName, ns, n, cr, l, user, h2, h3, k1, k2, k3, by rw [h1]; exact ha⟩

/-! ## C44 -/

theorem octetStringNew_ok {d : Bytes} {x : Asn1Data} (h : octetStringNew (.bytes d) = .ok x) :
    x = .bytes d ∧ d.length ≤ 0xffff := by
  unfold octetStringNew at h
  rw [Asn1Data.len_valid (Asn1Data.valid_bytes d)] at h
  simp only [Except.bind] at h
  split at h
  · cases h
  · rename_i hl
    injection h with h
    exact ⟨h.symm, Nat.not_lt.1 hl⟩

theorem layout_unique {a b a' b' : Bytes} {n : Nat} (hn : 0 < n)
    (h : ∀ p : Bytes, p.length = n → a ++ p ++ b = a' ++ p ++ b') : a = a' ∧ b = b' := by
  have key : ∀ {a b a' b' : Bytes}, (∀ p : Bytes, p.length = n → a ++ p ++ b = a' ++ p ++ b') →
      ¬ a.length < a'.length := by
    intro a b a' b' h hlt
    have hget : ∀ x : UInt8, a'[a.length]? = some x := by
      intro x
      have := congrArg (·[a.length]?) (h (List.replicate n x) (by simp))
      simp only [List.append_assoc] at this
      rw [List.getElem?_append_right (Nat.le_refl _), List.getElem?_append_left hlt,
        Nat.sub_self, List.getElem?_append_left (by simpa using hn)] at this
      rw [← this]
      simp [hn]
    have h0 := hget 0
    rw [hget 1] at h0
    exact absurd h0 (by decide)
  have hlen : a.length = a'.length := by
    have h1 := key h
    have h2 := key fun p hp => (h p hp).symm
    omega
  have := h (List.replicate n 0) (by simp)
  simp only [List.append_assoc] at this
  obtain ⟨h1, h2⟩ := List.append_inj this hlen
  exact ⟨h1, List.append_cancel_left h2⟩

theorem sign_length {c : Crypto} (hc : c.Ok) (a : AuthKey) (d : Bytes) :
    (a.sign c d).length = a.proto.n := by
  unfold AuthKey.sign
  rw [List.length_take, hc.hmac_length]
  cases a.proto <;> rfl

/-- What is sent, and what a receiver's parsers make of it. -/
theorem finish_ok {c : Crypto} (hc : c.Ok) {m : V3Message} {engineID name salt : Bytes}
    {boots time : Int} {auth : AuthKey} {w : Bytes} (hh : m.header.Good) (hp : m.PayloadGood)
    (h : Usm.finish c m engineID boots time name auth.proto.padding salt (some auth) = .ok w) :
    ∃ params before after, (UsmParams.new engineID boots time name (.bytes auth.proto.padding)
        salt).encode = .ok params ∧
      ({ m with securityParameters := .bytes params } : V3Message).encode =
        .ok (before ++ auth.proto.padding ++ after) ∧
      w = before ++ auth.sign c (before ++ auth.proto.padding ++ after) ++ after ∧
      ∃ loc, V3Message.decode (.bytes w) = .ok (m.received loc) ∧
        UsmParams.decode (.sub loc) = .ok ⟨engineID, boots, time, name,
          auth.sign c (before ++ auth.proto.padding ++ after), some before.length, some w, salt⟩ := by
  unfold Usm.finish at h
  obtain ⟨params, h1, h⟩ := bind_ok h
  obtain ⟨params', h2, h⟩ := bind_ok h
  obtain ⟨rfl, hpl⟩ := octetStringNew_ok h2
  obtain ⟨plain, h3, h⟩ := bind_ok h
  simp only at h
  obtain ⟨view, h4, h⟩ := bind_ok h
  obtain ⟨loc, h5, h⟩ := bind_ok h
  injection h with hrep
  obtain ⟨pre, post, hl, hf, -⟩ := V3Message.decode_exact
    (m := { m with securityParameters := .bytes params }) hh hp hpl h3
  rw [hf] at h4
  injection h4 with h4
  subst h4
  obtain ⟨hw, hcopy⟩ := view_of_append hl.encoded
  obtain ⟨ppre, ppost, hul, hux⟩ := UsmParams.decode_exact h1
  obtain ⟨hfs, -⟩ := hux (.sub _) (Asn1Data.valid_sub hw) hcopy
  have hfs' := hfs
  simp only [Asn1Data.toSub, Subbytes.view_none] at hfs'
  rw [hfs'] at h5
  injection h5 with h5
  have hsig0 : (UsmParams.new engineID boots time name (.bytes auth.proto.padding) salt).signature =
      auth.proto.padding := rfl
  rw [hsig0] at h5
  -- the plain encoding
  have hplain : plain = (pre ++ ppre) ++ auth.proto.padding ++ (ppost ++ post) := by
    have e1 := hl.encoded
    have e2 := hul.encoded
    rw [hsig0] at e2
    rw [e1]
    show pre ++ params ++ post = _
    rw [e2]
    simp
  generalize hsig : auth.sign c plain = sig at hrep
  have hsl : sig.length = auth.proto.padding.length := by
    rw [← hsig, sign_length hc]; simp [AuthProto.padding]
  have hwe : w = (pre ++ ppre) ++ sig ++ (ppost ++ post) := by
    rw [← hrep, ← h5]
    obtain ⟨hw2, -⟩ := view_of_append hplain
    have hv : (⟨plain, pre.length + ppre.length,
        pre.length + ppre.length + auth.proto.padding.length⟩ : Subbytes) =
        ⟨plain, (pre ++ ppre).length, (pre ++ ppre).length + auth.proto.padding.length⟩ := by
      simp
    rw [hv]
    obtain ⟨be, af, q1, q2, q3⟩ := C02_replace _ hw2 sig
    rw [q3]
    simp only at q1 q2
    have hc2 := (view_of_append hplain).2
    rw [hc2, hplain] at q1
    have := List.append_inj (s₁ := be) (s₂ := pre ++ ppre) (t₁ := auth.proto.padding ++ af)
      (t₂ := auth.proto.padding ++ (ppost ++ post)) (by simpa using q1.symm) q2
    rw [this.1, List.append_cancel_left this.2]
  refine ⟨params, pre ++ ppre, ppost ++ post, h1, by rw [← hplain]; exact h3, by
    rw [← hplain, hsig]; exact hwe, ?_⟩
  -- the receiver
  have hp2 := hul.replaced sig (by rw [hsig0]; exact hsl)
  have hlen2 : (ppre ++ sig ++ ppost).length = params.length := by
    rw [hul.encoded, hsig0]; simp [hsl]
  have henc2 := hl.replaced (.bytes (ppre ++ sig ++ ppost)) (by
    show (ppre ++ sig ++ ppost).length = params.length
    exact hlen2)
  have hw3 : w = pre ++ (ppre ++ sig ++ ppost) ++ post := by rw [hwe]; simp
  have henc3 : ({ m with securityParameters := .bytes (ppre ++ sig ++ ppost) } : V3Message).encode =
      .ok w := by
    rw [hw3]; exact henc2
  obtain ⟨pre3, post3, hl3, -, hd3⟩ := V3Message.decode_exact
    (m := { m with securityParameters := .bytes (ppre ++ sig ++ ppost) }) hh hp
    (by show (ppre ++ sig ++ ppost).length ≤ 0xffff; rw [hlen2]; exact hpl) henc3
  obtain ⟨hw4, hcopy4⟩ := view_of_append hl3.encoded
  refine ⟨_, hd3, ?_⟩
  obtain ⟨pre5, post5, hul5, hux5⟩ := UsmParams.decode_exact hp2
  obtain ⟨-, hdec5⟩ := hux5 (.sub _) (Asn1Data.valid_sub hw4) hcopy4
  rw [hdec5]
  -- both layouts agree
  have hn : 0 < auth.proto.padding.length := by
    unfold AuthProto.padding; cases auth.proto <;> decide
  obtain ⟨rfl, rfl⟩ : pre3 = pre ∧ post3 = post := layout_unique (n := params.length)
    (by rw [← hlen2]; simp; omega) (fun p' hp' => by
      have a1 := hl3.replaced (.bytes p') (by
        show p'.length = (ppre ++ sig ++ ppost).length
        rw [hlen2]; exact hp')
      have a2 := hl.replaced (.bytes p') hp'
      rw [a1] at a2
      injection a2)
  obtain ⟨rfl, rfl⟩ : pre5 = ppre ∧ post5 = ppost := layout_unique (n := sig.length)
    (by omega) (fun p' hp' => by
      have a1 := hul5.replaced p' hp'
      have a2 := hul.replaced p' (by rw [hsig0]; omega)
      rw [a1] at a2
      injection a2)
  simp only [Asn1Data.toSub, Subbytes.view_none, UsmParams.new, ← hplain, hsig, List.length_append]

/-- The message with its payload as sent: encrypted if the flag says so. -/
def Spec.Protected (b : Backend) (c : Crypto) (user : LocalizedCredentials) (m : V3Message)
    (boots time : Int) (m' : V3Message) (salt : Bytes) : Prop :=
  (m.header.flags.level.priv = false ∧ m' = m ∧ salt = []) ∨
  (m.header.flags.level.priv = true ∧ ∃ k s data ct, user.priv = some k ∧ m.scopedPDU = some s ∧
    s.encode = .ok data ∧ (k.encrypt b c data boots time).1 = .ok (ct, salt) ∧ ct.length ≤ 65535 ∧
    m' = { m with encryptedPDU := some ct })

theorem prepareOutgoing_ok {u : Usm} {b : Backend} {c : Crypto} {m : V3Message} {engineID name : Bytes}
    {t : ℚ} {w : Bytes} (hauth : m.header.flags.level.auth = true)
    (h : (u.prepareOutgoing b c m engineID name t).1 = .ok w) :
    ∃ user auth m' salt, u.users.getCredentials engineID name = .ok user ∧ user.auth = some auth ∧
      Spec.Protected b c user m (u.timekeeper.getEngineTime engineID t).1
        (u.timekeeper.getEngineTime engineID t).2 m' salt ∧
      Usm.finish c m' engineID (u.timekeeper.getEngineTime engineID t).1
        (u.timekeeper.getEngineTime engineID t).2 name auth.proto.padding salt (some auth) = .ok w := by
  unfold Usm.prepareOutgoing at h
  rw [if_pos hauth] at h
  cases hu : u.users.getCredentials engineID name with
  | error e => rw [hu] at h; cases h
  | ok user =>
    rw [hu] at h
    simp only at h
    cases ha : user.auth with
    | none => rw [ha] at h; cases h
    | some auth =>
      rw [ha] at h
      simp only at h
      refine ⟨user, auth, ?_⟩
      by_cases hp : m.header.flags.level.priv = true
      · rw [if_pos hp] at h
        cases hk : user.priv with
        | none => rw [hk] at h; cases h
        | some k =>
          rw [hk] at h
          simp only at h
          cases hs : m.scopedPDU with
          | none => rw [hs] at h; cases h
          | some s =>
            rw [hs] at h
            simp only at h
            cases hd : s.encode with
            | error e => rw [hd] at h; cases h
            | ok data =>
              rw [hd] at h
              simp only at h
              obtain ⟨⟨ct, salt⟩, h1, h⟩ := bind_ok h
              simp only at h
              obtain ⟨x, h2, h⟩ := bind_ok h
              obtain ⟨rfl, hl⟩ := octetStringNew_ok h2
              exact ⟨_, salt, rfl, ha, .inr ⟨hp, k, s, data, ct, hk, hs, hd, h1, hl, rfl⟩, by
                rw [hs]; exact h⟩
      · rw [if_neg hp] at h
        exact ⟨m, [], rfl, ha, .inl ⟨by simpa using hp, rfl, rfl⟩, h⟩

theorem Protected.good {b : Backend} {c : Crypto} {user : LocalizedCredentials} {m m' : V3Message}
    {boots time : Int} {salt : Bytes} (h : Spec.Protected b c user m boots time m' salt)
    {s : ScopedPDU} (hs : m.scopedPDU = some s) (hp : Spec.PduSendable s.pdu) :
    m'.header = m.header ∧ m'.PayloadGood := by
  rcases h with ⟨h1, rfl, -⟩ | ⟨h1, k, s', data, ct, -, -, -, -, hl, rfl⟩
  · refine ⟨rfl, ?_⟩
    unfold V3Message.PayloadGood
    rw [if_neg (by simp [h1])]
    exact ⟨s, hs, hp.good⟩
  · refine ⟨rfl, ?_⟩
    unfold V3Message.PayloadGood
    rw [if_pos h1]
    exact ⟨ct, rfl, hl⟩

/-- C44: what is sent under authentication is the plain encoding, with the current estimate of the
engine's boots and time and with zeros in the signature field, except that the zeros are replaced by the
MAC of that encoding under the user's key; the payload is the user's message, encrypted if asked for. -/
theorem C44_signed (u : Usm) (b : Backend) (c : Crypto) (hc : c.Ok) (m : V3Message) (s : ScopedPDU)
    (engineID name : Bytes) (t : ℚ) (w : Bytes)
    (hh : Spec.HeaderOk m.header) (hs : m.scopedPDU = some s) (hpdu : Spec.PduSendable s.pdu)
    (hauth : m.header.flags.level.auth = true)
    (h : (u.prepareOutgoing b c m engineID name t).1 = .ok w) :
    ∃ user auth m' salt params before signature after,
      u.users.getCredentials engineID name = .ok user ∧ user.auth = some auth ∧
      Spec.Protected b c user m (u.timekeeper.getEngineTime engineID t).1
        (u.timekeeper.getEngineTime engineID t).2 m' salt ∧
      (UsmParams.new engineID (u.timekeeper.getEngineTime engineID t).1
        (u.timekeeper.getEngineTime engineID t).2 name
        (.bytes (List.replicate auth.proto.n 0)) salt).encode = .ok params ∧
      ({ m' with securityParameters := .bytes params } : V3Message).encode =
        .ok (before ++ List.replicate auth.proto.n 0 ++ after) ∧
      w = before ++ signature ++ after ∧
      signature = (c.hmac auth.proto auth.key
        (before ++ List.replicate auth.proto.n 0 ++ after)).take auth.proto.n ∧
      signature.length = auth.proto.n ∧
      Spec.signatureField w = some (signature, after.length) := by
  obtain ⟨user, auth, m', salt, h1, h2, h3, h4⟩ := prepareOutgoing_ok hauth h
  obtain ⟨hhd, hpg⟩ := Protected.good h3 hs hpdu
  obtain ⟨params, before, after, q1, q2, q3, loc, q4, q5⟩ := finish_ok hc
    (by rw [hhd]; exact ⟨hh.1, hh.2, hh.3⟩) hpg h4
  refine ⟨user, auth, m', salt, params, before, _, after, h1, h2, h3, q1, q2, q3, rfl,
    sign_length hc _ _, ?_⟩
  obtain ⟨v, v1, v2, -, v3, v4, v5⟩ := signatureField_of q4 q5
  simp only at v3 v4
  rw [v5]
  injection v3 with v3
  have hl : v.copy.length = v.stop - v.start := by
    rw [Subbytes.copy_eq_contents, Subbytes.contents_length v1]
  rw [← v4] at hl
  have hw := congrArg List.length q3
  simp only [List.length_append] at hw
  obtain ⟨w1, w2⟩ := v1
  simp only [Option.some.injEq, Prod.mk.injEq]
  exact ⟨trivial, by omega⟩

/-! ### The peer -/

theorem toBytesBE_range {n : Nat} {v : Int} {x : Bytes} (h : toBytesBE n v = .ok x) :
    0 ≤ v ∧ v < 256 ^ n := by
  unfold toBytesBE at h
  split at h
  · assumption
  · cases h

theorem decrypt_encrypt {c : Crypto} (hc : c.Ok) {enc dec : Backend} {p : PrivProto}
    (hb : p = .desCbc → dec = .openssl true → enc ≠ .pycryptodome)
    {key : Bytes} {seed seed' : Nat} {k k' : PrivKey}
    (hk : PrivKey.new p key seed = .ok k) (hk' : PrivKey.new p key seed' = .ok k')
    {boots time : Int} {data ct salt : Bytes}
    (h : (k.encrypt enc c data boots time).1 = .ok (ct, salt)) :
    ∃ trail, k'.decrypt dec c ct boots time salt = .ok (data ++ trail) := by
  have hp := (PrivKey.new_ok hk).1
  have hp' := (PrivKey.new_ok hk').1
  cases p with
  | aesCfb128 =>
    have hr : (0 ≤ boots ∧ boots < 2 ^ 32) ∧ (0 ≤ time ∧ time < 2 ^ 32) := by
      unfold PrivKey.encrypt at h
      rw [hp] at h
      simp only at h
      obtain ⟨iv, h1, -⟩ := bind_ok h
      unfold packIV at h1
      obtain ⟨x, h2, h1⟩ := bind_ok h1
      obtain ⟨y, h3, h1⟩ := bind_ok h1
      have a1 := toBytesBE_range h2
      have a2 := toBytesBE_range h3
      norm_num at a1 a2 ⊢
      exact ⟨a1, a2⟩
    obtain ⟨ct', salt', trail, q1, -, -, -, q2⟩ := C45_bytes_partial c hc enc dec .aesCfb128 hb key seed seed'
      k k' hk hk' boots time hr.1 hr.2 data
    rw [h] at q1
    simp only [Except.ok.injEq, Prod.mk.injEq] at q1
    obtain ⟨rfl, rfl⟩ := q1
    exact ⟨trail, q2⟩
  | desCbc =>
    have hr : 0 ≤ boots ∧ boots < 2 ^ 32 := by
      unfold PrivKey.encrypt at h
      rw [hp] at h
      simp only at h
      obtain ⟨iv, h1, -⟩ := bind_ok h
      have a1 := toBytesBE_range h1
      norm_num at a1 ⊢
      exact a1
    obtain ⟨ct', salt', trail, q1, -, -, -, q2⟩ := C45_bytes_partial c hc enc dec .desCbc hb key seed seed'
      k k' hk hk' boots 0 hr ⟨by omega, by norm_num⟩ data
    have e1 : (k.encrypt enc c data boots time).1 = (k.encrypt enc c data boots 0).1 := by
      unfold PrivKey.encrypt; rw [hp]
    have e2 : ∀ x y, k'.decrypt dec c x boots time y = k'.decrypt dec c x boots 0 y := by
      intro x y; unfold PrivKey.decrypt; rw [hp']
    rw [e1, q1] at h
    simp only [Except.ok.injEq, Prod.mk.injEq] at h
    obtain ⟨rfl, rfl⟩ := h
    exact ⟨trail, by rw [e2]; exact q2⟩

theorem Localised.keys {c : Crypto} (hc : c.Ok) {cr : Credentials} {engineID : Bytes}
    {l l' : LocalizedCredentials} (h : Spec.Localised c cr engineID l)
    (h' : Spec.Localised c cr engineID l') :
    l'.auth = l.auth ∧ ∀ k, l.priv = some k → ∃ p key k', cr.priv = some p ∧ l'.priv = some k' ∧
      PrivKey.new p.1 key k.salt = .ok k ∧ PrivKey.new p.1 key k'.salt = .ok k' := by
  unfold Spec.Localised at h h'
  cases ha : cr.auth with
  | none =>
    rw [ha] at h h'
    simp only at h h'
    refine ⟨by rw [h.1, h'.1], fun k hk => ?_⟩
    rw [h.2] at hk; cases hk
  | some x =>
    obtain ⟨a, key⟩ := x
    rw [ha] at h h'
    simp only at h h'
    refine ⟨by rw [h.1, h'.1], fun k hk => ?_⟩
    cases hp : cr.priv with
    | none => rw [hp] at h; simp only at h; rw [h.2] at hk; cases hk
    | some y =>
      obtain ⟨p, key'⟩ := y
      rw [hp] at h h'
      obtain ⟨-, s, h⟩ := h
      obtain ⟨-, s', h'⟩ := h'
      have hlen : ¬ (c.hash a (key' ++ engineID ++ key')).length < p.keyLen := by
        rw [hc.hash_length]
        cases a <;> cases p <;> decide
      rw [hk] at h
      injection h with h
      refine ⟨(p, key'), c.hash a (key' ++ engineID ++ key'), _, rfl, h', ?_, ?_⟩
      · subst h
        unfold PrivKey.new
        rw [if_neg hlen]
        cases p <;> rfl
      · unfold PrivKey.new
        rw [if_neg hlen]
        cases p <;> rfl

theorem authenticate_signed {c : Crypto} (hc : c.Ok) {m : V3Message} {p : UsmParams}
    {user : LocalizedCredentials} {auth : AuthKey} (ha : user.auth = some auth)
    (hpriv : m.header.flags.level.priv = true → user.priv.isSome = true) {before after w : Bytes}
    (hw : w = before ++ auth.sign c (before ++ auth.proto.padding ++ after) ++ after)
    (h1 : p.signature = auth.sign c (before ++ auth.proto.padding ++ after))
    (h2 : p.signatureIndex = some before.length) (h3 : p.wholeMsg = some w) :
    Usm.authenticate c m p user = .ok () := by
  have hpl : auth.proto.padding.length = auth.proto.n := by simp [AuthProto.padding]
  have hsl := sign_length hc auth (before ++ auth.proto.padding ++ after)
  unfold Usm.authenticate
  rw [ha]
  simp only
  rw [if_neg (by
    intro hh
    rw [Bool.and_eq_true] at hh
    have := hpriv hh.1
    cases hx : user.priv with
    | none => rw [hx] at this; cases this
    | some y => rw [hx] at hh; cases hh.2)]
  rw [if_neg (by rw [h1, hsl, hpl]; simp)]
  rw [h2, h3]
  simp only [orRaise, Except.bind]
  have hr : Subbytes.ofBytes w (some (before.length : Int))
      (some ((before.length + auth.proto.padding.length : Nat) : Int)) =
      ⟨w, before.length, before.length +
        (auth.sign c (before ++ auth.proto.padding ++ after)).length⟩ := by
    rw [hpl, hsl]
    apply Subbytes.ofBytes_range (by omega)
    rw [hw, List.length_append, List.length_append]; omega
  rw [hr]
  obtain ⟨hwf, hcp⟩ := view_of_append hw
  obtain ⟨be, af, q1, q2, q3⟩ := C02_replace _ hwf auth.proto.padding
  rw [hcp] at q1
  simp only at q1 q2
  rw [hw] at q1
  have := List.append_inj (s₁ := be) (s₂ := before)
    (t₁ := auth.sign c (before ++ auth.proto.padding ++ after) ++ af)
    (t₂ := auth.sign c (before ++ auth.proto.padding ++ after) ++ after) (by simpa using q1.symm) q2
  rw [q3, this.1, List.append_cancel_left this.2, h1, if_neg (by simp)]

/-- C44: two security modules, each after any history, that have the same credentials configured for
an engine and a user. What the one sends under authentication, the other's parser accepts and its MAC
check passes: it is refused only if its time is outside the window, and otherwise gives the same header,
the same scoped PDU, and names the engine and the user. Excluded is DES from PyCryptodome to an OpenSSL
that holds the last block back (see C45). -/
theorem C44_peer (b b' : Backend) (c : Crypto) (hc : c.Ok) (h h' : List Spec.UsmOp)
    (engineID name : Bytes) (ns ns' : String) (n n' : Nat) (cr : Credentials) (l l' : SecurityLevel)
    (hb : ∀ k, cr.priv = some (.desCbc, k) → b' = .openssl true → b ≠ .pycryptodome)
    (he : (Spec.Reg.after c (Spec.configs h)).engine engineID = some (ns, n))
    (hu : (Spec.Reg.after c (Spec.configs h)).user ns name = some (cr, l))
    (he' : (Spec.Reg.after c (Spec.configs h')).engine engineID = some (ns', n'))
    (hu' : (Spec.Reg.after c (Spec.configs h')).user ns' name = some (cr, l'))
    (m : V3Message) (s : ScopedPDU) (t t' : ℚ) (w : Bytes)
    (hh : Spec.HeaderOk m.header) (hs : m.scopedPDU = some s) (hpdu : Spec.PduSendable s.pdu)
    (hauth : m.header.flags.level.auth = true)
    (hsend : ((Usm.after b c h).prepareOutgoing b c m engineID name t).1 = .ok w) :
    ∃ r0, V3Message.decode (.bytes w) = .ok r0 ∧
      if ((Usm.after b' c h').timekeeper.updateAndVerify engineID
          ((Usm.after b c h).timekeeper.getEngineTime engineID t).1
          ((Usm.after b c h).timekeeper.getEngineTime engineID t).2 t').1 then
        ∃ r s', ((Usm.after b' c h').processIncoming b' c r0 t').1 = .ok r ∧
          r.header = m.header ∧ r.securityEngineID = some engineID ∧ r.securityName = some name ∧
          r.scopedPDU = some s' ∧ s'.contextEngineID = s.contextEngineID ∧
          s'.contextName = s.contextName ∧ Spec.SamePdu s.pdu s'.pdu
      else ((Usm.after b' c h').processIncoming b' c r0 t').1 = .error .notInTimeWindow := by
  obtain ⟨user, auth, m', salt, h1, h2, h3, h4⟩ := prepareOutgoing_ok hauth hsend
  obtain ⟨hhd, hpg⟩ := Protected.good h3 hs hpdu
  obtain ⟨params, before, after, q1, q2, q3, loc, q4, q5⟩ := finish_ok hc
    (by rw [hhd]; exact ⟨hh.1, hh.2, hh.3⟩) hpg h4
  refine ⟨_, q4, ?_⟩
  -- the credentials on both sides
  obtain ⟨ns0, n0, cr0, l0, k1, k2, k3⟩ := Usm.credentials_configured hc b h h1
  rw [he] at k1
  simp only [Option.some.injEq, Prod.mk.injEq] at k1
  obtain ⟨rfl, rfl⟩ := k1
  rw [hu] at k2
  simp only [Option.some.injEq, Prod.mk.injEq] at k2
  obtain ⟨rfl, rfl⟩ := k2
  have hx := Usm.after_users hc b' h'
  have hy : ∃ user', (Usm.after b' c h').users.getCredentials engineID name = .ok user' ∧
      Spec.Localised c cr engineID user' := by
    have he2 := hx.engine engineID
    rw [he'] at he2
    unfold UserRegistry.getCredentials
    cases hg : (Usm.after b' c h').users.engines.get engineID with
    | none => rw [hg] at he2; cases he2
    | some e =>
      rw [hg] at he2
      simp only [Option.map_some, Option.some.injEq, Prod.mk.injEq] at he2
      have hl := hx.local_ engineID e hg name
      rw [← he2.1, hu'] at hl
      obtain ⟨l1, a1, a2⟩ := hl
      refine ⟨l1, ?_, a2⟩
      simp only [orRaise, Except.bind, RemoteEngine.getCredentials, a1]
  obtain ⟨user', g1, g2⟩ := hy
  obtain ⟨f1, f2⟩ := Localised.keys hc k3 g2
  have hpr : m'.header.flags.level.priv = true → user'.priv.isSome = true := by
    intro hp
    rw [hhd] at hp
    rcases h3 with ⟨x1, -⟩ | ⟨-, k, s1, data, ct, x1, -⟩
    · rw [x1] at hp; cases hp
    · obtain ⟨p, key, k', -, y, -⟩ := f2 k x1
      rw [y]; rfl
  unfold Usm.processIncoming
  have e0 : (m'.received loc).securityParameters = .sub loc := rfl
  rw [e0, q5]
  have e1 : (m'.received loc).header = m.header := by rw [← hhd]; rfl
  simp only [e1, hauth, Bool.not_true, Bool.false_eq_true, ↓reduceIte, g1]
  rw [authenticate_signed hc (f1.trans h2) (by simpa [hhd] using hpr) q3 rfl rfl rfl]
  simp only
  split
  · rename_i hwin
    rw [hwin]
    simp only [Bool.not_true, Bool.false_eq_true, ↓reduceIte]
    rcases h3 with ⟨x1, rfl, -⟩ | ⟨x1, k, s1, data, ct, x2, x3, x4, x5, -, rfl⟩
    · rw [if_neg (by rw [x1]; simp)]
      refine ⟨_, { s with pdu := s.pdu.canon }, rfl, rfl, rfl, rfl, ?_, rfl, rfl, hpdu.canon⟩
      simp [V3Message.received, x1, hs]
    · rw [if_pos x1]
      obtain ⟨p, key, k', z0, z1, z2, z3⟩ := f2 k x2
      have hct : (V3Message.received { m with encryptedPDU := some ct } loc).encryptedPDU = some ct := by
        simp [V3Message.received, x1]
      rw [z1, hct]
      simp only
      obtain ⟨trail, hdec⟩ := decrypt_encrypt hc (enc := b) (dec := b') (p := p.1) (fun hp => by
        refine hb p.2 ?_
        rw [z0, ← hp]) z2 z3 x5
      rw [hs] at x3
      injection x3 with x3
      subst x3
      rw [hdec]
      simp only [Except.bind]
      unfold decodePlaintext
      rw [ScopedPDU.decode_exact hpdu.good x4 (Asn1Data.valid_bytes (data ++ trail)) (rest := trail) rfl
        (.inl rfl)]
      simp only [Except.bind, translateErr]
      exact ⟨_, _, rfl, rfl, rfl, rfl, rfl, rfl, rfl, hpdu.canon⟩
  · rename_i hwin
    rw [Bool.not_eq_true] at hwin
    rw [hwin]
    rfl

/-! ## C37 -/

theorem Ber.encode_small (t : Tag) (ht : t.encode.length = 1) {d : Bytes} (h : d.length < 2 ^ 31) :
    ∃ e, Ber.encode t d = .ok e ∧ e.length ≤ d.length + 6 := by
  have hlt : d.length < 256 ^ 127 := by
    have : (2 ^ 31 : Nat) < 256 ^ 127 := by norm_num
    omega
  obtain ⟨l, hll, -, -⟩ := encodeLength_ok hlt
  have h2 := encodeLength_length (k := 4) (by omega) (by omega) hll
  refine ⟨t.encode ++ l ++ d, by unfold Ber.encode; rw [hll]; rfl, ?_⟩
  simp only [List.length_append]; omega

theorem encodeInteger_small {n : Int} (h : -2 ^ 31 ≤ n ∧ n < 2 ^ 31) :
    ∃ e, encodeInteger n = .ok e ∧ e.length ≤ 10 := by
  have hin : IntType.integer32.inRange n = true := by
    rw [IntType.inRange_iff]
    exact h
  unfold encodeInteger IntType.new
  rw [if_pos hin]
  simp only [Except.bind]
  unfold Value.encode asn1Encode
  obtain ⟨bs, h1, h2, -, h4⟩ := intSerialize_spec n
  simp only [Value.serialize, h1, Except.bind]
  have hr := (IntType.inRange_iff .integer32 n).1 hin
  have hlen := h4 4 (by omega) ⟨by simpa using hr.1, by simpa using hr.2⟩
  obtain ⟨e, he, hel⟩ := Ber.encode_small IntType.integer32.tag rfl (d := bs) (by omega)
  exact ⟨e, he, by omega⟩

theorem encodeOctets_small {x : Bytes} (h : x.length ≤ 0xffff) :
    ∃ e, encodeOctets x = .ok e ∧ e.length ≤ x.length + 6 := by
  obtain ⟨e, he, hl⟩ := Ber.encode_small SmiType.octetString.tag rfl (d := x) (by omega)
  exact ⟨e, encodeOctets_of h he, hl⟩

/-- Sizes that fit: far below what a datagram can hold. -/
structure Spec.Fits (m : V3Message) (engineID name : Bytes) (payload : Nat) : Prop where
  id : m.header.id < 2 ^ 31
  size : m.header.maxSize < 2 ^ 31
  names : engineID.length + name.length ≤ 60000
  payload : payload ≤ 60000

theorem params_exist {engineID name sig salt : Bytes} {boots time : Int}
    (hn : engineID.length + name.length ≤ 60000) (hs : sig.length ≤ 100) (hsalt : salt.length ≤ 8)
    (hb : -2 ^ 31 ≤ boots ∧ boots < 2 ^ 31) (ht : -2 ^ 31 ≤ time ∧ time < 2 ^ 31) :
    ∃ p, (UsmParams.new engineID boots time name (.bytes sig) salt).encode = .ok p ∧
      p.length ≤ 65535 := by
  obtain ⟨a, ha, la⟩ := encodeOctets_small (x := engineID) (by omega)
  obtain ⟨b, hb, lb⟩ := encodeInteger_small hb
  obtain ⟨c, hc, lc⟩ := encodeInteger_small ht
  obtain ⟨d, hd, ld⟩ := encodeOctets_small (x := name) (by omega)
  obtain ⟨e, he, le⟩ := encodeOctets_small (x := sig) (by omega)
  obtain ⟨f, hf, lf⟩ := encodeOctets_small (x := salt) (by omega)
  obtain ⟨z, hz, lz⟩ := Ber.encode_small sequenceTag rfl (d := a ++ b ++ c ++ d ++ e ++ f) (by
    simp only [List.length_append]; omega)
  refine ⟨z, ?_, by simp only [List.length_append] at lz; omega⟩
  unfold UsmParams.encode asn1Encode UsmParams.serialize UsmParams.new
  simp only [ha, hb, hc, hd, he, hf, Except.bind]
  exact hz

theorem message_exists {m : V3Message} (hh : Spec.HeaderOk m.header) (hid : m.header.id < 2 ^ 31)
    (hsz : m.header.maxSize < 2 ^ 31) {params : Bytes} (hp : params.length ≤ 65535) {pay : Bytes}
    (hpay : m.encodePayload = .ok pay) (hpl : pay.length ≤ 70000) :
    ∃ e, ({ m with securityParameters := .bytes params } : V3Message).encode = .ok e := by
  have hm1 := hh.id
  have hm2 := hh.size
  obtain ⟨v, hv, lv⟩ := encodeInteger_small (n := Version.v3.value) ⟨by decide, by decide⟩
  obtain ⟨a, ha, la⟩ := encodeInteger_small (n := m.header.id) ⟨by omega, hid⟩
  obtain ⟨b, hb, lb⟩ := encodeInteger_small (n := m.header.maxSize) ⟨by omega, hsz⟩
  obtain ⟨c, hc, lc⟩ := Ber.encode_small SmiType.octetString.tag rfl
    (d := [UInt8.ofNat m.header.flags.byte]) (by simp)
  obtain ⟨d, hd, ld⟩ := encodeInteger_small (n := m.header.securityModel.value) (by
    cases m.header.securityModel; exact ⟨by decide, by decide⟩)
  obtain ⟨h, hh', lh⟩ := Ber.encode_small sequenceTag rfl (d := a ++ b ++ c ++ d) (by
    simp only [List.length_append, List.length_cons, List.length_nil] at *; omega)
  obtain ⟨q, hq, lq⟩ := Ber.encode_small SmiType.octetString.tag rfl (d := params) (by omega)
  obtain ⟨z, hz, -⟩ := Ber.encode_small sequenceTag rfl (d := v ++ h ++ q ++ pay) (by
    simp only [List.length_append, List.length_cons, List.length_nil] at *; omega)
  refine ⟨z, ?_⟩
  have e1 : m.header.encode = .ok h := by
    unfold HeaderData.encode asn1Encode HeaderData.serialize
    have e2 : m.header.flags.encode = .ok c := hc
    simp only [ha, hb, e2, hd, Except.bind]
    exact hh'
  have e3 : ({ m with securityParameters := .bytes params } : V3Message).encodePayload = .ok pay := hpay
  have e4 : (Value.octets (Asn1Data.bytes params).copy).encode = .ok q := hq
  unfold V3Message.encode asn1Encode V3Message.serialize
  simp only [hv, e1, e3, e4, Except.bind]
  exact hz

theorem octetStringNew_small {d : Bytes} (h : d.length ≤ 0xffff) :
    octetStringNew (.bytes d) = .ok (.bytes d) := by
  unfold octetStringNew
  rw [Asn1Data.len_valid (Asn1Data.valid_bytes d)]
  simp only [Except.bind]
  rw [if_neg (show ¬ (Asn1Data.bytes d).copy.length > 0xffff from Nat.not_lt.2 h)]

theorem finish_exists {c : Crypto} {m : V3Message} (hh : Spec.HeaderOk m.header) (hg : m.PayloadGood)
    (hid : m.header.id < 2 ^ 31) (hsz : m.header.maxSize < 2 ^ 31) {pay : Bytes}
    (hpay : m.encodePayload = .ok pay) (hpl : pay.length ≤ 70000) {engineID name salt : Bytes}
    {boots time : Int} (hn : engineID.length + name.length ≤ 60000) (hsalt : salt.length ≤ 8)
    (hb : -2 ^ 31 ≤ boots ∧ boots < 2 ^ 31) (ht : -2 ^ 31 ≤ time ∧ time < 2 ^ 31) (auth : AuthKey) :
    ∃ w, Usm.finish c m engineID boots time name auth.proto.padding salt (some auth) = .ok w := by
  obtain ⟨params, h1, hl⟩ := params_exist (sig := auth.proto.padding) hn
    (by unfold AuthProto.padding; rw [List.length_replicate]; cases auth.proto <;> decide) hsalt hb ht
  obtain ⟨e, he⟩ := message_exists hh hid hsz hl hpay hpl
  obtain ⟨pre, post, hlay, hf, -⟩ := V3Message.decode_exact
    (m := { m with securityParameters := .bytes params }) ⟨hh.1, hh.2, hh.3⟩ hg hl he
  obtain ⟨hw, hcopy⟩ := view_of_append hlay.encoded
  obtain ⟨ppre, ppost, hul, hux⟩ := UsmParams.decode_exact h1
  obtain ⟨hfs, -⟩ := hux (.sub _) (Asn1Data.valid_sub hw) hcopy
  unfold Usm.finish
  rw [h1]
  simp only [Except.bind]
  rw [octetStringNew_small hl]
  simp only
  rw [he]
  simp only
  rw [hf]
  simp only
  simp only [Asn1Data.toSub, Subbytes.view_none] at hfs
  rw [hfs]
  exact ⟨_, rfl⟩

/-- The user's credentials support the flags of the message. -/
def Spec.Supports (cr : Credentials) (flags : MessageFlags) : Prop :=
  cr.auth.isSome = true ∧ (flags.level.priv = true → cr.priv.isSome = true)

/-- C37, the part that holds: after any history, a request under authentication to a registered engine
by a user whose credentials support it is produced, if the estimate of the engine's boots and time is in
the range of the protocol. What is missing is that unauthenticated input keeps it there (C37_false). -/
theorem C37_partial (b : Backend) (c : Crypto) (hc : c.Ok) (h : List Spec.UsmOp)
    (engineID name : Bytes) (ns : String) (n : Nat) (cr : Credentials) (l : SecurityLevel)
    (he : (Spec.Reg.after c (Spec.configs h)).engine engineID = some (ns, n))
    (hu : (Spec.Reg.after c (Spec.configs h)).user ns name = some (cr, l))
    (m : V3Message) (s : ScopedPDU) (data : Bytes) (t : ℚ)
    (hh : Spec.HeaderOk m.header) (hs : m.scopedPDU = some s) (hpdu : Spec.PduSendable s.pdu)
    (hdata : s.encode = .ok data) (hfit : Spec.Fits m engineID name data.length)
    (hauth : m.header.flags.level.auth = true) (hsup : Spec.Supports cr m.header.flags)
    (hboots : 0 ≤ ((Usm.after b c h).timekeeper.getEngineTime engineID t).1 ∧
      ((Usm.after b c h).timekeeper.getEngineTime engineID t).1 < 2 ^ 31)
    (htime : 0 ≤ ((Usm.after b c h).timekeeper.getEngineTime engineID t).2 ∧
      ((Usm.after b c h).timekeeper.getEngineTime engineID t).2 < 2 ^ 31) :
    ∃ w, ((Usm.after b c h).prepareOutgoing b c m engineID name t).1 = .ok w := by
  have hx := Usm.after_users hc b h
  have hy : ∃ user, (Usm.after b c h).users.getCredentials engineID name = .ok user ∧
      Spec.Localised c cr engineID user := by
    have he2 := hx.engine engineID
    rw [he] at he2
    unfold UserRegistry.getCredentials
    cases hg : (Usm.after b c h).users.engines.get engineID with
    | none => rw [hg] at he2; cases he2
    | some e =>
      rw [hg] at he2
      simp only [Option.map_some, Option.some.injEq, Prod.mk.injEq] at he2
      have hl := hx.local_ engineID e hg name
      rw [← he2.1, hu] at hl
      obtain ⟨l1, a1, a2⟩ := hl
      refine ⟨l1, ?_, a2⟩
      simp only [orRaise, Except.bind, RemoteEngine.getCredentials, a1]
  obtain ⟨user, g1, g2⟩ := hy
  have hua : ∃ auth, user.auth = some auth := by
    unfold Spec.Localised at g2
    cases ha : cr.auth with
    | none => have := hsup.1; rw [ha] at this; cases this
    | some x => rw [ha] at g2; exact ⟨_, g2.1⟩
  obtain ⟨auth, hua⟩ := hua
  generalize hbt : (Usm.after b c h).timekeeper.getEngineTime engineID t = bt at hboots htime
  obtain ⟨boots, time⟩ := bt
  simp only at hboots htime
  unfold Usm.prepareOutgoing
  rw [if_pos hauth, g1]
  simp only
  rw [hua]
  simp only
  rw [hbt]
  simp only
  by_cases hp : m.header.flags.level.priv = true
  · rw [if_pos hp]
    have hup : ∃ k, user.priv = some k := by
      have hpr := hsup.2 hp
      unfold Spec.Localised at g2
      cases ha : cr.auth with
      | none => have := hsup.1; rw [ha] at this; cases this
      | some x =>
        rw [ha] at g2
        cases hcp : cr.priv with
        | none => rw [hcp] at hpr; cases hpr
        | some y => rw [hcp] at g2; obtain ⟨-, salt, g⟩ := g2; exact ⟨_, g⟩
    obtain ⟨k, hk⟩ := hup
    rw [hk]
    simp only
    rw [hs]
    simp only
    rw [hdata]
    simp only
    obtain ⟨p, key, k', -, -, z2, -⟩ := (Localised.keys hc g2 g2).2 k hk
    obtain ⟨ct, salt, trail, q1, q2, q3, q4, -⟩ := C45_bytes_partial c hc b .pycryptodome p.1
      (fun _ h => by cases h) key k.salt k.salt k k z2 z2 boots time ⟨hboots.1, by omega⟩
      ⟨htime.1, by omega⟩ data
    rw [q1]
    have hfp := hfit.payload
    simp only [Except.bind]
    rw [octetStringNew_small (show ct.length ≤ 0xffff by omega)]
    simp only
    obtain ⟨pay, hpay, hpl⟩ := Ber.encode_small SmiType.octetString.tag rfl (d := ct) (by omega)
    refine finish_exists (m := { m with scopedPDU := some s, encryptedPDU := some ct }) (pay := pay)
      (salt := salt) hh ?_ hfit.id hfit.size ?_ (by omega) hfit.names (by omega)
      ⟨by omega, hboots.2⟩ ⟨by omega, htime.2⟩ auth
    · unfold V3Message.PayloadGood
      rw [if_pos hp]
      exact ⟨ct, rfl, by omega⟩
    · unfold V3Message.encodePayload
      rw [if_pos hp]
      exact hpay
  · rw [if_neg hp]
    have hfp := hfit.payload
    refine finish_exists (pay := data) hh ?_ hfit.id hfit.size ?_ (by omega) hfit.names (by simp)
      ⟨by omega, hboots.2⟩ ⟨by omega, htime.2⟩ auth
    · unfold V3Message.PayloadGood
      rw [if_neg hp]
      exact ⟨s, hs, hpdu.good⟩
    · unfold V3Message.encodePayload
      rw [if_neg hp, hs]
      exact hdata

/-- A user, a registered engine. -/
def Spec.setup : List Spec.UsmOp :=
  [.config (.addUser Spec.sampleUser (fun _ => 0)), .config (.register [1] "" (fun _ => 0))]

/-- A request by that user to that engine, with or without privacy. -/
def Spec.request (priv : Bool) : V3Message :=
  { header := ⟨7, 1472, ⟨⟨true, priv⟩, true⟩, .usm⟩
    scopedPDU := some ⟨⟨.getRequest, 1, 0, 0, [⟨[1, 3, 6], .null⟩]⟩, [1], []⟩ }

theorem setup_user (c : Crypto) : ∃ cr l,
    (Spec.Reg.after c (Spec.configs Spec.setup)).engine [1] = some ("", 1) ∧
    (Spec.Reg.after c (Spec.configs Spec.setup)).user "" [97] = some (cr, l) ∧
    cr.auth.isSome = true ∧ cr.priv.isSome = true := by
  simp [Spec.Reg.after, Spec.configs, Spec.setup, Spec.sampleUser, Spec.Reg.step, Spec.Reg.register,
    Spec.Reg.addUser, Spec.Reg.empty, Credentials.new, AuthProto.computeKey, orSecret, Except.bind,
    Spec.supported, SecurityLevel.lt, authPriv]

theorem request_sendable : Spec.PduSendable ⟨.getRequest, 1, 0, 0, [⟨[1, 3, 6], .null⟩]⟩ := by
  refine ⟨?_, fun v hv => ?_⟩
  · unfold Spec.FieldsOk; decide
  · rw [List.mem_singleton] at hv
    subst hv
    refine ⟨(oidOk_ofNat _).2 ((Oid.new_ofNat_iff _ _).1
      (show Oid.new ([1, 3, 6].map Int.ofNat) = .ok [1, 3, 6] by decide +kernel)).1,
      ⟨1, 3, [6], rfl, by unfold Spec.firstPairOk; omega⟩, by decide +kernel, ?_, ?_⟩
    · intro n h; cases h
    · intro n h; cases h

/-- C37_partial, C44: the request of the user to the engine is produced. -/
theorem request_sent (b : Backend) (c : Crypto) (hc : c.Ok) (priv : Bool) (t : ℚ) :
    ∃ w, ((Usm.after b c Spec.setup).prepareOutgoing b c (Spec.request priv) [1] [97] t).1 = .ok w := by
  obtain ⟨cr, l, h1, h2, h3, h4⟩ := setup_user c
  refine C37_partial b c hc Spec.setup [1] [97] "" 1 cr l h1 h2 (Spec.request priv) _
    [48, 26, 4, 1, 1, 4, 0, 160, 19, 2, 1, 1, 2, 1, 0, 2, 1, 0, 48, 8, 48, 6, 6, 2, 43, 6, 5, 0] t
    ⟨by show (0 : Int) ≤ 7; decide, by show (484 : Int) ≤ 1472; decide, fun _ => rfl⟩ rfl
    request_sendable (by decide +kernel) ?_ rfl ⟨h3, fun _ => h4⟩ ?_ ?_
  · exact ⟨by show (7 : Int) < _; norm_num, by show (1472 : Int) < _; norm_num, by decide, by decide⟩
  · exact ⟨le_refl _, by show (0 : Int) < _; norm_num⟩
  · exact ⟨le_refl _, by show (0 : Int) < _; norm_num⟩

/-- An unauthenticated report in the name of the engine, with engine time 2^31 - 1. -/
def Spec.hostile : Bytes :=
  [48, 60, 2, 1, 3, 48, 13, 2, 1, 1, 2, 2, 5, 192, 4, 1, 0, 2, 1, 3, 4, 20, 48, 18, 4, 1, 1, 2, 1, 0, 2,
   4, 127, 255, 255, 255, 4, 0, 4, 0, 4, 0, 48, 18, 4, 1, 1, 4, 0, 168, 11, 2, 1, 1, 2, 1, 0, 2, 1, 0,
   48, 0]

deriving instance DecidableEq for V3Message

/-- What it decodes to. -/
def Spec.hostileMessage : V3Message :=
  { header := ⟨1, 1472, ⟨noAuthNoPriv, false⟩, .usm⟩
    scopedPDU := some ⟨⟨.report, 1, 0, 0, []⟩, [1], []⟩
    securityParameters := .sub ⟨Spec.hostile, 22, 42⟩ }

/-- C37 is false of the code: after one unauthenticated datagram the request that could be sent before
raises ValueError. -/
theorem C37_false (b : Backend) (c : Crypto) (hc : c.Ok) :
    ∃ (w0 : Bytes) (m0 : V3Message), V3Message.decode (.bytes w0) = .ok m0 ∧
      m0.header.flags.level.auth = false ∧
      (∃ w, ((Usm.after b c Spec.setup).prepareOutgoing b c (Spec.request false) [1] [97] 1).1 = .ok w) ∧
      ((Usm.after b c (Spec.setup ++ [.receive m0 0])).prepareOutgoing b c (Spec.request false)
        [1] [97] 1).1 = .error .valueError := by
  refine ⟨Spec.hostile, Spec.hostileMessage, by decide +kernel, rfl, request_sent b c hc false 1, ?_⟩
  have hparams : UsmParams.decode (.sub ⟨Spec.hostile, 22, 42⟩) =
      .ok ⟨[1], 0, 2147483647, [], [], some 40, some Spec.hostile, []⟩ := by decide +kernel
  have hafter : Usm.after b c (Spec.setup ++ [.receive Spec.hostileMessage 0]) =
      ⟨(Usm.after b c Spec.setup).timekeeper.hint [1] 0 2147483647 0,
        (Usm.after b c Spec.setup).users⟩ := by
    rw [Usm.after_snoc]
    show (Usm.processIncoming _ b c Spec.hostileMessage 0).2 = _
    unfold Usm.processIncoming
    have : Spec.hostileMessage.securityParameters = .sub ⟨Spec.hostile, 22, 42⟩ := rfl
    rw [this, hparams]
    rfl
  obtain ⟨w, hw⟩ := request_sent b c hc false 1
  obtain ⟨user, auth, m', salt, h1, h2, -, -⟩ := prepareOutgoing_ok rfl hw
  rw [hafter]
  unfold Usm.prepareOutgoing
  rw [if_pos (show (Spec.request false).header.flags.level.auth = true from rfl)]
  simp only
  rw [h1]
  simp only
  rw [h2]
  simp only
  have htime : ((Usm.after b c Spec.setup).timekeeper.hint [1] 0 2147483647 0).getEngineTime [1] 1 =
      (0, 2147483648) := by
    have h0 : (Usm.after b c Spec.setup).timekeeper = .new := rfl
    rw [h0]
    simp only [TimeKeeper.hint, TimeKeeper.getEngineTime, TimeKeeper.set, TimeKeeper.assertEntry,
      TimeKeeper.new, EngineTime.hint, EngineTime.new, EngineTime.setBoots, EngineTime.setEngineTime,
      EngineTime.snmpEngineTime, pyTrunc, ↓reduceIte, maxEngineBoots]
    norm_num
  rw [htime]
  simp only [Spec.request, Bool.false_eq_true, ↓reduceIte]
  unfold Usm.finish UsmParams.encode asn1Encode UsmParams.serialize UsmParams.new
  have e1 : encodeOctets [1] = .ok [4, 1, 1] := by decide +kernel
  have e2 : encodeInteger 0 = .ok [2, 1, 0] := by decide +kernel
  have e3 : encodeInteger 2147483648 = .error .valueError := by decide +kernel
  simp only [e1, e2, e3, Except.bind]

/-- C43, C44: the hypotheses are met. With either back end, a message with privacy is produced, and a peer
with the same configuration decodes and accepts it. -/
theorem request_received (b : Backend) (hb : b ≠ .pycryptodome) (c : Crypto) (hc : c.Ok) :
    ∃ w r0 r, ((Usm.after b c Spec.setup).prepareOutgoing b c (Spec.request true) [1] [97] 1).1 = .ok w ∧
      V3Message.decode (.bytes w) = .ok r0 ∧
      ((Usm.after b c Spec.setup).processIncoming b c r0 2).1 = .ok r ∧
      r.header = (Spec.request true).header := by
  obtain ⟨w, hw⟩ := request_sent b c hc true 1
  obtain ⟨cr, l, h1, h2, h3, h4⟩ := setup_user c
  obtain ⟨r0, k1, k2⟩ := C44_peer b b c hc Spec.setup Spec.setup [1] [97] "" "" 1 1 cr l l
    (fun _ _ _ => hb) h1 h2 h1 h2 (Spec.request true) _ 1 2 w
    ⟨by show (0 : Int) ≤ 7; decide, by show (484 : Int) ≤ 1472; decide, fun _ => rfl⟩ rfl
    request_sendable rfl hw
  have h0 : (Usm.after b c Spec.setup).timekeeper = .new := rfl
  rw [h0] at k2
  rw [if_pos (by decide +kernel)] at k2
  obtain ⟨r, s', e1, e2, -⟩ := k2
  exact ⟨w, r0, r, hw, k1, e1, e2⟩

example : ∃ w r0 r, ((Usm.after (.openssl true) Spec.toyCrypto Spec.setup).prepareOutgoing (.openssl true)
      Spec.toyCrypto (Spec.request true) [1] [97] 1).1 = .ok w ∧
    V3Message.decode (.bytes w) = .ok r0 ∧
    ((Usm.after (.openssl true) Spec.toyCrypto Spec.setup).processIncoming (.openssl true)
      Spec.toyCrypto r0 2).1 = .ok r ∧ r.header = (Spec.request true).header :=
  request_received _ (by decide) _ Spec.toyCrypto_ok

end Snmp
