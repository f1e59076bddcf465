import Verif.Props.Processor
/-!
# Properties C29, C30, C32: matching of responses with requests
-/

set_option linter.unusedSimpArgs false

namespace Snmp

variable {E M : Type}

/-! ## The cases of `prepareDataElements`, for any processor -/

theorem Proto.prepare_error (p : Proto E M) (c : Cache E) (dead : Nat → Bool) {m : M} {x : PyErr}
    (h : p.classify m = .error x) : p.prepareDataElements c dead m = (.error x, c) := by
  simp only [Proto.prepareDataElements, h]

theorem Proto.prepare_none (p : Proto E M) (c : Cache E) (dead : Nat → Bool) {m : M} {id : Int}
    (h : p.classify m = .ok id) (ho : c.outstanding id = none) :
    p.prepareDataElements c dead m = (.error .responseMismatch, c) := by
  simp only [Proto.prepareDataElements, h, Cache.retrieve, ho]

theorem Proto.prepare_dead (p : Proto E M) (c : Cache E) (dead : Nat → Bool) {m : M} {id : Int}
    {e : E} (h : p.classify m = .ok id) (ho : c.outstanding id = some e)
    (hd : dead (p.handle e) = true) :
    p.prepareDataElements c dead m =
      (.error .lateResponse, if p.lateUncaches = true then c.uncache id else c) := by
  simp only [Proto.prepareDataElements, h, Cache.retrieve, ho, Proto.resolve, hd, Bool.true_and,
    ↓reduceIte]

theorem Proto.prepare_alive (p : Proto E M) (c : Cache E) (dead : Nat → Bool) {m : M} {id : Int}
    {e : E} (h : p.classify m = .ok id) (ho : c.outstanding id = some e)
    (hd : dead (p.handle e) = false) :
    p.prepareDataElements c dead m = ((p.check e m).bind fun _ => .ok (p.handle e), c) := by
  simp only [Proto.prepareDataElements, h, Cache.retrieve, ho, Proto.resolve, hd, Bool.false_and,
    Bool.false_eq_true, ↓reduceIte]

theorem community_classify (m : Message) : communityProto.classify m =
    if m.pdu.type = .response then .ok m.pdu.requestID else .error .unsupportedFeature := rfl
theorem community_check (e : CommunityEntry) (m : Message) : communityProto.check e m =
    if e.community ≠ m.community then .error .responseMismatch else .ok () := rfl
theorem v3_classify (m : V3Incoming) : v3Proto.classify m =
    if m.scopedPDU.pdu.type.isResponse then .ok m.header.id else .error .unsupportedFeature := rfl
theorem v3_check (e : V3Entry) (m : V3Incoming) : v3Proto.check e m = v3Check e m := rfl

/-! ## C29: responses to community requests -/

/-- C29: a message is handed to a handle exactly if it is a ResponsePDU whose request ID is
outstanding for that handle, which is alive, with the community of the request. -/
theorem C29_match (c : Cache CommunityEntry) (dead : Nat → Bool) (m : Message) (h : Nat) :
    (communityProto.prepareDataElements c dead m).1 = .ok h ↔
      m.pdu.type = .response ∧ ∃ e, c.outstanding m.pdu.requestID = some e ∧ e.handle = h ∧
        dead h = false ∧ e.community = m.community := by
  by_cases ht : m.pdu.type = .response
  · have hcl : communityProto.classify m = .ok m.pdu.requestID := by
      rw [community_classify, if_pos ht]
    simp only [ht, true_and]
    cases ho : c.outstanding m.pdu.requestID with
    | none => rw [communityProto.prepare_none c dead hcl ho]; simp
    | some e =>
      simp only [Option.some.injEq, exists_eq_left']
      cases hd : dead e.handle with
      | true =>
        rw [communityProto.prepare_dead c dead hcl ho hd]
        simp only [reduceCtorEq, false_iff]
        rintro ⟨rfl, h2, -⟩
        rw [hd] at h2; cases h2
      | false =>
        rw [communityProto.prepare_alive c dead hcl ho hd, community_check]
        by_cases hc : e.community = m.community
        · rw [if_neg (by simp [hc])]
          show (Except.ok e.handle : Res Nat) = _ ↔ _
          rw [Except.ok.injEq]
          constructor
          · rintro rfl; exact ⟨rfl, hd, hc⟩
          · exact fun h => h.1
        · rw [if_pos hc]
          show (Except.error _ : Res Nat) = _ ↔ _
          simp only [reduceCtorEq, false_iff]
          exact fun h => hc h.2.2
  · rw [communityProto.prepare_error c dead (x := .unsupportedFeature)
      (by rw [community_classify, if_neg ht])]
    simp [ht]

/-- C29: everything else is refused: a PDU of another class as unsupported, a response to a handle
that is gone as late, and any other as a mismatch. -/
theorem C29_refused (c : Cache CommunityEntry) (dead : Nat → Bool) (m : Message) :
    (m.pdu.type ≠ .response →
      (communityProto.prepareDataElements c dead m).1 = .error .unsupportedFeature) ∧
    (m.pdu.type = .response → c.outstanding m.pdu.requestID = none →
      (communityProto.prepareDataElements c dead m).1 = .error .responseMismatch) ∧
    (∀ e, m.pdu.type = .response → c.outstanding m.pdu.requestID = some e →
      (dead e.handle = true →
        (communityProto.prepareDataElements c dead m).1 = .error .lateResponse) ∧
      (dead e.handle = false → e.community ≠ m.community →
        (communityProto.prepareDataElements c dead m).1 = .error .responseMismatch)) := by
  refine ⟨fun h => ?_, fun h ho => ?_, fun e h ho => ⟨fun hd => ?_, fun hd hc => ?_⟩⟩
  · rw [communityProto.prepare_error c dead (by rw [community_classify, if_neg h])]
  · rw [communityProto.prepare_none c dead (by rw [community_classify, if_pos h]) ho]
  · rw [communityProto.prepare_dead c dead (by rw [community_classify, if_pos h]) ho hd]
  · rw [communityProto.prepare_alive c dead (by rw [community_classify, if_pos h]) ho hd,
      community_check, if_pos hc]
    rfl

/-- C29: receiving a message leaves every other request outstanding, and its own too unless the
handle is gone. -/
theorem C29_others (c : Cache CommunityEntry) (dead : Nat → Bool) (m : Message) (id : Int)
    (e : CommunityEntry) (ho : c.outstanding id = some e)
    (hne : id ≠ m.pdu.requestID ∨ dead e.handle = false) :
    (communityProto.prepareDataElements c dead m).2.outstanding id = some e := by
  unfold Proto.prepareDataElements
  simp only [communityProto, Cache.retrieve]
  split
  · exact ho
  · rename_i i hi
    have hid : i = m.pdu.requestID := by
      split at hi
      · injection hi with hi; exact hi.symm
      · cases hi
    subst hid
    cases ho2 : c.outstanding m.pdu.requestID with
    | none => exact ho
    | some e2 =>
      simp only [Bool.and_true]
      split
      · rename_i hdead
        simp only [Cache.uncache]
        rcases hne with h | h
        · rw [if_neg h]; exact ho
        · rw [if_neg ?_]
          · exact ho
          · rintro rfl
            rw [ho] at ho2
            injection ho2 with ho2
            rw [← ho2, h] at hdead; cases hdead
      · exact ho

/-- C29 for any number of threads and any history: if a message was handed to a handle, then it is a
ResponsePDU, and when it was looked up its request ID was outstanding for that handle, under the
entry of a call of `cache` that had returned this ID, with the community of the message; and the
handle was alive when the message was handed over. -/
theorem C29_history (r0 : Nat) (hr : Spec.Draw 32 r0)
    (h : List (PEvent CommunityEntry Message)) (hh : Spec.History 32 h) (hd : Nat) (m : Message)
    (hm : (hd, m) ∈ ((PSys.init communityProto r0).run communityProto h).delivered) :
    m.pdu.type = .response ∧ ∃ pre mid post t c,
      h = pre ++ .lookup t m :: mid ++ .resolve t :: post ∧
      ((PSys.init communityProto r0).run communityProto pre).calls c =
        .returned ⟨hd, m.community⟩ m.pdu.requestID ∧
      ((PSys.init communityProto r0).run communityProto pre).cache.outstanding m.pdu.requestID =
        some ⟨hd, m.community⟩ ∧
      ((PSys.init communityProto r0).run communityProto (pre ++ .lookup t m :: mid)).dead hd =
        false := by
  obtain ⟨pre, mid, post, t, id, e, h1, h2, h3, h4, h5, h6⟩ :=
    PSys.delivered_history communityProto (PSys.init communityProto r0) (fun _ => rfl) rfl h hd m hm
  simp only [communityProto] at h2
  split at h2
  · rename_i ht
    injection h2 with h2
    subst h2
    have he : e = ⟨hd, m.community⟩ := by
      simp only [communityProto] at h4 h5
      split at h5
      · cases h5
      · rename_i hc
        obtain ⟨eh, ec⟩ := e
        simp only [ne_eq, not_not] at hc
        simp only at h4
        rw [h4, hc]
    subst he
    have hpre : Spec.History 32 pre := fun c r hmem => hh c r (by rw [h1]; simp [hmem])
    have hi := (PInv.init communityProto (r := r0) hr).run communityProto (by decide) hpre
    obtain ⟨c, hc⟩ := hi.entry _ _ h3
    exact ⟨ht, pre, mid, post, t, c, h1, hc, h3, h6⟩
  · cases h2

/-- A delivery that does happen. -/
example : ((PSys.init communityProto 2).run communityProto
    [.start 0 ⟨10, [1]⟩, .draw 0 1, .lookup 5 ⟨.v1, [1], ⟨.response, 3, 0, 0, []⟩⟩,
     .resolve 5]).delivered = [(10, ⟨.v1, [1], ⟨.response, 3, 0, 0, []⟩⟩)] := by decide +kernel

/-- The step semantics of one thread left alone is `prepareDataElements`. -/
theorem steps_agree (p : Proto E M) (s : PSys E M) (t : Nat) (m : M) :
    let s' := ((s.step p (.lookup t m)).step p (.resolve t)).step p (.uncacheLate t)
    s'.cache = (p.prepareDataElements s.cache s.dead m).2 ∧ s'.recv t = .idle ∧
    s'.delivered = match (p.prepareDataElements s.cache s.dead m).1 with
      | .ok h => (h, m) :: s.delivered
      | .error _ => s.delivered := by
  intro s'
  cases hcl : p.classify m with
  | error x =>
    have h1 : s.step p (.lookup t m) = { s with recv := setAt s.recv t .idle } := by
      simp only [PSys.step, hcl]
    have h2 : s' = { s with recv := setAt s.recv t .idle } := by
      simp only [s', h1]
      simp only [PSys.step, setAt_same]
    rw [p.prepare_error _ _ hcl, h2]
    exact ⟨rfl, setAt_same _ _ _, rfl⟩
  | ok id =>
    cases ho : s.cache.outstanding id with
    | none =>
      have h1 : s.step p (.lookup t m) = { s with recv := setAt s.recv t .idle } := by
        simp only [PSys.step, hcl, Cache.retrieve, ho]
      have h2 : s' = { s with recv := setAt s.recv t .idle } := by
        simp only [s', h1]
        simp only [PSys.step, setAt_same]
      rw [p.prepare_none _ _ hcl ho, h2]
      exact ⟨rfl, setAt_same _ _ _, rfl⟩
    | some e =>
      have h1 : s.step p (.lookup t m) = { s with recv := setAt s.recv t (.looked id e m) } := by
        simp only [PSys.step, hcl, Cache.retrieve, ho]
      cases hd : s.dead (p.handle e) with
      | true =>
        have hres : p.resolve s.dead e m = .error .lateResponse := by
          simp only [Proto.resolve, hd, ↓reduceIte]
        rw [p.prepare_dead _ _ hcl ho hd]
        simp only [s', h1]
        cases hl : p.lateUncaches <;>
          simp only [PSys.step, setAt_same, hres, hd, hl, Bool.and_true, Bool.and_false, ↓reduceIte,
            Bool.false_eq_true, and_self]
      | false =>
        have hres : p.resolve s.dead e m = (p.check e m).bind fun _ => .ok (p.handle e) := by
          simp only [Proto.resolve, hd, ↓reduceIte, Bool.false_eq_true]
        rw [p.prepare_alive _ _ hcl ho hd, ← hres]
        simp only [s', h1]
        cases hr : p.resolve s.dead e m <;>
          simp only [PSys.step, setAt_same, hr, hd, Bool.false_and, ↓reduceIte,
            Bool.false_eq_true, and_self]

/-! ## C30: closed requests, retransmissions -/

/-- C30: after its release, in any state, an ID is not outstanding, all others are as before, and a
response to it is refused as a mismatch. -/
theorem C30_released (p : Proto E M) (s : PSys E M) (id : Int) :
    (s.step p (.release id)).cache.outstanding id = none ∧
    (∀ i, i ≠ id → (s.step p (.release id)).cache.outstanding i = s.cache.outstanding i) ∧
    (∀ m dead, p.classify m = .ok id →
      (p.prepareDataElements (s.step p (.release id)).cache dead m).1 = .error .responseMismatch) := by
  refine ⟨by simp [PSys.step, Cache.uncache], fun i hi => by simp [PSys.step, Cache.uncache, hi], ?_⟩
  intro m dead hc
  simp [Proto.prepareDataElements, hc, PSys.step, Cache.uncache, Cache.retrieve]

/-- C30: when a response to a collected handle has been seen, its ID is no longer outstanding, and all
others are as before. -/
theorem C30_late (c : Cache CommunityEntry) (dead : Nat → Bool) (m : Message) (e : CommunityEntry)
    (ht : m.pdu.type = .response) (ho : c.outstanding m.pdu.requestID = some e)
    (hd : dead e.handle = true) :
    (communityProto.prepareDataElements c dead m).1 = .error .lateResponse ∧
    (communityProto.prepareDataElements c dead m).2.outstanding m.pdu.requestID = none ∧
    (∀ i, i ≠ m.pdu.requestID →
      (communityProto.prepareDataElements c dead m).2.outstanding i = c.outstanding i) := by
  have h := communityProto.prepare_dead c dead
    (m := m) (by rw [community_classify, if_pos ht]) ho hd
  rw [h]
  refine ⟨rfl, ?_, fun i hi => ?_⟩
  · simp [communityProto, Cache.uncache]
  · simp [communityProto, Cache.uncache, hi]

/-- C30: once it is not outstanding, an ID stays so for every history in which no call of `cache`
obtains it; so no response to it is accepted. -/
theorem C30_stays_closed (p : Proto E M) (s : PSys E M) (h : List (PEvent E M)) (id : Int)
    (hnone : s.cache.outstanding id = none)
    (hno : ∀ c e, (s.run p h).calls c = .returned e id → s.calls c = .returned e id) :
    (s.run p h).cache.outstanding id = none := by
  induction h generalizing s with
  | nil => exact hnone
  | cons ev h ih =>
    rw [PSys.run_cons] at hno ⊢
    rcases PSys.outstanding_step p s ev id with hk | ⟨hk, -⟩ | ⟨-, c, r, e, n, rfl, hc, hret, -⟩
    · exact ih _ (hk.trans hnone) fun c e hfin =>
        PSys.returned_stable p s ev (hno c e hfin)
    · exact ih _ hk fun c e hfin => PSys.returned_stable p s ev (hno c e hfin)
    · have := hno c e (PSys.returned_run p _ h hret)
      rw [hc] at this; cases this

/-- C30: an outstanding request stays outstanding, with the same entry, through every history without
a release of its own ID and without a thread that found an earlier owner's handle dead. -/
theorem C30_persists (p : Proto E M) (s : PSys E M) (h : List (PEvent E M)) (id : Int) (e : E)
    (ho : s.cache.outstanding id = some e) (hrel : PEvent.release id ∉ h)
    (hlate : ∀ pre t post, h = pre ++ .uncacheLate t :: post → (s.run p pre).recv t ≠ .late id) :
    (s.run p h).cache.outstanding id = some e := by
  induction h generalizing s with
  | nil => exact ho
  | cons ev h ih =>
    rw [PSys.run_cons]
    have hnext : (s.step p ev).cache.outstanding id = some e := by
      rcases PSys.outstanding_step p s ev id with hk | ⟨-, hev | ⟨t, hev, hr⟩⟩ | ⟨hk, -⟩
      · exact hk.trans ho
      · exact absurd (by rw [hev]; simp) hrel
      · exact absurd hr (hlate [] t h (by rw [hev]; rfl))
      · rw [ho] at hk; cases hk
    refine ih _ hnext (fun hm => hrel (by simp [hm])) ?_
    intro pre t post heq hr
    exact hlate (ev :: pre) t post (by rw [heq]; rfl) hr

/-- C30: sending a PDU that already has an ID allocates nothing, keeps the ID and registers no
callback. -/
theorem C30_resend (v : Version) (c : Cache CommunityEntry) (pdu : Pdu) (h : Nat) (community : Bytes)
    (draws : Nat → Nat) (hid : pdu.requestID ≠ 0) :
    prepareOutgoingCommunity v c pdu h community draws =
      ((Message.mk v community pdu).encode, pdu, c, none) := by
  unfold prepareOutgoingCommunity
  rw [if_neg hid]

theorem cacheLoop_ok (bits : Nat) (signed : Bool) (n : Nat) (c : Cache E) (e : E)
    (draws : Nat → Nat) {id : Int} {c' : Cache E}
    (h : Cache.cacheLoop bits signed n c e draws = (.ok id, c')) :
    id ≠ 0 ∧ c.outstanding id = none ∧ c'.outstanding id = some e ∧
      ∀ i, i ≠ id → c'.outstanding i = c.outstanding i := by
  induction n generalizing c draws with
  | zero => cases h
  | succ n ih =>
    simp only [Cache.cacheLoop] at h
    rcases c.attempt_cases bits signed e (draws 0) with ⟨-, ha⟩ | ⟨h0, h1, ha⟩ | ⟨-, -, ha⟩
    · rw [ha] at h; exact ih { c with gen := NumGen.new bits signed (draws 0) } _ h
    · rw [ha] at h
      simp only [Prod.mk.injEq, Except.ok.injEq] at h
      obtain ⟨rfl, rfl⟩ := h
      exact ⟨h0, h1, by simp, fun i hi => by simp [hi]⟩
    · rw [ha] at h; exact ih { c with gen := c.gen.next } _ h

/-- C30: the first transmission gives the PDU a new ID, registered with the handle and outstanding
with the handle and community; a retransmission of the resulting PDU changes nothing. -/
theorem C30_send (v : Version) (c : Cache CommunityEntry) (pdu : Pdu) (h : Nat) (community : Bytes)
    (draws : Nat → Nat) (hid : pdu.requestID = 0) (b : Bytes) (pdu' : Pdu)
    (c' : Cache CommunityEntry) (cb : Option Int)
    (hs : prepareOutgoingCommunity v c pdu h community draws = (.ok b, pdu', c', cb)) :
    pdu'.requestID ≠ 0 ∧ pdu' = { pdu with requestID := pdu'.requestID } ∧
    cb = some pdu'.requestID ∧ c.outstanding pdu'.requestID = none ∧
    c'.outstanding pdu'.requestID = some ⟨h, community⟩ ∧
    (∀ i, i ≠ pdu'.requestID → c'.outstanding i = c.outstanding i) ∧
    (Message.mk v community pdu').encode = .ok b ∧
    prepareOutgoingCommunity v c' pdu' h community draws = (.ok b, pdu', c', none) := by
  unfold prepareOutgoingCommunity at hs
  rw [if_pos hid] at hs
  split at hs
  · simp at hs
  · rename_i id c2 hca
    simp only [Prod.mk.injEq] at hs
    obtain ⟨h1, rfl, rfl, rfl⟩ := hs
    obtain ⟨k0, k1, k2, k3⟩ := cacheLoop_ok _ _ _ _ _ _ hca
    refine ⟨k0, rfl, rfl, k1, k2, k3, h1, ?_⟩
    rw [C30_resend _ _ _ _ _ _ k0, h1]

/-- A PDU is sent, answered, released; then the answer is refused. -/
example :
    let c0 : Cache CommunityEntry := Cache.new 32 true 2
    let (b, pdu, c1, cb) := prepareOutgoingCommunity .v1 c0 ⟨.getRequest, 0, 0, 0, []⟩ 10 [1] fun _ => 1
    let answer : Message := ⟨.v1, [1], { pdu with type := .response }⟩
    b.toOption.isSome ∧ pdu.requestID = 3 ∧ cb = some 3 ∧
    (communityProto.prepareDataElements c1 (fun _ => false) answer).1 = .ok 10 ∧
    (communityProto.prepareDataElements (c1.uncache 3) (fun _ => false) answer).1 =
      .error .responseMismatch := by decide +kernel

/-! ## C32: SNMPv3 responses -/

/-- C32: an incoming SNMPv3 message is handed to a handle exactly if it is a Response or a Report
whose message ID is outstanding for that handle, which is alive, with equal security name and
context name, and, unless it is a Report, a security level not below the request's and both engine
IDs equal to the request's. -/
theorem C32_match (c : Cache V3Entry) (dead : Nat → Bool) (m : V3Incoming) (h : Nat) :
    (v3Proto.prepareDataElements c dead m).1 = .ok h ↔
      (m.scopedPDU.pdu.type = .response ∨ m.scopedPDU.pdu.type = .report) ∧
      ∃ e, c.outstanding m.header.id = some e ∧ e.handle = h ∧ dead h = false ∧
        e.securityName = m.securityName ∧ e.context = m.scopedPDU.contextName ∧
        (m.scopedPDU.pdu.type ≠ .report →
          m.header.flags.level.lt e.securityLevel = false ∧ e.engineID = m.securityEngineID ∧
          e.engineID = m.scopedPDU.contextEngineID) := by
  have hresp : m.scopedPDU.pdu.type.isResponse = true ↔
      (m.scopedPDU.pdu.type = .response ∨ m.scopedPDU.pdu.type = .report) := by
    cases m.scopedPDU.pdu.type <;> simp [PduType.isResponse]
  have hrep : m.scopedPDU.pdu.type.isInternal = true ↔ m.scopedPDU.pdu.type = .report := by
    cases m.scopedPDU.pdu.type <;> simp [PduType.isInternal]
  by_cases ht : m.scopedPDU.pdu.type.isResponse = true
  · have hcl : v3Proto.classify m = .ok m.header.id := by rw [v3_classify, if_pos ht]
    simp only [hresp.1 ht, true_and]
    cases ho : c.outstanding m.header.id with
    | none => rw [v3Proto.prepare_none c dead hcl ho]; simp
    | some e =>
      simp only [Option.some.injEq, exists_eq_left']
      cases hd : dead e.handle with
      | true =>
        rw [v3Proto.prepare_dead c dead hcl ho hd]
        simp only [reduceCtorEq, false_iff]
        rintro ⟨rfl, h2, -⟩
        rw [hd] at h2; cases h2
      | false =>
        rw [v3Proto.prepare_alive c dead hcl ho hd, v3_check]
        have key : v3Check e m = .ok () ↔ (e.securityName = m.securityName ∧
            e.context = m.scopedPDU.contextName ∧ (m.scopedPDU.pdu.type ≠ .report →
            m.header.flags.level.lt e.securityLevel = false ∧ e.engineID = m.securityEngineID ∧
            e.engineID = m.scopedPDU.contextEngineID)) := by
          unfold v3Check
          by_cases hr : m.scopedPDU.pdu.type = .report
          · have hi := hrep.2 hr
            simp only [hi, Bool.not_true, Bool.false_and, Bool.false_eq_true, ↓reduceIte,
              ne_eq, hr, not_true_eq_false, false_implies, and_true]
            by_cases h1 : e.securityName = m.securityName
            · by_cases h2 : e.context = m.scopedPDU.contextName <;>
                simp [h1, h2, show PduType.report.isInternal = true from rfl]
            · simp [h1, show PduType.report.isInternal = true from rfl]
          · have hi : m.scopedPDU.pdu.type.isInternal = false := by
              cases hx : m.scopedPDU.pdu.type.isInternal with
              | true => exact absurd (hrep.1 hx) hr
              | false => rfl
            by_cases h0 : m.header.flags.level.lt e.securityLevel = true
            · simp [hi, hr, h0]
            · by_cases h1 : e.engineID = m.securityEngineID
              · by_cases h2 : e.securityName = m.securityName
                · by_cases h3 : e.engineID = m.scopedPDU.contextEngineID
                  · by_cases h4 : e.context = m.scopedPDU.contextName
                    · simp [hi, hr, h0, h2, h4, ← h1, ← h3]
                    · simp [hi, hr, h0, h2, h4, ← h1, ← h3]
                  · have h3' : ¬ m.securityEngineID = m.scopedPDU.contextEngineID := by
                      rw [← h1]; exact h3
                    simp [hi, hr, h0, h1, h2, h3']
                · simp [hi, hr, h0, h1, h2]
              · simp [hi, hr, h0, h1]
        cases hck : v3Check e m with
        | ok u =>
          have := key.1 hck
          show (Except.ok e.handle : Res Nat) = _ ↔ _
          rw [Except.ok.injEq]
          constructor
          · rintro rfl; exact ⟨rfl, hd, this⟩
          · exact fun h => h.1
        | error x =>
          show (Except.error _ : Res Nat) = _ ↔ _
          simp only [reduceCtorEq, false_iff]
          rintro ⟨-, -, h3⟩
          rw [key.2 h3] at hck; cases hck
  · rw [v3Proto.prepare_error c dead (x := .unsupportedFeature) (by rw [v3_classify, if_neg ht])]
    have := fun hh => ht (hresp.2 hh)
    simp only [reduceCtorEq, false_iff]
    exact fun hh => this hh.1

/-- C32: no received message changes what is outstanding. -/
theorem C32_unchanged (c : Cache V3Entry) (dead : Nat → Bool) (m : V3Incoming) :
    (v3Proto.prepareDataElements c dead m).2 = c := by
  unfold Proto.prepareDataElements
  simp only [v3Proto, Bool.and_false, Bool.false_eq_true, ↓reduceIte]
  split
  · rfl
  · split <;> rfl

/-- C32 for any number of threads and any history. -/
theorem C32_history (r0 : Nat) (hr : Spec.Draw 31 r0)
    (h : List (PEvent V3Entry V3Incoming)) (hh : Spec.History 31 h) (hd : Nat) (m : V3Incoming)
    (hm : (hd, m) ∈ ((PSys.init v3Proto r0).run v3Proto h).delivered) :
    (m.scopedPDU.pdu.type = .response ∨ m.scopedPDU.pdu.type = .report) ∧
    ∃ pre mid post t c e, h = pre ++ .lookup t m :: mid ++ .resolve t :: post ∧
      ((PSys.init v3Proto r0).run v3Proto pre).calls c = .returned e m.header.id ∧
      ((PSys.init v3Proto r0).run v3Proto pre).cache.outstanding m.header.id = some e ∧
      e.handle = hd ∧
      ((PSys.init v3Proto r0).run v3Proto (pre ++ .lookup t m :: mid)).dead hd = false ∧
      e.securityName = m.securityName ∧ e.context = m.scopedPDU.contextName ∧
      (m.scopedPDU.pdu.type ≠ .report →
        m.header.flags.level.lt e.securityLevel = false ∧ e.engineID = m.securityEngineID ∧
        e.engineID = m.scopedPDU.contextEngineID) := by
  obtain ⟨pre, mid, post, t, id, e, h1, h2, h3, h4, h5, h6⟩ :=
    PSys.delivered_history v3Proto (PSys.init v3Proto r0) (fun _ => rfl) rfl h hd m hm
  have hid : id = m.header.id := by
    simp only [v3Proto] at h2
    split at h2
    · injection h2 with h2; exact h2.symm
    · cases h2
  subst hid
  have hok : (v3Proto.prepareDataElements ((PSys.init v3Proto r0).run v3Proto pre).cache
      (fun x => if x = hd then false else true) m).1 = .ok hd := by
    rw [v3Proto.prepare_alive _ _ h2 h3 (by rw [h4, if_pos rfl]), h5, h4]
    rfl
  obtain ⟨hty, e', k1, k2, -, k4⟩ := (C32_match _ _ _ _).1 hok
  rw [h3] at k1
  injection k1 with k1
  subst k1
  have hpre : Spec.History 31 pre := fun c r hmem => hh c r (by rw [h1]; simp [hmem])
  have hi := (PInv.init v3Proto (r := r0) hr).run v3Proto (by decide) hpre
  obtain ⟨c, hc⟩ := hi.entry _ _ h3
  exact ⟨hty, pre, mid, post, t, c, e, h1, hc, h3, k2, h6, k4⟩

/-- The entry of an authenticated request, and a response that matches it. -/
example : (v3Proto.prepareDataElements
    ⟨NumGen.new 31 false 1, fun i => if i = 7 then some ⟨[1], [], 10, [2], .usm, authNoPriv⟩ else none⟩
    (fun _ => false)
    ⟨⟨7, 484, ⟨authPriv, false⟩, .usm⟩, ⟨⟨.response, 1, 0, 0, []⟩, [1], []⟩, [1], [2]⟩).1 = .ok 10 := by
  decide +kernel

end Snmp
