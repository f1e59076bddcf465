import Verif.Api
import Verif.EncodeSize
import Verif.Props.Sent
import Verif.Props.CommunityMatch
/-!
# C86: what a call of `get`, `getNext`, `getBulk` or `set` asks the agent (v1, v2c)
-/

namespace Snmp

/-! ## Specification -/

/-- The argument stands for the object identifier `o`: it is that `OID`, or its text, with or without a dot in front. -/
inductive Spec.Named : NameArg → List Nat → Prop
  | oid (o : List Nat) : Spec.Named (.oid o) o
  | text (o : List Nat) : Spec.Named (.text (Oid.str o)) o
  | dotted (o : List Nat) (h : o ≠ []) : Spec.Named (.text ('.' :: Oid.str o)) o

/-- The binding an argument of `get`, `getNext` or `getBulk` stands for: the name with the value `Null`. -/
inductive Spec.Binds : VarArg → VarBind → Prop
  | name {n : NameArg} {o : List Nat} (h : Spec.Named n o) : Spec.Binds (.name n) ⟨o, .null⟩
  | varbind (v : VarBind) : Spec.Binds (.varbind v) v

/-- The binding an argument of `set` stands for: the name with the given value. -/
inductive Spec.Assigns : SetArg → VarBind → Prop
  | pair {n : NameArg} {o : List Nat} (h : Spec.Named n o) (v : Value) : Spec.Assigns (.pair n (some v)) ⟨o, v⟩
  | empty {n : NameArg} {o : List Nat} (h : Spec.Named n o) : Spec.Assigns (.pair n none) ⟨o, .null⟩
  | varbind (v : VarBind) : Spec.Assigns (.varbind v) v

/-- The PDU `p` asks what the call says, but for the request ID: it is of the class with the name of the method, and
has one binding for each argument, in order. -/
def Spec.AsksFor : ApiCall → Pdu → Prop
  | .get l, p => p.type = .getRequest ∧ p.first = 0 ∧ p.second = 0 ∧ List.Forall₂ Spec.Binds l p.bindings
  | .getNext l, p => p.type = .getNextRequest ∧ p.first = 0 ∧ p.second = 0 ∧ List.Forall₂ Spec.Binds l p.bindings
  | .getBulk l n m, p => p.type = .getBulkRequest ∧ p.first = n ∧ p.second = m ∧ List.Forall₂ Spec.Binds l p.bindings
  | .set l, p => p.type = .setRequest ∧ p.first = 0 ∧ p.second = 0 ∧ List.Forall₂ Spec.Assigns l p.bindings

/-- Some argument of the call is a text that `OID.parse` refuses. -/
def Spec.BadName : ApiCall → Prop
  | .get l | .getNext l | .getBulk l _ _ => ∃ t e, .name (.text t) ∈ l ∧ Oid.parse t = .error e
  | .set l => ∃ t v e, .pair (.text t) v ∈ l ∧ Oid.parse t = .error e

/-- All random numbers of the history are ones that `randint` can return. -/
def Spec.CDraws (h : List CEvent) : Prop :=
  (∀ k r pdu community timeout period t0 t1 draws chan, .send k r pdu community timeout period t0 t1 draws chan ∈ h →
    ∀ i, Spec.Draw 32 (draws i)) ∧
  ∀ t now draws chan, .step t now draws chan ∈ h → ∀ k, Spec.Draw 32 (draws k)

/-- The datagram `w` is a message of version `v` with this community that asks what the PDU `p` asks, with a request
ID. -/
def Spec.Carries (v : Version) (community : Bytes) (p : Pdu) (w : Bytes) : Prop :=
  ∃ m tail, Message.decode (if v = .v1 then v1Types else v2Types) (.bytes w) = .ok (m, tail) ∧ m.version = v ∧
    m.community = community ∧ m.pdu.requestID ≠ 0 ∧ Spec.SamePdu { p with requestID := m.pdu.requestID } m.pdu

/-! ## Building the PDU -/

theorem Spec.Named.value {n : NameArg} {o : List Nat} (h : Spec.Named n o) (ho : Spec.OidOk (o.map Int.ofNat)) :
    n.value = .ok o := by
  cases h with
  | oid => rfl
  | text => exact C17_roundtrip o ho
  | dotted _ h => exact C17_leading_dot o h ho

theorem Spec.Binds.value {a : VarArg} {v : VarBind} (h : Spec.Binds a v) (ho : Spec.OidOk (v.name.map Int.ofNat)) :
    a.value = .ok v := by
  cases h with
  | name h => simp only [VarArg.value, VarBind.new, h.value ho, Except.bind]; rfl
  | varbind => rfl

theorem Spec.Assigns.value {a : SetArg} {v : VarBind} (h : Spec.Assigns a v) (ho : Spec.OidOk (v.name.map Int.ofNat)) :
    a.value = .ok v := by
  cases h with
  | pair h => simp only [SetArg.value, VarBind.new, h.value ho, Except.bind]; rfl
  | empty h => simp only [SetArg.value, VarBind.new, h.value ho, Except.bind]; rfl
  | varbind => rfl

theorem mapArgs_ok {α β : Type} {f : α → Res β} {l : List α} {l' : List β}
    (h : List.Forall₂ (fun a b => f a = .ok b) l l') : mapArgs f l = .ok l' := by
  induction h with
  | nil => rfl
  | cons h _ ih =>
    unfold mapArgs
    rw [h]
    simp only [Except.bind]
    rw [ih]

theorem mapArgs_error {α β : Type} {f : α → Res β} {e : PyErr} (he : ∀ a x, f a = .error x → x = e) {l : List α}
    {a : α} (ha : a ∈ l) (x : PyErr) (hx : f a = .error x) : mapArgs f l = .error e := by
  induction l with
  | nil => cases ha
  | cons b l ih =>
    unfold mapArgs
    cases hb : f b with
    | error y => rw [he b y hb]; rfl
    | ok y =>
      simp only [Except.bind]
      rcases List.mem_cons.1 ha with h | h
      · rw [h, hb] at hx; cases hx
      · rw [ih h]

theorem mapArgs_errors {α β : Type} {f : α → Res β} {e : PyErr} (he : ∀ a x, f a = .error x → x = e) {l : List α}
    {x : PyErr} (h : mapArgs f l = .error x) : x = e := by
  induction l with
  | nil => cases h
  | cons b l ih =>
    unfold mapArgs at h
    cases hb : f b with
    | error y => rw [hb] at h; cases h; exact he b _ hb
    | ok y =>
      rw [hb] at h
      simp only [Except.bind] at h
      cases hl : mapArgs f l with
      | error z => rw [hl] at h; cases h; exact ih hl
      | ok z => rw [hl] at h; cases h

theorem NameArg.errors (n : NameArg) (x : PyErr) (h : n.value = .error x) : x = .valueError := by
  cases n with
  | oid o => cases h
  | text t =>
    rcases C17_total t with ⟨o, ho, -⟩ | ho
    · rw [show (NameArg.text t).value = Oid.parse t from rfl, ho] at h; cases h
    · rw [show (NameArg.text t).value = Oid.parse t from rfl, ho] at h; cases h; rfl

theorem VarBind.new_errors (n : NameArg) (v : Option Value) (x : PyErr) (h : VarBind.new n v = .error x) :
    x = .valueError := by
  unfold VarBind.new at h
  cases hn : n.value with
  | error y => rw [hn] at h; cases h; exact n.errors _ hn
  | ok y => rw [hn] at h; cases h

theorem VarArg.errors (a : VarArg) (x : PyErr) (h : a.value = .error x) : x = .valueError := by
  cases a with
  | name n => exact VarBind.new_errors n none x h
  | varbind v => cases h

theorem SetArg.errors (a : SetArg) (x : PyErr) (h : a.value = .error x) : x = .valueError := by
  cases a with
  | pair n v => exact VarBind.new_errors n v x h
  | varbind v => exact VarBind.new_errors _ _ x h

theorem VarBindList.new_varbinds (l : List VarBind) : VarBindList.new (l.map VarArg.varbind) = .ok l := by
  unfold VarBindList.new
  refine mapArgs_ok ?_
  induction l with
  | nil => exact .nil
  | cons v l ih => exact .cons rfl ih

/-- C86: the PDU that is constructed asks what the call says, and has no request ID yet. -/
theorem C86_pdu (c : ApiCall) (p : Pdu) (h : Spec.AsksFor c p) (ho : ∀ v ∈ p.bindings, Spec.OidOk (v.name.map Int.ofNat)) :
    c.pdu = .ok { p with requestID := 0 } := by
  have vars : ∀ l : List VarArg, List.Forall₂ Spec.Binds l p.bindings → VarBindList.new l = .ok p.bindings := by
    intro l hl
    refine mapArgs_ok ?_
    revert ho
    generalize p.bindings = bs at *
    intro ho
    induction hl with
    | nil => exact .nil
    | cons hb _ ih => exact .cons (hb.value (ho _ (by simp))) (ih fun v hv => ho v (by simp [hv]))
  obtain ⟨type, id, first, second, bindings⟩ := p
  cases c with
  | get l =>
    obtain ⟨h1, h2, h3, h4⟩ := h
    simp only at h1 h2 h3 h4 vars
    subst h1 h2 h3
    simp only [ApiCall.pdu, vars l h4, Except.bind]
  | getNext l =>
    obtain ⟨h1, h2, h3, h4⟩ := h
    simp only at h1 h2 h3 h4 vars
    subst h1 h2 h3
    simp only [ApiCall.pdu, vars l h4, Except.bind]
  | getBulk l n m =>
    obtain ⟨h1, h2, h3, h4⟩ := h
    simp only at h1 h2 h3 h4 vars
    subst h1 h2 h3
    simp only [ApiCall.pdu, vars l h4, Except.bind]
  | set l =>
    obtain ⟨h1, h2, h3, h4⟩ := h
    simp only at h1 h2 h3 h4
    subst h1 h2 h3
    have : mapArgs SetArg.value l = .ok bindings := by
      refine mapArgs_ok ?_
      clear vars
      simp only at ho
      induction h4 with
      | nil => exact .nil
      | cons hb _ ih => exact .cons (hb.value (ho _ (by simp))) (ih fun v hv => ho v (by simp [hv]))
    simp only [ApiCall.pdu, this, Except.bind, VarBindList.new_varbinds]

/-- C86: nothing but `ValueError` is raised while the PDU is constructed, and that is raised if some name is bad. -/
theorem C86_errors (c : ApiCall) :
    (∀ e, c.pdu = .error e → e = .valueError) ∧ (Spec.BadName c → c.pdu = .error .valueError) := by
  have vars : ∀ (l : List VarArg) (f : List VarBind → Res Pdu), (∀ x, ∃ p, f x = .ok p) →
      (∀ e, (VarBindList.new l).bind f = .error e → e = .valueError) ∧
      ((∃ t e, VarArg.name (.text t) ∈ l ∧ Oid.parse t = .error e) → (VarBindList.new l).bind f = .error .valueError) := by
    intro l f hf
    constructor
    · intro e he
      cases hl : VarBindList.new l with
      | error x => rw [hl] at he; cases he; exact mapArgs_errors VarArg.errors hl
      | ok x => rw [hl] at he; obtain ⟨p, hp⟩ := hf x; simp only [Except.bind, hp] at he; cases he
    · rintro ⟨t, e, ht, he⟩
      rw [show VarBindList.new l = .error .valueError from mapArgs_error VarArg.errors ht e (by
        show VarBind.new _ _ = _
        unfold VarBind.new
        rw [show (NameArg.text t).value = Oid.parse t from rfl, he]; rfl)]
      rfl
  cases c with
  | get l => exact vars l _ fun x => ⟨_, rfl⟩
  | getNext l => exact vars l _ fun x => ⟨_, rfl⟩
  | getBulk l n m => exact vars l _ fun x => ⟨_, rfl⟩
  | set l =>
    constructor
    · intro e he
      simp only [ApiCall.pdu] at he
      cases hl : mapArgs SetArg.value l with
      | error x => rw [hl] at he; cases he; exact mapArgs_errors SetArg.errors hl
      | ok x => rw [hl] at he; simp only [Except.bind, VarBindList.new_varbinds] at he; cases he
    · rintro ⟨t, v, e, ht, he⟩
      simp only [ApiCall.pdu]
      rw [mapArgs_error SetArg.errors ht e (by
        show VarBind.new _ _ = _
        unfold VarBind.new
        rw [show (NameArg.text t).value = Oid.parse t from rfl, he]; rfl)]
      rfl

/-! ## The generator of request IDs -/

theorem prepareOutgoingCommunity_gen (v : Version) (c : Cache CommunityEntry) (pdu : Pdu) (handle : Nat)
    (community : Bytes) (draws : Nat → Nat) (hg : GenOk communityProto c.gen) (hd : ∀ k, Spec.Draw 32 (draws k)) :
    GenOk communityProto (prepareOutgoingCommunity v c pdu handle community draws).2.2.1.gen ∧
    (pdu.requestID = 0 → ∀ id, (prepareOutgoingCommunity v c pdu handle community draws).2.2.2 = some id →
      NBit 32 true id) := by
  have hw := cacheLoop_width communityProto (by decide) 10 c ⟨handle, community⟩ draws hg hd
  unfold prepareOutgoingCommunity
  split
  · unfold Cache.cache
    have hw' : GenOk communityProto (Cache.cacheLoop 32 true 10 c ⟨handle, community⟩ draws).2.gen ∧
      ∀ id, (Cache.cacheLoop 32 true 10 c ⟨handle, community⟩ draws).1 = .ok id → NBit 32 true id := hw
    generalize Cache.cacheLoop 32 true 10 c (⟨handle, community⟩ : CommunityEntry) draws = x at hw'
    obtain ⟨res, c'⟩ := x
    cases res with
    | error e => exact ⟨hw'.1, fun _ id h => by cases h⟩
    | ok id => exact ⟨hw'.1, fun _ id' h => by cases h; exact hw'.2 id rfl⟩
  · exact ⟨hg, fun h => by contradiction⟩

theorem CMgr.reallySend_cache (v : Version) (s : CMgr) (r : Nat) (q : CReq) (draws : Nat → Nat) (chan : Option PyErr) :
    (s.reallySend v r q draws chan).2.cache = (prepareOutgoingCommunity v s.cache q.pdu r q.community draws).2.2.1 := by
  unfold CMgr.reallySend
  generalize prepareOutgoingCommunity v s.cache q.pdu r q.community draws = x
  obtain ⟨msg, pdu, cache, reg⟩ := x
  simp only
  split
  · rfl
  · split <;> rfl

/-- A request ID that is allocated fits in a signed 32-bit integer. -/
theorem CMgr.reallySend_id (v : Version) (s : CMgr) (r : Nat) (q : CReq) (draws : Nat → Nat) (chan : Option PyErr)
    (h0 : q.pdu.requestID = 0) (hg : GenOk communityProto s.cache.gen) (hd : ∀ k, Spec.Draw 32 (draws k)) (q' : CReq)
    (h : (s.reallySend v r q draws chan).2.reqs r = some q') : NBit 32 true q'.pdu.requestID := by
  have hw := (prepareOutgoingCommunity_gen v s.cache q.pdu r q.community draws hg hd).2 h0
  have hp : (prepareOutgoingCommunity v s.cache q.pdu r q.community draws).2.1.requestID = 0 ∨
      (prepareOutgoingCommunity v s.cache q.pdu r q.community draws).2.2.2 =
        some (prepareOutgoingCommunity v s.cache q.pdu r q.community draws).2.1.requestID := by
    unfold prepareOutgoingCommunity
    rw [if_pos h0]
    split
    · exact .inl h0
    · exact .inr rfl
  have hz : NBit 32 true 0 := by simp [NBit]
  have hq : q'.pdu = (prepareOutgoingCommunity v s.cache q.pdu r q.community draws).2.1 := by
    unfold CMgr.reallySend at h
    generalize prepareOutgoingCommunity v s.cache q.pdu r q.community draws = x at *
    obtain ⟨msg, pdu, cache, reg⟩ := x
    simp only at h
    split at h
    · simp only [CMgr.setReq, setAt_same, Option.some.injEq] at h; rw [← h]
    · split at h <;> simp only [CMgr.setReq, setAt_same, Option.some.injEq] at h <;> rw [← h]
  rw [hq]
  rcases hp with hp | hp
  · rw [hp]; exact hz
  · exact hw _ hp

theorem CMgr.collect_gen (s : CMgr) (r : Nat) : (s.collect r).cache.gen = s.cache.gen := by
  unfold CMgr.collect
  split
  · rfl
  · rename_i q hq
    split
    · rename_i hc
      simp [CMgr.close, hc, CMgr.setReq, Cache.uncache]
    · rfl

theorem CMgr.hear_gen (v : Version) (s : CMgr) (w : Bytes) : (s.hear v w).2.cache.gen = s.cache.gen := by
  have base : ∀ m, (communityProto.prepareDataElements s.cache s.dead m).2.gen = s.cache.gen := by
    intro m
    unfold Proto.prepareDataElements
    repeat' split
    all_goals rfl
  unfold CMgr.hear
  split
  · rfl
  · split
    · rfl
    · split
      · rfl
      · rename_i m _ _
        have := base m
        split <;> rename_i hx <;> rw [hx] at this <;> exact this

/-- In every history the generator of request IDs is one that can occur. -/
theorem CSys.gen_ok (v : Version) (g : Nat) (hg : Spec.Draw 32 g) (h : List CEvent) (hh : Spec.CDraws h) :
    GenOk communityProto (CSys.after v g h).mgr.cache.gen := by
  induction h using List.reverseRecOn with
  | nil => exact ⟨g, 0, hg.1, hg.2, rfl⟩
  | append_singleton h e ih =>
    have ih := ih ⟨fun k r pdu community timeout period t0 t1 draws chan hm =>
      hh.1 k r pdu community timeout period t0 t1 draws chan (by simp [hm]),
      fun t now draws chan hm => hh.2 t now draws chan (by simp [hm])⟩
    rw [CSys.after_snoc]
    have hm := CSys.step_chg v (CSys.after v g h) e
    generalize (CSys.after v g h).step v e = s' at hm
    cases hm with
    | same h1 => rw [h1]; exact ih
    | created hn =>
      rename_i k r pdu community timeout period t0 t1 draws chan
      simp only
      obtain ⟨heaps, he⟩ := CMgr.sendRequest_eq v (CSys.after v g h).mgr k r pdu community timeout period t0 t1 draws chan
      rw [he, CMgr.reallySend_cache]
      exact (prepareOutgoingCommunity_gen v _ _ _ _ _ ih (hh.1 k r pdu community timeout period t0 t1 draws chan (List.mem_append_right _ (by simp)))).1
    | closed hq hc ho h1 ht => rw [h1]; exact ih
    | popped hb' hh' hd h1 => rw [h1]; exact ih
    | resent hb' hh' hd h1 h2 h3 h4 hs h5 =>
      rename_i t now draws chan k ref rest q m'
      rw [h5]
      have := CMgr.reallySend_cache v (CSys.after v g h).mgr ref.id (CMgr.resent q now) draws chan
      rw [hs] at this
      simp only at this ⊢
      rw [this]
      exact (prepareOutgoingCommunity_gen v _ _ _ _ _ ih (hh.2 t now draws chan (List.mem_append_right _ (by simp)))).1
    | failed hb' hh' hd h1 h2 h3 h4 hs h5 =>
      rename_i t now draws chan k ref rest q m' e'
      rw [h5]
      have := CMgr.reallySend_cache v (CSys.after v g h).mgr ref.id (CMgr.resent q now) draws chan
      rw [hs] at this
      simp only at this
      rw [this]
      exact (prepareOutgoingCommunity_gen v _ _ _ _ _ ih (hh.2 t now draws chan (List.mem_append_right _ (by simp)))).1
    | heard hr => simp only [CMgr.hear_gen]; exact ih
    | pushed hr hq => exact ih
    | collected => simp only [CMgr.collect_gen]; exact ih

/-! ## C86 for v1 and v2c -/

/-- **C86** for v1 and v2c, the part that holds: for names and values that survive encoding (see C14), a call of
`get`, `getNext`, `getBulk` or `set` either sends at once exactly one datagram, which is a message of the manager's
version, with the given or the default community, that asks exactly what the call says; the request times out as the
call says; and the call returns the handle or waits, as asked. Or it raises and sends nothing; it raises only what the
channel raised, or `CacheError`. Missing from the full statement: names that do not survive encoding, see
`C86_false`. -/
theorem C86_community_partial (v : Version) (hv : v = .v1 ∨ v = .v2c) (g : Nat) (hg : Spec.Draw 32 g)
    (h : List CEvent) (hh : Spec.CDraws h) (conf : CommunityConf) (k t r : Nat) (c : ApiCall) (a : CommunityArgs)
    (t0 t1 : ℚ) (draws : Nat → Nat) (hd : ∀ k, Spec.Draw 32 (draws k)) (chan : Option PyErr) (p : Pdu)
    (hn : (CSys.after v g h).mgr.reqs r = none) (hof : c.Offered v) (ha : Spec.AsksFor c p) (hp : Spec.PduSendable p)
    (hm : Spec.InMemory p) (h1 : Spec.intRange .integer32 p.first) (h2 : Spec.intRange .integer32 p.second)
    (hc : (a.community.getD conf.defaultCommunity).length ≤ 65535) :
    let x := (CSys.after v g h).call v conf k t r c a t0 t1 draws chan
    (∃ e, x.1 = .raised e ∧ x.2.mgr.sent = (CSys.after v g h).mgr.sent ∧ (e = .cacheError ∨ chan = some e)) ∨
    (chan = none ∧ ∃ w q, x.2.mgr.sent = (r, w) :: (CSys.after v g h).mgr.sent ∧
      Spec.Carries v (a.community.getD conf.defaultCommunity) p w ∧
      x.2.mgr.reqs r = some q ∧ q.manager = k ∧ q.expiration = t0 + a.timeout ∧ q.period = a.refreshPeriod ∧
      (a.wait.getD conf.autowait = false → x.1 = .handle r ∧ x.2.threads = (CSys.after v g h).threads) ∧
      (a.wait.getD conf.autowait = true → x.1 = .waiting r ∧
        ((CSys.after v g h).threads t = .idle → x.2.threads t = .test r))) := by
  have hpdu := C86_pdu c p ha fun v hv => (hp.2 v hv).nameOk
  have hgen := CSys.gen_ok v g hg h hh
  have hdead : (CSys.after v g h).mgr.dead r = false := by
    cases hx : (CSys.after v g h).mgr.dead r with
    | false => rfl
    | true => have := (CSys.CbInv.after v g h).known r hx; rw [hn] at this; cases this
  generalize CSys.after v g h = s at *
  intro x
  have hx : x = s.sendRequest v conf k t r { p with requestID := 0 } a t0 t1 draws chan := by
    simp only [x, CSys.call, hpdu]
  rw [hx]
  clear hx x
  generalize hco : a.community.getD conf.defaultCommunity = community at hc ⊢
  obtain ⟨heaps, he⟩ := CMgr.sendRequest_eq v s.mgr k r { p with requestID := 0 } community a.timeout a.refreshPeriod t0 t1
    draws chan
  have hfull := CMgr.reallySend_full v ({ s.mgr.setReq r (CReq.new k { p with requestID := 0 } community a.timeout
    a.refreshPeriod t0) with heaps } : CMgr) r ((CReq.new k { p with requestID := 0 } community a.timeout a.refreshPeriod
    t0).setNextRefresh (t1 + a.refreshPeriod)) draws chan (fun h => by cases h)
  have hcache := CMgr.reallySend_cache v ({ s.mgr.setReq r (CReq.new k { p with requestID := 0 } community a.timeout
    a.refreshPeriod t0) with heaps } : CMgr) r ((CReq.new k { p with requestID := 0 } community a.timeout a.refreshPeriod
    t0).setNextRefresh (t1 + a.refreshPeriod)) draws chan
  rw [← he] at hfull hcache
  have hstep : s.step v (.send k r { p with requestID := 0 } community a.timeout a.refreshPeriod t0 t1 draws chan) =
      { s with mgr := (s.mgr.sendRequest v k r { p with requestID := 0 } community a.timeout a.refreshPeriod t0 t1 draws
        chan).2 } := by
    show (if (s.mgr.reqs r).isSome then s else _) = _
    rw [if_neg (by rw [hn]; simp)]
  unfold CSys.sendRequest
  simp only [hco, hstep]
  rcases hfull with ⟨-, c', -, hk⟩ | ⟨id, cb, c', hid, hk⟩
  · left
    simp only [hk]
    exact ⟨_, rfl, rfl, .inl rfl⟩
  · rcases hid with ⟨-, hid, rfl, -, -⟩ | ⟨hx, -⟩
    swap
    · exact absurd rfl hx
    have hrid := CMgr.reallySend_id v ({ s.mgr.setReq r (CReq.new k { p with requestID := 0 } community a.timeout
      a.refreshPeriod t0) with heaps } : CMgr) r ((CReq.new k { p with requestID := 0 } community a.timeout a.refreshPeriod
      t0).setNextRefresh (t1 + a.refreshPeriod)) draws chan rfl hgen hd
    rw [← he] at hrid
    have hnb : NBit 32 true id := by
      rcases hk with ⟨e, -, hk⟩ | ⟨w, -, -, hk⟩ <;> rw [hk] at hrid <;>
        exact hrid _ (by simp only [CMgr.setReq, setAt_same]; rfl)
    have hir : Spec.intRange .integer32 id := by
      simp only [NBit, if_true] at hnb
      unfold Spec.intRange
      norm_num at hnb ⊢
      omega
    obtain ⟨pe, hpe, hpl⟩ := Pdu.encode_size { p with requestID := id } hp.2 hm hir h1 h2
    obtain ⟨w, hw⟩ := (C24_encodes (Message.mk v community { p with requestID := id }) pe hpe hpl).1 hc
    rcases hk with ⟨e, k1, hk⟩ | ⟨w', k1, k2, hk⟩
    · left
      simp only [hk]
      refine ⟨e, rfl, rfl, .inr ?_⟩
      rcases k1 with k1 | k1
      · have : (Message.mk v community { p with requestID := id }).encode = .error e := k1
        rw [hw] at this; cases this
      · exact k1
    · right
      have k1' : (Message.mk v community { p with requestID := id }).encode = .ok w' := k1
      refine ⟨k2, w', ?_⟩
      simp only [hk]
      obtain ⟨m, tail, d1, d2, d3, d4⟩ := C24_roundtrip (if v = .v1 then v1Types else v2Types) _ hv
        (show Spec.PduSendable { p with requestID := id } from hp) (by
          show p.type ∈ _
          rcases hv with rfl | rfl
          · simp only [if_true]
            cases c with
            | get l => rw [ha.1]; decide
            | getNext l => rw [ha.1]; decide
            | getBulk l n m => exact absurd rfl hof
            | set l => rw [ha.1]; decide
          · cases p.type <;> decide) w' k1' (.bytes w') (Asn1Data.valid_bytes w') rfl
      have hcar : Spec.Carries v community p w' := by
        refine ⟨m, tail, d1, d2, d3, ?_, ?_⟩
        · rw [d4.2.1]; exact hid
        · rw [show m.pdu.requestID = id from d4.2.1]; exact d4
      cases hwt : a.wait.getD conf.autowait with
      | false =>
        exact ⟨_, rfl, hcar, by simp only [CMgr.setReq]; exact setAt_same _ _ _, rfl, rfl, rfl, fun _ => ⟨rfl, rfl⟩,
          fun h => by cases h⟩
      | true =>
        have hw1 : ∀ (y : CSys), (y.step v (.wait t r)).mgr = y.mgr := by
          intro y
          show CSys.mgr (match y.threads t, y.mgr.deref r with
            | .idle, some _ => { y with threads := setAt y.threads t (.test r) }
            | .done _ _, some _ => { y with threads := setAt y.threads t (.test r) }
            | _, _ => y) = _
          split <;> rfl
        have hw2 : ∀ (y : CSys), y.threads t = .idle → (y.mgr.deref r).isSome = true →
            (y.step v (.wait t r)).threads t = .test r := by
          intro y hy hq
          obtain ⟨q, hq⟩ := Option.isSome_iff_exists.1 hq
          show CSys.threads (match y.threads t, y.mgr.deref r with
            | .idle, some _ => { y with threads := setAt y.threads t (.test r) }
            | .done _ _, some _ => { y with threads := setAt y.threads t (.test r) }
            | _, _ => y) t = _
          rw [hy, hq]
          exact setAt_same _ _ _
        simp only [if_true, hw1]
        refine ⟨_, rfl, hcar, by simp only [CMgr.setReq]; exact setAt_same _ _ _, rfl, rfl, rfl,
          (fun h => by cases h), fun _ => ⟨trivial, fun hi => ?_⟩⟩
        refine hw2 _ hi ?_
        unfold CMgr.deref
        simp only [CMgr.setReq, hdead, setAt_same]
        rfl

/-- C86: a call with a bad name raises `ValueError` and does nothing else. -/
theorem C86_community_refused (v : Version) (conf : CommunityConf) (s : CSys) (k t r : Nat) (c : ApiCall)
    (a : CommunityArgs) (t0 t1 : ℚ) (draws : Nat → Nat) (chan : Option PyErr) (hb : Spec.BadName c) :
    s.call v conf k t r c a t0 t1 draws chan = (.raised .valueError, s) := by
  unfold CSys.call
  rw [(C86_errors c).2 hb]

/-- C86: while the manager has seen no more than four requests, a call that the channel lets through is not refused
with `CacheError`. -/
theorem C86_community_few (v : Version) (hv : v = .v1 ∨ v = .v2c) (g : Nat) (hg : Spec.Draw 32 g)
    (h : List CEvent) (hh : Spec.CDraws h) (conf : CommunityConf) (k t r : Nat) (c : ApiCall) (a : CommunityArgs)
    (t0 t1 : ℚ) (draws : Nat → Nat) (hd : ∀ k, Spec.Draw 32 (draws k)) (p : Pdu)
    (hn : (CSys.after v g h).mgr.reqs r = none) (hof : c.Offered v) (ha : Spec.AsksFor c p) (hp : Spec.PduSendable p)
    (hm : Spec.InMemory p) (h1 : Spec.intRange .integer32 p.first) (h2 : Spec.intRange .integer32 p.second)
    (hc : (a.community.getD conf.defaultCommunity).length ≤ 65535)
    (l : List Nat) (hl : ∀ r', (CSys.after v g h).mgr.reqs r' ≠ none → r' ∈ l) (h4 : l.length ≤ 4) (e : PyErr) :
    ((CSys.after v g h).call v conf k t r c a t0 t1 draws none).1 ≠ .raised e := by
  intro hx
  rcases C86_community_partial v hv g hg h hh conf k t r c a t0 t1 draws hd none p hn hof ha hp hm h1 h2 hc with
    ⟨e', hr, -, he⟩ | ⟨-, w, q, -, -, -, -, -, -, k1, k2⟩
  swap
  · cases hw : a.wait.getD conf.autowait with
    | false => rw [(k1 hw).1] at hx; cases hx
    | true => rw [(k2 hw).1] at hx; cases hx
  rcases he with rfl | he
  swap
  · cases he
  have hgen := CSys.gen_ok v g hg h hh
  have hcached := (CSys.Inv.after v g h).mgr.cached
  have hpdu := C86_pdu c p ha fun v hv => (hp.2 v hv).nameOk
  generalize CSys.after v g h = s at *
  simp only [CSys.call, hpdu, CSys.sendRequest] at hr
  generalize a.community.getD conf.defaultCommunity = community at hc hr
  obtain ⟨heaps, he⟩ := CMgr.sendRequest_eq v s.mgr k r { p with requestID := 0 } community a.timeout a.refreshPeriod t0 t1
    draws none
  rw [he] at hr
  obtain ⟨id, c', hroom⟩ := cache_room communityProto (by decide) (by decide) s.mgr.cache hgen
    (l.map fun r' => match s.mgr.reqs r' with | some q => q.pdu.requestID | none => 0) (by
      intro i hi
      cases ho : s.mgr.cache.outstanding i with
      | none => exact absurd ho hi
      | some e =>
        obtain ⟨-, q, hq, hqi, -⟩ := hcached i e ho
        refine List.mem_map.2 ⟨e.handle, hl _ (by rw [hq]; simp), ?_⟩
        rw [hq]; exact hqi) (by simpa using h4) ⟨r, community⟩ draws hd
  have hnb : NBit 32 true id :=
    (cacheLoop_width communityProto (by decide) 10 s.mgr.cache ⟨r, community⟩ draws hgen hd).2 id (by
      have : Cache.cacheLoop communityProto.bits communityProto.signed 10 s.mgr.cache ⟨r, community⟩ draws = _ := hroom
      rw [this])
  have hir : Spec.intRange .integer32 id := by
    simp only [NBit, if_true] at hnb
    unfold Spec.intRange
    norm_num at hnb ⊢
    omega
  obtain ⟨pe, hpe, hpl⟩ := Pdu.encode_size { p with requestID := id } hp.2 hm hir h1 h2
  obtain ⟨w, hw⟩ := (C24_encodes (Message.mk v community { p with requestID := id }) pe hpe hpl).1 hc
  have hsend : (CMgr.reallySend v ({ s.mgr.setReq r (CReq.new k { p with requestID := 0 } community a.timeout
      a.refreshPeriod t0) with heaps } : CMgr) r ((CReq.new k { p with requestID := 0 } community a.timeout a.refreshPeriod
      t0).setNextRefresh (t1 + a.refreshPeriod)) draws none).1 = .ok () := by
    unfold CMgr.reallySend
    have : prepareOutgoingCommunity v s.mgr.cache { p with requestID := 0 } r community draws =
        (.ok w, { p with requestID := id }, c', some id) := by
      unfold prepareOutgoingCommunity
      rw [if_pos rfl]
      have hr' : s.mgr.cache.cache 32 true ⟨r, community⟩ draws = (.ok id, c') := hroom
      rw [hr']
      simp only
      rw [hw]
    simp only [CReq.setNextRefresh, CReq.new, CMgr.setReq, this]
  rw [hsend] at hr
  simp only at hr
  split at hr <;> cases hr

/-- C86 is false of the code in general: `get("1.8.1")` is accepted and sent, and the message asks for 1.0.1. -/
theorem C86_false : ∃ (h : ApiCall) (p : Pdu) (s : CSys) (w : Bytes), Spec.AsksFor h p ∧
    h = .get [.name (.text "1.8.1".toList)] ∧ p.bindings.map VarBind.name = [[1, 8, 1]] ∧
    s = ((CSys.after .v1 1 []).call .v1 ⟨[0x70], false⟩ 0 0 0 h {} 0 0 (fun _ => 1) none).2 ∧
    s.mgr.sent = [(0, w)] ∧ ¬ Spec.Carries .v1 [0x70] p w ∧
    ∃ m tail, Message.decode v1Types (.bytes w) = .ok (m, tail) ∧ m.pdu.bindings.map VarBind.name = [[1, 0, 1]] := by
  have hsend : Spec.PduSendable ⟨.getRequest, 1, 0, 0, [⟨[1, 0, 1], .null⟩]⟩ := by
    refine ⟨by simp [Spec.FieldsOk], ?_⟩
    intro v hv
    simp only [List.mem_cons, List.not_mem_nil, or_false] at hv
    subst hv
    exact ⟨(oidOk_ofNat _).2 ((Oid.new_ofNat_iff _ _).1
      (show Oid.new ([1, 0, 1].map Int.ofNat) = .ok [1, 0, 1] by decide +kernel)).1,
      ⟨1, 0, [1], rfl, by unfold Spec.firstPairOk; omega⟩, trivial, (fun n h => by cases h), (fun n h => by cases h)⟩
  obtain ⟨m, tail, d1, -, -, d4⟩ := C24_roundtrip v1Types ⟨.v1, [0x70], ⟨.getRequest, 1, 0, 0, [⟨[1, 0, 1], .null⟩]⟩⟩
    (.inl rfl) hsend (by decide) [48, 27, 2, 1, 0, 4, 1, 112, 160, 19, 2, 1, 1, 2, 1, 0, 2, 1, 0, 48, 8, 48, 6, 6, 2, 40,
      1, 5, 0] (by decide +kernel) (.bytes _) (Asn1Data.valid_bytes _) rfl
  have hnames : m.pdu.bindings.map VarBind.name = [[1, 0, 1]] := by
    have := d4.2.2.2.2
    unfold Spec.SameBindings at this
    generalize m.pdu.bindings = bs at this
    cases this with
    | cons h t => cases t; simp [← h.1]
  refine ⟨.get [.name (.text "1.8.1".toList)], { type := .getRequest, bindings := [⟨[1, 8, 1], .null⟩] }, _,
    _, ⟨rfl, rfl, rfl, .cons (.name (by
      have : "1.8.1".toList = Oid.str [1, 8, 1] := by decide +kernel
      rw [this]; exact .text _)) .nil⟩, rfl, rfl, rfl, ?_, ?_, m, tail, d1, hnames⟩
  · decide +kernel
  · rintro ⟨m', tail', k1, -, -, -, k2⟩
    simp only [if_true] at k1
    rw [d1] at k1
    injection k1 with k1
    injection k1 with k1 _
    subst k1
    have := k2.2.2.2.2
    unfold Spec.SameBindings at this
    simp only at this
    generalize m.pdu.bindings = bs at this hnames
    cases this with
    | cons h t =>
      cases t
      simp only [List.map_cons, List.map_nil, List.cons.injEq, and_true] at hnames
      have := h.1
      rw [hnames] at this
      simp at this

/-! ## Non-vacuity -/

/-- Non-vacuity of C86: `m.set(("1.3.6.1", OctetString(b"x")), (".1.3.6.2", None))` on a v2c manager that has an
unanswered request and whose default is not to wait, with `wait=True`. -/
theorem C86_example :
    let c : ApiCall := .set [.pair (.text "1.3.6.1".toList) (some (.octets [0x78])), .pair (.text ".1.3.6.2".toList) none];
    let p : Pdu := { type := .setRequest, bindings := [⟨[1, 3, 6, 1], .octets [0x78]⟩, ⟨[1, 3, 6, 2], .null⟩] };
    let h : List CEvent := [.send 1 0 { type := .getRequest } [0x70] 10 1 0 0 (fun _ => 1) none];
    Spec.AsksFor c p ∧ c.Offered .v2c ∧ Spec.PduSendable p ∧ Spec.InMemory p ∧ Spec.Draw 32 1 ∧ Spec.CDraws h ∧
      (CSys.after .v2c 1 h).mgr.reqs 1 = none ∧ (CSys.after .v2c 1 h).mgr.sent.length = 1 ∧
      ((CSys.after .v2c 1 h).call .v2c ⟨[0x70], false⟩ 0 0 1 c { wait := some true } 0 0 (fun _ => 1) none).1 =
        .waiting 1 ∧
      Spec.BadName (.get [.name (.text "sysDescr".toList)]) := by
  have t1 : "1.3.6.1".toList = Oid.str [1, 3, 6, 1] := by decide +kernel
  have t2 : ".1.3.6.2".toList = '.' :: Oid.str [1, 3, 6, 2] := by decide +kernel
  have ok : ∀ n : Nat, n < 3 → ∀ x, (x = .octets [0x78] ∨ x = .null) → Spec.Sendable ⟨[1, 3, 6, n], x⟩ := by
    intro n hn x hx
    refine ⟨(oidOk_ofNat _).2 ((Oid.new_ofNat_iff _ _).1
      (show Oid.new ([1, 3, 6, n].map Int.ofNat) = .ok [1, 3, 6, n] by
        match n, hn with
        | 0, _ => decide +kernel
        | 1, _ => decide +kernel
        | 2, _ => decide +kernel)).1, ⟨1, 3, [6, n], rfl, by unfold Spec.firstPairOk; omega⟩, ?_, ?_, ?_⟩
    · rcases hx with rfl | rfl
      · simp [Value.Constructible]
      · trivial
    · rcases hx with rfl | rfl <;> (intro n h; cases h)
    · rcases hx with rfl | rfl <;> (intro n h; cases h)
  refine ⟨⟨rfl, rfl, rfl, .cons ?_ (.cons ?_ .nil)⟩, trivial, ⟨by simp [Spec.FieldsOk], ?_⟩, ⟨by simp, ?_⟩, by
    unfold Spec.Draw; omega, ⟨?_, ?_⟩, by decide +kernel, by decide +kernel, by decide +kernel,
    "sysDescr".toList, .valueError, by simp, by decide +kernel⟩
  · rw [t1]; exact .pair (.text _) _
  · rw [t2]; exact .empty (.dotted _ (by simp))
  · intro v hv
    simp only [List.mem_cons, List.not_mem_nil, or_false] at hv
    rcases hv with rfl | rfl
    · exact ok 1 (by omega) _ (.inl rfl)
    · exact ok 2 (by omega) _ (.inr rfl)
  · intro v hv d hd
    simp only [List.mem_cons, List.not_mem_nil, or_false] at hv
    rcases hv with rfl | rfl <;> cases hd
  · intro k r pdu community timeout period t0 t1 draws chan hm i
    simp only [List.mem_cons, List.not_mem_nil, or_false, CEvent.send.injEq] at hm
    rw [hm.2.2.2.2.2.2.2.2.1]
    show Spec.Draw 32 1
    unfold Spec.Draw; decide
  · intro t now draws chan hm
    simp at hm

end Snmp
