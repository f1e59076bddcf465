import Verif.RegLemmas
import Verif.ManagerCommunityLemmas
/-! # The steps of a v3 manager, one by one -/

namespace Snmp

theorem setAt_setAt {α : Type} (f : Nat → α) (i : Nat) (x y : α) : setAt (setAt f i x) i y = setAt f i y := by
  funext j; unfold setAt; split <;> rfl

/-! ## Sending -/

/-- The cache entry for a message of the request: a discovery message if the engine ID is unknown. -/
def VReq.entry (q : VReq) (m : Nat) : V3Entry :=
  match q.engineID with
  | none => ⟨[], [], m, [], .usm, noAuthNoPriv⟩
  | some e => ⟨e, [], m, q.userName, .usm, q.level⟩

/-- The PDU of such a message. -/
def VReq.content (q : VReq) : Pdu :=
  match q.engineID with
  | none => { type := .getRequest }
  | some _ => q.pdu

/-- The cache `c'` is `c` with the entry `x` under a new ID, or has the same entries as `c`. -/
inductive Booked (c c' : Cache V3Entry) (x : V3Entry) : Option Int → Prop
  | unbooked (h : c'.outstanding = c.outstanding) : Booked c c' x none
  | booked (id : Int) (h0 : id ≠ 0) (h1 : c.outstanding id = none)
      (h : c'.outstanding = fun i => if i = id then some x else c.outstanding i) : Booked c c' x (some id)

theorem prepareOutgoingV3_booked (maxSize : Int) (c : Cache V3Entry) (pdu : Pdu) (x : V3Entry) (draws : Nat → Nat) :
    Booked c (prepareOutgoingV3 maxSize c pdu x.handle x.engineID x.securityName x.securityLevel x.securityModel
        x.context draws).2.1 x
      (prepareOutgoingV3 maxSize c pdu x.handle x.engineID x.securityName x.securityLevel x.securityModel
        x.context draws).2.2 := by
  unfold prepareOutgoingV3
  split
  · obtain ⟨k1, k2⟩ := Cache.cacheLoop_spec 31 false 10 c x draws
    unfold Cache.cache
    have : (⟨x.engineID, x.context, x.handle, x.securityName, x.securityModel, x.securityLevel⟩ : V3Entry) = x := rfl
    rw [this]
    generalize Cache.cacheLoop 31 false 10 c x draws = y at *
    obtain ⟨res, c'⟩ := y
    cases res with
    | error e => exact .unbooked (k2 e rfl).2
    | ok id =>
      obtain ⟨h0, h1, h2⟩ := k1 id rfl
      exact .booked id h0 h1 (funext h2)
  · exact .unbooked rfl

theorem prepareOutgoingV3_error (maxSize : Int) (c : Cache V3Entry) (pdu : Pdu) (handle : Nat)
    (engineID securityName : Bytes) (level : SecurityLevel) (model : SecurityModel) (contextName : Bytes)
    (draws : Nat → Nat) (err : PyErr)
    (h : (prepareOutgoingV3 maxSize c pdu handle engineID securityName level model contextName draws).1 = .error err) :
    err = .cacheError := by
  unfold prepareOutgoingV3 at h
  split at h
  · obtain ⟨-, k2⟩ := Cache.cacheLoop_spec 31 false 10 c
      (⟨engineID, contextName, handle, securityName, model, level⟩ : V3Entry) draws
    unfold Cache.cache at h
    generalize Cache.cacheLoop 31 false 10 c
      (⟨engineID, contextName, handle, securityName, model, level⟩ : V3Entry) draws = y at *
    obtain ⟨res, c'⟩ := y
    cases res with
    | error e => simp only at h; cases h; exact (k2 err rfl).1
    | ok id => simp only at h; cases h
  · cases h

namespace VMgr

/-- Why making and sending a message raised `err`: no message ID was free, the security module refused to
protect the message, or the channel raised it. -/
def Trouble (cfg : VCfg) (s : VMgr) (q1 : VReq) (usm1 : Usm) (i : SendIn) (err : PyErr) : Prop :=
  err = .cacheError ∨
  (∃ msg, (prepareOutgoingV3 cfg.maxSize s.cache q1.content s.nextMsg (q1.entry s.nextMsg).engineID
      (q1.entry s.nextMsg).securityName (q1.entry s.nextMsg).securityLevel .usm [] i.draws).1 = .ok msg ∧
    (usm1.prepareOutgoing cfg.backend cfg.crypto msg (q1.entry s.nextMsg).engineID
      (q1.entry s.nextMsg).securityName i.stamp).1 = .error err) ∨
  i.chan = some err

/-- What `reallySend` does. -/
inductive Sends (cfg : VCfg) (s : VMgr) (r : Nat) (q : VReq) (engineID : Option Bytes) (cause : Why) (i : SendIn) :
    Res Unit → VMgr → Prop
  /-- the engine could not be registered -/
  | refused (e : Bytes) (err : PyErr) (usm : Usm) (he : engineID = some e)
      (hc : changeEngine cfg s.usm q.engineID (some e) i.seed = (.error err, usm)) :
      Sends cfg s r q engineID cause i (.error err) { s with reqs := setAt s.reqs r (some q), usm }
  /-- a message was made -/
  | made (q1 : VReq) (usm1 usm : Usm) (cache : Cache V3Entry) (id : Option Int) (sent : List Sent) (res : Res Unit)
      (he : engineID = none ∧ q1 = q ∧ usm1 = s.usm ∨ ∃ e, engineID = some e ∧
        changeEngine cfg s.usm q.engineID (some e) i.seed = (.ok (), usm1) ∧ q1 = { q with engineID := some e })
      (hb : Booked s.cache cache (q1.entry s.nextMsg) id)
      (hu : usm1.SameReg usm)
      (hs : res = .ok () ∧ (∃ w msg, sent = ⟨r, s.nextMsg, w⟩ :: s.sent ∧
          (prepareOutgoingV3 cfg.maxSize s.cache q1.content s.nextMsg (q1.entry s.nextMsg).engineID
            (q1.entry s.nextMsg).securityName (q1.entry s.nextMsg).securityLevel .usm [] i.draws).1 = .ok msg ∧
          usm1.prepareOutgoing cfg.backend cfg.crypto msg (q1.entry s.nextMsg).engineID
            (q1.entry s.nextMsg).securityName i.stamp = (.ok w, usm)) ∨
        (∃ err, res = .error err ∧ Trouble cfg s q1 usm1 i err) ∧ sent = s.sent)
      (hp : (prepareOutgoingV3 cfg.maxSize s.cache q1.content s.nextMsg (q1.entry s.nextMsg).engineID
            (q1.entry s.nextMsg).securityName (q1.entry s.nextMsg).securityLevel .usm [] i.draws).2 = (cache, id))
      (hd : usm = usm1 ∧ (∃ err, (prepareOutgoingV3 cfg.maxSize s.cache q1.content s.nextMsg
            (q1.entry s.nextMsg).engineID (q1.entry s.nextMsg).securityName (q1.entry s.nextMsg).securityLevel
            .usm [] i.draws).1 = .error err) ∨
        ∃ msg, (prepareOutgoingV3 cfg.maxSize s.cache q1.content s.nextMsg (q1.entry s.nextMsg).engineID
            (q1.entry s.nextMsg).securityName (q1.entry s.nextMsg).securityLevel .usm [] i.draws).1 = .ok msg ∧
          usm = (usm1.prepareOutgoing cfg.backend cfg.crypto msg (q1.entry s.nextMsg).engineID
            (q1.entry s.nextMsg).securityName i.stamp).2) :
      Sends cfg s r q engineID cause i res
        { s with reqs := setAt s.reqs r (some { q1 with messages := s.nextMsg :: q1.messages })
                 msgs := setAt s.msgs s.nextMsg (some ⟨r, id, q1.shared, cause⟩)
                 nextMsg := s.nextMsg + 1, cache, usm, sent }

theorem transmit_sends (cfg : VCfg) (s : VMgr) (r : Nat) (q q1 : VReq) (engineID : Option Bytes) (cause : Why)
    (i : SendIn) (usm1 : Usm)
    (he : engineID = none ∧ q1 = q ∧ usm1 = s.usm ∨ ∃ e, engineID = some e ∧
        changeEngine cfg s.usm q.engineID (some e) i.seed = (.ok (), usm1) ∧ q1 = { q with engineID := some e })
    (q0 : VReq) :
    Sends cfg s r q engineID cause i
      (transmit cfg { s with reqs := setAt s.reqs r (some q0), usm := usm1 } r q1 q1.content
        (q1.entry s.nextMsg).engineID (q1.entry s.nextMsg).securityName (q1.entry s.nextMsg).securityLevel cause i).1
      (transmit cfg { s with reqs := setAt s.reqs r (some q0), usm := usm1 } r q1 q1.content
        (q1.entry s.nextMsg).engineID (q1.entry s.nextMsg).securityName (q1.entry s.nextMsg).securityLevel cause i).2 := by
  have hb := prepareOutgoingV3_booked cfg.maxSize s.cache q1.content (q1.entry s.nextMsg) i.draws
  have h1 : (q1.entry s.nextMsg).handle = s.nextMsg := by unfold VReq.entry; split <;> rfl
  have h2 : (q1.entry s.nextMsg).securityModel = .usm := by unfold VReq.entry; split <;> rfl
  have h3 : (q1.entry s.nextMsg).context = [] := by unfold VReq.entry; split <;> rfl
  rw [h1, h2, h3] at hb
  have h4 := fun res usm sent hu hs hd => Sends.made (r := r) (q := q) (cause := cause) (s := s) (i := i) q1 usm1 usm _ _
    sent res he hb hu hs rfl hd
  unfold transmit
  simp only
  generalize hp : prepareOutgoingV3 cfg.maxSize s.cache q1.content s.nextMsg (q1.entry s.nextMsg).engineID
    (q1.entry s.nextMsg).securityName (q1.entry s.nextMsg).securityLevel .usm [] i.draws = y at *
  obtain ⟨msg, cache, id⟩ := y
  simp only [setReq, setAt_setAt] at *
  cases msg with
  | error e =>
    refine h4 _ _ _ (.refl _) (.inr ⟨⟨e, rfl, .inl ?_⟩, rfl⟩) (.inl ⟨rfl, e, rfl⟩)
    have := prepareOutgoingV3_error cfg.maxSize s.cache q1.content s.nextMsg (q1.entry s.nextMsg).engineID
      (q1.entry s.nextMsg).securityName (q1.entry s.nextMsg).securityLevel .usm [] i.draws e (by rw [hp])
    exact this
  | ok msg =>
    have hu := usm1.prepareOutgoing_reg cfg.backend cfg.crypto msg (q1.entry s.nextMsg).engineID
      (q1.entry s.nextMsg).securityName i.stamp
    simp only
    generalize hw : usm1.prepareOutgoing cfg.backend cfg.crypto msg (q1.entry s.nextMsg).engineID
      (q1.entry s.nextMsg).securityName i.stamp = z at *
    obtain ⟨w, usm⟩ := z
    have hd := fun a => Or.inr (a := a) (b := ∃ msg', Except.ok (ε := PyErr) msg = .ok msg' ∧
      usm = (usm1.prepareOutgoing cfg.backend cfg.crypto msg' (q1.entry s.nextMsg).engineID
        (q1.entry s.nextMsg).securityName i.stamp).2) ⟨msg, rfl, by rw [hw]⟩
    cases w with
    | error e =>
      exact h4 _ _ _ hu (.inr ⟨⟨e, rfl, .inr (.inl ⟨msg, by rw [hp], by rw [hw]⟩)⟩, rfl⟩) (hd _)
    | ok w =>
      cases hch : i.chan with
      | some e => exact h4 _ _ _ hu (.inr ⟨⟨e, rfl, .inr (.inr hch)⟩, rfl⟩) (hd _)
      | none => exact h4 _ _ _ hu (.inl ⟨rfl, w, msg, rfl, rfl, hw⟩) (hd _)

theorem reallySend_sends (cfg : VCfg) (s : VMgr) (r : Nat) (q : VReq) (engineID : Option Bytes) (cause : Why)
    (i : SendIn) :
    Sends cfg s r q engineID cause i (s.reallySend cfg r q engineID cause i).1
      (s.reallySend cfg r q engineID cause i).2 := by
  unfold reallySend
  cases engineID with
  | none =>
    have h := transmit_sends cfg s r q q none cause i s.usm (.inl ⟨rfl, rfl, rfl⟩) q
    unfold VReq.content VReq.entry at h
    simp only
    cases he : q.engineID with
    | none => rw [he] at h; exact h
    | some e => rw [he] at h; exact h
  | some e =>
    simp only [setReq]
    cases hc : changeEngine cfg s.usm q.engineID (some e) i.seed with
    | mk res usm =>
      cases res with
      | error err => exact .refused e err usm rfl hc
      | ok x =>
        have h := transmit_sends cfg s r q { q with engineID := some e } (some e) cause i usm
          (.inr ⟨e, rfl, hc, rfl⟩) { q with engineID := some e }
        unfold VReq.content VReq.entry at h
        simp only at h ⊢
        rw [setAt_setAt]
        exact h

/-! ## Closing -/

/-- The cache after `Request.close`. -/
theorem closeMessages_spec (msgs : Nat → Option VMsg) (l : List Nat) (c : Cache V3Entry) (id : Int) :
    (closeMessages msgs l c).outstanding id =
      if ∃ m ∈ l, ∃ msg, msgs m = some msg ∧ msg.messageID = some id then none else c.outstanding id := by
  induction l generalizing c with
  | nil => simp [closeMessages]
  | cons m l ih =>
    unfold closeMessages
    simp only
    rw [ih]
    cases hm : msgs m with
    | none =>
      simp only [List.mem_cons, exists_eq_or_imp, hm]
      simp
    | some msg =>
      obtain ⟨r, mid, sh, ca⟩ := msg
      cases mid with
      | none =>
        simp only [List.mem_cons, exists_eq_or_imp, hm]
        simp
      | some id' =>
        simp only [List.mem_cons, exists_eq_or_imp, hm, Cache.uncache]
        by_cases hi : id = id'
        · subst hi; simp
        · simp [hi, Ne.symm hi]

/-- The state after `Request.close`, however it ends. -/
def closed (cfg : VCfg) (s : VMgr) (r : Nat) (q : VReq) : VMgr :=
  { s with cache := closeMessages s.msgs q.messages s.cache
           usm := (changeEngine cfg s.usm q.engineID none (fun _ => 0)).2
           reqs := setAt s.reqs r (some { q with
             messages := []
             engineID := if (changeEngine cfg s.usm q.engineID none (fun _ => 0)).1 = .ok () then none
               else q.engineID }) }

theorem close_eq (cfg : VCfg) (s : VMgr) (r : Nat) (q : VReq) :
    s.close cfg r q = ((changeEngine cfg s.usm q.engineID none (fun _ => 0)).1, s.closed cfg r q) := by
  unfold close closed
  simp only
  cases h : changeEngine cfg s.usm q.engineID none (fun _ => 0) with
  | mk res usm =>
    cases res with
    | error e => simp [setReq]
    | ok x => simp [setReq]

/-- The state after a thread's `close` of request `r`. -/
def closing (cfg : VCfg) (s : VMgr) (r : Nat) : VMgr :=
  match s.reqs r with
  | none => s
  | some q => s.closed cfg r q

/-- The manager after a request was created. -/
def issue (s : VMgr) (q : VReq) (gen : NumGen) : VMgr :=
  { s with gen, nextReq := s.nextReq + 1, nextBool := s.nextBool + 1, reqs := setAt s.reqs s.nextReq (some q) }

end VMgr

namespace VSys

theorem finish_eq (cfg : VCfg) (s : VSys) (t r : Nat) (o : VOutcome) :
    s.finish cfg t r o = { s with
      mgr := s.mgr.closing cfg r
      threads := setAt s.threads t (.done r (match s.mgr.reqs r with
        | none => o
        | some q => match (s.mgr.close cfg r q).1 with
          | .ok () => o
          | .error e => .raised e)) } := by
  unfold finish VMgr.closing goto
  cases h : s.mgr.reqs r with
  | none => rfl
  | some q =>
    simp only
    rw [VMgr.close_eq]
    cases h : (changeEngine cfg s.mgr.usm q.engineID none (fun _ => 0)).1 with
    | error e => rfl
    | ok x => rfl

/-- The listening thread is about to process, for request `r`, a report that makes it resend. -/
inductive Reports (s : VSys) (m : Nat) (x : V3Incoming) (r : Nat) (q : VReq) : Why → Bool → Prop
  | unknownEngine (msg : VMsg) (v : VarBind) (rest : List VarBind) (hl : s.listener = .push m x)
      (hm : s.mgr.msgs m = some msg) (hr : msg.request = r) (hq : s.mgr.deref r = some q)
      (hi : x.scopedPDU.pdu.type.isInternal = true) (hv : x.scopedPDU.pdu.bindings = v :: rest)
      (hn : v.name = usmStatsUnknownEngineIDs) (he : some x.securityEngineID ≠ q.engineID) :
      Reports s m x r q (.unknownEngine m) false
  | notInTime (msg : VMsg) (v : VarBind) (rest : List VarBind) (hl : s.listener = .push m x)
      (hm : s.mgr.msgs m = some msg) (hr : msg.request = r) (hq : s.mgr.deref r = some q)
      (hi : x.scopedPDU.pdu.type.isInternal = true) (hv : x.scopedPDU.pdu.bindings = v :: rest)
      (hn : v.name = usmStatsNotInTimeWindows) (hb : s.mgr.bools msg.shared = false) :
      Reports s m x r q (.notInTime m) true

/-- What another manager does to the security module, the cache, the number of messages, and what others have
registered. -/
inductive Shared (cfg : VCfg) (s : VSys) : Other → Usm → Cache V3Entry → Nat → (Bytes → Option (Int × String)) → Prop
  /-- an engine is registered -/
  | registered (e : Bytes) (ns : String) (seed : Bytes → Nat)
      (h : (s.mgr.usm.users.assign cfg.crypto e ns seed).1 = .ok true) :
      Shared cfg s (.register e ns seed) { s.mgr.usm with users := (s.mgr.usm.users.assign cfg.crypto e ns seed).2 }
        s.mgr.cache s.mgr.nextMsg (fun x => if x = e then Usm.bump (s.held e) ns else s.held x)
  /-- it is not -/
  | refused (e : Bytes) (ns : String) (seed : Bytes → Nat)
      (h : (s.mgr.usm.users.assign cfg.crypto e ns seed).1 ≠ .ok true) :
      Shared cfg s (.register e ns seed) { s.mgr.usm with users := (s.mgr.usm.users.assign cfg.crypto e ns seed).2 }
        s.mgr.cache s.mgr.nextMsg s.held
  /-- an engine is released -/
  | released (e : Bytes) (ns : String) (n : Int) (h : s.held e = some (n, ns)) :
      Shared cfg s (.release e ns) { s.mgr.usm with users := (s.mgr.usm.users.release e ns).2 }
        s.mgr.cache s.mgr.nextMsg (fun x => if x = e then Usm.unbump (s.held e) else s.held x)
  /-- a message is made -/
  | sent (pdu : Pdu) (engineID user : Bytes) (level : SecurityLevel) (draws : Nat → Nat) (stamp : ℚ) (usm : Usm)
      (h : usm = s.mgr.usm ∨ ∃ msg, usm = (s.mgr.usm.prepareOutgoing cfg.backend cfg.crypto msg engineID user stamp).2) :
      Shared cfg s (.send pdu engineID user level draws stamp) usm
        (prepareOutgoingV3 cfg.maxSize s.mgr.cache pdu s.mgr.nextMsg engineID user level .usm [] draws).2.1
        (s.mgr.nextMsg + 1) s.held
  /-- a message is closed -/
  | forgot (id : Int) (h : ∀ e, s.mgr.cache.outstanding id = some e → s.mgr.msgs e.handle = none) :
      Shared cfg s (.forget id) s.mgr.usm (s.mgr.cache.uncache id) s.mgr.nextMsg s.held

/-- Every step that does something: what has to hold before, and the state afterwards. -/
inductive Move (cfg : VCfg) (s : VSys) : VEvent → VSys → Prop
  | queued {pdu : Pdu} {user : Bytes} {level : SecurityLevel} {timeout period t0 : ℚ} {r0 : Nat} {i : SendIn}
      (q : VReq) (hq : q = VReq.new { pdu with requestID := (VMgr.generateRequestID s.mgr.gen r0).1 } user level timeout
        period t0 s.mgr.nextBool)
      (hl : s.mgr.locked = false) (hd : s.dropped = false)
      (hs : s.mgr.state.onRequest level.auth = (false, none)) :
      Move cfg s (.send pdu user level timeout period t0 r0 i)
        { s with mgr := { s.mgr.issue q (VMgr.generateRequestID s.mgr.gen r0).2 with
            unsent := ⟨s.mgr.nextReq, WeakKey.new q.nextRefresh⟩ :: s.mgr.unsent } }
  | issued {pdu : Pdu} {user : Bytes} {level : SecurityLevel} {timeout period t0 : ℚ} {r0 : Nat} {i : SendIn}
      (q : VReq) (hq : q = VReq.new { pdu with requestID := (VMgr.generateRequestID s.mgr.gen r0).1 } user level timeout
        period t0 s.mgr.nextBool)
      (hl : s.mgr.locked = false) (hd : s.dropped = false) (next : Option MState)
      (hs : s.mgr.state.onRequest level.auth = (true, next)) (m' : VMgr)
      (hm : VMgr.Sends cfg ((s.mgr.issue q (VMgr.generateRequestID s.mgr.gen r0).2).propose next) s.mgr.nextReq
        (q.setNextRefresh (i.now + q.period)) s.mgr.engineID .issue i (.ok ()) m') :
      Move cfg s (.send pdu user level timeout period t0 r0 i)
        { s with mgr := ({ m' with active := (Heap.push m'.env m'.active
            ⟨s.mgr.nextReq, WeakKey.new q.nextRefresh⟩) } : VMgr).updateState }
  | issueFailed {pdu : Pdu} {user : Bytes} {level : SecurityLevel} {timeout period t0 : ℚ} {r0 : Nat} {i : SendIn}
      (q : VReq) (hq : q = VReq.new { pdu with requestID := (VMgr.generateRequestID s.mgr.gen r0).1 } user level timeout
        period t0 s.mgr.nextBool)
      (hl : s.mgr.locked = false) (hd : s.dropped = false) (next : Option MState)
      (hs : s.mgr.state.onRequest level.auth = (true, next)) (m' : VMgr) (err : PyErr)
      (hm : VMgr.Sends cfg ((s.mgr.issue q (VMgr.generateRequestID s.mgr.gen r0).2).propose next) s.mgr.nextReq
        (q.setNextRefresh (i.now + q.period)) s.mgr.engineID .issue i (.error err) m') :
      Move cfg s (.send pdu user level timeout period t0 r0 i) { s with mgr := m'.fail (.issue s.mgr.nextReq) }
  | wait {t r : Nat} (q : VReq) (ht : s.threads t = .idle ∨ ∃ r' o, s.threads t = .done r' o)
      (hq : s.mgr.deref r = some q) : Move cfg s (.wait t r) (s.goto t (.test r))
  | expired {t : Nat} {i : SendIn} (r : Nat) (q : VReq) (ht : s.threads t = .test r) (hq : s.mgr.reqs r = some q)
      (he : q.expiration ≤ i.now) : Move cfg s (.step t i) (s.goto t (.finish r))
  | unexpired {t : Nat} {i : SendIn} (r : Nat) (q : VReq) (ht : s.threads t = .test r) (hq : s.mgr.reqs r = some q)
      (he : i.now < q.expiration) : Move cfg s (.step t i) (s.goto t (.body r))
  | bodyEmpty {t : Nat} {i : SendIn} (r : Nat) (ht : s.threads t = .body r) (ha : s.mgr.active = []) :
      Move cfg s (.step t i) (s.goto t (.poke r))
  | bodyDead {t : Nat} {i : SendIn} (r : Nat) (x : Ref) (rest : List Ref) (ht : s.threads t = .body r)
      (ha : s.mgr.active = x :: rest) (hx : s.mgr.deref x.id = none) :
      Move cfg s (.step t i)
        { s with mgr := { s.mgr with active := Heap.pop s.mgr.env s.mgr.active }
                 threads := setAt s.threads t (.body r) }
  | bodyOver {t : Nat} {i : SendIn} (r : Nat) (x : Ref) (rest : List Ref) (q : VReq) (ht : s.threads t = .body r)
      (ha : s.mgr.active = x :: rest) (hx : s.mgr.deref x.id = some q)
      (ho : q.event = true ∨ q.nextRefresh ≤ i.now ∧ q.expiration ≤ i.now) :
      Move cfg s (.step t i)
        { s with mgr := { s.mgr with active := Heap.pop s.mgr.env s.mgr.active }
                 threads := setAt s.threads t (.body r) }
  | bodyWait {t : Nat} {i : SendIn} (r : Nat) (x : Ref) (rest : List Ref) (q : VReq) (ht : s.threads t = .body r)
      (ha : s.mgr.active = x :: rest) (hx : s.mgr.deref x.id = some q) (he : q.event = false)
      (hn : i.now < q.nextRefresh) :
      Move cfg s (.step t i) (s.goto t (.sleep r (q.nextRefresh - i.now) i.now))
  | bodyZero {t : Nat} {i : SendIn} (r : Nat) (x : Ref) (rest : List Ref) (q : VReq) (ht : s.threads t = .body r)
      (ha : s.mgr.active = x :: rest) (hx : s.mgr.deref x.id = some q) (he : q.event = false)
      (hn : q.nextRefresh ≤ i.now) (hx' : i.now < q.expiration) (hz : q.period = 0) :
      Move cfg s (.step t i)
        (({ s with mgr := s.mgr.fail (.refresh x.id) } : VSys).finish cfg t r (.raised .zeroDivisionError))
  | bodySent {t : Nat} {i : SendIn} (r : Nat) (x : Ref) (rest : List Ref) (q : VReq) (ht : s.threads t = .body r)
      (ha : s.mgr.active = x :: rest) (hx : s.mgr.deref x.id = some q) (he : q.event = false)
      (hn : q.nextRefresh ≤ i.now) (hx' : i.now < q.expiration) (hz : q.period ≠ 0) (m' : VMgr)
      (hm : VMgr.Sends cfg s.mgr x.id (VMgr.resent q i.now) none .timer i (.ok ()) m') :
      Move cfg s (.step t i)
        { s with mgr := { m' with active := Heap.replace m'.env m'.active x }
                 threads := setAt s.threads t (.body r) }
  | bodyFailed {t : Nat} {i : SendIn} (r : Nat) (x : Ref) (rest : List Ref) (q : VReq) (ht : s.threads t = .body r)
      (ha : s.mgr.active = x :: rest) (hx : s.mgr.deref x.id = some q) (he : q.event = false)
      (hn : q.nextRefresh ≤ i.now) (hx' : i.now < q.expiration) (hz : q.period ≠ 0) (m' : VMgr) (err : PyErr)
      (hm : VMgr.Sends cfg s.mgr x.id (VMgr.resent q i.now) none .timer i (.error err) m') :
      Move cfg s (.step t i)
        (({ s with mgr := m'.fail (.refresh x.id) } : VSys).finish cfg t r (.raised err))
  | pokeBegin {t : Nat} {i : SendIn} (r : Nat) (ht : s.threads t = .poke r) (hl : s.mgr.locked = false) :
      Move cfg s (.step t i)
        { s with mgr := { ((s.mgr.propose s.mgr.state.onInactive).updateState) with unsent := [], locked := true }
                 threads := setAt s.threads t (.poking r s.mgr.unsent false) }
  | pokeEnd {t : Nat} {i : SendIn} (r : Nat) (a : Bool) (ht : s.threads t = .poking r [] a) :
      Move cfg s (.step t i)
        { s with mgr := { s.mgr with locked := false }
                 threads := setAt s.threads t (if a then .body r else .sleep r 0 i.now) }
  | pokeDead {t : Nat} {i : SendIn} (r : Nat) (l : List Ref) (x : Ref) (a : Bool)
      (ht : s.threads t = .poking r (l ++ [x]) a) (hx : s.mgr.deref x.id = none) :
      Move cfg s (.step t i) (s.goto t (.poking r l a))
  | pokeQueued {t : Nat} {i : SendIn} (r : Nat) (l : List Ref) (x : Ref) (a : Bool) (q : VReq)
      (ht : s.threads t = .poking r (l ++ [x]) a) (hx : s.mgr.deref x.id = some q)
      (hs : s.mgr.state.onRequest q.level.auth = (false, none)) :
      Move cfg s (.step t i)
        { s with mgr := { s.mgr with unsent := x :: s.mgr.unsent }
                 threads := setAt s.threads t (.poking r l a) }
  | pokeSent {t : Nat} {i : SendIn} (r : Nat) (l : List Ref) (x : Ref) (a : Bool) (q : VReq)
      (ht : s.threads t = .poking r (l ++ [x]) a) (hx : s.mgr.deref x.id = some q) (next : Option MState)
      (hs : s.mgr.state.onRequest q.level.auth = (true, next)) (m' : VMgr)
      (hm : VMgr.Sends cfg (s.mgr.propose next) x.id (q.setNextRefresh (i.now + q.period)) s.mgr.engineID .poke i
        (.ok ()) m') :
      Move cfg s (.step t i)
        { s with mgr := ({ m' with active := Heap.push m'.env m'.active x } : VMgr).updateState
                 threads := setAt s.threads t (.poking r l true) }
  | pokeFailed {t : Nat} {i : SendIn} (r : Nat) (l : List Ref) (x : Ref) (a : Bool) (q : VReq)
      (ht : s.threads t = .poking r (l ++ [x]) a) (hx : s.mgr.deref x.id = some q) (next : Option MState)
      (hs : s.mgr.state.onRequest q.level.auth = (true, next)) (m' : VMgr) (err : PyErr)
      (hm : VMgr.Sends cfg (s.mgr.propose next) x.id (q.setNextRefresh (i.now + q.period)) s.mgr.engineID .poke i
        (.error err) m') :
      Move cfg s (.step t i)
        (({ s with mgr := { m'.fail (.poke x.id) with locked := false } } : VSys).finish cfg t r (.raised err))
  | woken {t : Nat} {i : SendIn} (r : Nat) (timeout since : ℚ) (q : VReq) (ht : s.threads t = .sleep r timeout since)
      (hq : s.mgr.reqs r = some q) (he : q.event = true) : Move cfg s (.step t i) (s.goto t (.finish r))
  | slept {t : Nat} {i : SendIn} (r : Nat) (timeout since : ℚ) (q : VReq) (ht : s.threads t = .sleep r timeout since)
      (hq : s.mgr.reqs r = some q) (he : q.event = false) (hn : since + timeout ≤ i.now) :
      Move cfg s (.step t i) (s.goto t (.test r))
  | answered {t : Nat} {i : SendIn} (r : Nat) (q : VReq) (x : V3Incoming) (ht : s.threads t = .finish r)
      (hq : s.mgr.reqs r = some q) (he : q.event = true) (hx : q.response = some x) :
      Move cfg s (.step t i) (s.finish cfg t r
        (if x.scopedPDU.pdu.first ≠ 0 then .errorResponse x.scopedPDU.pdu.first x.scopedPDU.pdu.second q.pdu
          else .bindings x.scopedPDU.pdu.bindings))
  | unanswered {t : Nat} {i : SendIn} (r : Nat) (q : VReq) (ht : s.threads t = .finish r)
      (hq : s.mgr.reqs r = some q) (he : q.event = false ∨ q.response = none) :
      Move cfg s (.step t i) (s.goto t (.failed r))
  | reported {t : Nat} {i : SendIn} (r : Nat) (q : VReq) (e : Report) (ht : s.threads t = .failed r)
      (hq : s.mgr.reqs r = some q) (he : q.exception = some e) :
      Move cfg s (.step t i) (s.finish cfg t r (.reported e))
  | timedOut {t : Nat} {i : SendIn} (r : Nat) (q : VReq) (ht : s.threads t = .failed r)
      (hq : s.mgr.reqs r = some q) (he : q.exception = none) :
      Move cfg s (.step t i) (s.finish cfg t r .timeout)
  | heardNothing {w : Bytes} {stamp : ℚ} (usm : Usm) (hl : s.listener = .idle) (hu : s.mgr.usm.SameReg usm)
      (hd : usm = s.mgr.usm ∨ ∃ msg, usm = (s.mgr.usm.processIncoming cfg.backend cfg.crypto msg stamp).2) :
      Move cfg s (.hear w stamp) { s with mgr := { s.mgr with usm } }
  | heard {w : Bytes} {stamp : ℚ} (usm : Usm) (m : Nat) (x : V3Incoming) (msg msg' : V3Message) (id : Int) (e : V3Entry)
      (hl : s.listener = .idle) (hw : V3Message.decode (.bytes w) = .ok msg)
      (hu : s.mgr.usm.processIncoming cfg.backend cfg.crypto msg stamp = (.ok msg', usm))
      (hx : msg'.header = x.header ∧ msg'.scopedPDU = some x.scopedPDU ∧
        msg'.securityEngineID = some x.securityEngineID ∧ msg'.securityName = some x.securityName)
      (hr : x.scopedPDU.pdu.type.isResponse = true) (hid : x.header.id = id)
      (he : s.mgr.cache.outstanding id = some e) (hh : e.handle = m) (hg : s.mgr.gone m = false)
      (hc : v3Check e x = .ok ()) :
      Move cfg s (.hear w stamp) { s with mgr := { s.mgr with usm }, listener := .push m x }
  | pushStop {i : SendIn} (m : Nat) (x : V3Incoming) (hl : s.listener = .push m x) :
      Move cfg s (.listen i) { s with listener := .idle }
  | reportBad {i : SendIn} (m : Nat) (x : V3Incoming) (r : Nat) (q : VReq) (cause : Why) (sync : Bool)
      (hr : Reports s m x r q cause sync) (hl : s.mgr.locked = false) (err : PyErr)
      (hs : s.mgr.state.onReport s.mgr.engineID x.securityEngineID = .error err) :
      Move cfg s (.listen i) { s with listener := .idle }
  | reportFailed {i : SendIn} (m : Nat) (x : V3Incoming) (r : Nat) (q : VReq) (cause : Why) (sync : Bool)
      (hr : Reports s m x r q cause sync) (hl : s.mgr.locked = false) (all : Bool) (next : Option MState)
      (hs : s.mgr.state.onReport s.mgr.engineID x.securityEngineID = .ok (all, next)) (m' : VMgr) (err : PyErr)
      (hm : VMgr.Sends cfg (s.mgr.propose next) r (q.setNextRefresh (i.now + q.period)) (some x.securityEngineID)
        cause i (.error err) m') :
      Move cfg s (.listen i) { s with mgr := m'.fail (.report r), listener := .idle }
  | reportOne {i : SendIn} (m : Nat) (x : V3Incoming) (r : Nat) (q : VReq) (cause : Why) (sync : Bool)
      (hr : Reports s m x r q cause sync) (hl : s.mgr.locked = false) (next : Option MState)
      (hs : s.mgr.state.onReport s.mgr.engineID x.securityEngineID = .ok (false, next)) (m' : VMgr)
      (hm : VMgr.Sends cfg (s.mgr.propose next) r (q.setNextRefresh (i.now + q.period)) (some x.securityEngineID)
        cause i (.ok ()) m') :
      Move cfg s (.listen i)
        { s with mgr := { m' with active := Heap.heapify m'.env m'.active, locked := false }
                 listener := if sync then .sync r else .idle }
  | reportAll {i : SendIn} (m : Nat) (x : V3Incoming) (r : Nat) (q : VReq) (cause : Why) (sync : Bool)
      (hr : Reports s m x r q cause sync) (hl : s.mgr.locked = false) (next : Option MState)
      (hs : s.mgr.state.onReport s.mgr.engineID x.securityEngineID = .ok (true, next)) (m' : VMgr)
      (hm : VMgr.Sends cfg (s.mgr.propose next) r (q.setNextRefresh (i.now + q.period)) (some x.securityEngineID)
        cause i (.ok ()) m') :
      Move cfg s (.listen i)
        { s with mgr := { ({ m' with active := Heap.heapify m'.env m'.active } : VMgr).updateState with locked := true }
                 listener := .flush r x.securityEngineID sync }
  | excepted {i : SendIn} (m : Nat) (x : V3Incoming) (msg : VMsg) (q : VReq) (v : VarBind) (rest : List VarBind)
      (e : Report) (hl : s.listener = .push m x) (hm : s.mgr.msgs m = some msg) (hq : s.mgr.deref msg.request = some q)
      (hi : x.scopedPDU.pdu.type.isInternal = true) (hv : x.scopedPDU.pdu.bindings = v :: rest)
      (hn1 : v.name ≠ usmStatsUnknownEngineIDs) (hn2 : v.name ≠ usmStatsNotInTimeWindows)
      (he : makeReport cfg.utf8 x.securityName v = .ok e) :
      Move cfg s (.listen i)
        { s with mgr := s.mgr.setReq msg.request (q.processException e x.header.flags.level.auth), listener := .idle }
  | responseBad {i : SendIn} (m : Nat) (x : V3Incoming) (msg : VMsg) (q : VReq) (hl : s.listener = .push m x)
      (hm : s.mgr.msgs m = some msg) (hq : s.mgr.deref msg.request = some q)
      (hi : x.scopedPDU.pdu.type.isInternal = false) (hlk : s.mgr.locked = false) (err : PyErr) (m' : VMgr)
      (hp : s.mgr.processResponse cfg x i.seed = (.error err, m')) :
      Move cfg s (.listen i) { s with mgr := m', listener := .idle }
  | responded {i : SendIn} (m : Nat) (x : V3Incoming) (msg : VMsg) (q : VReq) (hl : s.listener = .push m x)
      (hm : s.mgr.msgs m = some msg) (hq : s.mgr.deref msg.request = some q)
      (hi : x.scopedPDU.pdu.type.isInternal = false) (hlk : s.mgr.locked = false) (m' : VMgr)
      (hp : s.mgr.processResponse cfg x i.seed = (.ok (), m')) :
      Move cfg s (.listen i) { s with mgr := m'.setReq msg.request (q.store x), listener := .idle }
  | flushEnd {i : SendIn} (r : Nat) (eid : Bytes) (sync : Bool) (hl : s.listener = .flush r eid sync)
      (hu : s.mgr.unsent = []) :
      Move cfg s (.listen i)
        { s with mgr := { s.mgr with locked := false }, listener := if sync then .sync r else .idle }
  | flushDead {i : SendIn} (r : Nat) (eid : Bytes) (sync : Bool) (l : List Ref) (x : Ref)
      (hl : s.listener = .flush r eid sync) (hu : s.mgr.unsent = l ++ [x]) (hx : s.mgr.deref x.id = none) :
      Move cfg s (.listen i) { s with mgr := { s.mgr with unsent := l } }
  | flushSent {i : SendIn} (r : Nat) (eid : Bytes) (sync : Bool) (l : List Ref) (x : Ref) (q : VReq)
      (hl : s.listener = .flush r eid sync) (hu : s.mgr.unsent = l ++ [x]) (hx : s.mgr.deref x.id = some q) (m' : VMgr)
      (hm : VMgr.Sends cfg { s.mgr with unsent := l } x.id (q.setNextRefresh (i.now + q.period)) (some eid) .flush i
        (.ok ()) m') :
      Move cfg s (.listen i) { s with mgr := { m' with active := Heap.push m'.env m'.active x } }
  | flushFailed {i : SendIn} (r : Nat) (eid : Bytes) (sync : Bool) (l : List Ref) (x : Ref) (q : VReq)
      (hl : s.listener = .flush r eid sync) (hu : s.mgr.unsent = l ++ [x]) (hx : s.mgr.deref x.id = some q) (m' : VMgr)
      (err : PyErr)
      (hm : VMgr.Sends cfg { s.mgr with unsent := l } x.id (q.setNextRefresh (i.now + q.period)) (some eid) .flush i
        (.error err) m') :
      Move cfg s (.listen i)
        { s with mgr := { m'.fail (.flush x.id) with locked := false }, listener := .idle }
  | syncGone {i : SendIn} (r : Nat) (hl : s.listener = .sync r) (hq : s.mgr.reqs r = none) :
      Move cfg s (.listen i) { s with listener := .idle }
  | synced {i : SendIn} (r : Nat) (q : VReq) (hl : s.listener = .sync r) (hq : s.mgr.reqs r = some q) :
      Move cfg s (.listen i)
        { s with mgr := { s.mgr with bools := setAt s.mgr.bools q.shared true, nextBool := s.mgr.nextBool + 1
                                     reqs := setAt s.mgr.reqs r (some { q with shared := s.mgr.nextBool }) }
                 listener := .idle }
  | collected {r : Nat} (q : VReq) (hq : s.mgr.deref r = some q) :
      Move cfg s (.collect r) { s with mgr := { s.mgr.closed cfg r q with dead := setAt s.mgr.dead r true } }
  | dropped (hd : s.dropped = false) (ha : ∀ r < s.mgr.nextReq, s.mgr.dead r = true) :
      Move cfg s .drop
        { s with mgr := { s.mgr with
                    usm := (changeEngine cfg s.mgr.usm s.mgr.engineID none (fun _ => 0)).2
                    engineID := if (changeEngine cfg s.mgr.usm s.mgr.engineID none (fun _ => 0)).1 = .ok () then none
                      else s.mgr.engineID }
                 dropped := true }
  | addUser {a : UserArgs} {seed : Bytes → Nat} :
      Move cfg s (.addUser a seed)
        { s with mgr := { s.mgr with usm := { s.mgr.usm with
            users := (s.mgr.usm.users.addUser cfg.crypto a seed).2 } } }
  | other {o : Other} (usm : Usm) (cache : Cache V3Entry) (n : Nat) (held : Bytes → Option (Int × String))
      (ho : Shared cfg s o usm cache n held) :
      Move cfg s (.other o) { s with mgr := { s.mgr with usm, cache, nextMsg := n }, held }

/-! ## Every step is one of them -/

theorem other_move (cfg : VCfg) (s : VSys) (o : Other) : s.other cfg o = s ∨ Move cfg s (.other o) (s.other cfg o) := by
  cases o with
  | register e ns seed =>
    right
    unfold other
    simp only
    by_cases h : (s.mgr.usm.users.assign cfg.crypto e ns seed).1 = .ok true
    · rw [if_pos h]; exact Move.other _ _ _ _ (.registered e ns seed h)
    · rw [if_neg h]; exact Move.other _ _ _ _ (.refused e ns seed h)
  | release e ns =>
    unfold other
    simp only
    split
    · rename_i h
      cases hh : s.held e with
      | none => rw [hh] at h; cases h
      | some x =>
        rw [hh] at h
        simp only [Option.map_some, Option.some.injEq] at h
        right
        have := Move.other (cfg := cfg) (s := s) _ _ _ _ (.released e ns x.1 (by rw [hh, ← h]))
        rw [hh] at this
        exact this
    · exact .inl rfl
  | send pdu engineID user level draws stamp =>
    right
    have hs := fun usm h => Move.other (cfg := cfg) (s := s) _ _ _ _ (.sent pdu engineID user level draws stamp usm h)
    show Move cfg s _ { s with mgr := { s.mgr with
      cache := (prepareOutgoingV3 cfg.maxSize s.mgr.cache pdu s.mgr.nextMsg engineID user level .usm [] draws).2.1
      nextMsg := s.mgr.nextMsg + 1
      usm := match (prepareOutgoingV3 cfg.maxSize s.mgr.cache pdu s.mgr.nextMsg engineID user level .usm [] draws).1 with
            | .error _ => s.mgr.usm
            | .ok msg => (s.mgr.usm.prepareOutgoing cfg.backend cfg.crypto msg engineID user stamp).2 } }
    refine hs _ ?_
    split
    · exact .inl rfl
    · exact .inr ⟨_, rfl⟩
  | forget id =>
    unfold other
    simp only
    split
    · rename_i h
      right
      refine Move.other _ _ _ _ (.forgot id fun e he => ?_)
      rw [he] at h
      simpa using h
    · exact .inl rfl

namespace Shared

variable {cfg : VCfg} {s : VSys} {o : Other} {usm : Usm} {cache : Cache V3Entry} {n : Nat}
  {held : Bytes → Option (Int × String)}

/-- No messages are unmade. -/
theorem le (h : Shared cfg s o usm cache n held) : s.mgr.nextMsg ≤ n := by
  cases h <;> simp

/-- What is in the cache afterwards was there before, or is somebody else's new message. -/
theorem outstanding (h : Shared cfg s o usm cache n held) (id : Int) (e : V3Entry) (he : cache.outstanding id = some e) :
    s.mgr.cache.outstanding id = some e ∨ e.handle = s.mgr.nextMsg ∧ n = s.mgr.nextMsg + 1 := by
  cases h with
  | sent pdu engineID user level draws stamp usm hu =>
    have hb := prepareOutgoingV3_booked cfg.maxSize s.mgr.cache pdu
      ⟨engineID, [], s.mgr.nextMsg, user, .usm, level⟩ draws
    generalize (prepareOutgoingV3 cfg.maxSize s.mgr.cache pdu s.mgr.nextMsg engineID user level .usm [] draws).2 = y at *
    obtain ⟨c, i⟩ := y
    cases hb with
    | unbooked hc => simp only at he; rw [hc] at he; exact .inl he
    | booked i' h0 h1 hc =>
      simp only at he
      rw [hc] at he
      simp only at he
      split at he
      · cases he; exact .inr ⟨rfl, rfl⟩
      · exact .inl he
  | forgot id' h =>
    unfold Cache.uncache at he
    simp only at he
    split at he
    · cases he
    · exact .inl he
  | _ => exact .inl he

/-- Messages of this manager stay in the cache. -/
theorem kept (h : Shared cfg s o usm cache n held) (id : Int) (e : V3Entry) (he : s.mgr.cache.outstanding id = some e)
    (hm : (s.mgr.msgs e.handle).isSome) : cache.outstanding id = some e := by
  cases h with
  | sent pdu engineID user level draws stamp usm hu =>
    have hb := prepareOutgoingV3_booked cfg.maxSize s.mgr.cache pdu
      ⟨engineID, [], s.mgr.nextMsg, user, .usm, level⟩ draws
    generalize (prepareOutgoingV3 cfg.maxSize s.mgr.cache pdu s.mgr.nextMsg engineID user level .usm [] draws).2 = y at *
    obtain ⟨c, i⟩ := y
    cases hb with
    | unbooked hc => simp only; rw [hc]; exact he
    | booked i' h0 h1 hc =>
      simp only
      rw [hc]
      simp only
      rw [if_neg]
      · exact he
      · rintro rfl; rw [h1] at he; cases he
  | forgot id' h =>
    unfold Cache.uncache
    simp only
    rw [if_neg]
    · exact he
    · rintro rfl
      rw [h _ he] at hm; cases hm
  | _ => exact he

end Shared

theorem onRequest_false {st : MState} {auth : Bool} {next : Option MState} (h : st.onRequest auth = (false, next)) :
    next = none := by
  cases st <;> cases auth <;> simp_all [MState.onRequest]

theorem send_cases (cfg : VCfg) (m : VMgr) (r : Nat) (q : VReq) (engineID : Option Bytes) (cause : Why) (i : SendIn) :
    ∃ res m', m.send cfg r q engineID cause i = (res, m') ∧
      VMgr.Sends cfg m r (q.setNextRefresh (i.now + q.period)) engineID cause i res m' :=
  ⟨_, _, rfl, VMgr.reallySend_sends cfg m r _ engineID cause i⟩

theorem move_send (cfg : VCfg) (s : VSys) (pdu : Pdu) (user : Bytes) (level : SecurityLevel) (timeout period t0 : ℚ)
    (r0 : Nat) (i : SendIn) (hl : s.mgr.locked = false) (hd : s.dropped = false) :
    Move cfg s (.send pdu user level timeout period t0 r0 i)
      { s with mgr := (s.mgr.sendRequest cfg pdu user level timeout period t0 r0 i).2 } := by
  unfold VMgr.sendRequest
  simp only
  cases hs : s.mgr.state.onRequest level.auth with
  | mk b next =>
    cases b with
    | false =>
      have := onRequest_false hs
      subst this
      have hs' := hs
      unfold VMgr.setReq
      simp only [hs, VMgr.propose]
      exact Move.queued _ rfl hl hd hs
    | true =>
      unfold VMgr.setReq
      simp only [hs]
      obtain ⟨res, m', h1, h2⟩ := send_cases cfg ((s.mgr.issue (VReq.new
        { pdu with requestID := (VMgr.generateRequestID s.mgr.gen r0).1 } user level timeout period t0 s.mgr.nextBool)
        (VMgr.generateRequestID s.mgr.gen r0).2).propose next) s.mgr.nextReq (VReq.new
        { pdu with requestID := (VMgr.generateRequestID s.mgr.gen r0).1 } user level timeout period t0 s.mgr.nextBool)
        s.mgr.engineID .issue i
      unfold VMgr.issue at h1
      rw [h1]
      cases res with
      | error e => exact Move.issueFailed _ rfl hl hd next hs m' e h2
      | ok x => exact Move.issued _ rfl hl hd next hs m' h2

theorem move_body (cfg : VCfg) (s : VSys) (t r : Nat) (i : SendIn) (ht : s.threads t = .body r) :
    Move cfg s (.step t i) (s.advance cfg t i) := by
  unfold advance
  rw [ht]
  simp only
  unfold VMgr.refreshBody
  cases ha : s.mgr.active with
  | nil => exact Move.bodyEmpty r ht ha
  | cons x rest =>
    simp only
    cases hx : s.mgr.deref x.id with
    | none =>
      have := Move.bodyDead (cfg := cfg) (s := s) (t := t) (i := i) r x rest ht ha hx
      rw [ha] at this
      exact this
    | some q =>
      simp only
      unfold VMgr.refreshRequest
      have hov := fun ho => Move.bodyOver (cfg := cfg) (s := s) (t := t) (i := i) r x rest q ht ha hx ho
      by_cases he : q.event = true
      · rw [if_pos he]
        have := hov (.inl he)
        rw [ha] at this
        simp only [ha]
        exact this
      · rw [if_neg he]
        have he' : q.event = false := by simpa using he
        simp only
        by_cases hn : q.nextRefresh - i.now ≤ 0
        · rw [if_pos hn]
          have hn' : q.nextRefresh ≤ i.now := by linarith
          by_cases hexp : q.expiration ≤ i.now
          · rw [if_pos hexp]
            have := hov (.inr ⟨hn', hexp⟩)
            rw [ha] at this
            simp only [ha]
            exact this
          · rw [if_neg hexp]
            have hexp' : i.now < q.expiration := lt_of_not_ge hexp
            by_cases hz : q.period = 0
            · rw [if_pos hz]
              exact Move.bodyZero r x rest q ht ha hx he' hn' hexp' hz
            · rw [if_neg hz]
              have h := VMgr.reallySend_sends cfg s.mgr x.id (VMgr.resent q i.now) none .timer i
              generalize s.mgr.reallySend cfg x.id (VMgr.resent q i.now) none .timer i = y at h
              obtain ⟨res, m'⟩ := y
              cases res with
              | error e => exact Move.bodyFailed r x rest q ht ha hx he' hn' hexp' hz m' e h
              | ok _ =>
                simp only [lt_self_iff_false, if_false]
                exact Move.bodySent r x rest q ht ha hx he' hn' hexp' hz m' h
        · rw [if_neg hn]
          have hn' : i.now < q.nextRefresh := by linarith
          simp only
          rw [if_pos (by linarith)]
          exact Move.bodyWait r x rest q ht ha hx he' hn'

theorem move_poking (cfg : VCfg) (s : VSys) (t r : Nat) (l : List Ref) (a : Bool) (i : SendIn)
    (ht : s.threads t = .poking r l a) : Move cfg s (.step t i) (s.advance cfg t i) := by
  unfold advance
  rw [ht]
  simp only
  cases hl : l.getLast? with
  | none =>
    rw [List.getLast?_eq_none_iff] at hl
    subst hl
    exact Move.pokeEnd r a ht
  | some x =>
    obtain ⟨l', rfl⟩ := List.getLast?_eq_some_iff.1 hl
    simp only [List.dropLast_concat]
    unfold VMgr.pokeOne
    cases hx : s.mgr.deref x.id with
    | none =>
      simp only [Bool.or_false]
      exact Move.pokeDead r l' x a ht hx
    | some q =>
      simp only
      cases hs : s.mgr.state.onRequest q.level.auth with
      | mk b next =>
        cases b with
        | false =>
          have := onRequest_false hs
          subst this
          simp only [VMgr.propose, Bool.or_false]
          exact Move.pokeQueued r l' x a q ht hx hs
        | true =>
          obtain ⟨res, m', h1, h2⟩ := send_cases cfg (s.mgr.propose next) x.id q s.mgr.engineID .poke i
          simp only
          rw [h1]
          cases res with
          | error e => exact Move.pokeFailed r l' x a q ht hx next hs m' e h2
          | ok _ =>
            simp only [Bool.or_true]
            exact Move.pokeSent r l' x a q ht hx next hs m' h2

theorem move_step (cfg : VCfg) (s : VSys) (t : Nat) (i : SendIn) :
    s.advance cfg t i = s ∨ Move cfg s (.step t i) (s.advance cfg t i) := by
  cases ht : s.threads t with
  | idle => left; unfold advance; rw [ht]
  | done _ _ => left; unfold advance; rw [ht]
  | test r =>
    unfold advance
    rw [ht]
    simp only
    cases hq : s.mgr.reqs r with
    | none => exact .inl rfl
    | some q =>
      right
      simp only
      split
      · rename_i h; exact Move.expired r q ht hq h
      · rename_i h; exact Move.unexpired r q ht hq (lt_of_not_ge h)
  | body r => exact .inr (move_body cfg s t r i ht)
  | poke r =>
    unfold advance
    rw [ht]
    simp only
    split
    · exact .inl rfl
    · rename_i h
      right
      unfold VMgr.pokeBegin
      simp only
      have := Move.pokeBegin (cfg := cfg) (s := s) (t := t) (i := i) r ht (by simpa using h)
      have hu : ((s.mgr.propose s.mgr.state.onInactive).updateState).unsent = s.mgr.unsent := by
        unfold VMgr.updateState VMgr.propose
        cases s.mgr.state.onInactive
        · simp only; split <;> rfl
        · rfl
      rw [hu]
      exact this
  | poking r l a => exact .inr (move_poking cfg s t r l a i ht)
  | sleep r timeout since =>
    unfold advance
    rw [ht]
    simp only
    cases hq : s.mgr.reqs r with
    | none => exact .inl rfl
    | some q =>
      simp only
      split
      · rename_i h; exact .inr (Move.woken r timeout since q ht hq h)
      · rename_i h
        split
        · rename_i h'; exact .inr (Move.slept r timeout since q ht hq (by simpa using h) h')
        · exact .inl rfl
  | finish r =>
    unfold advance
    rw [ht]
    simp only
    cases hq : s.mgr.reqs r with
    | none => exact .inl rfl
    | some q =>
      right
      simp only
      cases he : q.event with
      | false => exact Move.unanswered r q ht hq (.inl he)
      | true =>
        cases hx : q.response with
        | none => exact Move.unanswered r q ht hq (.inr hx)
        | some x => exact Move.answered r q x ht hq he hx
  | failed r =>
    unfold advance
    rw [ht]
    simp only
    cases hq : s.mgr.reqs r with
    | none => exact .inl rfl
    | some q =>
      right
      simp only
      cases hx : q.exception with
      | none => exact Move.timedOut r q ht hq hx
      | some e => exact Move.reported r q e ht hq hx

theorem move_hear (cfg : VCfg) (s : VSys) (w : Bytes) (stamp : ℚ) :
    s.step cfg (.hear w stamp) = s ∨ Move cfg s (.hear w stamp) (s.step cfg (.hear w stamp)) := by
  unfold step
  cases hl : s.listener with
  | push m x => exact .inl rfl
  | flush r e b => exact .inl rfl
  | sync r => exact .inl rfl
  | idle =>
    simp only
    have hnone : (s.mgr.hear cfg w stamp).1 = none → s.mgr.usm.SameReg (s.mgr.hear cfg w stamp).2.usm →
        ((s.mgr.hear cfg w stamp).2.usm = s.mgr.usm ∨ ∃ msg, (s.mgr.hear cfg w stamp).2.usm =
          (s.mgr.usm.processIncoming cfg.backend cfg.crypto msg stamp).2) →
        (s.mgr.hear cfg w stamp).2 = { s.mgr with usm := (s.mgr.hear cfg w stamp).2.usm } →
        Move cfg s (.hear w stamp) { s with mgr := (s.mgr.hear cfg w stamp).2, listener := .idle } := by
      intro _ h2 hd h3
      rw [h3, ← hl]
      exact Move.heardNothing _ hl h2 hd
    revert hnone
    unfold VMgr.hear
    split
    · exact fun h => .inr (h rfl (.refl _) (.inl rfl) rfl)
    · simp only
      split
      · exact fun h => .inr (h rfl (.refl _) (.inl rfl) rfl)
      · split
        · exact fun h => .inr (h rfl (.refl _) (.inl rfl) rfl)
        · rename_i msg hw
          have hu := Usm.processIncoming_reg s.mgr.usm cfg.backend cfg.crypto msg stamp
          split
          · rename_i hp
            rw [hp] at hu
            exact fun h => .inr (h rfl hu (.inr ⟨msg, by rw [hp]⟩) rfl)
          · rename_i msg' usm hp
            rw [hp] at hu
            have hd : usm = (s.mgr.usm.processIncoming cfg.backend cfg.crypto msg stamp).2 := by rw [hp]
            split
            · rename_i p e n hsp hse hsn
              unfold Proto.prepareDataElements
              cases hcl : v3Proto.classify ⟨msg'.header, p, e, n⟩ with
              | error err => exact fun h => .inr (h rfl hu (.inr ⟨msg, hd⟩) rfl)
              | ok id =>
                simp only
                unfold Cache.retrieve
                cases ho : s.mgr.cache.outstanding id with
                | none => exact fun h => .inr (h rfl hu (.inr ⟨msg, hd⟩) rfl)
                | some en =>
                  simp only
                  unfold Proto.resolve
                  by_cases hg : s.mgr.gone (v3Proto.handle en) = true
                  · rw [if_pos hg]; exact fun h => .inr (h rfl hu (.inr ⟨msg, hd⟩) rfl)
                  · rw [if_neg hg]
                    cases hck : v3Proto.check en ⟨msg'.header, p, e, n⟩ with
                    | error err => exact fun h => .inr (h rfl hu (.inr ⟨msg, hd⟩) rfl)
                    | ok _ =>
                      intro _
                      simp only [Except.bind]
                      have hcl' : p.pdu.type.isResponse = true ∧ msg'.header.id = id := by
                        have : (if p.pdu.type.isResponse = true then (Except.ok msg'.header.id : Res Int)
                          else .error .unsupportedFeature) = .ok id := hcl
                        by_cases hr : p.pdu.type.isResponse = true
                        · rw [if_pos hr] at this; cases this; exact ⟨hr, rfl⟩
                        · rw [if_neg hr] at this; cases this
                      exact .inr (Move.heard usm _ ⟨msg'.header, p, e, n⟩ msg msg' id en hl hw hp
                        ⟨rfl, hsp, hse, hsn⟩ hcl'.1 hcl'.2 ho rfl (by simpa using hg) hck)
            · exact fun h => .inr (h rfl hu (.inr ⟨msg, hd⟩) rfl)

theorem move_report (cfg : VCfg) (s : VSys) (m : Nat) (x : V3Incoming) (r : Nat) (q : VReq) (cause : Why) (sync : Bool)
    (i : SendIn) (hr : Reports s m x r q cause sync) :
    s.report cfg r q x.securityEngineID cause sync i = s ∨
      Move cfg s (.listen i) (s.report cfg r q x.securityEngineID cause sync i) := by
  unfold report
  split
  · exact .inl rfl
  · rename_i hl
    right
    have hl' : s.mgr.locked = false := by simpa using hl
    unfold VMgr.onReport
    cases hs : s.mgr.state.onReport s.mgr.engineID x.securityEngineID with
    | error e => exact Move.reportBad m x r q cause sync hr hl' e hs
    | ok y =>
      obtain ⟨all, next⟩ := y
      simp only
      obtain ⟨res, m', h1, h2⟩ := send_cases cfg (s.mgr.propose next) r q (some x.securityEngineID) cause i
      rw [h1]
      cases res with
      | error e => exact Move.reportFailed m x r q cause sync hr hl' all next hs m' e h2
      | ok _ =>
        cases all with
        | true => exact Move.reportAll m x r q cause sync hr hl' next hs m' h2
        | false =>
          simp only [Bool.false_eq_true, if_false]
          exact Move.reportOne m x r q cause sync hr hl' next hs m' h2

theorem move_push (cfg : VCfg) (s : VSys) (m : Nat) (x : V3Incoming) (i : SendIn) (hl : s.listener = .push m x) :
    s.push cfg m x i = s ∨ Move cfg s (.listen i) (s.push cfg m x i) := by
  have hstop := Move.pushStop (cfg := cfg) (s := s) (i := i) m x hl
  unfold push
  simp only
  cases hm : s.mgr.msgs m with
  | none => exact .inr hstop
  | some msg =>
    simp only
    by_cases hi : x.scopedPDU.pdu.type.isInternal = true
    · rw [if_pos hi]
      cases hv : x.scopedPDU.pdu.bindings with
      | nil => exact .inr hstop
      | cons v rest =>
        simp only
        by_cases hn1 : v.name = usmStatsUnknownEngineIDs
        · rw [if_pos hn1]
          cases hq : s.mgr.deref msg.request with
          | none => exact .inr hstop
          | some q =>
            simp only
            split
            · exact .inr hstop
            · rename_i he
              exact move_report cfg s m x _ q _ _ i (.unknownEngine msg v rest hl hm rfl hq hi hv hn1 he)
        · rw [if_neg hn1]
          by_cases hn2 : v.name = usmStatsNotInTimeWindows
          · rw [if_pos hn2]
            split
            · exact .inr hstop
            · rename_i hb
              cases hq : s.mgr.deref msg.request with
              | none => exact .inr hstop
              | some q =>
                simp only
                exact move_report cfg s m x _ q _ _ i (.notInTime msg v rest hl hm rfl hq hi hv hn2 (by simpa using hb))
          · rw [if_neg hn2]
            cases hmk : makeReport cfg.utf8 x.securityName v with
            | error _ => exact .inr hstop
            | ok e =>
              cases hq : s.mgr.deref msg.request with
              | none => exact .inr hstop
              | some q => exact .inr (Move.excepted m x msg q v rest e hl hm hq hi hv hn1 hn2 hmk)
    · rw [if_neg hi]
      cases hq : s.mgr.deref msg.request with
      | none => exact .inr hstop
      | some q =>
        simp only
        split
        · exact .inl rfl
        · rename_i hlk
          right
          cases hp : s.mgr.processResponse cfg x i.seed with
          | mk res m' =>
            cases res with
            | error e => exact Move.responseBad m x msg q hl hm hq (by simpa using hi) (by simpa using hlk) e m' hp
            | ok _ => exact Move.responded m x msg q hl hm hq (by simpa using hi) (by simpa using hlk) m' hp

theorem move_listen (cfg : VCfg) (s : VSys) (i : SendIn) :
    s.listen cfg i = s ∨ Move cfg s (.listen i) (s.listen cfg i) := by
  unfold listen
  cases hl : s.listener with
  | idle => exact .inl rfl
  | push m x => exact move_push cfg s m x i hl
  | flush r eid sync =>
    right
    simp only
    cases hu : s.mgr.unsent.getLast? with
    | none =>
      rw [List.getLast?_eq_none_iff] at hu
      exact Move.flushEnd r eid sync hl hu
    | some x =>
      obtain ⟨l, hu'⟩ := List.getLast?_eq_some_iff.1 hu
      simp only [hu', List.dropLast_concat]
      unfold VMgr.flushOne
      have hde : ({ s.mgr with unsent := l } : VMgr).deref x.id = s.mgr.deref x.id := rfl
      simp only [hde]
      cases hx : s.mgr.deref x.id with
      | none => simp only [← hl]; exact Move.flushDead r eid sync l x hl hu' hx
      | some q =>
        simp only
        obtain ⟨res, m', h1, h2⟩ := send_cases cfg { s.mgr with unsent := l } x.id q (some eid) .flush i
        rw [h1]
        cases res with
        | error e => exact Move.flushFailed r eid sync l x q hl hu' hx m' e h2
        | ok _ =>
          simp only [← hl]
          exact Move.flushSent r eid sync l x q hl hu' hx m' h2
  | sync r =>
    right
    simp only
    cases hq : s.mgr.reqs r with
    | none => exact Move.syncGone r hl hq
    | some q => exact Move.synced r q hl hq

/-- A step does nothing or is one of the listed moves. -/
theorem step_move (cfg : VCfg) (s : VSys) (e : VEvent) : s.step cfg e = s ∨ Move cfg s e (s.step cfg e) := by
  cases e with
  | send pdu user level timeout period t0 r0 i =>
    unfold step
    simp only
    split
    · exact .inl rfl
    · rename_i h
      simp only [Bool.or_eq_true, not_or, Bool.not_eq_true] at h
      exact .inr (move_send cfg s pdu user level timeout period t0 r0 i h.1 h.2)
  | wait t r =>
    unfold step
    simp only
    cases hq : s.mgr.deref r with
    | none => left; split <;> simp_all
    | some q =>
      cases ht : s.threads t with
      | idle => exact .inr (Move.wait q (.inl ht) hq)
      | done r' o => exact .inr (Move.wait q (.inr ⟨r', o, ht⟩) hq)
      | _ => exact .inl rfl
  | step t i => exact move_step cfg s t i
  | hear w stamp => exact move_hear cfg s w stamp
  | listen i => exact move_listen cfg s i
  | collect r =>
    unfold step
    simp only
    unfold VMgr.collect
    cases hq : s.mgr.deref r with
    | none => exact .inl rfl
    | some q =>
      right
      simp only
      rw [VMgr.close_eq]
      exact Move.collected q hq
  | drop =>
    unfold step
    simp only
    split
    · rename_i h
      right
      simp only [Bool.and_eq_true, List.all_eq_true, List.mem_range, Bool.not_eq_true'] at h
      have := Move.dropped (cfg := cfg) (s := s) h.2 h.1
      unfold VMgr.drop
      cases hc : changeEngine cfg s.mgr.usm s.mgr.engineID none (fun _ => 0) with
      | mk res usm =>
        rw [hc] at this
        cases res with
        | error err => simpa using this
        | ok x => simpa using this
    · exact .inl rfl
  | addUser a seed => exact .inr Move.addUser
  | other o => exact other_move cfg s o

end VSys

end Snmp
