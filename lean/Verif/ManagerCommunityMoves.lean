import Verif.Props.ManagerCommunity
/-!
# The steps of a v1/v2c manager, one constructor for each kind of change of the shared state
-/

namespace Snmp
namespace CSys

/-- What one step `e` makes of the shared state of `s`. `same` also covers the steps that are not enabled. -/
inductive Chg (v : Version) (s : CSys) : CEvent → CSys → Prop
  | same {e : CEvent} {s' : CSys} (h : s'.mgr = s.mgr) : Chg v s e s'
  | created {k r : Nat} {pdu : Pdu} {community : Bytes} {timeout period t0 t1 : ℚ} {draws : Nat → Nat}
      {chan : Option PyErr} (hn : s.mgr.reqs r = none) :
      Chg v s (.send k r pdu community timeout period t0 t1 draws chan)
        { s with mgr := (s.mgr.sendRequest v k r pdu community timeout period t0 t1 draws chan).2 }
  | closed {t : Nat} {now : ℚ} {draws : Nat → Nat} {chan : Option PyErr} {s' : CSys} {r : Nat} {q : CReq}
      {o : Outcome} (hq : s.mgr.reqs r = some q) (hc : q.callback = true) (ho : ∀ e, o ≠ .raised e)
      (h : s'.mgr = ({ s.mgr with cache := s.mgr.cache.uncache q.pdu.requestID } : CMgr).setReq r
        { q with callback := false })
      (ht : s'.threads t = .done r o) : Chg v s (.step t now draws chan) s'
  | popped {t : Nat} {now : ℚ} {draws : Nat → Nat} {chan : Option PyErr} {s' : CSys} {k : Nat} {ref : Ref} {rest : List Ref}
      (hb : ∃ r, s.threads t = .body r ∧ s.mgr.managerOf r = k)
      (hh : s.mgr.heaps k = ref :: rest)
      (hd : ∀ q, s.mgr.deref ref.id = some q → q.event = true ∨ (q.nextRefresh ≤ now ∧ q.expiration ≤ now))
      (h : s'.mgr = { s.mgr with heaps := setAt s.mgr.heaps k (Heap.pop s.mgr.env (s.mgr.heaps k)) }) : Chg v s (.step t now draws chan) s'
  | resent {t : Nat} {now : ℚ} {draws : Nat → Nat} {chan : Option PyErr} {s' : CSys} {k : Nat} {ref : Ref} {rest : List Ref}
      {q : CReq} {m' : CMgr} (hb : ∃ r, s.threads t = .body r ∧ s.mgr.managerOf r = k)
      (hh : s.mgr.heaps k = ref :: rest) (hd : s.mgr.deref ref.id = some q)
      (h1 : q.event = false) (h2 : q.nextRefresh ≤ now) (h3 : now < q.expiration) (h4 : q.period ≠ 0)
      (hs : s.mgr.reallySend v ref.id (CMgr.resent q now) draws chan = (.ok (), m'))
      (h : s'.mgr = { m' with heaps := setAt m'.heaps k (Heap.replace m'.env (m'.heaps k) ref) }) : Chg v s (.step t now draws chan) s'
  | failed {t : Nat} {now : ℚ} {draws : Nat → Nat} {chan : Option PyErr} {s' : CSys} {k : Nat} {ref : Ref} {rest : List Ref}
      {q : CReq} {m' : CMgr} {e : PyErr} (hb : ∃ r, s.threads t = .body r ∧ s.mgr.managerOf r = k)
      (hh : s.mgr.heaps k = ref :: rest) (hd : s.mgr.deref ref.id = some q)
      (h1 : q.event = false) (h2 : q.nextRefresh ≤ now) (h3 : now < q.expiration) (h4 : q.period ≠ 0)
      (hs : s.mgr.reallySend v ref.id (CMgr.resent q now) draws chan = (.error e, m'))
      (h : s'.mgr = m') : Chg v s (.step t now draws chan) s'
  | heard {w : Bytes} (hr : s.recv = none) :
      Chg v s (.hear w) { s with mgr := (s.mgr.hear v w).2, recv := (s.mgr.hear v w).1 }
  | pushed {r : Nat} {m : Message} {q : CReq} (hr : s.recv = some (r, m)) (hq : s.mgr.reqs r = some q) :
      Chg v s .push { s with mgr := s.mgr.setReq r (q.push m), recv := none }
  | collected {r : Nat} : Chg v s (.collect r) { s with mgr := s.mgr.collect r }

theorem refreshBody_chg (v : Version) (s : CSys) (t k : Nat) (now : ℚ) (draws : Nat → Nat) (chan : Option PyErr)
    (s' : CSys) (hb : ∃ r, s.threads t = .body r ∧ s.mgr.managerOf r = k)
    (h : s'.mgr = (s.mgr.refreshBody v k now draws chan).2) : Chg v s (.step t now draws chan) s' := by
  unfold CMgr.refreshBody at h
  cases hh : s.mgr.heaps k with
  | nil => rw [hh] at h; exact .same h
  | cons ref rest =>
    rw [hh] at h
    simp only at h
    cases hd : s.mgr.deref ref.id with
    | none =>
      rw [hd] at h
      exact .popped hb hh (by rw [hd]; intro q hq; cases hq) (by rw [h, hh])
    | some q =>
      rw [hd] at h
      simp only at h
      rcases CMgr.refreshRequest_cases v s.mgr ref.id q now draws chan with ⟨kk, k1⟩ | ⟨kk, -, h1⟩ | ⟨kk, -⟩ |
        ⟨h1, h2, h3, h4, ⟨k0, kk⟩ | ⟨e, k0, kk⟩⟩
      · rw [kk] at h
        exact .popped hb hh (by rw [hd]; intro q hq; injection hq with hq; subst hq; exact k1) (by rw [h])
      · rw [kk] at h; simp only at h
        rw [if_pos (by linarith)] at h
        exact .same h
      · rw [kk] at h; exact .same h
      · rw [kk] at h; simp only [lt_self_iff_false, ↓reduceIte] at h
        have hs : s.mgr.reallySend v ref.id (CMgr.resent q now) draws chan =
            (.ok (), (s.mgr.reallySend v ref.id (CMgr.resent q now) draws chan).2) := by rw [← k0]
        exact .resent hb hh hd h1 h2 h3 h4 hs h
      · rw [kk] at h
        have hs : s.mgr.reallySend v ref.id (CMgr.resent q now) draws chan =
            (.error e, (s.mgr.reallySend v ref.id (CMgr.resent q now) draws chan).2) := by rw [← k0]
        exact .failed hb hh hd h1 h2 h3 h4 hs h

theorem finish_chg (v : Version) (s : CSys) (t : Nat) (now : ℚ) (draws : Nat → Nat) (chan : Option PyErr)
    (r : Nat) (q : CReq) (p : Option Pdu) (hq : s.mgr.reqs r = some q) :
    Chg v s (.step t now draws chan) (s.finish t r q p) := by
  obtain ⟨-, h2, h3⟩ := finish_cases s t r q p
  rcases CMgr.close_cases s.mgr r q with ⟨h, hc⟩ | ⟨hc, h⟩
  · exact .same (by rw [h2, h])
  · rcases h3 with ⟨k, -⟩ | ⟨-, k⟩
    · rw [k] at hc; cases hc
    · refine .closed hq hc ?_ (by rw [h2, h]) (by rw [k, setAt_same])
      intro e
      split
      · simp
      · split <;> simp

theorem step_chg (v : Version) (s : CSys) (e : CEvent) : Chg v s e (s.step v e) := by
  cases e with
  | send k r pdu community timeout period t0 t1 draws chan =>
    unfold CSys.step
    simp only
    split
    · exact .same rfl
    · rename_i hs
      exact .created (by simpa using hs)
  | wait t r =>
    refine .same ?_
    unfold CSys.step
    simp only
    split <;> rfl
  | step t now draws chan =>
    show Chg v s _ (s.advance v t now draws chan)
    unfold advance
    split
    · exact .same rfl
    · exact .same rfl
    · split
      · exact .same rfl
      · rename_i r _ _ q hq
        split
        · exact finish_chg v s t now draws chan r q none hq
        · exact .same rfl
    · split
      · exact .same rfl
      · exact .same rfl
    · split
      · rename_i h; exact refreshBody_chg v s t _ now draws chan _ ⟨_, by assumption, rfl⟩ (by rw [h])
      · rename_i h; exact refreshBody_chg v s t _ now draws chan _ ⟨_, by assumption, rfl⟩ (by rw [h])
      · rename_i h; exact refreshBody_chg v s t _ now draws chan _ ⟨_, by assumption, rfl⟩ (by rw [h])
    · split
      · exact .same rfl
      · rename_i r _ _ _ _ q hq
        split
        · split
          · exact .same rfl
          · rename_i m _
            exact finish_chg v s t now draws chan r q (some m.pdu) hq
        · split
          · exact .same rfl
          · split
            · exact .same rfl
            · exact .same rfl
  | hear w =>
    unfold CSys.step
    simp only
    split
    · exact .same rfl
    · rename_i h; exact .heard h
  | push =>
    unfold CSys.step
    simp only
    split
    · exact .same rfl
    · rename_i r m hr
      split
      · exact .same rfl
      · rename_i q hq
        exact .pushed hr hq
  | collect r => exact .collected

end CSys

namespace CMgr

/-- Sending, case by case: no request ID could be allocated; or the request, which had none, gets one and is
cached under it; or the request has one already. In the last two cases the result is the encoder's error, the
channel's error, or the datagram is sent. -/
theorem reallySend_full (v : Version) (s : CMgr) (r : Nat) (q : CReq) (draws : Nat → Nat) (chan : Option PyErr)
    (hc : q.callback = true → q.pdu.requestID ≠ 0) :
    (q.pdu.requestID = 0 ∧ ∃ c, c.outstanding = s.cache.outstanding ∧
      s.reallySend v r q draws chan = (.error .cacheError, ({ s with cache := c } : CMgr).setReq r q)) ∨
    ∃ id cb c, ((q.pdu.requestID = 0 ∧ id ≠ 0 ∧ cb = true ∧ s.cache.outstanding id = none ∧
          ∀ i, c.outstanding i = if i = id then some ⟨r, q.community⟩ else s.cache.outstanding i) ∨
        (q.pdu.requestID ≠ 0 ∧ id = q.pdu.requestID ∧ cb = q.callback ∧ c = s.cache)) ∧
      ((∃ e, ((Message.mk v q.community { q.pdu with requestID := id }).encode = .error e ∨ chan = some e) ∧
          s.reallySend v r q draws chan = (.error e, ({ s with cache := c } : CMgr).setReq r
            { q with pdu := { q.pdu with requestID := id }, callback := cb })) ∨
        ∃ w, (Message.mk v q.community { q.pdu with requestID := id }).encode = .ok w ∧ chan = none ∧
          s.reallySend v r q draws chan = (.ok (), { ({ s with cache := c } : CMgr).setReq r
            { q with pdu := { q.pdu with requestID := id }, callback := cb } with sent := (r, w) :: s.sent })) := by
  by_cases h0 : q.pdu.requestID = 0
  · have hcb : q.callback = false := by
      cases h : q.callback with
      | false => rfl
      | true => exact absurd h0 (hc h)
    have hpo : prepareOutgoingCommunity v s.cache q.pdu r q.community draws =
        match s.cache.cache 32 true ⟨r, q.community⟩ draws with
        | (.error e, c) => (.error e, q.pdu, c, none)
        | (.ok id, c) => ((Message.mk v q.community { q.pdu with requestID := id }).encode,
            { q.pdu with requestID := id }, c, some id) := by
      unfold prepareOutgoingCommunity; rw [if_pos h0]; rfl
    unfold reallySend
    rw [hpo]
    obtain ⟨k1, k2⟩ := Cache.cacheLoop_spec 32 true 10 s.cache (⟨r, q.community⟩ : CommunityEntry) draws
    unfold Cache.cache
    generalize Cache.cacheLoop 32 true 10 s.cache (⟨r, q.community⟩ : CommunityEntry) draws = x at *
    obtain ⟨res, c⟩ := x
    cases res with
    | error e =>
      obtain ⟨rfl, k⟩ := k2 e rfl
      refine .inl ⟨h0, c, k, ?_⟩
      simp [setReq]
    | ok id =>
      obtain ⟨h1, h2, h3⟩ := k1 id rfl
      refine .inr ⟨id, true, c, .inl ⟨h0, h1, rfl, h2, h3⟩, ?_⟩
      simp only [hcb]
      cases he : (Message.mk v q.community { q.pdu with requestID := id }).encode with
      | error e => exact .inl ⟨e, .inl rfl, by simp [setReq]⟩
      | ok w =>
        cases chan with
        | some e => exact .inl ⟨e, .inr rfl, by simp [setReq]⟩
        | none => exact .inr ⟨w, rfl, rfl, by simp [setReq]⟩
  · have hpo : prepareOutgoingCommunity v s.cache q.pdu r q.community draws =
        ((Message.mk v q.community q.pdu).encode, q.pdu, s.cache, none) := by
      unfold prepareOutgoingCommunity; rw [if_neg h0]
    unfold reallySend
    rw [hpo]
    simp only
    refine .inr ⟨q.pdu.requestID, q.callback, s.cache, .inr ⟨h0, rfl, rfl, rfl⟩, ?_⟩
    cases he : (Message.mk v q.community q.pdu).encode with
    | error e => exact .inl ⟨e, .inl rfl, by simp [setReq]⟩
    | ok w =>
      cases chan with
      | some e => exact .inl ⟨e, .inr rfl, by simp [setReq]⟩
      | none => exact .inr ⟨w, rfl, rfl, by simp [setReq]⟩

end CMgr
end Snmp
