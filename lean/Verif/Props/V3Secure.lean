import Verif.Props.V3Book
/-!
# C33: with what security the answer to a v3 request was received
-/

namespace Snmp

variable {cfg : VCfg} {m0 : VMgr}

open VSys

/-! ## Specification -/

/-- In the history `h` the datagram `w` arrived, and the security module, in the state it was in then, accepted it
as the message `x`; `u` is that state, `stamp` the clock reading, `msg` the decoded message. -/
def Spec.Accepted (cfg : VCfg) (m0 : VMgr) (h : List VEvent) (w : Bytes) (stamp : ℚ) (u : Usm) (msg : V3Message)
    (x : V3Incoming) : Prop :=
  ∃ h1 h2 msg', h = h1 ++ .hear w stamp :: h2 ∧ u = ((VSys.init m0).run cfg h1).mgr.usm ∧
    V3Message.decode (.bytes w) = .ok msg ∧ (u.processIncoming cfg.backend cfg.crypto msg stamp).1 = .ok msg' ∧
    msg'.header = x.header ∧ msg'.scopedPDU = some x.scopedPDU ∧ msg'.securityEngineID = some x.securityEngineID ∧
    msg'.securityName = some x.securityName

/-- The level `a` gives all the protection of level `b`. -/
def Spec.AtLeast (a b : SecurityLevel) : Prop :=
  (b.auth = true → a.auth = true) ∧ (b.auth = true → b.priv = true → a.priv = true)

theorem Spec.atLeast_of_lt {a b : SecurityLevel} (h : a.lt b = false) : Spec.AtLeast a b := by
  unfold SecurityLevel.lt at h
  unfold Spec.AtLeast
  split at h
  · rename_i ha
    exact ⟨fun _ => ha, fun _ hb => by simpa [hb] using h⟩
  · rename_i ha
    exact ⟨fun hb => absurd (hb.symm.trans h) (by simp), fun hb => absurd (hb.symm.trans h) (by simp)⟩

/-! ## Lemmas -/

theorem Spec.Accepted.later {h h' : List VEvent} {w : Bytes} {stamp : ℚ} {u : Usm} {msg : V3Message} {x : V3Incoming}
    (ha : Spec.Accepted cfg m0 h w stamp u msg x) : Spec.Accepted cfg m0 (h ++ h') w stamp u msg x := by
  obtain ⟨h1, h2, msg', rfl, h4⟩ := ha
  exact ⟨h1, h2 ++ h', msg', by simp, h4⟩

theorem push_accepted (h : List VEvent) (m : Nat) (x : V3Incoming) (hl : (after cfg m0 h).listener = .push m x) :
    ∃ w stamp u msg, Spec.Accepted cfg m0 h w stamp u msg x := by
  induction h using List.reverseRecOn generalizing m x with
  | nil => cases hl
  | append_singleton h e ih =>
    rw [after_snoc] at hl
    have old : (after cfg m0 h).listener = .push m x → ∃ w stamp u msg, Spec.Accepted cfg m0 (h ++ [e]) w stamp u msg x := by
      intro hl
      obtain ⟨w, stamp, u, msg, ha⟩ := ih m x hl
      exact ⟨w, stamp, u, msg, ha.later⟩
    rcases step_move cfg (after cfg m0 h) e with hm | hm
    · rw [hm] at hl
      exact old hl
    · rcases move_pushes hm m x hl with hl | ⟨w, stamp, msg, msg', id, en, rfl, h1, h2, h3, h4, h5, h6, -, -, -⟩
      · exact old hl
      · exact ⟨w, stamp, _, msg, h, [], msg', rfl, rfl, h1, h2, h3, h4, h5, h6⟩

/-- A message accepted at a level with authentication was received at that level. -/
theorem processIncoming_auth {u : Usm} {b : Backend} {c : Crypto} {msg msg' : V3Message} {stamp : ℚ}
    (h : (u.processIncoming b c msg stamp).1 = .ok msg') (ha : msg'.header.flags.level.auth = true) :
    msg.header.flags.level.auth = true := by
  cases hx : msg.header.flags.level.auth with
  | true => rfl
  | false =>
    unfold Usm.processIncoming at h
    cases hp : UsmParams.decode msg.securityParameters with
    | error e => rw [hp] at h; cases h
    | ok p =>
      rw [hp] at h
      simp only [hx, Bool.not_false, if_true] at h
      injection h with h
      rw [← h] at ha
      simp only at ha
      rw [hx] at ha; cases ha

/-! ## C33 -/

/-- C33, for one delivery: a response (not a report) delivered to a request was accepted by the security module, and
it names the request's user and was received at the request's level or a higher one, unless it names neither an
engine nor a user, as a response to a discovery message does. -/
theorem C33_delivered (hc : Spec.Created cfg m0) (h : List VEvent) (e : VEvent) (r : Nat) (x : V3Incoming)
    (hd : Spec.Delivers cfg (after cfg m0 h) e r x) (q : VReq) (hq : (after cfg m0 h).mgr.reqs r = some q) :
    (∃ w stamp u msg, Spec.Accepted cfg m0 h w stamp u msg x) ∧
    (x.securityName = q.userName ∧ Spec.AtLeast x.header.flags.level q.level ∨
      x.securityEngineID = [] ∧ x.securityName = [] ∧ x.scopedPDU.contextEngineID = []) := by
  obtain ⟨i, m, msg, he, hl, hm, hr, hsome, hi, -, -⟩ := hd
  refine ⟨push_accepted h m x hl, ?_⟩
  obtain ⟨msg', q', h1, h2, h3⟩ := (hc.book h).push m x hl
  rw [hm] at h1
  injection h1 with h1
  subst h1
  subst hr
  rw [hq] at h2
  injection h2 with h2
  subst h2
  rcases h3 with ⟨h3, h4⟩ | ⟨h3, h4⟩
  · exact .inl ⟨h3, Spec.atLeast_of_lt (h4 hi)⟩
  · exact .inr ⟨(h4 hi).1, h3, (h4 hi).2⟩

/-- **C33**, what is true of the code: if `wait()` returns bindings or raises an error response, then this came from a
datagram that the security module accepted; and unless that datagram named no engine and no user, it named the user of
the request, and was received at the level of the request or a higher one. Missing: the exception, which the code does
not exclude (`C33_false`). -/
theorem C33_partial (hc : Spec.Created cfg m0) (h : List VEvent) (e : VEvent) (t r : Nat) (o : VOutcome)
    (h0 : ¬ ∃ r' o', (after cfg m0 h).threads t = .done r' o')
    (h1 : (after cfg m0 (h ++ [e])).threads t = .done r o)
    (ho : (∃ l, o = .bindings l) ∨ ∃ status index request, o = .errorResponse status index request) :
    ∃ q x w stamp u msg, (after cfg m0 h).mgr.reqs r = some q ∧ o = Spec.answer x q.pdu ∧
      Spec.Accepted cfg m0 h w stamp u msg x ∧
      (x.securityName = q.userName ∧ Spec.AtLeast x.header.flags.level q.level ∨
        x.securityEngineID = [] ∧ x.securityName = [] ∧ x.scopedPDU.contextEngineID = []) := by
  obtain ⟨i, q, -, hq, hf⟩ := C68_faithful hc h e t r o h0 h1
  have : ∃ x, Spec.Delivered cfg m0 h r x ∧ o = Spec.answer x q.pdu := by
    rcases ho with ⟨l, rfl⟩ | ⟨status, index, request, rfl⟩
    · obtain ⟨x, h2, h3, h4⟩ := hf
      exact ⟨x, h2, by unfold Spec.answer; simp [h3, h4]⟩
    · obtain ⟨x, h2, h3, h4, h5, h6⟩ := hf
      exact ⟨x, h2, by unfold Spec.answer; simp [h3, h4, h5, h6]⟩
  obtain ⟨x, ⟨g1, e', g2, hg, hd⟩, hans⟩ := this
  have hdo : ∃ q0, (after cfg m0 g1).mgr.reqs r = some q0 := by
    obtain ⟨-, -, -, -, -, -, -, hs, -⟩ := hd
    cases hq0 : (after cfg m0 g1).mgr.deref r with
    | none =>
      have : ((after cfg m0 g1).mgr.deref r).isSome := hs
      rw [hq0] at this; cases this
    | some q0 => exact ⟨q0, (VMgr.deref_some hq0).2⟩
  obtain ⟨q0, hq0⟩ := hdo
  obtain ⟨⟨w, stamp, u, msg, hacc⟩, hsec⟩ := C33_delivered hc g1 e' r x hd q0 hq0
  obtain ⟨q1, hq1, hlat⟩ := run_later hc g1 (e' :: g2) r q0 hq0
  rw [← hg, hq] at hq1
  injection hq1 with hq1
  subst hq1
  refine ⟨q, x, w, stamp, u, msg, hq, hans, hg ▸ hacc.later, ?_⟩
  rw [hlat.userName, hlat.level]
  exact hsec

/-- **C33**, with the cryptography: under the same exception, the outcome of a request that asked for authentication
comes from a datagram which carries the MAC, under the key of the user it names, of itself; and the module labelled it
with the user of the request. -/
theorem C33_authentic_partial (hc : Spec.Created cfg m0) (h : List VEvent) (e : VEvent) (t r : Nat) (o : VOutcome)
    (h0 : ¬ ∃ r' o', (after cfg m0 h).threads t = .done r' o')
    (h1 : (after cfg m0 (h ++ [e])).threads t = .done r o)
    (ho : (∃ l, o = .bindings l) ∨ ∃ status index request, o = .errorResponse status index request)
    (q : VReq) (hq : (after cfg m0 h).mgr.reqs r = some q) (hauth : q.level.auth = true) :
    ∃ x w, o = Spec.answer x q.pdu ∧
      ((∃ u engineID user, u.users.getCredentials engineID q.userName = .ok user ∧ engineID = x.securityEngineID ∧
          Spec.Authentic cfg.crypto user w q.level.priv ∧
          (∃ h1 stamp h2, h = h1 ++ .hear w stamp :: h2 ∧ u = ((VSys.init m0).run cfg h1).mgr.usm)) ∨
        x.securityEngineID = [] ∧ x.securityName = [] ∧ x.scopedPDU.contextEngineID = []) := by
  obtain ⟨q', x, w, stamp, u, msg, hq', hans, ⟨g1, g2, msg', hg, hu, hdec, hok, k1, k2, k3, k4⟩, hsec⟩ :=
    C33_partial hc h e t r o h0 h1 ho
  rw [hq] at hq'
  injection hq' with hq'
  subst hq'
  refine ⟨x, w, hans, ?_⟩
  rcases hsec with ⟨hname, hlevel⟩ | hsec
  · left
    have ha : msg'.header.flags.level.auth = true := by rw [k1]; exact hlevel.1 hauth
    obtain ⟨p, user, hp, hcred, hau, hr⟩ := C43_authentic u cfg.backend cfg.crypto stamp w msg hdec
      (processIncoming_auth hok ha) (.inl ⟨msg', hok⟩)
    obtain ⟨j1, j2, j3⟩ := hr msg' hok
    rw [k3] at j2
    rw [k4] at j3
    injection j2 with j2
    injection j3 with j3
    rw [hname] at j3
    refine ⟨u, p.engineID, user, by rw [j3]; exact hcred, j2.symm, ?_, g1, stamp, g2, hg, hu⟩
    obtain ⟨a, b, s, af, i1, i2, i3, i4, i5, i6⟩ := hau
    refine ⟨a, b, s, af, i1, i2, i3, i4, i5, fun hpriv => i6 ?_⟩
    rw [← j1, k1]
    exact hlevel.2 hauth hpriv
  · exact .inr hsec

end Snmp
