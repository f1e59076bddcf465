import Verif.Props.Reserved
import Verif.Props.Usm
/-!
# C114: a datagram that answers nothing leaves nothing behind
-/

namespace Snmp

/-! ## v1/v2c -/

theorem CMgr.hear_same (v : Version) (s : CMgr) (hr : CRes s) (hb : CbInv s) (w : Bytes) : (s.hear v w).2 = s := by
  have base : ∀ m, (communityProto.prepareDataElements s.cache s.dead m).2 = s.cache := by
    intro m
    unfold Proto.prepareDataElements
    split
    · rfl
    · rename_i i hi
      split
      · rfl
      · rename_i e he
        simp only
        split
        · rename_i hd
          exfalso
          unfold Cache.retrieve at he
          obtain ⟨q, a, -, c⟩ := hr i e (by
            cases hx : s.cache.outstanding i with
            | none => rw [hx] at he; cases he
            | some e' => rw [hx] at he; cases he; rfl)
          simp only [communityProto, Bool.and_true] at hd
          rw [hb.dead _ q a hd] at c
          cases c
        · rfl
  unfold CMgr.hear
  split
  · rfl
  · split
    · rfl
    · split
      · rfl
      · rename_i m _ _
        have hb := base m
        split
        · rename_i heq; rw [heq] at hb; simp only at hb; rw [hb]
        · rename_i heq; rw [heq] at hb; simp only at hb; rw [hb]

/-- **C114** (v1/v2c). A datagram that is handed to no request changes nothing at all. -/
theorem C114_community (v : Version) (g : Nat) (h : List CEvent) (w : Bytes)
    (hn : (CSys.after v g (h ++ [.hear w])).recv = (CSys.after v g h).recv) :
    CSys.after v g (h ++ [.hear w]) = CSys.after v g h := by
  rw [CSys.after_snoc] at hn ⊢
  have := CMgr.hear_same v _ (CSys.res v g h) (CSys.CbInv.after v g h) w
  generalize CSys.after v g h = s at *
  unfold CSys.step at hn ⊢
  simp only at hn ⊢
  cases hx : s.recv with
  | some y => rfl
  | none =>
    rw [hx] at hn
    simp only at hn ⊢
    rw [this, hn]
    obtain ⟨mgr, threads, recv⟩ := s
    simp only at hx
    rw [hx]

/-! ## v3 -/

variable {cfg : VCfg} {m0 : VMgr}

/-- What `s` becomes when only the clock of the security module is replaced. -/
def Spec.withClock (s : VSys) (k : TimeKeeper) : VSys :=
  { s with mgr := { s.mgr with usm := { s.mgr.usm with timekeeper := k } } }

/-- What a received message may do to the clock: at most change the estimate for the engine it names; and, if it is not
authenticated, only where there is no authenticated estimate. -/
def Spec.ClockAfter (w : Bytes) (k k' : TimeKeeper) : Prop :=
  k' = k ∨ ∃ msg p, V3Message.decode (.bytes w) = .ok msg ∧ UsmParams.decode msg.securityParameters = .ok p ∧
    (∀ i, i ≠ p.engineID → k'.table i = k.table i) ∧
    (msg.header.flags.level.auth = false → ∀ t, k.table p.engineID = some t → t.authenticated = true →
      k'.table p.engineID = some t)

theorem processIncoming_touch (u : Usm) (b : Backend) (c : Crypto) (w : Bytes) (msg : V3Message) (stamp : ℚ)
    (hw : V3Message.decode (.bytes w) = .ok msg) :
    ∃ k, (u.processIncoming b c msg stamp).2 = { u with timekeeper := k } ∧ Spec.ClockAfter w u.timekeeper k := by
  unfold Usm.processIncoming
  cases hp : UsmParams.decode msg.securityParameters with
  | error e => exact ⟨u.timekeeper, rfl, .inl rfl⟩
  | ok p =>
    simp only
    cases ha : msg.header.flags.level.auth with
    | false =>
      simp only [Bool.not_false, if_true]
      refine ⟨_, rfl, .inr ⟨msg, p, hw, hp, fun i hi => ?_, fun _ t ht hta => ?_⟩⟩
      · simp only [TimeKeeper.hint, TimeKeeper.set, if_neg hi]
      · simp only [TimeKeeper.hint, TimeKeeper.set, if_true, TimeKeeper.assertEntry, ht, EngineTime.hint, hta, Bool.not_true,
          Bool.false_eq_true, if_false]
    | true =>
      simp only [Bool.not_true, Bool.false_eq_true, if_false]
      have key : ∀ k, (u.timekeeper.updateAndVerify p.engineID p.engineBoots p.engineTime stamp).2 = k →
          Spec.ClockAfter w u.timekeeper k := by
        rintro k rfl
        refine .inr ⟨msg, p, hw, hp, fun i hi => ?_, fun h => by rw [ha] at h; cases h⟩
        simp only [TimeKeeper.updateAndVerify, TimeKeeper.set, if_neg hi]
      split
      · exact ⟨u.timekeeper, rfl, .inl rfl⟩
      · exact ⟨u.timekeeper, rfl, .inl rfl⟩
      · exact ⟨u.timekeeper, rfl, .inl rfl⟩
      · split
        · exact ⟨u.timekeeper, rfl, .inl rfl⟩
        · split
          · exact ⟨_, rfl, key _ rfl⟩
          · split
            · split
              · exact ⟨_, rfl, key _ rfl⟩
              · exact ⟨_, rfl, key _ rfl⟩
            · exact ⟨_, rfl, key _ rfl⟩

theorem withClock_self (s : VSys) : Spec.withClock s s.mgr.usm.timekeeper = s := rfl

open VSys Snmp.VMgr

theorem hear_touch (s : VSys) (w : Bytes) (stamp : ℚ)
    (hn : (VSys.step cfg s (.hear w stamp)).listener = s.listener) :
    ∃ k, VSys.step cfg s (.hear w stamp) = Spec.withClock s k ∧ Spec.ClockAfter w s.mgr.usm.timekeeper k := by
  have same : ∃ k, s = Spec.withClock s k ∧ Spec.ClockAfter w s.mgr.usm.timekeeper k := ⟨_, rfl, .inl rfl⟩
  unfold VSys.step at hn ⊢
  simp only at hn ⊢
  split
  · rename_i hl
    rw [hl] at hn
    simp only at hn
    split
    · clear hn
      unfold VMgr.hear
      split
      · exact same
      · split
        · exact same
        · split
          · exact same
          · rename_i msg hw
            obtain ⟨k, hk, hc⟩ := processIncoming_touch s.mgr.usm cfg.backend cfg.crypto w msg stamp hw
            refine ⟨k, ?_, hc⟩
            split
            · rename_i heq
              rw [heq] at hk; simp only at hk; rw [hk]; rfl
            · rename_i heq
              rw [heq] at hk; simp only at hk
              split
              · split <;> (rw [hk]; rfl)
              · rw [hk]; rfl
    · rename_i m x hx
      rw [hx] at hn
      cases hn
  · exact same

/-- **C114** (v3), the part that holds: a datagram that is handed to no request changes nothing but the estimate of the
clock of the engine that it names, and not even that if the datagram is not authenticated and the estimate is. What is
missing: such a datagram can add an estimate (`C114_false`). -/
theorem C114_partial (h : List VEvent) (w : Bytes) (stamp : ℚ)
    (hn : (after cfg m0 (h ++ [.hear w stamp])).listener = (after cfg m0 h).listener) :
    ∃ k, after cfg m0 (h ++ [.hear w stamp]) = Spec.withClock (after cfg m0 h) k ∧
      Spec.ClockAfter w (after cfg m0 h).mgr.usm.timekeeper k := by
  rw [after_snoc] at hn ⊢
  exact hear_touch _ w stamp hn

/-- An unauthenticated GetRequest in the name of an engine. -/
def Spec.strayMessage : V3Message :=
  { header := ⟨1, 1472, ⟨noAuthNoPriv, false⟩, .usm⟩
    scopedPDU := some ⟨⟨.getRequest, 1, 0, 0, []⟩, [], []⟩
    securityParameters := .bytes [] }

/-- For every engine ID of up to 60000 bytes there is a datagram that the security module takes for an unauthenticated
GetRequest from that engine. -/
theorem stray_exists (engineID : Bytes) (hl : engineID.length ≤ 60000) : ∃ w r p,
    V3Message.decode (.bytes w) = .ok r ∧ UsmParams.decode r.securityParameters = .ok p ∧ p.engineID = engineID ∧
    r.header.flags.level.auth = false ∧ ∃ s, r.scopedPDU = some s ∧ s.pdu.type = .getRequest := by
  obtain ⟨p, hp, hpl⟩ := params_exist (engineID := engineID) (name := []) (sig := []) (salt := []) (boots := 0) (time := 0)
    (by simpa using hl) (by simp) (by simp) ⟨by norm_num, by norm_num⟩ ⟨by norm_num, by norm_num⟩
  have hh : Spec.HeaderOk Spec.strayMessage.header := ⟨by decide, by decide, by decide⟩
  obtain ⟨pay, hpay, hpayl⟩ : ∃ pay, Spec.strayMessage.encodePayload = .ok pay ∧ pay.length ≤ 70000 := by
    refine ⟨[48, 17, 4, 0, 4, 0, 160, 11, 2, 1, 1, 2, 1, 0, 2, 1, 0, 48, 0], ?_, ?_⟩ <;> decide +kernel
  obtain ⟨w, hw⟩ := message_exists hh (by decide) (by decide) hpl hpay hpayl
  obtain ⟨r, view, h1, h2, h3, h4, h5, h6, -, -, -, h7⟩ := C26_roundtrip
    { Spec.strayMessage with securityParameters := .bytes p } hh
    (.inr ⟨rfl, _, rfl, empty_stray⟩) hpl w hw
  obtain ⟨u, sig, h8, h9, -⟩ := C26_usm _ p hp r.securityParameters (by rw [h3]; exact Asn1Data.valid_sub h4) (by
    rw [h3]; exact h6)
  obtain ⟨-, s, t, h10, h11, -, -, h12⟩ := h7 rfl
  refine ⟨w, r, u, h1, h8, h9, by rw [h2]; rfl, t, h11, ?_⟩
  cases h10
  exact h12.1
where
  empty_stray : Spec.PduSendable ⟨.getRequest, 1, 0, 0, []⟩ := by
    refine ⟨?_, by simp⟩
    unfold Spec.FieldsOk
    simp

/-- C114 is false of the code: whatever happened before, and whichever engine IDs one chooses, there are that many
datagrams, not authenticated and handed to no request, after which the table of clock estimates, from which nothing is ever
removed, has an entry for each of those engine IDs (and nothing else has changed). -/
theorem C114_false (h : List VEvent) (hi : (after cfg m0 h).listener = .idle) (ids : List Bytes)
    (hl : ∀ i ∈ ids, i.length ≤ 60000) (stamp : ℚ) : ∃ ws : List Bytes, ws.length = ids.length ∧
    (∀ w ∈ ws, ∃ r, V3Message.decode (.bytes w) = .ok r ∧ r.header.flags.level.auth = false) ∧
    ∃ k, after cfg m0 (h ++ ws.map (.hear · stamp)) = Spec.withClock (after cfg m0 h) k ∧
      (∀ i ∈ ids, k.table i ≠ none) ∧ ∀ i, (after cfg m0 h).mgr.usm.timekeeper.table i ≠ none → k.table i ≠ none := by
  induction ids using List.reverseRecOn with
  | nil => exact ⟨[], rfl, by simp, _, by rw [List.map_nil, List.append_nil]; exact (withClock_self _).symm, by simp, fun _ h => h⟩
  | append_singleton ids i ih =>
    obtain ⟨ws, h1, h2, k, h3, h4, h5⟩ := ih fun j hj => hl j (by simp [hj])
    obtain ⟨w, r, p, g1, g2, g3, g4, s, g5, g6⟩ := stray_exists i (hl i (by simp))
    refine ⟨ws ++ [w], by simp [h1], ?_, k.hint i p.engineBoots p.engineTime stamp, ?_, ?_, ?_⟩
    · intro w' hw'
      rcases List.mem_append.1 hw' with hw' | hw'
      · exact h2 w' hw'
      · rw [List.mem_singleton.1 hw']; exact ⟨r, g1, g4⟩
    · rw [List.map_append, ← List.append_assoc, List.map_singleton, after_snoc, h3]
      obtain ⟨tl, hv⟩ := version_probe_v3 g1
      have hp : (Spec.withClock (after cfg m0 h) k).mgr.usm.processIncoming cfg.backend cfg.crypto r stamp =
          (.ok { r with securityEngineID := some p.engineID, securityName := some p.userName },
            ⟨k.hint p.engineID p.engineBoots p.engineTime stamp, (after cfg m0 h).mgr.usm.users⟩) := by
        unfold Usm.processIncoming
        rw [g2]
        simp only [g4, Bool.not_false, if_true]
        rfl
      have hh : (Spec.withClock (after cfg m0 h) k).mgr.hear cfg w stamp = (none, { (after cfg m0 h).mgr with
          usm := ⟨k.hint p.engineID p.engineBoots p.engineTime stamp, (after cfg m0 h).mgr.usm.users⟩ }) := by
        unfold VMgr.hear
        rw [hv]
        simp only [ne_eq, not_true_eq_false, if_false]
        rw [g1]
        simp only
        rw [hp]
        simp only [g5]
        unfold Proto.prepareDataElements
        simp only [v3Proto, g6, PduType.isResponse, Bool.false_eq_true, if_false]
        rfl
      have hidle : (Spec.withClock (after cfg m0 h) k).listener = .idle := hi
      unfold VSys.step
      simp only
      rw [hidle]
      simp only
      rw [hh]
      simp only [g3]
      unfold Spec.withClock
      simp only [hi]
    · intro j hj
      simp only [TimeKeeper.hint, TimeKeeper.set]
      split
      · simp
      · rename_i hne
        rcases List.mem_append.1 hj with hj | hj
        · exact h4 j hj
        · exact absurd (List.mem_singleton.1 hj) hne
    · intro j hj
      simp only [TimeKeeper.hint, TimeKeeper.set]
      split
      · simp
      · exact h5 j hj

/-- Non-vacuity of C114: a datagram with an unknown request ID, and one that no manager decodes, are handed to no
request; the hypothesis of `C114_false` is met by a new manager. -/
theorem C114_example :
    (CSys.after .v2c 1 (Spec.shortWait ++ [.hear [48, 19, 2, 1, 1, 4, 0, 162, 12, 2, 2, 5, 5, 2, 1, 0, 2, 1, 0, 48, 0]])).recv = none ∧
    (CSys.after .v2c 1 (Spec.shortWait ++ [.hear [48, 18, 2, 1, 1, 4, 0, 162, 11, 2, 1, 1, 2, 1, 0, 2, 1, 0, 48, 0]])).recv.isSome ∧
    (after Spec.demoCfg (Spec.demo none) [.hear [1, 2, 3] 0]).listener = .idle := by
  refine ⟨?_, ?_, ?_⟩ <;> decide +kernel

end Snmp
