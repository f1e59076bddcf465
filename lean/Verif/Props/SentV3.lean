import Verif.Props.SentStd
import Verif.Props.PeerV3
/-!
# C103 for the manager
-/

namespace Snmp

variable {cfg : VCfg} {m0 : VMgr}

open VSys Snmp.VMgr

theorem prepareOutgoing_timekeeper (u : Usm) (b : Backend) (c : Crypto) (m : V3Message) (i n : Bytes) (t : ℚ) :
    (u.prepareOutgoing b c m i n t).2.timekeeper = u.timekeeper := by
  unfold Usm.prepareOutgoing
  split
  · split
    · rfl
    · split
      · rfl
      · simp only
        split
        · split
          · rfl
          · split
            · rfl
            · split
              · rfl
              · unfold Usm.setPriv
                simp only
                split
                · rfl
                · split
                  · rfl
                  · rfl
        · rfl
  · rfl

/-- **C103** for a v3 manager, in any history: whatever it sends for a request to the engine `E` is what an engine that follows the
standards reads as the request, protected at the level asked for, for the user the request names, whose secrets are those given to
`addUser`; the boots and time in it are the estimate for this engine at the clock reading taken in this very step (zero without
authentication). Without an engine ID it is the discovery message of RFC 3414 section 4. -/
theorem C103_request_partial {h0 : List Spec.UsmOp} (hc : Spec.CreatedOn cfg h0 m0) (hs : Spec.Seeded m0) (hmax : 484 ≤ cfg.maxSize)
    (h : List VEvent) (e : VEvent) (hh : Spec.Possible (h ++ [e])) (d : Sent)
    (hd : (after cfg m0 (h ++ [e])).mgr.sent = d :: (after cfg m0 h).mgr.sent) (hlen : d.wire.length ≤ 65535) :
    ∃ q i, Spec.inputs e = some i ∧ (after cfg m0 (h ++ [e])).mgr.reqs d.request = some q ∧
      ((∀ v ∈ q.pdu.bindings, Spec.BindingFaithful v) → ∀ E, q.engineID = some E → ∀ a : UserArgs, a.userName = q.userName →
        (q.level.auth = true → Spec.Added cfg h0 a) → ∀ boots time : Nat,
        (if q.level.auth then (after cfg m0 (h ++ [e])).mgr.usm.timekeeper.getEngineTime E i.stamp else (0, 0)) =
          ((boots : Int), (time : Int)) →
        ∃ hd s, hd.flags.level = q.level ∧ hd.maxSize = cfg.maxSize ∧ (hd.flags.reportable = true ↔ Spec.Confirmed q.pdu.type) ∧
          s.contextEngineID = E ∧ s.contextName = [] ∧ Spec.SamePdu q.pdu s.pdu ∧
          Spec.PeerReads cfg.crypto a hd E boots time s d.wire ∧
          ((q.level.priv = true → cfg.backend = .pycryptodome) → Spec.IsProtected cfg.crypto a hd E boots time s d.wire)) ∧
      (q.engineID = none → ∃ hd s, hd.flags.level = noAuthNoPriv ∧ hd.maxSize = cfg.maxSize ∧ hd.flags.reportable = true ∧
        s.contextEngineID = [] ∧ s.contextName = [] ∧ Spec.SamePdu { type := .getRequest } s.pdu ∧
        ∀ a : UserArgs, a.userName = [] → Spec.IsProtected cfg.crypto a hd [] 0 0 s d.wire) := by
  have hh' : Spec.Possible h := possible_left hh
  have nocons : ∀ (l : List Sent), l ≠ d :: l := fun l hl => by
    have := congrArg List.length hl
    simp at this
  obtain ⟨base, hp, hsound⟩ := hc.created.sound (h ++ [e])
  have hg := gen_ok (cfg := cfg) hs h hh'
  obtain ⟨ops, o1, -⟩ := module_heard hc h
  have hreg0 := registered hc (h ++ [e])
  rw [after_snoc] at hd hsound hreg0 ⊢
  rcases step_move cfg (after cfg m0 h) e with hm | hm
  · rw [hm] at hd; exact absurd hd (nocons _)
  rcases move_sends hm with h1 | ⟨r, i, hi, ⟨q1, c, u1, n, res, c', id, cause, h1, h2, hdo, h3, h4⟩⟩
  · rw [h1] at hd; exact absurd hd (nocons _)
  rcases h4 with h4 | ⟨w, msg, h4, rfl, hw, ⟨q', h5, h6, h7, h8, h9, -⟩, -, -, -⟩
  · rw [h4] at hd; exact absurd hd (nocons _)
  rw [h4] at hd
  obtain ⟨rfl, -⟩ := List.cons.inj hd
  refine ⟨q', i, hi, h5, ?_⟩
  obtain ⟨pdu, timeout, t0, r0, i0, id0, k1, k2, -⟩ := (hsound.reqs _ _ h5).issued
  obtain ⟨k3, k4⟩ := hh.2 _ _ _ _ _ _ _ _ k1
  have hpdu : Spec.PduSendable q1.pdu := by rw [← h6, k2]; exact fields_id k3
  have hlev : q1.level.priv = true → q1.level.auth = true := by rw [← h8]; exact k4
  obtain ⟨r1, k, g1, g2, g3⟩ := hg
  have hw' : (u1.prepareOutgoing cfg.backend cfg.crypto msg (q1.entry n).engineID (q1.entry n).securityName
    i.stamp).1 = .ok w := by rw [hw]
  have htk := prepareOutgoing_timekeeper u1 cfg.backend cfg.crypto msg (q1.entry n).engineID (q1.entry n).securityName i.stamp
  rw [hw] at htk
  simp only at htk
  constructor
  · intro hf E he a ha hadd boots time ht
    rw [h6] at hf
    rw [htk, h8] at ht
    rw [h7] at ha
    rw [h8] at hadd
    have hregE := hreg0 E (.inr ⟨r, q', h5, he⟩)
    rw [h9] at he
    have e1 : q1.entry n = ⟨E, [], n, q1.userName, .usm, q1.level⟩ := by unfold VReq.entry; rw [he]
    have e2 : q1.content = q1.pdu := by unfold VReq.content; rw [he]
    rw [e1] at h3 hw' hw
    rw [e2] at h3
    obtain ⟨i1, -⟩ := C31_allocated cfg.maxSize c r1 k ⟨g1, g2⟩ (h1.trans g3) i.draws (hh.1 e (by simp) _ (Spec.drawn_of hi)) q1.pdu n E q1.userName q1.level
      .usm [] msg c' id h3
    have hmsg := prepareOutgoingV3_msg h3
    have hsc : msg.scopedPDU = some ⟨q1.pdu, E, []⟩ := by rw [hmsg]
    have hlv : msg.header.flags.level = q1.level := by rw [hmsg]
    have hrp : msg.header.flags.reportable = q1.pdu.type.isConfirmed := by rw [hmsg]
    have hms : msg.header.maxSize = cfg.maxSize := by rw [hmsg]
    rw [← ha] at hw'
    obtain ⟨j1, j2⟩ := u1.sends_standard cfg.backend hc.1 (a := a) ⟨i1, by rw [hms]; exact hmax, by rw [hlv]; exact hlev⟩ hsc hpdu hf hw' hlen
      boots time (by rw [hlv]; exact ht) (by
        intro hau user hgc
        obtain ⟨hns, p1, seed, p2, res, y1, y2⟩ := hadd (by rw [← hlv]; exact hau)
        obtain ⟨ops', -, y3⟩ := hdo
        have hu1 : u1 = Usm.after cfg.backend cfg.crypto (h0 ++ ops ++ ops') := by
          rw [y3, o1]; unfold Usm.after; rw [List.foldl_append (l := h0 ++ ops)]
        have hreg := u1.prepareOutgoing_reg cfg.backend cfg.crypto msg E q1.userName i.stamp
        rw [hw] at hreg
        obtain ⟨kk, hregE⟩ := hregE
        rw [hreg E] at hregE
        have hce : Spec.configs (h0 ++ ops ++ ops') = p1 ++ [.addUser a seed] ++ (p2 ++ Spec.configs (ops ++ ops')) := by
          unfold Spec.configs at *
          rw [List.append_assoc, List.filterMap_append, y1]
          simp
        have ok := Usm.after_users hc.1 cfg.backend (h0 ++ ops ++ ops')
        have hen : ∃ n, (Spec.Reg.after cfg.crypto (Spec.configs (h0 ++ ops ++ ops'))).engine E = some (a.namespace, n) := by
          rw [ok.engine E, ← hu1]
          unfold Usm.reg at hregE
          revert hregE
          cases hx : u1.users.engines.get E with
          | none => intro h; cases h
          | some en =>
            intro hregE
            simp only [Option.map_some, Option.some.injEq, Prod.mk.injEq] at hregE ⊢
            exact ⟨_, by rw [hregE.2, hns], rfl⟩
        obtain ⟨n, hen⟩ := hen
        obtain ⟨user', z1, z2⟩ := keys_found hc.1 cfg.backend hce y2 hen
        rw [← hu1, hgc] at z1
        injection z1 with z1
        rw [z1]; exact z2)
    refine ⟨msg.header, ⟨q1.pdu.canon, E, []⟩, by rw [hlv, h8], hms, by rw [hrp, h6]; exact confirmed_iff _, rfl, rfl, by rw [h6]; exact hpdu.canon, j1, ?_⟩
    intro hb
    exact j2 (fun hp => hb (by rw [h8, ← hlv]; exact hp))
  · intro he
    rw [h9] at he
    have e1 : q1.entry n = ⟨[], [], n, [], .usm, noAuthNoPriv⟩ := by unfold VReq.entry; rw [he]
    have e2 : q1.content = { type := .getRequest } := by unfold VReq.content; rw [he]
    rw [e1] at h3 hw'
    rw [e2] at h3
    obtain ⟨i1, -⟩ := C31_allocated cfg.maxSize c r1 k ⟨g1, g2⟩ (h1.trans g3) i.draws (hh.1 e (by simp) _ (Spec.drawn_of hi)) _ n [] [] noAuthNoPriv
      .usm [] msg c' id h3
    have hmsg := prepareOutgoingV3_msg h3
    have hsc : msg.scopedPDU = some ⟨{ type := .getRequest }, [], []⟩ := by rw [hmsg]
    have hlv : msg.header.flags.level = noAuthNoPriv := by rw [hmsg]
    have hrp : msg.header.flags.reportable = true := by rw [hmsg]; rfl
    have hms : msg.header.maxSize = cfg.maxSize := by rw [hmsg]
    refine ⟨msg.header, ⟨({ type := .getRequest } : Pdu).canon, [], []⟩, hlv, hms, hrp, rfl, rfl, empty_sendable.canon, fun a ha => ?_⟩
    have hw2 : (u1.prepareOutgoing cfg.backend cfg.crypto msg [] a.userName i.stamp).1 = .ok w := by rw [ha]; exact hw'
    exact (u1.sends_standard cfg.backend hc.1 (a := a) (engineID := []) ⟨i1, by rw [hms]; exact hmax, by rw [hlv]; decide⟩ hsc empty_sendable (by intro v hv; cases hv) hw2 hlen
      0 0 (by rw [hlv]; rfl) (by rw [hlv]; nofun)).2 (by rw [hlv]; nofun)

end Snmp
