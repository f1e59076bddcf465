import Verif.Props.Peer
import Verif.Props.V3Exchange
/-!
# C102: a complete SNMPv3 exchange with an agent that follows the standards
-/

namespace Snmp

variable {cfg : VCfg} {m0 : VMgr}

/-! ## The history of the security module -/

/-- The security module goes from `u` to `u'` by configuration calls and sends. -/
def Usm.Hears (b : Backend) (c : Crypto) (P : V3Message → ℚ → Prop) (u u' : Usm) : Prop :=
  ∃ ops : List Spec.UsmOp, (∀ m t, Spec.UsmOp.receive m t ∈ ops → P m t) ∧ u' = ops.foldl (Usm.apply b c) u

namespace Usm.Hears

variable {b : Backend} {c : Crypto} {P : V3Message → ℚ → Prop}

theorem refl (u : Usm) : u.Hears b c P u := ⟨[], fun _ _ h => absurd h List.not_mem_nil, rfl⟩

theorem trans {x y z : Usm} (h : x.Hears b c P y) (h' : y.Hears b c P z) : x.Hears b c P z := by
  obtain ⟨l, h1, h2⟩ := h
  obtain ⟨l', h3, h4⟩ := h'
  refine ⟨l ++ l', fun m t hm => ?_, ?_⟩
  · rcases List.mem_append.1 hm with hm | hm
    · exact h1 m t hm
    · exact h3 m t hm
  · rw [List.foldl_append, ← h2, h4]

theorem mono {Q : V3Message → ℚ → Prop} {x y : Usm} (h : x.Hears b c P y) (hpq : ∀ m t, P m t → Q m t) : x.Hears b c Q y := by
  obtain ⟨l, h1, h2⟩ := h
  exact ⟨l, fun m t hm => hpq m t (h1 m t hm), h2⟩

theorem prepare (u : Usm) (m : V3Message) (e n : Bytes) (t : ℚ) : u.Hears b c P (u.prepareOutgoing b c m e n t).2 :=
  ⟨[.send m e n t], by simp, rfl⟩

theorem process (u : Usm) (m : V3Message) (t : ℚ) (h : P m t) : u.Hears b c P (u.processIncoming b c m t).2 :=
  ⟨[.receive m t], by rintro m t hm; simp only [List.mem_singleton, Spec.UsmOp.receive.injEq] at hm; obtain ⟨rfl, rfl⟩ := hm; exact h, rfl⟩

theorem assign (u : Usm) (e : Bytes) (ns : String) (seed : Bytes → Nat) :
    u.Hears b c P { u with users := (u.users.assign c e ns seed).2 } :=
  ⟨[.config (.register e ns seed)], by simp, rfl⟩

theorem release (u : Usm) (e : Bytes) (ns : String) : u.Hears b c P { u with users := (u.users.release e ns).2 } :=
  ⟨[.config (.unregister e ns)], by simp, rfl⟩

theorem addUser (u : Usm) (a : UserArgs) (seed : Bytes → Nat) : u.Hears b c P (u.apply b c (.config (.addUser a seed))) :=
  ⟨[.config (.addUser a seed)], by simp, rfl⟩

end Usm.Hears

theorem changeEngine_hears (cfg : VCfg) (P : V3Message → ℚ → Prop) (u : Usm) (old new : Option Bytes) (seed : Bytes → Nat) :
    u.Hears cfg.backend cfg.crypto P (changeEngine cfg u old new seed).2 := by
  have rel : ∀ u : Usm, u.Hears cfg.backend cfg.crypto P (match old with
      | none => ((.ok () : Res Unit), u)
      | some e =>
        match u.users.release e cfg.ns with
        | (.error err, users) => (.error err, { u with users })
        | (.ok _, users) => (.ok (), { u with users })).2 := by
    intro u
    cases old with
    | none => exact .refl u
    | some e =>
      have := Usm.Hears.release (b := cfg.backend) (c := cfg.crypto) (P := P) u e cfg.ns
      simp only
      generalize u.users.release e cfg.ns = y at *
      obtain ⟨res, users⟩ := y
      cases res <;> exact this
  unfold changeEngine
  split
  · exact .refl u
  · simp only
    cases new with
    | none => exact rel u
    | some e =>
      have h := Usm.Hears.assign (b := cfg.backend) (c := cfg.crypto) (P := P) u e cfg.ns seed
      simp only
      generalize u.users.assign cfg.crypto e cfg.ns seed = y at *
      obtain ⟨res, users⟩ := y
      cases res with
      | error err => exact h
      | ok b => cases b with
        | false => exact h
        | true => exact h.trans (rel { u with users })

namespace VSys

open Snmp.VMgr

variable {P : V3Message → ℚ → Prop}

theorem sends_hears {m m' : VMgr} {r : Nat} {q : VReq} {engineID : Option Bytes} {cause : Why} {i : SendIn}
    {res : Res Unit} (h : VMgr.Sends cfg m r q engineID cause i res m') :
    m.usm.Hears cfg.backend cfg.crypto P m'.usm := by
  cases h with
  | refused e err usm he hc =>
    have := changeEngine_hears cfg P m.usm q.engineID (some e) i.seed
    rw [hc] at this
    exact this
  | made q1 usm1 usm cache id sent res he hb hu hs hpo hdo =>
    have h1 : m.usm.Hears cfg.backend cfg.crypto P usm1 := by
      rcases he with ⟨-, -, rfl⟩ | ⟨e, -, hc, -⟩
      · exact .refl _
      · have := changeEngine_hears cfg P m.usm q.engineID (some e) i.seed
        rw [hc] at this
        exact this
    refine h1.trans ?_
    rcases hdo with ⟨rfl, -⟩ | ⟨msg, -, rfl⟩
    · exact .refl _
    · exact .prepare _ _ _ _ _

theorem closed_hears (m : VMgr) (r : Nat) (q : VReq) : m.usm.Hears cfg.backend cfg.crypto P (m.closed cfg r q).usm :=
  changeEngine_hears cfg P m.usm q.engineID none (fun _ => 0)

theorem closing_hears (m : VMgr) (r : Nat) : m.usm.Hears cfg.backend cfg.crypto P (m.closing cfg r).usm := by
  unfold closing
  cases hq : m.reqs r with
  | none => exact .refl _
  | some q => exact closed_hears m r q

theorem finish_hears (s : VSys) (t r : Nat) (o : VOutcome) :
    s.mgr.usm.Hears cfg.backend cfg.crypto P (s.finish cfg t r o).mgr.usm := by
  rw [finish_eq]; exact closing_hears s.mgr r

theorem response_hears (m : VMgr) (x : V3Incoming) (seed : Bytes → Nat) {res : Res Unit} {m' : VMgr}
    (h : m.processResponse cfg x seed = (res, m')) : m.usm.Hears cfg.backend cfg.crypto P m'.usm := by
  rcases processResponse_cases cfg m x seed with ⟨_, -, h'⟩ | ⟨e, usm, next, -, hc, h'⟩ | ⟨usm, next, -, hc, h'⟩ | ⟨-, h'⟩
  · rw [h] at h'; cases h'; exact .refl _
  · rw [h] at h'; cases h'
    have := changeEngine_hears cfg P m.usm m.engineID (some x.securityEngineID) seed
    rw [hc] at this; exact this
  · rw [h] at h'; cases h'
    have := changeEngine_hears cfg P m.usm m.engineID (some x.securityEngineID) seed
    rw [hc] at this; exact this
  · rw [h] at h'; cases h'; exact .refl _

/-- What the security module hears in a step of the manager is the datagram of the step, decoded. -/
theorem move_hears {s s' : VSys} {e : VEvent} (hm : Move cfg s e s') (he : s' = s.step cfg e) :
    s.mgr.usm.Hears cfg.backend cfg.crypto
      (fun m t => ∃ w, e = .hear w t ∧ V3Message.decode (.bytes w) = .ok m) s'.mgr.usm := by
  by_cases hw : ∃ w stamp, e = .hear w stamp
  · obtain ⟨w, stamp, rfl⟩ := hw
    have key : s.mgr.usm.Hears cfg.backend cfg.crypto
        (fun m t => ∃ w', VEvent.hear w stamp = .hear w' t ∧ V3Message.decode (.bytes w') = .ok m) (s.mgr.hear cfg w stamp).2.usm := by
      unfold VMgr.hear
      split
      · exact .refl _
      · split
        · exact .refl _
        · split
          · exact .refl _
          · rename_i msg hd
            have := Usm.Hears.process (b := cfg.backend) (c := cfg.crypto) (P := fun m t => ∃ w', VEvent.hear w stamp = .hear w' t ∧
              V3Message.decode (.bytes w') = .ok m) s.mgr.usm msg stamp ⟨w, rfl, hd⟩
            split
            · rename_i err usm heq; rw [heq] at this; exact this
            · rename_i msg' usm heq
              rw [heq] at this
              split
              · split <;> exact this
              · exact this
    rw [he]
    unfold VSys.step
    simp only
    split
    · split <;> exact key
    · exact .refl _
  · clear he
    cases hm
    case issued pdu user level timeout period t0 r0 i q hq hl hd next hs m' hm' =>
      have := sends_hears (P := fun m t => ∃ w, VEvent.send pdu user level timeout period t0 r0 i = .hear w t ∧ V3Message.decode (.bytes w) = .ok m) hm'
      rw [propose_usm] at this
      rw [updateState_usm]
      exact this
    case issueFailed pdu user level timeout period t0 r0 i q hq hl hd next hs m' err hm' =>
      have := sends_hears (P := fun m t => ∃ w, VEvent.send pdu user level timeout period t0 r0 i = .hear w t ∧ V3Message.decode (.bytes w) = .ok m) hm'
      rw [propose_usm] at this
      exact this
    case bodyZero t i r x rest q ht ha hx he hn hx' hz =>
      exact finish_hears (({ s with mgr := s.mgr.fail (.refresh x.id) } : VSys)) t r _
    case bodySent t i r x rest q ht ha hx he hn hx' hz m' hm' => have := sends_hears (P := fun m t' => ∃ w, VEvent.step t i = .hear w t' ∧ V3Message.decode (.bytes w) = .ok m) hm'; exact this
    case bodyFailed t i r x rest q ht ha hx he hn hx' hz m' err hm' =>
      exact (sends_hears hm').trans (finish_hears ({ s with mgr := m'.fail (.refresh x.id) } : VSys) t r _)
    case pokeBegin t i r ht hl =>
      simp only [updateState_usm, propose_usm]
      exact .refl _
    case pokeSent t i r l x a q ht hx next hs m' hm' =>
      have := sends_hears (P := fun m t' => ∃ w, VEvent.step t i = .hear w t' ∧ V3Message.decode (.bytes w) = .ok m) hm'
      rw [propose_usm] at this
      rw [updateState_usm]
      exact this
    case pokeFailed t i r l x a q ht hx next hs m' err hm' =>
      have := sends_hears (P := fun m t' => ∃ w, VEvent.step t i = .hear w t' ∧ V3Message.decode (.bytes w) = .ok m) hm'
      rw [propose_usm] at this
      exact this.trans (finish_hears ({ s with mgr := { m'.fail (.poke x.id) with locked := false } } : VSys) t r _)
    case answered t i r q x ht hq he hx => exact finish_hears _ t r _
    case reported t i r q ex ht hq he => exact finish_hears _ t r _
    case timedOut t i r q ht hq he => exact finish_hears _ t r _
    case heardNothing w stamp usm hl hu hd => exact absurd ⟨w, stamp, rfl⟩ hw
    case heard w stamp usm m x msg msg' id en hl hw' hu hx hr hid he hh hg hc => exact absurd ⟨w, stamp, rfl⟩ hw
    case reportFailed i m x r q cause sync hr hl all next hs m' err hm' =>
      have := sends_hears (P := fun m t' => ∃ w, VEvent.listen i = .hear w t' ∧ V3Message.decode (.bytes w) = .ok m) hm'
      rw [propose_usm] at this
      exact this
    case reportOne i m x r q cause sync hr hl next hs m' hm' =>
      have := sends_hears (P := fun m t' => ∃ w, VEvent.listen i = .hear w t' ∧ V3Message.decode (.bytes w) = .ok m) hm'
      rw [propose_usm] at this
      exact this
    case reportAll i m x r q cause sync hr hl next hs m' hm' =>
      have := sends_hears (P := fun m t' => ∃ w, VEvent.listen i = .hear w t' ∧ V3Message.decode (.bytes w) = .ok m) hm'
      rw [propose_usm] at this
      simp only [updateState_usm]
      exact this
    case responseBad i m x msg q hl hmm hq hi hlk err m' hp => have := response_hears (P := fun m t => ∃ w, VEvent.listen i = .hear w t ∧ V3Message.decode (.bytes w) = .ok m) _ _ _ hp; exact this
    case responded i m x msg q hl hmm hq hi hlk m' hp => have := response_hears (P := fun m t => ∃ w, VEvent.listen i = .hear w t ∧ V3Message.decode (.bytes w) = .ok m) _ _ _ hp; exact this
    case flushSent i r eid sync l x q hl hu hx m' hm' => have := sends_hears (P := fun m t => ∃ w, VEvent.listen i = .hear w t ∧ V3Message.decode (.bytes w) = .ok m) hm'; exact this
    case flushFailed i r eid sync l x q hl hu hx m' err hm' => have := sends_hears (P := fun m t => ∃ w, VEvent.listen i = .hear w t ∧ V3Message.decode (.bytes w) = .ok m) hm'; exact this
    case collected r q hq => exact closed_hears s.mgr r q
    case dropped hd ha => exact changeEngine_hears cfg _ _ _ _ _
    case addUser a seed => exact .addUser _ _ _
    case other o usm cache n held hs =>
      cases hs with
      | registered e ns seed h => exact ⟨[.config (.register e ns seed)], by simp, rfl⟩
      | refused e ns seed h => exact ⟨[.config (.register e ns seed)], by simp, rfl⟩
      | released e ns k h => exact ⟨[.config (.unregister e ns)], by simp, rfl⟩
      | sent pdu engineID user level draws stamp usm h =>
        rcases h with rfl | ⟨msg, rfl⟩
        · exact .refl _
        · exact ⟨[.send msg engineID user stamp], by simp, rfl⟩
      | forgot id h => exact .refl _
    all_goals exact .refl _

/-- After the history `h` of a manager made on a security module with history `h0`, the module is as after a longer history, in
which only datagrams that the manager heard were received. -/
theorem module_heard {h0 : List Spec.UsmOp} (hc : Spec.CreatedOn cfg h0 m0) (h : List VEvent) :
    ∃ ops, (after cfg m0 h).mgr.usm = Usm.after cfg.backend cfg.crypto (h0 ++ ops) ∧
      ∀ m t, Spec.UsmOp.receive m t ∈ ops → ∃ w, VEvent.hear w t ∈ h ∧ V3Message.decode (.bytes w) = .ok m := by
  have key : (Usm.after cfg.backend cfg.crypto h0).Hears cfg.backend cfg.crypto
      (fun m t => ∃ w, VEvent.hear w t ∈ h ∧ V3Message.decode (.bytes w) = .ok m) (after cfg m0 h).mgr.usm := by
    induction h using List.reverseRecOn with
    | nil =>
      obtain ⟨-, engineID, g, c0, n0, seed, hu0, hm⟩ := hc
      unfold VMgr.create at hm
      have h1 := changeEngine_hears cfg (fun m t => ∃ w, VEvent.hear w t ∈ [] ∧ V3Message.decode (.bytes w) = .ok m)
        (Usm.after cfg.backend cfg.crypto h0) none engineID seed
      generalize changeEngine cfg (Usm.after cfg.backend cfg.crypto h0) none engineID seed = y at *
      obtain ⟨res, usm⟩ := y
      cases res with
      | error e => cases hm
      | ok _ => cases hm; exact h1
    | append_singleton h e ih =>
      have ih' := ih.mono (Q := fun m t => ∃ w, VEvent.hear w t ∈ h ++ [e] ∧ V3Message.decode (.bytes w) = .ok m)
        fun m t ⟨w, h1, h2⟩ => ⟨w, by simp [h1], h2⟩
      rw [after_snoc]
      rcases step_move cfg (after cfg m0 h) e with hm | hm
      · rw [hm]; exact ih'
      · refine ih'.trans ((move_hears hm rfl).mono ?_)
        rintro m t ⟨w, rfl, h2⟩
        exact ⟨w, by simp, h2⟩
  obtain ⟨ops, k1, k2⟩ := key
  exact ⟨ops, by rw [k2]; unfold Usm.after; rw [List.foldl_append], k1⟩

end VSys

/-! ## Specification -/

/-- The user `a` was added, and accepted, before the manager was made, in the manager's namespace. -/
def Spec.Added (cfg : VCfg) (h0 : List Spec.UsmOp) (a : UserArgs) : Prop :=
  a.namespace = cfg.ns ∧ ∃ h1 seed h2 r, Spec.configs h0 = h1 ++ [.addUser a seed] ++ h2 ∧
    ((UserRegistry.after cfg.crypto h1).apply cfg.crypto (.addUser a seed)).1 = .ok r

/-- After the history `h`, an authenticated message of the engine `E` with this boot and time is in time at the clock reading
`stamp` (RFC 3414 section 3.2, 7b): not the last boot, and either no authenticated message naming the engine was heard before,
or the boot is later than the local estimate, or it is the same and the time is not more than 150 seconds behind it. -/
def Spec.Timely (cfg : VCfg) (m0 : VMgr) (h0 : List Spec.UsmOp) (h : List VEvent) (E : Bytes) (boots time : Nat) (stamp : ℚ) :
    Prop :=
  let estimate := (VSys.after cfg m0 h).mgr.usm.timekeeper.getEngineTime E stamp;
  boots < 2147483647 ∧
    ((¬ Spec.HeardFrom cfg.crypto h0 E ∧ ∀ w t m p, VEvent.hear w t ∈ h → V3Message.decode (.bytes w) = .ok m →
        m.header.flags.level.auth = true → UsmParams.decode m.securityParameters = .ok p → p.engineID ≠ E) ∨
      estimate.1 < boots ∨ (boots : Int) = estimate.1 ∧ estimate.2 - time ≤ 150)

/-- At the clock reading `stamp`, after the history `h`, the engine `E` sends the datagram `w` in the name of the user `name`: a
message with this header and scoped PDU, protected as RFC 3414 says for a user with that name; if it is authenticated, the user
was added and the message is in time. (DES is left out on an OpenSSL that holds back the last block: C90.) -/
def Spec.PeerSends (cfg : VCfg) (m0 : VMgr) (h0 : List Spec.UsmOp) (h : List VEvent) (E name : Bytes) (hd : HeaderData)
    (s : ScopedPDU) (w : Bytes) (stamp : ℚ) : Prop :=
  ∃ (a : UserArgs) (boots time : Nat), a.userName = name ∧ Spec.PeerMessage hd s w ∧ boots ≤ 2147483647 ∧ time ≤ 2147483647 ∧
    Spec.IsProtected cfg.crypto a hd E boots time s w ∧
    (hd.flags.level.priv = true → a.privProtocol = some .desCbc → cfg.backend ≠ .openssl true) ∧
    (hd.flags.level.auth = true → Spec.Added cfg h0 a ∧ Spec.Timely cfg m0 h0 h E boots time stamp)

/-- After the history `h`, every response to the datagram `d` that the engine `E` sends in the name of the user `name` ends the
`wait()` of thread `t` on request `r`, whose PDU is `pdu`, with what the response says. -/
def Spec.Finishes (cfg : VCfg) (m0 : VMgr) (h0 : List Spec.UsmOp) (h : List VEvent) (t r : Nat) (pdu : Pdu) (E name : Bytes)
    (d : Sent) : Prop :=
  ∀ hd s w stamp j x y, Spec.PeerSends cfg m0 h0 h E name hd s w stamp → Spec.AnswerTo d.wire ⟨hd, s, E, name⟩ →
    s.pdu.type = .response →
    (VSys.after cfg m0 (h ++ [.hear w stamp, .listen j, .step t x, .step t y])).threads t =
      .done r (Spec.answer ⟨hd, s, E, name⟩ pdu)

/-- After the history `h`, every report from the engine `E` in the name of the user `name`, saying that the datagram `d` is not
within the time window, makes the manager send request `r` once more, unless sending raises an exception; and every response to
this datagram ends the `wait()`. -/
def Spec.Resumes (cfg : VCfg) (m0 : VMgr) (h0 : List Spec.UsmOp) (h : List VEvent) (t r : Nat) (q : VReq) (E name : Bytes)
    (d : Sent) : Prop :=
  ∀ hd s w stamp i1 i2 i3, Spec.PeerSends cfg m0 h0 h E name hd s w stamp → Spec.AnswerTo d.wire ⟨hd, s, E, name⟩ →
    Spec.SaysNotInTime ⟨hd, s, E, name⟩ → Spec.Possible (h ++ Spec.gets w stamp i1 i2 i3) →
    (VSys.after cfg m0 (h ++ Spec.gets w stamp i1 i2 i3)).mgr.fails = [] →
    ∃ d', (VSys.after cfg m0 (h ++ Spec.gets w stamp i1 i2 i3)).mgr.sent = d' :: (VSys.after cfg m0 h).mgr.sent ∧
      Spec.RequestDatagram cfg h0 (h ++ Spec.gets w stamp i1 i2 i3) q E d'.wire ∧
      Spec.Finishes cfg m0 h0 (h ++ Spec.gets w stamp i1 i2 i3) t r q.pdu E name d'

/-! ## Reading -/

open VSys Snmp.VMgr

/-- An engine that the manager or one of its requests names is registered in the manager's namespace. -/
theorem registered {h0 : List Spec.UsmOp} (hc : Spec.CreatedOn cfg h0 m0) (h : List VEvent) (E : Bytes)
    (he : (after cfg m0 h).mgr.engineID = some E ∨ ∃ r q, (after cfg m0 h).mgr.reqs r = some q ∧ q.engineID = some E) :
    ∃ k, (after cfg m0 h).mgr.usm.reg E = some (k, cfg.ns) := by
  obtain ⟨base, hp, hsound⟩ := hc.created.sound h
  have hpos : 0 < Spec.holders (after cfg m0 h).mgr E := by
    rcases he with he | ⟨r, q, h1, h2⟩
    · unfold Spec.holders Spec.naming
      rw [he]
      simp
    · have hlt := hsound.accounts.lt h1
      obtain ⟨rest, hrest⟩ := naming_split (after cfg m0 h).mgr.engineID (after cfg m0 h).mgr.reqs hlt
      have := hrest q E
      rw [setAt_self _ _ _ h1] at this
      unfold Spec.holders
      rw [this, h2]
      simp [one]
  obtain ⟨k, -, h1⟩ := hsound.accounts.ledger.held hp hpos
  exact ⟨k, h1⟩

/-- **C102**, reading. After any history of a manager, what an engine that the manager or one of its requests names sends, protected
as RFC 3414 says, is accepted and read as what the engine meant. -/
theorem C102_read_partial {h0 : List Spec.UsmOp} (hc : Spec.CreatedOn cfg h0 m0) (hw0 : Spec.FromWire h0) (h : List VEvent)
    (E name : Bytes) (hd : HeaderData) (s : ScopedPDU) (w : Bytes) (stamp : ℚ)
    (he : hd.flags.level.auth = true → (after cfg m0 h).mgr.engineID = some E ∨
      ∃ r q, (after cfg m0 h).mgr.reqs r = some q ∧ q.engineID = some E)
    (hs : Spec.PeerSends cfg m0 h0 h E name hd s w stamp) :
    Spec.ReadAs cfg (after cfg m0 h).mgr.usm w stamp ⟨hd, s, E, name⟩ := by
  obtain ⟨a, boots, time, rfl, h1, h2, h3, h4, h5, h6⟩ := hs
  have hu : hd.flags.level.auth = true →
      (∃ user, (after cfg m0 h).mgr.usm.users.getCredentials E a.userName = .ok user ∧ Spec.RfcKeys cfg.crypto a E user) ∧
      ((after cfg m0 h).mgr.usm.timekeeper.updateAndVerify E boots time stamp).1 = true := by
    intro hauth
    obtain ⟨⟨hns, r1, seed, r2, res, g1, g2⟩, htime⟩ := h6 hauth
    obtain ⟨k, hreg⟩ := registered hc h E (he hauth)
    obtain ⟨ops, o1, o2⟩ := module_heard hc h
    have hfw : Spec.FromWire (h0 ++ ops) := by
      intro m t hm
      rcases List.mem_append.1 hm with hm | hm
      · exact hw0 m t hm
      · obtain ⟨w, -, hd⟩ := o2 m t hm
        exact ⟨w, hd⟩
    have ok := Usm.after_users hc.1 cfg.backend (h0 ++ ops)
    unfold Spec.Timely at htime
    simp only at htime
    rw [o1] at hreg htime ⊢
    have hce : Spec.configs (h0 ++ ops) = r1 ++ [.addUser a seed] ++ (r2 ++ Spec.configs ops) := by
      unfold Spec.configs at *
      rw [List.filterMap_append, g1]
      simp
    have hen : ∃ n, (Spec.Reg.after cfg.crypto (Spec.configs (h0 ++ ops))).engine E = some (a.namespace, n) := by
      rw [ok.engine E]
      unfold Usm.reg at hreg
      revert hreg
      cases hx : (Usm.after cfg.backend cfg.crypto (h0 ++ ops)).users.engines.get E with
      | none => intro h; cases h
      | some en =>
        intro hreg
        simp only [Option.map_some, Option.some.injEq, Prod.mk.injEq] at hreg ⊢
        exact ⟨_, by rw [hreg.2, hns], rfl⟩
    obtain ⟨n, hen⟩ := hen
    refine ⟨keys_found hc.1 cfg.backend hce g2 hen, ?_⟩
    obtain ⟨ev, v1, v2⟩ := Usm.after_time hc.1 cfg.backend (h0 ++ ops) hfw
    rw [v1] at htime ⊢
    rw [C35_window, v2]
    obtain ⟨t1, t2⟩ := htime
    refine ⟨by exact_mod_cast t1, ?_⟩
    rcases t2 with ⟨n1, n2⟩ | t2
    · left
      rintro ⟨l1, w', m', t', l2, e1, e2, e3, p, b1, b2, b3, b4, b5, e4, e5, e6⟩
      by_cases hl : l1.length < h0.length
      · obtain ⟨l3, hl3⟩ : ∃ l3, h0 = l1 ++ .receive m' t' :: l3 := by
          have := congrArg (List.take h0.length) e1
          rw [List.take_left, List.take_append, List.take_of_length_le (by omega)] at this
          obtain ⟨k, hk⟩ : ∃ k, h0.length - l1.length = k + 1 := ⟨h0.length - l1.length - 1, by omega⟩
          rw [hk, List.take_succ_cons] at this
          exact ⟨_, this⟩
        exact n1 ⟨l1, w', m', t', l3, hl3, e2, e3, p, b1, b2, b3, b4, b5, e4, e5, e6⟩
      · have hmem : Spec.UsmOp.receive m' t' ∈ ops := by
          have := congrArg (List.drop h0.length) e1
          rw [List.drop_left, List.drop_append] at this
          have hz : h0.length - l1.length = 0 := by omega
          rw [hz, List.drop_zero] at this
          rw [this]
          simp
        obtain ⟨w'', q1, q2⟩ := o2 m' t' hmem
        exact n2 w'' t' m' p q1 q2 e3 e4 e5
    · right
      exact t2
  obtain ⟨m, r, k1, k2, k3, k4, k5, k6⟩ := Usm.accepts (after cfg m0 h).mgr.usm cfg.backend hc.1 h1 h2 h3 h4 h5 stamp hu
  exact ⟨m, r, k1, k2, k3, k4, k5, k6⟩

/-! ## Exchanges -/

theorem poised_finishes {h0 : List Spec.UsmOp} (hc : Spec.CreatedOn cfg h0 m0) (hw0 : Spec.FromWire h0) {H : List VEvent} {t r : Nat}
    {q : VReq} {d : Sent} {E name : Bytes} (hq : ∃ r q, (after cfg m0 H).mgr.reqs r = some q ∧ q.engineID = some E)
    (h : Spec.Concludes cfg m0 H t r q.pdu d) : Spec.Finishes cfg m0 h0 H t r q.pdu E name d := by
  intro hd s w stamp j x y hp ha hx
  exact h w stamp ⟨hd, s, E, name⟩ j x y (C102_read_partial hc hw0 H E name hd s w stamp (fun _ => .inr hq) hp) ha hx

theorem poised_resumes {h0 : List Spec.UsmOp} (hc : Spec.CreatedOn cfg h0 m0) (hw0 : Spec.FromWire h0) (hs : Spec.Seeded m0)
    (hmax : 484 ≤ cfg.maxSize) {H : List VEvent} {t : Nat} {q : VReq} {d : Sent} {E name : Bytes}
    (hp : Poised cfg m0 h0 H t q d E) (bools : (after cfg m0 H).mgr.bools = fun _ => false) {all : Bool} {next : Option MState}
    (hst : (after cfg m0 H).mgr.state.onReport (after cfg m0 H).mgr.engineID E = .ok (all, next)) (hn : all = false → next = none) :
    Spec.Resumes cfg m0 h0 H t 0 q E name d := by
  intro hd s w stamp i1 i2 i3 hps ha hx hh hf
  have hw := C102_read_partial hc hw0 H E name hd s w stamp (fun _ => .inr ⟨0, q, hp.solo.req, hp.engine⟩) hps
  obtain ⟨d', q', k1, k2, k3, k4, k5, -⟩ := Solo.gets hc hs hmax hp.shape hp.early hp.solo hp.request hp.split hp.idle hp.asleep bools w
    stamp ⟨hd, s, E, name⟩ i1 i2 i3 hw ha (.inl hx) (hp.known.imp id .inl) all next hst hn hh hf
  refine ⟨d', k1, ?_, ?_⟩
  · have := k5.datagram.later (q' := q) [] k3.symm k4.symm k2.symm
    simpa using this
  · rw [← k2]
    exact poised_finishes hc hw0 ⟨0, q', k5.solo.req, k5.engine⟩ (k5.concludes hc hs hmax)

/-- **C102**, a manager created without an engine ID: the whole exchange with an agent that follows the standards. The first request is
issued, and a thread goes to sleep in `wait()` on it; exactly one datagram is sent, and it is a discovery message. Whatever
octets an engine `E` sends to report, without protection, that it does not know the engine ID: the request is sent to it, protected
for the user at the level asked for. Then any response that the engine protects for the user ends the `wait()`; and a protected report
saying that the request is not within the time window makes the manager send it again, and then any protected response ends the
`wait()`. Here sending must not raise an exception. -/
theorem C102_unknown_partial {h0 : List Spec.UsmOp} (hc : Spec.CreatedOn cfg h0 m0) (hw0 : Spec.FromWire h0) (hs : Spec.Seeded m0)
    (hmax : 484 ≤ cfg.maxSize) (hm : m0.engineID = none) (pdu : Pdu) (user : Bytes) (level : SecurityLevel)
    (timeout period t0 : ℚ) (r0 : Nat) (i : SendIn) (t : Nat) (a b : SendIn) (ha : a.now < t0 + timeout)
    (hb : b.now < min (t0 + timeout) (i.now + period)) (h : List VEvent)
    (hh : h = .send pdu user level timeout period t0 r0 i :: Spec.waits t 0 a b) (hp : Spec.Possible h)
    (hf : (after cfg m0 h).mgr.fails = []) :
    ∃ d0, (after cfg m0 h).mgr.sent = [d0] ∧ Spec.DiscoveryDatagram d0.wire ∧
      ∀ hd s E w stamp i1 i2 i3, Spec.PeerSends cfg m0 h0 h E [] hd s w stamp → hd.flags.level.auth = false →
        Spec.AnswerTo d0.wire ⟨hd, s, E, []⟩ → Spec.SaysUnknownEngine ⟨hd, s, E, []⟩ →
        Spec.Possible (h ++ Spec.gets w stamp i1 i2 i3) → (after cfg m0 (h ++ Spec.gets w stamp i1 i2 i3)).mgr.fails = [] →
        ∃ d1 q id, (after cfg m0 (h ++ Spec.gets w stamp i1 i2 i3)).mgr.sent = [d1, d0] ∧
          q.pdu = { pdu with requestID := id } ∧ q.userName = user ∧ q.level = level ∧
          Spec.RequestDatagram cfg h0 (h ++ Spec.gets w stamp i1 i2 i3) q E d1.wire ∧
          Spec.Finishes cfg m0 h0 (h ++ Spec.gets w stamp i1 i2 i3) t 0 q.pdu E user d1 ∧
          Spec.Resumes cfg m0 h0 (h ++ Spec.gets w stamp i1 i2 i3) t 0 q E user d1 := by
  subst hh
  obtain ⟨q, d, id, hsolo, hsl, hlis, hsent, hreq, hpdu, huser, hlev, heng, hr0, hs0, hm0s, hme, hmst, hbo, shape, early, split⟩ :=
    issue_sleeps hc pdu user level timeout period t0 r0 i t a b ha hb hf
  rw [hm] at heng
  refine ⟨d, hsent, ?_, ?_⟩
  · obtain ⟨q', k1, k2, -⟩ := C79_step hc hs hmax [] (.send pdu user level timeout period t0 r0 i)
      (possible_left (b := Spec.waits t 0 a b) hp) d (by show _ = d :: m0.sent; rw [hm0s]; exact hs0)
    rw [hreq] at k1
    rw [show (after cfg m0 ([] ++ [VEvent.send pdu user level timeout period t0 r0 i])).mgr.reqs 0 = some q from hr0] at k1
    cases k1
    exact k2 heng
  · intro hd s E w stamp i1 i2 i3 hps hna hax hx hp' hf'
    have hw := C102_read_partial hc hw0 _ E [] hd s w stamp (fun h => by rw [hna] at h; cases h) hps
    obtain ⟨d1, q1, k1, k2, k3, k4, k5, k6, k7, k8⟩ := Solo.gets hc hs hmax shape early hsolo hreq split hlis hsl hbo w stamp
      ⟨hd, s, E, []⟩ i1 i2 i3 hw hax (.inr ⟨hx, by rw [heng]; nofun⟩) (.inr (.inr hm)) true (some .trustEveryResponse)
      (by rw [hmst, hm]; rfl) nofun hp' hf'
    have hno : ¬ Spec.SaysNotInTime ⟨hd, s, E, []⟩ := by
      rintro ⟨-, v, rest, n1, n2⟩
      obtain ⟨-, v', rest', n3, n4⟩ := hx
      rw [n1] at n3; cases n3
      rw [n2] at n4
      exact absurd n4 (by decide)
    refine ⟨d1, q1, id, by rw [k1, hsent], k2.trans hpdu, k3.trans huser, k4.trans hlev, k5.datagram,
      poised_finishes hc hw0 ⟨0, q1, k5.solo.req, k5.engine⟩ (k5.concludes hc hs hmax), ?_⟩
    exact poised_resumes hc hw0 hs hmax k5 (k8 hno) (all := false) (next := none) (by rw [k7]; rfl) (fun _ => rfl)

/-- **C102**, a manager created with an engine ID: likewise, but the first datagram already is the request, addressed to this engine. -/
theorem C102_known_partial {h0 : List Spec.UsmOp} (hc : Spec.CreatedOn cfg h0 m0) (hw0 : Spec.FromWire h0) (hs : Spec.Seeded m0)
    (hmax : 484 ≤ cfg.maxSize) (E : Bytes) (hm : m0.engineID = some E) (pdu : Pdu) (user : Bytes) (level : SecurityLevel)
    (timeout period t0 : ℚ) (r0 : Nat) (i : SendIn) (t : Nat) (a b : SendIn) (ha : a.now < t0 + timeout)
    (hb : b.now < min (t0 + timeout) (i.now + period)) (h : List VEvent)
    (hh : h = .send pdu user level timeout period t0 r0 i :: Spec.waits t 0 a b) (hp : Spec.Possible h)
    (hf : (after cfg m0 h).mgr.fails = []) :
    ∃ d0 q id, (after cfg m0 h).mgr.sent = [d0] ∧ q.pdu = { pdu with requestID := id } ∧ q.userName = user ∧ q.level = level ∧
      Spec.RequestDatagram cfg h0 h q E d0.wire ∧ Spec.Finishes cfg m0 h0 h t 0 q.pdu E user d0 ∧
      Spec.Resumes cfg m0 h0 h t 0 q E user d0 := by
  subst hh
  obtain ⟨q, d, id, hsolo, hsl, hlis, hsent, hreq, hpdu, huser, hlev, heng, hr0, hs0, hm0s, hme, hmst, hbo, shape, early, split⟩ :=
    issue_sleeps hc pdu user level timeout period t0 r0 i t a b ha hb hf
  rw [hm] at heng
  have hdg := sent_engine hc hs hmax [] (.send pdu user level timeout period t0 r0 i)
      (possible_left (b := Spec.waits t 0 a b) hp) d (by show _ = d :: m0.sent; rw [hm0s]; exact hs0) (q := q)
      (by rw [hreq]; exact hr0) heng
  have hdg' := hdg.later (q' := q) (Spec.waits t 0 a b) rfl rfl rfl
  have hpo : Poised cfg m0 h0 (.send pdu user level timeout period t0 r0 i :: Spec.waits t 0 a b) t q d E :=
    ⟨shape, early, hp, hsolo, heng, hdg', hreq, split, hlis, hsl, .inl (by rw [hm]; nofun)⟩
  refine ⟨d, q, id, hsent, hpdu, huser, hlev, hdg', poised_finishes hc hw0 ⟨0, q, hsolo.req, heng⟩ (hpo.concludes hc hs hmax), ?_⟩
  exact poised_resumes hc hw0 hs hmax hpo hbo (all := true) (next := some .requireAuthentication)
    (by rw [hmst, hme, hm]; simp [probing, MState.onReport]) nofun

/-- **C102**, in the middle of any use of the manager (C88): any response that the agent protects, to a datagram on whose request a thread still waits,
ends the `wait()`. -/
theorem C102_wait_partial {h0 : List Spec.UsmOp} (hc : Spec.CreatedOn cfg h0 m0) (hw0 : Spec.FromWire h0) (hs : Spec.Seeded m0)
    (hmax : 484 ≤ cfg.maxSize) (h1 : List VEvent) (e : VEvent) (h2 : List VEvent) (hh : Spec.Possible (h1 ++ [e])) (d : Sent)
    (hd : (after cfg m0 (h1 ++ [e])).mgr.sent = d :: (after cfg m0 h1).mgr.sent)
    (hn : Spec.StillWaited cfg m0 (h1 ++ [e]) h2 d.request) (hidle : (after cfg m0 (h1 ++ [e] ++ h2)).listener = .idle)
    (hlock : (after cfg m0 (h1 ++ [e] ++ h2)).mgr.locked = false)
    (q : VReq) (hq : (after cfg m0 (h1 ++ [e] ++ h2)).mgr.reqs d.request = some q) (E name : Bytes) (hE : q.engineID = some E)
    (head : HeaderData) (s : ScopedPDU) (w : Bytes) (stamp : ℚ)
    (hps : Spec.PeerSends cfg m0 h0 (h1 ++ [e] ++ h2) E name head s w stamp)
    (ha : Spec.AnswerTo d.wire ⟨head, s, E, name⟩) (hx : s.pdu.type = .response)
    (hu : Spec.Undisturbed cfg m0 (h1 ++ [e] ++ h2 ++ [.hear w stamp]))
    (hm0 : m0.engineID ≠ none ∨ Spec.Discovered cfg m0 (h1 ++ [e] ++ h2 ++ [.hear w stamp]))
    (hi : Spec.OfInterest cfg m0 (h1 ++ [e] ++ h2 ++ [.hear w stamp]) d.request q)
    (t : Nat) (timeout since : ℚ) (ht : (after cfg m0 (h1 ++ [e] ++ h2)).threads t = .sleep d.request timeout since)
    (i i1 i2 : SendIn) :
    (after cfg m0 (h1 ++ [e] ++ h2 ++ [.hear w stamp, .listen i, .step t i1, .step t i2])).threads t =
      .done d.request (Spec.answer ⟨head, s, E, name⟩ q.pdu) :=
  C88_wait hc hs hmax h1 e h2 hh d hd hn w stamp ⟨head, s, E, name⟩ hidle
    (C102_read_partial hc hw0 _ E name head s w stamp (fun _ => .inr ⟨_, q, hq, hE⟩) hps) ha hx hlock hu hm0 q hi (.inr hE) t
    timeout since ht i i1 i2

end Snmp
