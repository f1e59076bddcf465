import Verif.Props.V3Secure
import Verif.Props.Keys
/-!
# The security module of a v3 manager: its history, and where its keys come from
-/

namespace Snmp

variable {cfg : VCfg} {m0 : VMgr}

/-! ## Specification -/

/-- The users of a history of calls of the security module (`addUser` calls, also failed ones). -/
def Spec.usersOf (h : List Spec.UsmOp) : List UserArgs :=
  h.filterMap fun
    | .config (.addUser a _) => some a
    | _ => none

/-- `m0` is a new manager, on a security module with the history `h0`. -/
def Spec.CreatedOn (cfg : VCfg) (h0 : List Spec.UsmOp) (m0 : VMgr) : Prop :=
  cfg.crypto.Ok ∧ ∃ (engineID : Option Bytes) (g : Nat) (c0 : Cache V3Entry) (n0 : Nat) (seed : Bytes → Nat), Spec.Used c0 n0 ∧
    VMgr.create cfg (Usm.after cfg.backend cfg.crypto h0) engineID g c0 n0 seed = .ok m0

/-- `user` are the keys that RFC 3414 derives, for this engine, from the secrets given in a call of `addUser` under this
namespace and user name, either before the manager was made (in `h0`) or since (in `h`). -/
def Spec.KeysOf (cfg : VCfg) (h0 : List Spec.UsmOp) (h : List VEvent) (ns : String) (name engineID : Bytes)
    (user : LocalizedCredentials) : Prop :=
  ∃ a, (a ∈ Spec.usersOf h0 ∨ ∃ seed, VEvent.addUser a seed ∈ h) ∧ a.namespace = ns ∧ a.userName = name ∧
    ¬ Spec.Empty a ∧ Spec.RfcKeys cfg.crypto a engineID user

/-! ## Events at the security module -/

/-- The security module goes from `u` to `u'` by events none of which adds a user. -/
def Usm.Does (b : Backend) (c : Crypto) (u u' : Usm) : Prop :=
  ∃ ops : List Spec.UsmOp, Spec.usersOf ops = [] ∧ u' = ops.foldl (Usm.apply b c) u

namespace Usm.Does

variable {b : Backend} {c : Crypto}

theorem refl (u : Usm) : u.Does b c u := ⟨[], rfl, rfl⟩

theorem trans {x y z : Usm} (h : x.Does b c y) (h' : y.Does b c z) : x.Does b c z := by
  obtain ⟨l, h1, h2⟩ := h
  obtain ⟨l', h3, h4⟩ := h'
  refine ⟨l ++ l', ?_, ?_⟩
  · unfold Spec.usersOf at *; rw [List.filterMap_append, h1, h3]; rfl
  · rw [List.foldl_append, ← h2, h4]

theorem of_eq {x y : Usm} (h : y = x) : x.Does b c y := by rw [h]; exact refl x

theorem prepare (u : Usm) (m : V3Message) (e n : Bytes) (t : ℚ) : u.Does b c (u.prepareOutgoing b c m e n t).2 :=
  ⟨[.send m e n t], rfl, rfl⟩

theorem process (u : Usm) (m : V3Message) (t : ℚ) : u.Does b c (u.processIncoming b c m t).2 :=
  ⟨[.receive m t], rfl, rfl⟩

theorem assign (u : Usm) (e : Bytes) (ns : String) (seed : Bytes → Nat) :
    u.Does b c { u with users := (u.users.assign c e ns seed).2 } :=
  ⟨[.config (.register e ns seed)], rfl, rfl⟩

theorem release (u : Usm) (e : Bytes) (ns : String) : u.Does b c { u with users := (u.users.release e ns).2 } :=
  ⟨[.config (.unregister e ns)], rfl, rfl⟩

end Usm.Does

theorem changeEngine_does (cfg : VCfg) (u : Usm) (old new : Option Bytes) (seed : Bytes → Nat) :
    u.Does cfg.backend cfg.crypto (changeEngine cfg u old new seed).2 := by
  have rel : ∀ u : Usm, u.Does cfg.backend cfg.crypto (match old with
      | none => ((.ok () : Res Unit), u)
      | some e =>
        match u.users.release e cfg.ns with
        | (.error err, users) => (.error err, { u with users })
        | (.ok _, users) => (.ok (), { u with users })).2 := by
    intro u
    cases old with
    | none => exact .refl u
    | some e =>
      have := Usm.Does.release (b := cfg.backend) (c := cfg.crypto) u e cfg.ns
      simp only
      generalize u.users.release e cfg.ns = y at *
      obtain ⟨res, users⟩ := y
      cases res <;> exact this
  unfold changeEngine
  split
  · exact .refl u
  · simp only
    cases new with
    | none => exact rel u
    | some e =>
      have h := Usm.Does.assign (b := cfg.backend) (c := cfg.crypto) u e cfg.ns seed
      simp only
      generalize u.users.assign cfg.crypto e cfg.ns seed = y at *
      obtain ⟨res, users⟩ := y
      cases res with
      | error err => exact h
      | ok b => cases b with
        | false => exact h
        | true => exact h.trans (rel { u with users })

namespace VSys

open VMgr

theorem sends_does {m m' : VMgr} {r : Nat} {q : VReq} {engineID : Option Bytes} {cause : Why} {i : SendIn}
    {res : Res Unit} (h : VMgr.Sends cfg m r q engineID cause i res m') :
    m.usm.Does cfg.backend cfg.crypto m'.usm := by
  cases h with
  | refused e err usm he hc =>
    have := changeEngine_does cfg m.usm q.engineID (some e) i.seed
    rw [hc] at this
    exact this
  | made q1 usm1 usm cache id sent res he hb hu hs hpo hdo =>
    have h1 : m.usm.Does cfg.backend cfg.crypto usm1 := by
      rcases he with ⟨-, -, rfl⟩ | ⟨e, -, hc, -⟩
      · exact .refl _
      · have := changeEngine_does cfg m.usm q.engineID (some e) i.seed
        rw [hc] at this
        exact this
    refine h1.trans ?_
    rcases hdo with ⟨rfl, -⟩ | ⟨msg, -, rfl⟩
    · exact .refl _
    · exact .prepare _ _ _ _ _

theorem closed_does (m : VMgr) (r : Nat) (q : VReq) : m.usm.Does cfg.backend cfg.crypto (m.closed cfg r q).usm :=
  changeEngine_does cfg m.usm q.engineID none (fun _ => 0)

theorem closing_does (m : VMgr) (r : Nat) : m.usm.Does cfg.backend cfg.crypto (m.closing cfg r).usm := by
  unfold closing
  cases hq : m.reqs r with
  | none => exact .refl _
  | some q => exact closed_does m r q

theorem finish_does (s : VSys) (t r : Nat) (o : VOutcome) :
    s.mgr.usm.Does cfg.backend cfg.crypto (s.finish cfg t r o).mgr.usm := by
  rw [finish_eq]; exact closing_does s.mgr r

theorem propose_usm (m : VMgr) (n : Option MState) : (m.propose n).usm = m.usm := by rw [propose_eq]
theorem updateState_usm (m : VMgr) : m.updateState.usm = m.usm := by rw [updateState_eq]

theorem response_does (m : VMgr) (x : V3Incoming) (seed : Bytes → Nat) {res : Res Unit} {m' : VMgr}
    (h : m.processResponse cfg x seed = (res, m')) : m.usm.Does cfg.backend cfg.crypto m'.usm := by
  rcases processResponse_cases cfg m x seed with ⟨_, -, h'⟩ | ⟨e, usm, next, -, hc, h'⟩ | ⟨usm, next, -, hc, h'⟩ | ⟨-, h'⟩
  · rw [h] at h'; cases h'; exact .refl _
  · rw [h] at h'; cases h'
    have := changeEngine_does cfg m.usm m.engineID (some x.securityEngineID) seed
    rw [hc] at this; exact this
  · rw [h] at h'; cases h'
    have := changeEngine_does cfg m.usm m.engineID (some x.securityEngineID) seed
    rw [hc] at this; exact this
  · rw [h] at h'; cases h'; exact .refl _

/-- Every step of a manager is, for the security module, a sequence of events; users are added by `addUser` only. -/
theorem move_does {s s' : VSys} {e : VEvent} (hm : Move cfg s e s') :
    s.mgr.usm.Does cfg.backend cfg.crypto s'.mgr.usm ∨
    ∃ a seed, e = .addUser a seed ∧
      s'.mgr.usm = s.mgr.usm.apply cfg.backend cfg.crypto (.config (.addUser a seed)) := by
  cases hm
  case issued pdu user level timeout period t0 r0 i q hq hl hd next hs m' hm' =>
    have := sends_does hm'
    rw [propose_usm] at this
    left
    rw [updateState_usm]
    exact this
  case issueFailed pdu user level timeout period t0 r0 i q hq hl hd next hs m' err hm' =>
    have := sends_does hm'
    rw [propose_usm] at this
    exact .inl this
  case bodyZero t i r x rest q ht ha hx he hn hx' hz =>
    exact .inl (finish_does (({ s with mgr := s.mgr.fail (.refresh x.id) } : VSys)) t r _)
  case bodySent t i r x rest q ht ha hx he hn hx' hz m' hm' => have := sends_does hm'; exact .inl this
  case bodyFailed t i r x rest q ht ha hx he hn hx' hz m' err hm' =>
    exact .inl ((sends_does hm').trans (finish_does ({ s with mgr := m'.fail (.refresh x.id) } : VSys) t r _))
  case pokeBegin t i r ht hl =>
    left
    simp only [updateState_usm, propose_usm]
    exact .refl _
  case pokeSent t i r l x a q ht hx next hs m' hm' =>
    have := sends_does hm'
    rw [propose_usm] at this
    left
    rw [updateState_usm]
    exact this
  case pokeFailed t i r l x a q ht hx next hs m' err hm' =>
    have := sends_does hm'
    rw [propose_usm] at this
    exact .inl (this.trans (finish_does ({ s with mgr := { m'.fail (.poke x.id) with locked := false } } : VSys) t r _))
  case answered t i r q x ht hq he hx => exact .inl (finish_does _ t r _)
  case reported t i r q ex ht hq he => exact .inl (finish_does _ t r _)
  case timedOut t i r q ht hq he => exact .inl (finish_does _ t r _)
  case heardNothing w stamp usm hl hu hd =>
    rcases hd with rfl | ⟨msg, rfl⟩
    · exact .inl (.refl _)
    · exact .inl (.process _ _ _)
  case heard w stamp usm m x msg msg' id en hl hw hu hx hr hid he hh hg hc =>
    have := Usm.Does.process (b := cfg.backend) (c := cfg.crypto) s.mgr.usm msg stamp
    rw [hu] at this
    exact .inl this
  case reportFailed i m x r q cause sync hr hl all next hs m' err hm' =>
    have := sends_does hm'
    rw [propose_usm] at this
    exact .inl this
  case reportOne i m x r q cause sync hr hl next hs m' hm' =>
    have := sends_does hm'
    rw [propose_usm] at this
    exact .inl this
  case reportAll i m x r q cause sync hr hl next hs m' hm' =>
    have := sends_does hm'
    rw [propose_usm] at this
    left
    simp only [updateState_usm]
    exact this
  case responseBad i m x msg q hl hmm hq hi hlk err m' hp => have := response_does _ _ _ hp; exact .inl this
  case responded i m x msg q hl hmm hq hi hlk m' hp => have := response_does _ _ _ hp; exact .inl this
  case flushSent i r eid sync l x q hl hu hx m' hm' => have := sends_does hm'; exact .inl this
  case flushFailed i r eid sync l x q hl hu hx m' err hm' => have := sends_does hm'; exact .inl this
  case collected r q hq => exact .inl (closed_does s.mgr r q)
  case dropped hd ha => exact .inl (changeEngine_does cfg _ _ _ _)
  case addUser a seed => exact .inr ⟨a, seed, rfl, rfl⟩
  case other o usm cache n held hs =>
    left
    cases hs with
    | registered e ns seed h => exact ⟨[.config (.register e ns seed)], rfl, rfl⟩
    | refused e ns seed h => exact ⟨[.config (.register e ns seed)], rfl, rfl⟩
    | released e ns k h => exact ⟨[.config (.unregister e ns)], rfl, rfl⟩
    | sent pdu engineID user level draws stamp usm h =>
      rcases h with rfl | ⟨msg, rfl⟩
      · exact .refl _
      · exact ⟨[.send msg engineID user stamp], rfl, rfl⟩
    | forgot id h => exact .refl _
  all_goals exact .inl (.refl _)

end VSys

/-! ## Histories -/

open VSys

theorem Spec.CreatedOn.created {h0 : List Spec.UsmOp} (hc : Spec.CreatedOn cfg h0 m0) : Spec.Created cfg m0 :=
  ⟨hc.1, h0, hc.2⟩

/-- The security module of a manager is always in a state that some history of events at the module leads to, in which
the users are those added before the manager was made and those added since. -/
theorem module_history {h0 : List Spec.UsmOp} (hc : Spec.CreatedOn cfg h0 m0) (h : List VEvent) :
    ∃ ops, (after cfg m0 h).mgr.usm = Usm.after cfg.backend cfg.crypto ops ∧
      ∀ a ∈ Spec.usersOf ops, a ∈ Spec.usersOf h0 ∨ ∃ seed, VEvent.addUser a seed ∈ h := by
  induction h using List.reverseRecOn with
  | nil =>
    obtain ⟨-, engineID, g, c0, n0, seed, hu0, hm⟩ := hc
    unfold VMgr.create at hm
    have h1 := changeEngine_does cfg (Usm.after cfg.backend cfg.crypto h0) none engineID seed
    generalize changeEngine cfg (Usm.after cfg.backend cfg.crypto h0) none engineID seed = y at *
    obtain ⟨res, usm⟩ := y
    cases res with
    | error e => cases hm
    | ok _ =>
      cases hm
      obtain ⟨ops, k1, k2⟩ := h1
      refine ⟨h0 ++ ops, ?_, ?_⟩
      · unfold Usm.after; rw [List.foldl_append]; exact k2
      · intro a ha
        unfold Spec.usersOf at *
        rw [List.filterMap_append, k1, List.append_nil] at ha
        exact .inl ha
  | append_singleton h e ih =>
    obtain ⟨ops, k1, k2⟩ := ih
    have old : ∀ a, (a ∈ Spec.usersOf h0 ∨ ∃ seed, VEvent.addUser a seed ∈ h) →
        a ∈ Spec.usersOf h0 ∨ ∃ seed, VEvent.addUser a seed ∈ h ++ [e] :=
      fun a => Or.imp id fun ⟨seed, hs⟩ => ⟨seed, by simp [hs]⟩
    rw [after_snoc]
    rcases step_move cfg (after cfg m0 h) e with hm | hm
    · rw [hm]; exact ⟨ops, k1, fun a ha => old a (k2 a ha)⟩
    · rcases move_does hm with ⟨ops', h1, h2⟩ | ⟨a, seed, rfl, h2⟩
      · refine ⟨ops ++ ops', ?_, fun a ha => old a (k2 a ?_)⟩
        · rw [h2, k1]; unfold Usm.after; rw [List.foldl_append]
        · unfold Spec.usersOf at *
          rw [List.filterMap_append, h1, List.append_nil] at ha
          exact ha
      · refine ⟨ops ++ [.config (.addUser a seed)], ?_, fun a' ha => ?_⟩
        · rw [h2, k1, Usm.after_snoc]
        · unfold Spec.usersOf at *
          rw [List.filterMap_append, List.mem_append] at ha
          rcases ha with ha | ha
          · exact old a' (k2 a' ha)
          · have : a' = a := by simpa using ha
            subst this
            exact .inr ⟨seed, by simp⟩

/-- A configured user was added. -/
theorem user_added (c : Crypto) (h : List Spec.RegOp) (ns : String) (name : Bytes) (cr : Credentials) (l : SecurityLevel)
    (hu : (Spec.Reg.after c h).user ns name = some (cr, l)) :
    ∃ a seed, Spec.RegOp.addUser a seed ∈ h ∧ a.namespace = ns ∧ a.userName = name ∧
      Credentials.new c a.authProtocol a.authSecret a.privProtocol a.privSecret a.secret = .ok cr := by
  induction h using List.reverseRecOn with
  | nil => cases hu
  | append_singleton h op ih =>
    have old : (Spec.Reg.after c h).user ns name = some (cr, l) → ∃ a seed, Spec.RegOp.addUser a seed ∈ h ++ [op] ∧
        a.namespace = ns ∧ a.userName = name ∧
        Credentials.new c a.authProtocol a.authSecret a.privProtocol a.privSecret a.secret = .ok cr := by
      intro hu
      obtain ⟨a, seed, h1, h2⟩ := ih hu
      exact ⟨a, seed, by simp [h1], h2⟩
    rw [Spec.Reg.after_snoc] at hu
    generalize Spec.Reg.after c h = s at *
    cases op with
    | register i ns' seed =>
      apply old
      revert hu
      simp only [Spec.Reg.step, Spec.Reg.register]
      split <;> try split
      all_goals exact fun h => h
    | unregister i ns' =>
      apply old
      revert hu
      simp only [Spec.Reg.step, Spec.Reg.unregister]
      split <;> try split
      all_goals try split
      all_goals exact fun h => h
    | addUser a seed =>
      simp only [Spec.Reg.step, Spec.Reg.addUser] at hu
      cases hcr : Credentials.new c a.authProtocol a.authSecret a.privProtocol a.privSecret a.secret with
      | error e => rw [hcr] at hu; exact old hu
      | ok cr' =>
        rw [hcr] at hu
        simp only at hu
        split at hu
        · exact old hu
        · split at hu
          · split at hu
            · exact old hu
            · exact old hu
          · simp only at hu
            split at hu
            · rename_i hn
              simp only [Option.some.injEq, Prod.mk.injEq] at hu
              obtain ⟨rfl, -⟩ := hu
              exact ⟨a, seed, by simp, hn.1.symm, hn.2.symm, hcr⟩
            · exact old hu

/-- The keys the security module of a manager finds for a registered engine and a user are those of the user that was
added with that name in the namespace of the registration. -/
theorem keys_of {h0 : List Spec.UsmOp} (hc : Spec.CreatedOn cfg h0 m0) (h : List VEvent) (u : Usm)
    (hu : (after cfg m0 h).mgr.usm.Does cfg.backend cfg.crypto u)
    (engineID name : Bytes) (user : LocalizedCredentials) (hg : u.users.getCredentials engineID name = .ok user) :
    ∃ ns k, u.reg engineID = some (k, ns) ∧ Spec.KeysOf cfg h0 h ns name engineID user := by
  obtain ⟨ops, k1, k2⟩ := module_history hc h
  obtain ⟨ops', k3, k4⟩ := hu
  have hu : u = Usm.after cfg.backend cfg.crypto (ops ++ ops') := by
    rw [k4, k1]; unfold Usm.after; rw [List.foldl_append]
  have k5 : Spec.usersOf (ops ++ ops') = Spec.usersOf ops := by
    unfold Spec.usersOf at *; rw [List.filterMap_append, k3, List.append_nil]
  subst hu
  obtain ⟨ns, n, cr, l, h1, h2, h3⟩ := Usm.credentials_configured hc.1 cfg.backend (ops ++ ops') hg
  have ok := Usm.after_users hc.1 cfg.backend (ops ++ ops')
  obtain ⟨a, seed, g1, g2, g3, g4⟩ := user_added cfg.crypto _ ns name cr l h2
  have ha : a ∈ Spec.usersOf (ops ++ ops') := by
    unfold Spec.configs at g1
    rw [List.mem_filterMap] at g1
    obtain ⟨op, o1, o2⟩ := g1
    unfold Spec.usersOf
    rw [List.mem_filterMap]
    refine ⟨op, o1, ?_⟩
    cases op with
    | config op' => simp only [Option.some.injEq] at o2; subst o2; rfl
    | send m e n t => cases o2
    | receive m t => cases o2
  rw [k5] at ha
  rw [ok.engine engineID] at h1
  refine ⟨ns, ?_⟩
  unfold Usm.reg
  revert h1
  cases hx : (Usm.after cfg.backend cfg.crypto (ops ++ ops')).users.engines.get engineID with
  | none => intro h1; cases h1
  | some en =>
    intro h1
    simp only [Option.map_some, Option.some.injEq, Prod.mk.injEq] at h1 ⊢
    have hne : ¬ Spec.Empty a := fun hem => by rw [(Credentials.new_keys cfg.crypto a).1 hem] at g4; cases g4
    obtain ⟨cr', e1, e2⟩ := (Credentials.new_keys cfg.crypto a).2 hne
    rw [g4] at e1
    injection e1 with e1
    exact ⟨_, ⟨rfl, h1.1⟩, a, k2 a ha, g2, g3, hne, e2 _ _ (e1 ▸ h3)⟩

theorem Spec.KeysOf.later {h0 : List Spec.UsmOp} {h : List VEvent} {ns : String} {name engineID : Bytes}
    {user : LocalizedCredentials} (hk : Spec.KeysOf cfg h0 h ns name engineID user) (h' : List VEvent) :
    Spec.KeysOf cfg h0 (h ++ h') ns name engineID user := by
  obtain ⟨a, h1, h2⟩ := hk
  exact ⟨a, h1.imp id fun ⟨seed, hs⟩ => ⟨seed, by simp [hs]⟩, h2⟩

/-- **C33**, with the configuration: under the same exception, the datagram that the outcome of a request with
authentication comes from carries a valid signature under keys that were configured, by a call of `addUser`, for the
user of the request, localised to the engine that the answer is from. -/
theorem C33_configured_partial {h0 : List Spec.UsmOp} (hc : Spec.CreatedOn cfg h0 m0) (h : List VEvent) (e : VEvent)
    (t r : Nat) (o : VOutcome) (hn : ¬ ∃ r' o', (after cfg m0 h).threads t = .done r' o')
    (h1 : (after cfg m0 (h ++ [e])).threads t = .done r o)
    (ho : (∃ l, o = .bindings l) ∨ ∃ status index request, o = .errorResponse status index request)
    (q : VReq) (hq : (after cfg m0 h).mgr.reqs r = some q) (hauth : q.level.auth = true) :
    ∃ x w stamp, o = Spec.answer x q.pdu ∧ VEvent.hear w stamp ∈ h ∧
      ((∃ ns user, Spec.KeysOf cfg h0 h ns q.userName x.securityEngineID user ∧
          Spec.Authentic cfg.crypto user w q.level.priv) ∨
        x.securityEngineID = [] ∧ x.securityName = [] ∧ x.scopedPDU.contextEngineID = []) := by
  obtain ⟨q', x, w, stamp, u, msg, hq', hans, ⟨g1, g2, msg', hg, hu, hdec, hok, k1, k2, k3, k4⟩, hsec⟩ :=
    C33_partial hc.created h e t r o hn h1 ho
  rw [hq] at hq'
  injection hq' with hq'
  subst hq'
  refine ⟨x, w, stamp, hans, by rw [hg]; simp, ?_⟩
  rcases hsec with ⟨hname, hlevel⟩ | hsec
  · left
    have ha : msg'.header.flags.level.auth = true := by rw [k1]; exact hlevel.1 hauth
    obtain ⟨p, user, hp, hcred, hau, hr⟩ := C43_authentic u cfg.backend cfg.crypto stamp w msg hdec
      (processIncoming_auth hok ha) (.inl ⟨msg', hok⟩)
    obtain ⟨j1, j2, j3⟩ := hr msg' hok
    rw [k3] at j2
    rw [k4] at j3
    injection j2 with j2
    injection j3 with j3
    rw [hname] at j3
    rw [← j3, ← j2] at hcred
    obtain ⟨ns, k, -, hk⟩ := keys_of hc g1 u (.of_eq hu) _ _ user hcred
    refine ⟨ns, user, by rw [hg]; exact hk.later _, ?_⟩
    obtain ⟨a, b, s, af, i1, i2, i3, i4, i5, i6⟩ := hau
    refine ⟨a, b, s, af, i1, i2, i3, i4, i5, fun hpriv => i6 ?_⟩
    rw [← j1, k1]
    exact hlevel.2 hauth hpriv
  · exact .inr hsec

end Snmp
