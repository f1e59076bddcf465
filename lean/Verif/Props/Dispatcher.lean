import Verif.Dispatcher
import Verif.DecodeLemmas
import Verif.Props.Smi
import Verif.Props.ManagerCommunity
import Verif.Props.Transport
/-!
# C57, C58, C73, C74
-/

namespace Snmp

/-! ## C57 -/

/-- The datagram is a BER SEQUENCE whose first element is the INTEGER `n`, and nothing follows it. -/
def Spec.Declares (w : Bytes) (n : Int) : Prop :=
  ∃ body num rest, readTLV w = some (⟨16, true, .universal⟩, body, []) ∧
    readTLV body = some (⟨2, false, .universal⟩, num, rest) ∧ Spec.twosComplement num = n

/-- The version numbers on the wire (RFC 1157, RFC 1901, RFC 3412). -/
def Spec.number : Version → Int
  | .v1 => 0
  | .v2c => 1
  | .v3 => 3

theorem Version.ofValue_some {n : Int} {v : Version} (h : Version.ofValue n = some v) :
    n = Spec.number v := by
  unfold Version.ofValue at h
  by_cases h0 : n = 0
  · rw [if_pos h0] at h; cases h; exact h0
  · rw [if_neg h0] at h
    by_cases h1 : n = 1
    · rw [if_pos h1] at h; cases h; exact h1
    · rw [if_neg h1] at h
      by_cases h3 : n = 3
      · rw [if_pos h3] at h; cases h; exact h3
      · rw [if_neg h3] at h; cases h

theorem decode_declares {w : Bytes} {v : Version} :
    (∃ t, VersionOnly.decode (.bytes w) = .ok (v, t)) ↔ Spec.Declares w (Spec.number v) := by
  constructor
  · rintro ⟨t, h⟩
    obtain ⟨b, hb, hd, -, hr, -, hl⟩ := asn1Decode_ok (Asn1Data.valid_bytes w) h
    unfold VersionOnly.deserialize decodeVersion at hd
    obtain ⟨⟨v', p⟩, h1, h2⟩ := bind_ok hd
    obtain ⟨⟨n, p'⟩, h3, h4⟩ := bind_ok h1
    obtain ⟨v'', h5, h6⟩ := bind_ok h4
    cases h6
    cases h2
    unfold decodeInteger at h3
    obtain ⟨x, hx, hdx, -, hrx, -, -⟩ := asn1Decode_ok hb h3
    have hov : Version.ofValue n = some v := by
      cases ho : Version.ofValue n with
      | none => rw [ho] at h5; cases h5
      | some y => rw [ho] at h5; cases h5; rfl
    unfold IntType.deserialize at hdx
    rw [IntType.construct_eq] at hdx
    split at hdx
    · cases hdx
      rw [hl rfl] at hr
      refine ⟨b.copy, x.copy, _, hr, hrx, ?_⟩
      rw [twos_eq]
      exact Version.ofValue_some hov
    · cases hdx
  · rintro ⟨body, num, rest, h1, h2, h3⟩
    have hc : (Asn1Data.bytes w).toSub.contents = w := by
      have := Asn1Data.copy_eq (.bytes w)
      simpa [Asn1Data.copy] using this.symm
    have hcb : (Asn1Data.bytes body).toSub.contents = body := by
      have := Asn1Data.copy_eq (.bytes body)
      simpa [Asn1Data.copy] using this.symm
    rw [twos_eq] at h3
    refine ⟨(Asn1Data.bytes w).toSub.last 0, ?_⟩
    unfold VersionOnly.decode asn1Decode
    rw [Ber.decode_refines (Asn1Data.valid_bytes w), hc, h1]
    have ht : sequenceTag = ⟨16, true, .universal⟩ := rfl
    simp only [ht, ne_eq, not_true_eq_false, and_false, ↓reduceIte, Except.bind, List.length_nil]
    unfold VersionOnly.deserialize decodeVersion decodeInteger asn1Decode
    rw [Ber.decode_refines (Asn1Data.valid_bytes body), hcb, h2]
    have ht' : IntType.integer32.tag = ⟨2, false, .universal⟩ := rfl
    have hin : IntType.integer32.deserialize (Asn1Data.bytes num) = .ok (Spec.number v) := by
      unfold IntType.deserialize
      have : (Asn1Data.bytes num).copy = num := rfl
      rw [this, h3, IntType.construct_eq, if_pos (by cases v <;> decide)]
    simp only [ht', ne_eq, not_true_eq_false, and_false, ↓reduceIte, Except.bind, hin,
      Bool.true_eq_false, false_and]
    cases v <;> rfl

/-- C57: `hear` returns normally for every datagram, whatever the processors and handles do. -/
theorem C57_survives {W : Type} (table : Dict Version (MsgProcessor W)) (s : W) (sock : Fd) (a : Address)
    (w : Bytes) : (Dispatcher.hear table s sock a w).1 = .ok () := by
  unfold Dispatcher.hear
  split
  · rfl
  · split <;> rfl

/-- `hear` only swallows exceptions. -/
theorem hear_inner {W : Type} (table : Dict Version (MsgProcessor W)) (s : W) (sock : Fd) (a : Address)
    (w : Bytes) : (Dispatcher.hear table s sock a w).2 = (Dispatcher.hearInner table s w).2 := by
  unfold Dispatcher.hear
  generalize Dispatcher.hearInner table s w = x
  obtain ⟨r, s'⟩ := x
  cases r with
  | ok _ => rfl
  | error e => simp only; split <;> rfl

/-- C57: a datagram that does not declare the version of a registered processor changes nothing. -/
theorem C57_ignored {W : Type} (table : Dict Version (MsgProcessor W)) (s : W) (sock : Fd) (a : Address)
    (w : Bytes) (h : ∀ v, Spec.Declares w (Spec.number v) → table.get v = none) :
    (Dispatcher.hear table s sock a w).2 = s := by
  have : (Dispatcher.hearInner table s w).2 = s := by
    unfold Dispatcher.hearInner
    split
    · rfl
    · rfl
    · rename_i v t hd
      rw [h v (decode_declares.1 ⟨t, hd⟩)]
  unfold Dispatcher.hear
  generalize Dispatcher.hearInner table s w = x at *
  obtain ⟨r, s'⟩ := x
  cases r with
  | ok _ => exact this
  | error e => simp only; split <;> exact this

/-- C57: a datagram that declares the version of a registered processor is given to that processor, once,
and nothing happens but what it does and, if it returns a handle, what pushing to that handle does. -/
theorem C57_routed {W : Type} (table : Dict Version (MsgProcessor W)) (s : W) (sock : Fd) (a : Address)
    (w : Bytes) (v : Version) (hd : Spec.Declares w (Spec.number v)) (mp : MsgProcessor W)
    (hm : table.get v = some mp) :
    (∀ e s', mp.prepareDataElements s w = (.error e, s') → (Dispatcher.hear table s sock a w).2 = s') ∧
    (∀ push s', mp.prepareDataElements s w = (.ok push, s') →
      (Dispatcher.hear table s sock a w).2 = (push s').2) := by
  obtain ⟨t, ht⟩ := decode_declares.2 hd
  have key : ∀ x, Dispatcher.hearInner table s w = x → (Dispatcher.hear table s sock a w).2 = x.2 := by
    rintro ⟨r, s'⟩ hx
    unfold Dispatcher.hear
    rw [hx]
    cases r with
    | ok _ => rfl
    | error e => simp only; split <;> rfl
  rw [key _ rfl]
  unfold Dispatcher.hearInner
  rw [ht]
  simp only [hm]
  constructor
  · intro e s' hp
    rw [hp]
    simp only
    split <;> rfl
  · intro push s' hp
    rw [hp]
    simp only
    generalize push s' = y
    obtain ⟨r, s''⟩ := y
    cases r with
    | ok _ => rfl
    | error e => simp only; split <;> rfl

/-- At most one version is declared. -/
theorem Spec.Declares.unique {w : Bytes} {n m : Int} (h : Spec.Declares w n) (h' : Spec.Declares w m) :
    n = m := by
  obtain ⟨b, x, r, h1, h2, h3⟩ := h
  obtain ⟨b', x', r', h1', h2', h3'⟩ := h'
  rw [h1] at h1'
  cases h1'
  rw [h2] at h2'
  cases h2'
  exact h3.symm.trans h3'

/-- A processor that works on one part of the world leaves the rest alone. -/
theorem hear_lift {W V α : Type} {table : Dict Version (MsgProcessor W)} {s : W} {sock : Fd} {a : Address}
    {w : Bytes} {v : Version} {get : W → V} {set : W → V → W} {p : MsgProcessor V}
    (hd : Spec.Declares w (Spec.number v)) (hm : table.get v = some (p.lift get set)) (f : W → α)
    (hf : ∀ s x, f (set s x) = f s) : f (Dispatcher.hear table s sock a w).2 = f s := by
  obtain ⟨h1, h2⟩ := C57_routed table s sock a w v hd _ hm
  cases hp : p.prepareDataElements (get s) w with
  | mk r x =>
    cases r with
    | error e =>
      rw [h1 e (set s x) (by unfold MsgProcessor.lift; simp only [hp]), hf]
    | ok push =>
      rw [h2 _ (set s x) (by unfold MsgProcessor.lift; simp only [hp]; rfl), hf, hf]

/-- C57 for an engine with a manager of each version: a datagram changes nothing in the managers and
processors of the versions it does not declare. -/
theorem C57_isolated (cfg : VCfg) (stamp : ℚ) (s : Trio) (sock : Fd) (a : Address) (w : Bytes) :
    let s' := (Dispatcher.hear (Trio.table cfg stamp) s sock a w).2
    (¬Spec.Declares w 0 → s'.v1 = s.v1) ∧ (¬Spec.Declares w 1 → s'.v2c = s.v2c) ∧
    (¬Spec.Declares w 3 → s'.v3 = s.v3) := by
  intro s'
  by_cases hx : ∃ v, Spec.Declares w (Spec.number v)
  · obtain ⟨v, hv⟩ := hx
    cases v with
    | v1 =>
      exact ⟨fun h => absurd hv h,
        fun _ => hear_lift (get := Trio.v1) (set := fun w x => { w with v1 := x })
          (p := communityProcessor .v1) hv rfl Trio.v2c (fun _ _ => rfl),
        fun _ => hear_lift (get := Trio.v1) (set := fun w x => { w with v1 := x })
          (p := communityProcessor .v1) hv rfl Trio.v3 (fun _ _ => rfl)⟩
    | v2c =>
      exact ⟨fun _ => hear_lift (get := Trio.v2c) (set := fun w x => { w with v2c := x })
          (p := communityProcessor .v2c) hv rfl Trio.v1 (fun _ _ => rfl), fun h => absurd hv h,
        fun _ => hear_lift (get := Trio.v2c) (set := fun w x => { w with v2c := x })
          (p := communityProcessor .v2c) hv rfl Trio.v3 (fun _ _ => rfl)⟩
    | v3 =>
      exact ⟨fun _ => hear_lift (get := Trio.v3) (set := fun w x => { w with v3 := x })
          (p := v3Processor cfg stamp) hv rfl Trio.v1 (fun _ _ => rfl),
        fun _ => hear_lift (get := Trio.v3) (set := fun w x => { w with v3 := x })
          (p := v3Processor cfg stamp) hv rfl Trio.v2c (fun _ _ => rfl), fun h => absurd hv h⟩
  · have hs : s' = s := C57_ignored _ s sock a w fun v hv => absurd ⟨v, hv⟩ hx
    rw [hs]
    exact ⟨fun _ => rfl, fun _ => rfl, fun _ => rfl⟩

/-- The datagram of the examples declares its version. -/
theorem emptyResponse_declares : Spec.Declares (Spec.emptyResponse .v1) 0 ∧
    Spec.Declares (Spec.emptyResponse .v2c) 1 :=
  ⟨⟨[2, 1, 0, 4, 0, 162, 11, 2, 1, 1, 2, 1, 0, 2, 1, 0, 48, 0], [0], _, rfl, rfl, rfl⟩,
    ⟨[2, 1, 1, 4, 0, 162, 11, 2, 1, 1, 2, 1, 0, 2, 1, 0, 48, 0], [1], _, rfl, rfl, rfl⟩⟩

/-- The dispatcher with one community processor does what `CMgr.hear`, followed by `Request.push`, does. -/
theorem hear_community (v : Version) (s : CMgr) (sock : Fd) (a : Address) (w : Bytes) :
    (Dispatcher.hear [(v, communityProcessor v)] s sock a w).2 =
      match s.hear v w with
      | (none, s) => s
      | (some (r, m), s) => match s.reqs r with
        | none => s
        | some q => s.setReq r (q.push m) := by
  rw [hear_inner]
  unfold Dispatcher.hearInner CMgr.hear
  cases hv : VersionOnly.decode (.bytes w) with
  | error e => cases e <;> rfl
  | ok x =>
    obtain ⟨v', t⟩ := x
    simp only
    by_cases h : v' = v
    · subst h
      simp only [Dict.get, ↓reduceIte, ne_eq, not_true_eq_false]
      unfold communityProcessor
      simp only
      cases hd : Message.decode (if v' = .v1 then v1Types else v2Types) (.bytes w) with
      | error e => simp only; split <;> rfl
      | ok x =>
        obtain ⟨m, t⟩ := x
        simp only
        cases hp : communityProto.prepareDataElements s.cache s.dead m with
        | mk r cache =>
          cases r with
          | error e => simp only; split <;> rfl
          | ok r =>
            simp only
            cases hq : s.reqs r <;> rfl
    · have h' : v ≠ v' := fun h' => h h'.symm
      simp only [Dict.get, h, h', ↓reduceIte, ne_eq, not_false_eq_true]

/-- The dispatcher with the SNMPv3 processor does what the step `hear` of the listening thread does. -/
theorem hear_v3 (cfg : VCfg) (stamp : ℚ) (s : VSys) (hs : s.listener = .idle) (sock : Fd) (a : Address)
    (w : Bytes) :
    (Dispatcher.hear [(.v3, v3Processor cfg stamp)] s sock a w).2 = s.step cfg (.hear w stamp) := by
  obtain ⟨mgr, threads, listener, dropped, held⟩ := s
  simp only at hs
  subst hs
  have hstep : VSys.step cfg ⟨mgr, threads, .idle, dropped, held⟩ (.hear w stamp) =
      match mgr.hear cfg w stamp with
      | (none, m) => ⟨m, threads, .idle, dropped, held⟩
      | (some (k, x), m) => ⟨m, threads, .push k x, dropped, held⟩ := by
    unfold VSys.step
    simp only
    cases mgr.hear cfg w stamp with
    | mk o m =>
      cases o with
      | none => rfl
      | some y => rfl
  rw [hear_inner, hstep]
  unfold Dispatcher.hearInner VMgr.hear
  cases hv : VersionOnly.decode (.bytes w) with
  | error e => cases e <;> rfl
  | ok x =>
    obtain ⟨v', t⟩ := x
    simp only
    by_cases h : v' = .v3
    · subst h
      simp only [Dict.get, ↓reduceIte, ne_eq, not_true_eq_false]
      unfold v3Processor
      simp only
      cases hd : V3Message.decode (.bytes w) with
      | error e => simp only; split <;> rfl
      | ok m =>
        simp only
        cases hp : mgr.usm.processIncoming cfg.backend cfg.crypto m stamp with
        | mk r usm =>
          cases r with
          | error e => simp only; split <;> rfl
          | ok m =>
            simp only
            cases h1 : m.scopedPDU with
            | none => rfl
            | some p =>
              cases h2 : m.securityEngineID with
              | none => rfl
              | some e =>
                cases h3 : m.securityName with
                | none => rfl
                | some n =>
                  simp only
                  have hg : ({ mgr with usm } : VMgr).gone = mgr.gone := rfl
                  rw [hg]
                  cases hq : v3Proto.prepareDataElements mgr.cache mgr.gone ⟨m.header, p, e, n⟩ with
                  | mk r c =>
                    cases r with
                    | error e => simp only; split <;> rfl
                    | ok r => rfl
    · have h' : Version.v3 ≠ v' := fun h' => h h'.symm
      simp only [Dict.get, h, h', ↓reduceIte, ne_eq, not_false_eq_true]

/-! ## C58 -/

/-- **C58** is false of the code: for every processor, datagram and state, what `hear` does is the same for
any two source addresses, and any two sockets. -/
theorem C58_ignored {W : Type} (table : Dict Version (MsgProcessor W)) (s : W) (sock sock' : Fd)
    (a a' : Address) (w : Bytes) :
    Dispatcher.hear table s sock a w = Dispatcher.hear table s sock' a' w := rfl

/-- **C58** is false of the code: a request sent to one address is completed by a datagram heard from
another one, on another socket. -/
theorem C58_false (v : Version) (hv : v = .v1 ∨ v = .v2c) :
    let channel : Dispatcher.Channel := ⟨4, ⟨"192.0.2.1", 161⟩, ⟨"0.0.0.0", 0⟩⟩
    let table := [(v, communityProcessor v)]
    let s := (CMgr.new 1).setReq 0 (CReq.new 0 Spec.emptyGet [] 10 1 0)
    let prepare : Version → CMgr → Res Bytes × CMgr := fun v s =>
      let (w, _, cache, _) := prepareOutgoingCommunity v s.cache Spec.emptyGet 0 [] (fun _ => 1)
      (w, { s with cache })
    let (sent, s1) := Dispatcher.sendPdu table prepare channel v none s
    let s2 := (Dispatcher.hear table s1 5 ⟨"198.51.100.66", 4444⟩ (Spec.emptyResponse v)).2
    sent.map (fun x => x.2.1) = .ok ⟨"192.0.2.1", 161⟩ ∧
    (s1.reqs 0).map CReq.event = some false ∧ (s2.reqs 0).map CReq.event = some true := by
  rcases hv with rfl | rfl <;> decide +kernel

/-! ## C96 -/

/-- The table of processors after these calls of `addMessageProcessor`, in order, on a new dispatcher. -/
def Spec.registered {W : Type} (l : List (Version × MsgProcessor W)) : Dict Version (MsgProcessor W) :=
  l.foldl (fun table x => Dispatcher.addMessageProcessor table x.1 x.2) []

/-- The processor in the table for a version is the last one that was added for it. -/
theorem C96_registered {W : Type} (l : List (Version × MsgProcessor W)) (v : Version) :
    (Spec.registered l).get v = (l.filter fun x => x.1 = v).getLast?.map Prod.snd := by
  induction l using List.reverseRecOn with
  | nil => rfl
  | append_singleton l x ih =>
    have hr : Spec.registered (l ++ [x]) = (Spec.registered l).set x.1 x.2 := by
      unfold Spec.registered Dispatcher.addMessageProcessor
      rw [List.foldl_append]; rfl
    rw [hr, Dict.get_set]
    by_cases hx : v = x.1
    · subst hx
      simp
    · have : ¬ x.1 = v := fun h => hx h.symm
      simp [hx, this, ih]

/-- **C96**, refused. If no processor was added for the version, `sendPdu` raises `ValueError`; nothing is handed to
the socket and nothing changes. -/
theorem C96_refused {W : Type} (l : List (Version × MsgProcessor W)) (prepare : Version → W → Res Bytes × W)
    (channel : Dispatcher.Channel) (v : Version) (chan : Option PyErr) (s : W) (hv : ∀ mp, (v, mp) ∉ l) :
    Dispatcher.sendPdu (Spec.registered l) prepare channel v chan s = (.error .valueError, s) := by
  have : (Spec.registered l).get v = none := by
    rw [C96_registered]
    have : (l.filter fun x => x.1 = v) = [] := by
      rw [List.filter_eq_nil_iff]
      rintro ⟨a, mp⟩ hm ha
      simp only [decide_eq_true_eq] at ha
      subst ha
      exact hv mp hm
    rw [this]; rfl
  unfold Dispatcher.sendPdu
  rw [this]

/-- **C96**, sent. If a processor was added for the version, `sendPdu` hands to the socket of the channel, for the
address of the channel, exactly the message that the processor for the version prepared; it raises nothing but what the
processor or the socket raises; and nothing changes but what the processor changes. -/
theorem C96_sent {W : Type} (l : List (Version × MsgProcessor W)) (prepare : Version → W → Res Bytes × W)
    (channel : Dispatcher.Channel) (v : Version) (chan : Option PyErr) (s : W) (mp : MsgProcessor W) (hv : (v, mp) ∈ l) :
    (Dispatcher.sendPdu (Spec.registered l) prepare channel v chan s).2 = (prepare v s).2 ∧
    (∀ sock a w, (Dispatcher.sendPdu (Spec.registered l) prepare channel v chan s).1 = .ok (sock, a, w) ↔
      sock = channel.transport ∧ a = channel.address ∧ (prepare v s).1 = .ok w ∧ chan = none) ∧
    ∀ e, (Dispatcher.sendPdu (Spec.registered l) prepare channel v chan s).1 = .error e ↔
      (prepare v s).1 = .error e ∨ ((∃ w, (prepare v s).1 = .ok w) ∧ chan = some e) := by
  have : ∃ mp', (Spec.registered l).get v = some mp' := by
    rw [C96_registered]
    have hne : (l.filter fun x => x.1 = v) ≠ [] := by
      intro h0
      rw [List.filter_eq_nil_iff] at h0
      exact h0 _ hv (by simp)
    rw [List.getLast?_eq_getLast_of_ne_nil hne]
    exact ⟨_, rfl⟩
  obtain ⟨mp', hmp⟩ := this
  unfold Dispatcher.sendPdu
  rw [hmp]
  simp only
  generalize prepare v s = y
  obtain ⟨r, s1⟩ := y
  cases r with
  | error e => simp
  | ok w =>
    cases chan with
    | some e => simp
    | none => simp only [Except.ok.injEq, Prod.mk.injEq, true_and]; simp [eq_comm]

/-- Non-vacuity of C96: a dispatcher with the v1 processor, added twice, sends for v1, and not for v2c. -/
theorem C96_example :
    let l := [(Version.v1, communityProcessor .v1), (.v1, communityProcessor .v1)]
    let channel : Dispatcher.Channel := ⟨4, ⟨"192.0.2.1", 161⟩, ⟨"0.0.0.0", 0⟩⟩
    let s := (CMgr.new 1).setReq 0 (CReq.new 0 Spec.emptyGet [] 10 1 0)
    let prepare : Version → CMgr → Res Bytes × CMgr := fun v s =>
      let (w, _, cache, _) := prepareOutgoingCommunity v s.cache Spec.emptyGet 0 [] (fun _ => 1)
      (w, { s with cache })
    (∀ mp, (Version.v2c, mp) ∉ l) ∧ (Version.v1, communityProcessor .v1) ∈ l ∧
    (Dispatcher.sendPdu (Spec.registered l) prepare channel .v1 none s).1.map (fun x => (x.1, x.2.1, x.2.2.length)) =
      .ok (4, ⟨"192.0.2.1", 161⟩, 20) := by
  refine ⟨?_, by simp, by decide +kernel⟩
  intro mp hm
  simp at hm

end Snmp
