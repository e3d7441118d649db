import Verif.PubCtxFaults

/-!
# Properties of the publisher context: sizes, reading from subscribers, faults (C11, C12, C14, C15, C22, C52)

`Reaches ops c`: `c` is the context after the API calls `ops`, whatever the sockets, the clock and the callbacks answered.
-/

set_option linter.unusedSimpArgs false
set_option linter.unusedVariables false

namespace Rmc
namespace PubCtx
open CircBuf Proto

/-! ## A concrete context for the examples -/

/-- A new context with two connection slots. -/
def exC0 : PubCtx :=
  init (fun _ => ⟨0, .none, none, 0, CircBuf.init (fun _ => 0) 1, CircBuf.init (fun _ => 0) 1, .closed, 0, 0⟩) 2 7 1 2

/-- A two byte payload. -/
def exPay (n : Nat) : Payload := ⟨100 + n, [n.toUInt8, 0], false⟩

/-- Activate, two subscribers connect, three packets are queued and multicast at times 10, 20, 30. -/
def exPre : List Op :=
  [.activate (.ok (7, 8, 9)), .setCtlCb true, .readListen (.ok 5 1) none, .readListen (.ok 6 1) (some true),
   .queue (exPay 1) false, .queue (exPay 2) false, .queue (exPay 3) false,
   .writeMcast [⟨.ok 10, []⟩, ⟨.ok 20, []⟩, ⟨.ok 30, []⟩]]

/-- An acknowledgement as it comes over TCP. -/
def ackBytes (a b : Nat) : List UInt8 := CMD_ACK_INTERVAL :: (AckInterval.mk a b).enc
/-- A control message as it comes over TCP. -/
def ctlBytes (p : List UInt8) : List UInt8 := CMD_CONTROL_MESSAGE :: (ctlEnc p.length ++ p)

/-- Check a property of the context a history leads to. -/
def holdsAfter (ops : List Op) (P : List Nat → PubCtx → Bool) : Bool :=
  match run exC0 ops with
  | .ok x => P x.1 x.2
  | .error _ => false

theorem reaches_of {ops : List Op} {P : List Nat → PubCtx → Bool} (hs : ∀ op ∈ ops, op.sane) (hl : ops.length + 1 < U64)
    (h : holdsAfter ops P = true) : ∃ c rs, Reaches ops c ∧ run exC0 ops = .ok (rs, c) ∧ P rs c = true := by
  unfold holdsAfter at h
  cases hr : run exC0 ops with
  | error f => rw [hr] at h; cases h
  | ok x =>
    rw [hr] at h
    exact ⟨x.2, x.1, ⟨_, 2, 7, 1, 2, x.1, by decide, hs, hl, hr⟩, rfl, h⟩

theorem exPre_sane : ∀ op ∈ exPre, op.sane := by simp [exPre, Op.sane, saneAcc]

theorem pubFrame_ack (cs : List UInt8) :
    pubFrame (CMD_ACK_INTERVAL :: cs) = if cs.length < 16 then .more else .cmd 17 := by
  unfold pubFrame; dsimp only; rw [if_pos rfl]

theorem pubEff_ack (i : Nat) (c : PubCtx) (cs : List UInt8) :
    pubEff i c (CMD_ACK_INTERVAL :: cs) = ackInterval c i (AckInterval.dec cs) := by
  unfold pubEff; dsimp only; rw [if_pos rfl]

theorem safeFrom_nil (L : Lang PubCtx) (size f pos : Nat) : L.safeFrom size f pos [] := by
  cases f with
  | zero => trivial
  | succ f => unfold Lang.safeFrom; rw [if_pos rfl]; trivial

/-! ## C11 -/

/-- C11: a payload longer than the limit is rejected with EMSGSIZE and nothing changes, in any state. -/
theorem C11_reject (c : PubCtx) (p : Payload) (ann : Bool) (h : RMC_MAX_PAYLOAD < p.data.length) :
    queuePacket c p ann = .ok (EMSGSIZE, c) := queuePacket_long h

/-- C11: a payload accepted fits the datagram, the 16 bit length field, and an empty TCP buffer (a resend needs the
command byte, the header and the payload) whatever position the buffer is at. -/
theorem C11_fits {c c' : PubCtx} {p : Payload} {ann : Bool} (h : queuePacket c p ann = .ok (0, c')) :
    HDR_LEN + p.data.length ≤ RMC_MAX_PACKET ∧ p.data.length < 65536 ∧
    ∀ b : CircBuf, WF b → b.size = RMC_MAX_PACKET → bytes b = [] → 1 + HDR_LEN + p.data.length ≤ available b := by
  have hl : p.data.length ≤ RMC_MAX_PAYLOAD := by
    rcases Nat.lt_or_ge RMC_MAX_PAYLOAD p.data.length with hl | hl
    · rw [queuePacket_long hl] at h; cases h
    · exact hl
  have e1 : RMC_MAX_PAYLOAD = 65312 := rfl
  have e2 : RMC_MAX_PACKET = 65400 := rfl
  have e3 : HDR_LEN = 20 := rfl
  refine ⟨by omega, by omega, ?_⟩
  intro b hw hs hb
  have h1 := available_eq hw
  have h2 := length_bytes b
  rw [hb, List.length_nil] at h2
  rw [h1]; omega

/-- C11: multicasting never fails for the size of a packet: an EMSGSIZE comes from the socket. -/
theorem C11_send {ops : List Op} {c c' : PubCtx} (h : Reaches ops c) (rs : List SendRes)
    (hx : multicastWrite c rs = .ok (EMSGSIZE, c')) : ∃ r ∈ rs, r.res = .error EMSGSIZE := by
  obtain ⟨pops, L, hg, hxx⟩ := h.good
  clear h hxx
  induction rs generalizing c pops with
  | nil =>
    unfold multicastWrite at hx
    rcases hg.p.next with ⟨e, _⟩ | ⟨a, pkt, e, e2, _, _, e3, _⟩
    · rw [e] at hx; cases hx
    · rw [e] at hx
      dsimp only at hx
      unfold sendSingle at hx
      split at hx
      · cases hx
      · rw [e2, Pub.ok_bind, if_neg (by unfold HDR_LEN RMC_MAX_PACKET; unfold RMC_MAX_PAYLOAD at e3; omega)] at hx
        cases hx
  | cons r rs ih =>
    rw [multicastWrite] at hx
    rcases hg.p.next with ⟨e, _⟩ | ⟨a, pkt, e, e2, _, _, e3, _⟩
    · rw [e] at hx; cases hx
    · rw [e] at hx
      dsimp only at hx
      obtain ⟨code, c1, ys, es, ds, k1, k2, _⟩ := sendSingle_spec hg e r
      rw [k1, Pub.ok_bind] at hx
      by_cases h0 : code ≠ 0
      · rw [if_pos h0] at hx
        have hc : code = EMSGSIZE := congrArg Prod.fst (Except.ok.inj hx)
        refine ⟨r, by simp, ?_⟩
        unfold sendSingle at k1
        split at k1
        · have := congrArg Prod.fst (Except.ok.inj k1); rw [hc] at this; cases this
        · rw [e2, Pub.ok_bind, if_neg (by unfold HDR_LEN RMC_MAX_PACKET; unfold RMC_MAX_PAYLOAD at e3; omega)] at k1
          cases hr : r.res with
          | error e' =>
            rw [hr] at k1
            dsimp only at k1
            split at k1
            · have := congrArg Prod.fst (Except.ok.inj k1); rw [hc] at this
              have this : e' = EMSGSIZE := this
              rw [this]
            · have := congrArg Prod.fst (Except.ok.inj k1); rw [hc] at this; cases this
          | ok ts =>
            rw [hr] at k1
            dsimp only at k1
            obtain ⟨s, _, k3⟩ := bind_ok k1
            have := congrArg Prod.fst (Except.ok.inj k3); rw [hc] at this; cases this
      · rw [if_neg h0] at hx
        obtain ⟨r', hr', e'⟩ := ih hx _ k2
        exact ⟨r', by simp [hr'], e'⟩

/-- C11: any packet a subscriber owes can be resent when nothing is pending on its connection. -/
theorem C11_resend {ops : List Op} {c : PubCtx} (h : Reaches ops c) {i : Nat} (hc : Connected c i)
    (he : bytes (c.cv.conns i).writeBuf = []) {x : Nat × Payload × Int} (hx : x ∈ c.pub.owedPkts i) (rc : Nat)
    (par : Option ListId) (ts : Int) :
    ∃ c', resendPacket c i ⟨x.1, rc, par, ts, x.2.1⟩ = .ok (0, c') ∧
      bytes (c'.cv.conns i).writeBuf =
        CMD_PACKET :: ((PacketHeader.mk x.1 c.nodeId x.2.1.data.length c.listenIp c.listenPort).enc ++ x.2.1.data) := by
  obtain ⟨pops, L, hg, _⟩ := h.good
  have hi := hg.connected.1 hc
  obtain ⟨w1, w2⟩ := hg.wb i hi
  rw [hg.buf] at w2
  have h1 := available_eq w1
  have h2 := length_bytes (c.cv.conns i).writeBuf
  rw [he, List.length_nil] at h2
  have hl : x.2.1.data.length ≤ RMC_MAX_PAYLOAD := by
    rw [owedPkts_eq hg.p.reached.rel] at hx
    obtain ⟨r, hr, e⟩ := List.mem_map.mp hx
    have hr' : r ∈ (spec pops).infl := (List.mem_filter.mp hr).1
    rw [← e]
    exact hg.p.size_le (.inl (hg.p.spec_mem.2.2 r hr').1)
  have hst : (c.cv.conns i).writeBuf.stop < (c.cv.conns i).writeBuf.size := by
    have h3 := inUse_eq w1
    have h4 := w1.start_lt
    split at h3 <;> omega
  have e1 : RMC_MAX_PAYLOAD = 65312 := rfl
  have e2 : RMC_MAX_PACKET = 65400 := rfl
  have e3 : HDR_LEN = 20 := rfl
  obtain ⟨c', k1, _, _, _, _, _, k2, _⟩ := resend_ok hg hi (p := ⟨x.1, rc, par, ts, x.2.1⟩) (by
    show 1 + HDR_LEN + x.2.1.data.length ≤ _
    omega) hst
  refine ⟨c', k1, ?_⟩
  rw [k2, he]; rfl

/-- Non-vacuity: after `exPre` subscriber 1 owes three packets and nothing is pending on its connection. -/
example : ∃ c rs, Reaches exPre c ∧ run exC0 exPre = .ok (rs, c) ∧
    decide ((c.pub.owedPkts 1).map (·.1) = [1, 2, 3] ∧ bytes (c.cv.conns 1).writeBuf = [] ∧ 1 < c.cv.size ∧
      (c.cv.conns 1).mode = .connected) = true :=
  reaches_of (P := fun _ c => decide ((c.pub.owedPkts 1).map (·.1) = [1, 2, 3] ∧ bytes (c.cv.conns 1).writeBuf = [] ∧
    1 < c.cv.size ∧ (c.cv.conns 1).mode = .connected)) exPre_sane (by decide) (by decide +kernel)

/-! ## C22: acknowledgement intervals -/

theorem ackOps_range (i : Nat) (l : List Nat) (z : Payload × Int) : l.map (POp.ack i) = ackOps i (l.map fun pid => (pid, z)) := by
  unfold ackOps; rw [List.map_map]; rfl

/-- C22: an interval [first, last] (last not 2^64 - 1) takes exactly the packets it covers off the outstanding set of the
subscriber that sent it, whatever the rest of the interval names, and leaves the outstanding sets of the others alone. -/
theorem C22_interval {ops : List Op} {c : PubCtx} (h : Reaches ops c) (i : Nat) (a : AckInterval) (ha : a.last ≠ U64 - 1) :
    ∃ c', ackInterval c i a = .ok c' ∧
      c'.pub.outstanding i = (c.pub.outstanding i).filter (fun pid => decide (¬ (a.first ≤ pid ∧ pid ≤ a.last))) ∧
      (∀ j, j ≠ i → c'.pub.outstanding j = c.pub.outstanding j) := by
  obtain ⟨pops, L, hg, _⟩ := h.good
  obtain ⟨c', k1, k2, _⟩ := ackInterval_spec hg i a ha
  refine ⟨c', k1, ?_⟩
  have k2p := k2.p
  rw [ackOps_range i _ (⟨0, [], false⟩, 0)] at k2p
  obtain ⟨o1, o2, _⟩ := owed_acks _ hg.p k2p
  have hr := hg.p.reached.rel
  have hr' := k2p.reached.rel
  constructor
  · rw [outstanding_owed hr', outstanding_owed hr, o1, List.filter_map]
    congr 1
    apply List.filter_congr
    intro x _
    simp only [List.map_map, Function.comp_def, List.map_id']
    rw [decide_eq_decide]
    rw [List.mem_range'_1]
    omega
  · intro j hj
    rw [outstanding_owed hr', outstanding_owed hr, o2 j hj]

/-- C22, the defect: an interval that ends at 2^64 - 1 is never finished. -/
theorem C22_diverges (c : PubCtx) (i : Nat) (a : AckInterval) (ha : a.last = U64 - 1) :
    ackInterval c i a = .error .diverge := by unfold ackInterval; rw [if_pos ha]

/-- Non-vacuity: subscriber 1 acknowledges [2, 9] and is left with packet 1; subscriber 0 still owes all three. -/
example : ∃ c rs, Reaches (exPre ++ [.read 1 (some (ackBytes 2 9))]) c ∧
    run exC0 (exPre ++ [.read 1 (some (ackBytes 2 9))]) = .ok (rs, c) ∧
    decide (c.pub.outstanding 1 = [1] ∧ c.pub.outstanding 0 = [1, 2, 3]) = true :=
  reaches_of (P := fun _ c => decide (c.pub.outstanding 1 = [1] ∧ c.pub.outstanding 0 = [1, 2, 3]))
    (by simp [exPre, Op.sane, saneAcc]) (by decide) (by decide +kernel)

/-! ## C12, C14: reading commands -/

/-- C12 for the publisher (partial: for chunkings in the safe class, see `C12_false`): however the bytes from the peer of
connection `i` are split into reads, the acknowledgements and control messages they contain are executed one after the
other exactly as in the concatenated stream (`pubFrame` delimits them, `pubEff` is what each does), the incomplete rest
stays buffered, and only connection data changes otherwise. If a command faults, so does the reading. -/
theorem C12_publisher_partial {ops : List Op} {c : PubCtx} (h : Reaches ops c) {i : Nat} (hc : Connected c i)
    (hw : WF (c.cv.conns i).readBuf) (hsz : (c.cv.conns i).readBuf.size ≤ U32) {xs : List (List UInt8)} (hne : xs ≠ [])
    (hs : ChunksSafe (pubLang i) (c.cv.conns i).readBuf.size (c.cv.conns i).readBuf.start
      (bytes (c.cv.conns i).readBuf) xs) :
    match effects (pubLang i) c ((pubLang i).commands (bytes (c.cv.conns i).readBuf ++ xs.flatten)) with
    | .error f => reads i 0 c xs = .error f
    | .ok d => ∃ v, reads i 0 c xs =
        .ok ((pubLang i).status (bytes (c.cv.conns i).readBuf ++ xs.flatten), d.withCv v) ∧
        bytes (v.conns i).readBuf = (pubLang i).rest (bytes (c.cv.conns i).readBuf ++ xs.flatten) := by
  obtain ⟨pops, L, hg, _⟩ := h.good
  exact reads_lang i xs 0 hg (hg.connected.1 hc) hw hsz hne hs

/-- Non-vacuity: three acknowledgements cut at byte 25 and 40, and what they do. -/
example : (match run exC0 exPre with
    | .ok (_, c) =>
      let s := ackBytes 1 1 ++ ackBytes 2 2 ++ ctlBytes [9]
      (match reads 0 0 c [s.take 16, s.drop 16] with
       | .ok (r, d) => decide (r = 0 ∧ d.pub.outstanding 0 = [3] ∧ CEv.ctl 0 [9] ∈ d.log)
       | .error _ => false)
    | .error _ => false) = true := by decide +kernel

example : ChunksSafe (pubLang 0) RMC_MAX_PACKET 0 [] [(ackBytes 1 1).take 16, (ackBytes 1 1).drop 16] := by
  have hr : (pubLang 0).rest ((ackBytes 1 1).take 16) = (ackBytes 1 1).take 16 := by
    apply (Lang.split_more (L := pubLang 0) (by simp [ackBytes]) ?_).2.2
    show pubFrame (CMD_ACK_INTERVAL :: (AckInterval.mk 1 1).enc.take 15) = .more
    rw [pubFrame_ack, if_pos (by rw [List.length_take]; omega)]
  have hp : posAfter (pubLang 0) RMC_MAX_PACKET 0 ((ackBytes 1 1).take 16) = 0 := by
    unfold posAfter
    rw [hr, Nat.sub_self, if_neg (by simp [ackBytes])]
    decide
  have hl : ((ackBytes 1 1).take 16).length = 16 := by decide +kernel
  have hl2 : ((ackBytes 1 1).drop 16).length = 1 := by decide +kernel
  have hsafe : ∀ (f pos : Nat) (xs : List UInt8), xs.take 1 = [CMD_ACK_INTERVAL] → xs.length ≤ 17 →
      (pubLang 0).safeFrom RMC_MAX_PACKET f pos xs := by
    intro f pos xs h1 h2
    cases f with
    | zero => trivial
    | succ f =>
      cases xs with
      | nil => cases h1
      | cons x xs =>
        have hx : x = CMD_ACK_INTERVAL := by simpa using h1
        unfold Lang.safeFrom
        rw [if_neg (by simp)]
        refine ⟨fun e => absurd (hx.symm.trans e) (by decide), ?_⟩
        rw [show (pubLang 0).frame (x :: xs) = if xs.length < 16 then .more else .cmd 17 by
          rw [hx]; exact pubFrame_ack xs]
        by_cases hlt : xs.length < 16
        · rw [if_pos hlt]; trivial
        · rw [if_neg hlt]
          have : List.drop 17 (x :: xs) = [] := List.drop_eq_nil_of_le h2
          dsimp only
          rw [this]
          exact safeFrom_nil _ _ _ _
  refine ⟨⟨by simp [ackBytes], ?_, ?_, ?_⟩, ?_⟩
  · rw [List.length_nil, hl]; decide
  · rw [List.length_nil, hl]; decide
  · exact hsafe _ _ _ rfl (by rw [List.nil_append, hl]; decide)
  · rw [List.nil_append, hp, hr]
    have hne : (ackBytes 1 1).drop 16 ≠ [] := by intro e; rw [e] at hl2; exact absurd hl2 (by decide)
    refine ⟨⟨hne, ?_, ?_, ?_⟩, trivial⟩
    · rw [hl, hl2]; decide
    · rw [hl, hl2]; decide
    · rw [List.take_append_drop]; exact hsafe _ _ _ rfl (by decide +kernel)

/-- C12 is false in general: the bytes of three acknowledgements and a control message, read in one piece, then three
more acknowledgements cut after 39 bytes. The stream holds one control message; it is delivered twice, and the read
reports a protocol error although there is none in the stream. -/
theorem C12_false :
    (match run exC0 (exPre ++ [.read 0 (some (ackBytes 1 1 ++ ackBytes 1 1 ++ ackBytes 1 1 ++ ctlBytes [9])),
        .read 0 (some ((ackBytes 1 1 ++ ackBytes 2 2 ++ ackBytes 3 3).take 39)),
        .read 0 (some ((ackBytes 1 1 ++ ackBytes 2 2 ++ ackBytes 3 3).drop 39))]) with
      | .ok (rs, c) => decide (rs = [0, 0, 0, 0, 0, 0, 0, 0, 0, EAGAIN, EPROTO] ∧
          c.log.filter (fun e => match e with | .ctl _ _ => true | _ => false) = [.ctl 0 [9], .ctl 0 [9]])
      | .error _ => false) = true ∧
    (match run exC0 (exPre ++ [.read 0 (some (ackBytes 1 1 ++ ackBytes 1 1 ++ ackBytes 1 1 ++ ctlBytes [9])),
        .read 0 (some (ackBytes 1 1 ++ ackBytes 2 2 ++ ackBytes 3 3))]) with
      | .ok (rs, c) => decide (rs = [0, 0, 0, 0, 0, 0, 0, 0, 0, 0] ∧
          c.log.filter (fun e => match e with | .ctl _ _ => true | _ => false) = [.ctl 0 [9]])
      | .error _ => false) = true := by
  constructor <;> decide +kernel

/-! ## C15: hostile byte streams -/

/-- A command that faults: an acknowledgement interval that ends at 2^64 - 1, or a control message while the control
message callback was never set. -/
def hostile (c : PubCtx) (cmd : List UInt8) : Prop :=
  (cmd.head? = some CMD_ACK_INTERVAL ∧ (AckInterval.dec (cmd.drop 1)).last = U64 - 1) ∨
  (cmd.head? ≠ some CMD_ACK_INTERVAL ∧ c.ctlCb = none)

theorem eff_total {c : PubCtx} {pops : List POp} {L : List Nat} (h : Good c pops L) (i : Nat) {cmd : List UInt8}
    (hh : ¬ hostile c cmd) : ∃ d, pubEff i c cmd = .ok d ∧ d.ctlCb = c.ctlCb ∧ ∃ pops', Good d pops' L := by
  have key : ∀ d, pubEff i c cmd = .ok d → d.ctlCb = c.ctlCb ∧ ∃ pops', Good d pops' L := by
    intro d hd
    obtain ⟨ys, ds, g1, g2, _⟩ := eff_good h hd
    exact ⟨congrArg Cfg.ctlCb g2.cfg, _, g1⟩
  suffices ∃ d, pubEff i c cmd = .ok d by
    obtain ⟨d, hd⟩ := this
    exact ⟨d, hd, key d hd⟩
  unfold hostile at hh
  cases cmd with
  | nil => exact ⟨c, rfl⟩
  | cons x cs =>
    unfold pubEff
    dsimp only
    split
    · rename_i e
      obtain ⟨c', g, _⟩ := ackInterval_spec h i (AckInterval.dec cs) (fun e2 => hh (.inl ⟨by rw [e]; rfl, e2⟩))
      exact ⟨c', g⟩
    · rename_i e
      cases hcb : c.ctlCb with
      | none => exact absurd (.inr ⟨by simpa using e, hcb⟩) hh
      | some b => cases b <;> exact ⟨_, rfl⟩

theorem effects_total (i : Nat) {L : List Nat} : ∀ (cs : List (List UInt8)) {c : PubCtx} {pops : List POp}, Good c pops L →
    (∀ x ∈ cs, ¬ hostile c x) → ∃ d, effects (pubLang i) c cs = .ok d := by
  intro cs
  induction cs with
  | nil => intro c pops _ _; exact ⟨c, rfl⟩
  | cons x cs ih =>
    intro c pops h hh
    obtain ⟨d, h1, h2, pops', h3⟩ := eff_total h i (hh x (by simp))
    rw [effects_cons]
    show ∃ e, (pubEff i c x >>= _) = _
    rw [h1, Pub.ok_bind]
    refine ih h3 ?_
    intro y hy hc
    refine hh y (by simp [hy]) ?_
    unfold hostile at hc ⊢
    rwa [h2] at hc

/-- C15 (partial: for the chunkings of C12_publisher_partial and commands that are not `hostile`; both limits are needed,
see `C15_hang`, `C15_uninit` and `C15_oob`): whatever bytes a subscriber sends, garbage included, reading them returns. -/
theorem C15_publisher_partial {ops : List Op} {c : PubCtx} (h : Reaches ops c) {i : Nat} (hc : Connected c i)
    (hw : WF (c.cv.conns i).readBuf) (hsz : (c.cv.conns i).readBuf.size ≤ U32) {xs : List (List UInt8)} (hne : xs ≠ [])
    (hs : ChunksSafe (pubLang i) (c.cv.conns i).readBuf.size (c.cv.conns i).readBuf.start
      (bytes (c.cv.conns i).readBuf) xs)
    (hh : ∀ cmd ∈ (pubLang i).commands (bytes (c.cv.conns i).readBuf ++ xs.flatten), ¬ hostile c cmd) :
    ∃ r c', reads i 0 c xs = .ok (r, c') ∧ (r = 0 ∨ r = EAGAIN ∨ r = EPROTO) := by
  obtain ⟨pops, L, hg, _⟩ := h.good
  have key := C12_publisher_partial h hc hw hsz hne hs
  obtain ⟨d, hd⟩ := effects_total i _ hg hh
  rw [hd] at key
  obtain ⟨v, k1, _⟩ := key
  exact ⟨_, _, k1, split_status _ _⟩

/-- C15: the end of the stream, or an error of the socket, never makes the publisher fault. -/
theorem C15_eof {ops : List Op} {c : PubCtx} (h : Reaches ops c) (i : Nat) : ∃ r c', readConn c i none = .ok (r, c') := by
  obtain ⟨pops, L, hg, _⟩ := h.good
  by_cases hi : i ∈ L
  · obtain ⟨r, c', e, _⟩ := readConn_eof hg hi (rv := none) rfl
    exact ⟨r, c', e⟩
  · unfold readConn
    rw [ConnVec.findByIndex_spec hg.v, if_neg hi, if_pos (.inl rfl)]
    exact ⟨_, _, rfl⟩

/-- A chunk that is one command, read into an empty buffer. -/
theorem read_one_cmd {c : PubCtx} {pops : List POp} {L : List Nat} (h : Good c pops L) {i : Nat} (hi : i ∈ L)
    (hw : WF (c.cv.conns i).readBuf) (hsz : (c.cv.conns i).readBuf.size = RMC_MAX_PACKET)
    (hb : bytes (c.cv.conns i).readBuf = []) (hst : (c.cv.conns i).readBuf.start = 0) {cmd : List UInt8}
    (hl : cmd.length < RMC_MAX_PACKET) (hf : pubFrame cmd = .cmd cmd.length) {f : Fault} (he : pubEff i c cmd = .error f) :
    readConn c i (some cmd) = .error f := by
  have hne : cmd ≠ [] := by intro e; rw [e] at hf; cases hf
  have hiu := length_bytes (c.cv.conns i).readBuf
  rw [hb, List.length_nil] at hiu
  have hsafe : ∀ xs, pubSafe RMC_MAX_PACKET 0 xs := by
    intro xs
    cases xs with
    | nil => trivial
    | cons x cs =>
      have hx : RMC_MAX_PACKET = 65400 := rfl
      intro _ ⟨h1, h2, h3⟩
      rw [hx] at h1 h2 h3
      omega
  have hrest : cmd.drop cmd.length = [] := List.drop_eq_nil_of_le (Nat.le_refl _)
  have key := readConn_lang h hi hw (xs := cmd) (by rw [hsz]; decide) hne (by rw [available_eq hw]; omega)
    (by unfold ReadSafe; rw [hst]; omega) (by
      rw [hb, hst, hsz, List.nil_append]
      unfold Lang.safeFrom
      rw [if_neg hne]
      refine ⟨hsafe _, ?_⟩
      rw [show (pubLang i).frame cmd = .cmd cmd.length from hf]
      dsimp only
      rw [hrest]
      exact safeFrom_nil _ _ _ _)
  have hcm : (pubLang i).commands cmd = [cmd] := by
    rw [(Lang.split_cmd (pubLang_ok i) (xs := cmd) hf).1, hrest, List.take_length]; rfl
  rw [hb, List.nil_append, hcm, effects_cons] at key
  have he' : (pubLang i).eff c cmd = .error f := he
  rw [he'] at key
  exact key

/-- C15 is false: in every state, a subscriber on a connection with nothing unread stops the publisher for ever with one
acknowledgement interval ending at 2^64 - 1. -/
theorem C15_hang {ops : List Op} {c : PubCtx} (h : Reaches ops c) {i : Nat} (hc : Connected c i)
    (hw : WF (c.cv.conns i).readBuf) (hsz : (c.cv.conns i).readBuf.size = RMC_MAX_PACKET)
    (hb : bytes (c.cv.conns i).readBuf = []) (hst : (c.cv.conns i).readBuf.start = 0) (first : Nat) (hf : first < U64) :
    readConn c i (some (ackBytes first (U64 - 1))) = .error .diverge := by
  obtain ⟨pops, L, hg, _⟩ := h.good
  have hlen : (ackBytes first (U64 - 1)).length = 17 := by
    unfold ackBytes; rw [List.length_cons, AckInterval.length_enc]; rfl
  have he : (AckInterval.mk first (U64 - 1)).enc.length = 16 := AckInterval.length_enc _
  refine read_one_cmd hg (hg.connected.1 hc) hw hsz hb hst (by rw [hlen]; decide) ?_ ?_
  · rw [hlen]
    unfold ackBytes
    rw [pubFrame_ack, he, if_neg (by omega)]
  · unfold ackBytes
    rw [pubEff_ack]
    have : AckInterval.dec (AckInterval.mk first (U64 - 1)).enc = AckInterval.mk first (U64 - 1) := by
      have := AckInterval.dec_enc (a := AckInterval.mk first (U64 - 1)) ⟨hf, by show U64 - 1 < U64; decide⟩ []
      rwa [List.append_nil] at this
    rw [this]
    exact C22_diverges c i _ rfl

/-- C15 is false: while the application has not set a control message callback, any control message makes the publisher
call an uninitialised pointer. -/
theorem C15_uninit {ops : List Op} {c : PubCtx} (h : Reaches ops c) {i : Nat} (hc : Connected c i)
    (hw : WF (c.cv.conns i).readBuf) (hsz : (c.cv.conns i).readBuf.size = RMC_MAX_PACKET)
    (hb : bytes (c.cv.conns i).readBuf = []) (hst : (c.cv.conns i).readBuf.start = 0) (hcb : c.ctlCb = none)
    (p : List UInt8) (hp : p.length + 3 < RMC_MAX_PACKET) :
    readConn c i (some (ctlBytes p)) = .error .uninit := by
  obtain ⟨pops, L, hg, _⟩ := h.good
  have hx : RMC_MAX_PACKET = 65400 := rfl
  rw [hx] at hp
  have hlen : (ctlBytes p).length = p.length + 3 := by
    unfold ctlBytes; rw [List.length_cons, List.length_append, length_ctlEnc]; unfold CTL_LEN; omega
  have hd : ctlDec ((ctlEnc p.length ++ p).take 2) = p.length := by
    rw [show (2 : Nat) = CTL_LEN from rfl, take_of_len (length_ctlEnc _)]
    have := ctlDec_enc (n := p.length) (by omega) []
    rwa [List.append_nil] at this
  refine read_one_cmd hg (hg.connected.1 hc) hw hsz hb hst (by rw [hlen, hx]; omega) ?_ ?_
  · rw [hlen]
    unfold ctlBytes pubFrame
    dsimp only
    rw [if_neg (by decide), if_pos rfl, hd, List.length_append, length_ctlEnc]
    unfold CTL_LEN
    rw [if_neg (by omega), if_neg (by omega)]
    congr 1; omega
  · unfold ctlBytes pubEff
    dsimp only
    rw [if_neg (by decide), hcb]

/-- C15 is false: after the two reads of `C12_false` (honest acknowledgements, unluckily cut) the next read stores
outside the buffer. -/
theorem C15_oob : run exC0 (exPre ++ [.read 0 (some ((ackBytes 1 1 ++ ackBytes 2 2 ++ ackBytes 3 3).take 39)),
    .read 0 (some ((ackBytes 1 1 ++ ackBytes 2 2 ++ ackBytes 3 3).drop 39)), .read 0 (some (ackBytes 4 4))]) =
      .error .oob := by
  have : (match run exC0 (exPre ++ [.read 0 (some ((ackBytes 1 1 ++ ackBytes 2 2 ++ ackBytes 3 3).take 39)),
    .read 0 (some ((ackBytes 1 1 ++ ackBytes 2 2 ++ ackBytes 3 3).drop 39)), .read 0 (some (ackBytes 4 4))]) with
      | .ok _ => false | .error f => decide (f = .oob)) = true := by decide +kernel
  revert this
  cases run exC0 _ with
  | ok x => intro h; cases h
  | error f => intro h; rw [of_decide_eq_true h]

/-- Non-vacuity of the hypotheses of `C15_hang`: the read buffers after `exPre`. -/
example : ∃ c rs, Reaches exPre c ∧ run exC0 exPre = .ok (rs, c) ∧
    decide (bytes (c.cv.conns 1).readBuf = [] ∧ (c.cv.conns 1).readBuf.start = 0 ∧
      (c.cv.conns 1).readBuf.size = RMC_MAX_PACKET ∧ (c.cv.conns 1).mode = .connected) = true :=
  reaches_of (P := fun _ c => decide (bytes (c.cv.conns 1).readBuf = [] ∧ (c.cv.conns 1).readBuf.start = 0 ∧
      (c.cv.conns 1).readBuf.size = RMC_MAX_PACKET ∧ (c.cv.conns 1).mode = .connected)) exPre_sane (by decide)
    (by decide +kernel)

/-! ## C52: no other call faults -/

/-- C52: after any history, the only API calls on a publisher that can fault are reading bytes from a connected
subscriber (C15) and processing timeouts, and the latter only by the store beyond the end of a write buffer (C29), which takes a
connected subscriber with something late whose write buffer has been sent in part, but not emptied. -/
theorem C52_publisher_faults {ops : List Op} {c : PubCtx} (h : Reaches ops c) {op : Op} (hs : op.sane)
    (hb : ops.length + 2 < U64) {f : Fault} (hx : step c op = .error f) :
    (∃ i xs, op = .read i (some xs) ∧ xs ≠ [] ∧ Connected c i) ∨
    (∃ now cb sp, op = .timeout now cb sp ∧ f = .oob ∧ ¬ annDue c now ∧ ∃ k, Connected c k ∧
      (∃ x ∈ c.pub.owedPkts k, x.2.2 + c.resendTimeout ≤ now) ∧
      bytes (c.cv.conns k).writeBuf ≠ [] ∧ (c.cv.conns k).writeBuf.start ≠ 0) := by
  obtain ⟨pops, L, hg, hq, _⟩ := h.good
  have hb' : (queueArgs pops).length + 2 < U64 := by omega
  cases op with
  | queue p ann =>
    have hx' : queuePacket c p ann = .error f := hx
    rcases queue_cases hg p ann hb' with ⟨_, e⟩ | ⟨_, _, e⟩ | ⟨_, _, s', _, _, _, e⟩ <;> rw [e] at hx' <;> cases hx'
  | readListen ar cb =>
    obtain ⟨r', c'', ys, L', ds, g1, _⟩ := readListen_spec hg hs cb
    have hx' : readListen c ar cb = .error f := hx
    rw [g1] at hx'; cases hx'
  | readMcast err => cases hx
  | read i rv =>
    have hx' : readConn c i rv = .error f := hx
    by_cases hi : i ∈ L
    · left
      by_cases hrv : rv.getD [] = []
      · obtain ⟨r, c', e, _⟩ := readConn_eof hg hi hrv
        rw [e] at hx'; cases hx'
      · cases rv with
        | none => exact absurd rfl hrv
        | some xs => exact ⟨i, xs, rfl, hrv, hg.connected.2 hi⟩
    · unfold readConn at hx'
      rw [ConnVec.findByIndex_spec hg.v, if_neg hi, if_pos (.inl rfl)] at hx'
      cases hx'
  | writeMcast rs =>
    obtain ⟨r', c'', ys, es, ds, g1, _⟩ := multicastWrite_spec rs hg
    have hx' : multicastWrite c rs = .error f := hx
    rw [g1] at hx'; cases hx'
  | write i wv =>
    have hx' : writeConn c i wv = .error f := hx
    rcases writeConn_spec hg i wv with ⟨_, e | e⟩ | ⟨_, _, e⟩ | ⟨_, _, r', c'', _, e, _⟩ <;> rw [e] at hx' <;> cases hx'
  | timeout now cb sp =>
    right
    refine ⟨now, cb, sp, rfl, ?_⟩
    have hx' : timeoutProcess c now cb sp = .error f := hx
    by_cases hd : annDue c now
    · obtain ⟨c'', e, _⟩ := timeout_announce hg hd cb sp hb'
      rw [e] at hx'; cases hx'
    · rw [timeout_resend_eq hg hd] at hx'
      obtain ⟨e, k, hk, hk2⟩ := subscribersTimeout_fault _ ((subs_nodup hg).filter _)
        (fun k hk => (hg.slots k).2 (List.mem_filter.mp hk).1) hg hx'
      obtain ⟨m1, m2⟩ := List.mem_filter.mp hk
      have hkL := (hg.slots k).2 m1
      refine ⟨e, hd, k, hg.connected.2 hkL, ?_, fun hz => hk2 (hg.zero k hkL hz), hk2⟩
      unfold late at m2
      cases ho : c.pub.owedPkts k with
      | nil => rw [ho] at m2; cases m2
      | cons x l =>
        rw [ho] at m2
        exact ⟨x, by simp, of_decide_eq_true m2⟩
  | close i =>
    have hx' : closeConnection c i = .error f := hx
    by_cases hi : i ∈ L
    · obtain ⟨c'', e, _⟩ := close_spec hg hi
      rw [e] at hx'; cases hx'
    · rw [close_none hg hi] at hx'; cases hx'
  | setAnnounce n now => cases hx
  | throttling a b => cases hx
  | setCtlCb b => cases hx
  | activate x => cases hx
  | deactivate =>
    obtain ⟨c'', ys, ds, e, _⟩ := deactivate_spec hg
    have hx' : deactivate c = .error f := hx
    rw [e] at hx'; cases hx'

end PubCtx
end Rmc
