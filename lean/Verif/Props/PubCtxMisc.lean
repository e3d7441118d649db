import Verif.PubCtxHist
import Verif.Props.PubCtxRead

/-!
# Properties of the publisher context: pending report, resends, datagrams, release, poll registrations
(C28, C29, C31, C32, C48, C53)
-/

set_option linter.unusedSimpArgs false
set_option linter.unusedVariables false

namespace Rmc
namespace PubCtx
open CircBuf Proto PLog

instance (c : PubCtx) (i : Nat) : Decidable (Connected c i) := by unfold Connected; infer_instance

/-! ## C28: the pending report -/

/-- Specification: a number for every connection slot, summed over the connected ones. -/
def sumConnected (c : PubCtx) (f : Nat → Nat) : Nat :=
  ((List.range c.cv.size).map fun i => if Connected c i then f i else 0).sum

theorem sum_range_extend (f : Nat → Nat) {m n : Nat} (h : m ≤ n) (hz : ∀ i, m ≤ i → i < n → f i = 0) :
    ((List.range n).map f).sum = ((List.range m).map f).sum := by
  obtain ⟨k, rfl⟩ : ∃ k, n = m + k := ⟨n - m, by omega⟩
  induction k with
  | zero => rfl
  | succ k ih =>
    rw [← Nat.add_assoc, List.range_succ, List.map_append, List.sum_append, ih (by omega) (fun i h1 h2 => hz i h1 (by omega))]
    simp [hz (m + k) (by omega) (by omega)]

theorem sum_map_congr {α : Type} {f g : α → Nat} : ∀ {l : List α}, (∀ x ∈ l, f x = g x) → (l.map f).sum = (l.map g).sum := by
  intro l h
  rw [List.map_congr_left h]

theorem pendingAt_eq {c : PubCtx} {pops : List POp} {L : List Nat} (h : Good c pops L) (i : Nat) :
    pendingAt c i = if Connected c i then ((bytes (c.cv.conns i).writeBuf).length, (owed i c.pub.log).2.length) else (0, 0) := by
  unfold pendingAt
  rw [ConnVec.findByIndex_spec h.v]
  by_cases hi : i ∈ L
  · rw [if_pos hi, if_neg (by simp), if_pos (h.connected.2 hi), pendingLen_eq h hi]
    have h1 := C23_outstanding h.p.legal h.p.bnd h.p.run i
    rw [← h1]
    congr 1
    obtain ⟨l, l1, l2, l3⟩ := Pub.Rel_sinfl h.p.reached.rel i
    rw [outstanding_eq h.p.reached.rel, l1, l2]; simp
  · rw [if_neg hi, if_pos rfl, if_neg (fun e => hi (h.connected.1 e))]

theorem sentAll_length (l : List PEv) : (sentAll l).length = (sentPkts l).length + (sentAnn l).length := by
  induction l with
  | nil => rfl
  | cons e l ih =>
    rw [show e :: l = [e] ++ l from rfl, sentAll_append, sentPkts_append, sentAnn_append]
    simp only [List.length_append, ih]
    have : (sentAll [e]).length = (sentPkts [e]).length + (sentAnn [e]).length := by
      cases e with
      | send pid p ts => by_cases h : pid = 0 <;> simp [sentAll, sentPkts, sentAnn, h]
      | _ => rfl
    omega

theorem queueSize_log {c : PubCtx} {pops : List POp} {L : List Nat} (g : Good c pops L) :
    Pub.queueSize c.pub + (sentAll c.pub.log).length = (queuedPkts c.pub.log).length + (queuedAnn c.pub.log).length := by
  have hr := g.p.reached
  rw [sentAll_length, hr.log, hr.linv.qp, hr.linv.qa]
  obtain ⟨Q, N, I, r1, r2, r3, r4, _⟩ := hr.rel
  rw [r1, r2]
  unfold Pub.queueSize
  rw [r4]
  simp
  omega

/-- C28: what is reported is exactly: the number of packets (announcements included) accepted and not yet multicast; the
number of bytes in the write buffers of all connected subscribers; and the number of packets each connected subscriber still
owes an acknowledgement for, *summed over the subscribers*. `EBUSY` is returned iff one of the three is not 0.
Missing for the full property: the third is not the number of packets sent and not fully acknowledged, see `C28_false`. -/
theorem C28_exact_partial {ops : List Op} {c : PubCtx} (h : Reaches ops c) :
    (getPending c).2.1 + (sentAll c.pub.log).length = (queuedPkts c.pub.log).length + (queuedAnn c.pub.log).length ∧
    (getPending c).2.2.1 = sumConnected c (fun i => (bytes (c.cv.conns i).writeBuf).length) ∧
    (getPending c).2.2.2 = sumConnected c (fun i => (owed i c.pub.log).2.length) ∧
    (getPending c).1 = if (getPending c).2.1 = 0 ∧ (getPending c).2.2.1 = 0 ∧ (getPending c).2.2.2 = 0 then 0 else EBUSY := by
  obtain ⟨pops, L, g, hq, _⟩ := h.good
  have hsz := queueSize_log g
  have hs : ∀ f : Nat → Nat, c.cv.maxInd = NIL_INDEX → sumConnected c f = 0 := by
    intro f hm
    unfold sumConnected
    rw [List.sum_eq_zero_iff_forall_eq_nat]
    intro x hx
    obtain ⟨i, _, rfl⟩ := List.mem_map.mp hx
    rw [if_neg]
    intro hc
    exact (g.v.maxLe i (g.connected.1 hc)).2 hm
  have hs2 : ∀ f : Nat → Nat, c.cv.maxInd ≠ NIL_INDEX →
      sumConnected c f = ((List.range (c.cv.maxInd + 1)).map fun i => if Connected c i then f i else 0).sum := by
    intro f hm
    unfold sumConnected
    apply sum_range_extend
    · have := g.v.max.resolve_left hm; omega
    · intro i h1 _
      rw [if_neg]
      intro hc
      have := (g.v.maxLe i (g.connected.1 hc)).1
      omega
  unfold getPending
  dsimp only
  by_cases hm : c.cv.maxInd = NIL_INDEX
  · rw [if_pos hm, hs _ hm, hs _ hm]
    refine ⟨hsz, rfl, rfl, ?_⟩
    dsimp only
    by_cases h0 : Pub.queueSize c.pub = 0
    · simp [h0]
    · rw [if_pos (by omega), if_neg (by simp [h0])]
  · rw [if_neg hm, hs2 _ hm, hs2 _ hm]
    dsimp only
    have e1 : ((List.map (pendingAt c) (List.range (c.cv.maxInd + 1))).map (·.1)).sum =
        ((List.range (c.cv.maxInd + 1)).map fun i => if Connected c i then (bytes (c.cv.conns i).writeBuf).length else 0).sum := by
      rw [List.map_map]
      apply sum_map_congr
      intro i _
      show (pendingAt c i).1 = _
      rw [pendingAt_eq g]
      split <;> rfl
    have e2 : ((List.map (pendingAt c) (List.range (c.cv.maxInd + 1))).map (·.2)).sum =
        ((List.range (c.cv.maxInd + 1)).map fun i => if Connected c i then (owed i c.pub.log).2.length else 0).sum := by
      rw [List.map_map]
      apply sum_map_congr
      intro i _
      show (pendingAt c i).2 = _
      rw [pendingAt_eq g]
      split <;> rfl
    rw [e1, e2]
    refine ⟨hsz, rfl, rfl, ?_⟩
    split
    · rename_i hh; rw [if_neg (by omega)]
    · rename_i hh; rw [if_pos (by omega)]

/-- Specification: the number of packets multicast and not fully acknowledged (not handed back). -/
def unacknowledged (c : PubCtx) : Nat :=
  ((sentPkts c.pub.log).filter (fun x => decide (x.1 ∉ (frees c.pub.log).map (·.1)))).length

/-- C28 fails: with two subscribers each of three packets is counted twice; without subscribers a packet that was sent
and cannot be acknowledged is not counted, and nothing is reported as pending. -/
theorem C28_false :
    (∃ ops c, Reaches ops c ∧ unacknowledged c = 3 ∧ (getPending c).2.2.2 = 6) ∧
    (∃ ops c, Reaches ops c ∧ unacknowledged c = 1 ∧ getPending c = (0, 0, 0, 0)) := by
  constructor
  · obtain ⟨c, rs, h1, _, h2⟩ := reaches_of (ops := exPre)
      (P := fun rs c => decide (unacknowledged c = 3 ∧ (getPending c).2.2.2 = 6)) exPre_sane (by decide) (by decide +kernel)
    exact ⟨_, c, h1, of_decide_eq_true h2⟩
  · obtain ⟨c, rs, h1, _, h2⟩ := reaches_of
      (ops := [.activate (.ok (7, 8, 9)), .queue (exPay 1) false, .writeMcast [⟨.ok 10, []⟩]])
      (P := fun rs c => decide (unacknowledged c = 1 ∧ getPending c = (0, 0, 0, 0))) (by simp [Op.sane, saneAcc]) (by decide)
      (by decide +kernel)
    exact ⟨_, c, h1, of_decide_eq_true h2⟩

/-- Non-vacuity: three packets sent to two subscribers, one more queued, one resent: all three numbers count. -/
example : ∃ c rs, Reaches (exPre ++ [.read 0 (some (ackBytes 3 3)), .timeout 100025 none 0, .queue (exPay 4) false]) c ∧
    run exC0 (exPre ++ [.read 0 (some (ackBytes 3 3)), .timeout 100025 none 0, .queue (exPay 4) false]) = .ok (rs, c) ∧
    decide (getPending c = (EBUSY, 1, 46, 3)) = true :=
  reaches_of (P := fun rs c => decide (getPending c = (EBUSY, 1, 46, 3))) (by simp [exPre, Op.sane, saneAcc]) (by decide)
    (by decide +kernel)

/-! ## C29: resends -/

/-- C29: with not enough room a resend reports `EAGAIN` and changes no buffer; otherwise, unless the write position is at
the very end of the buffer, it appends the command byte, the header and the payload to that connection and nothing else.
Missing for the full property: see `C29_oob`. -/
theorem C29_resend_partial {ops : List Op} {c : PubCtx} (h : Reaches ops c) {i : Nat} (hi : Connected c i) (p : Pkt) :
    (available (c.cv.conns i).writeBuf < 21 + p.payload.data.length →
      ∃ c', resendPacket c i p = .ok (EAGAIN, c') ∧ c'.pub = c.pub ∧ c'.log = c.log ∧
        ∀ j, (c'.cv.conns j).writeBuf = (c.cv.conns j).writeBuf ∧ (c'.cv.conns j).readBuf = (c.cv.conns j).readBuf) ∧
    (21 + p.payload.data.length ≤ available (c.cv.conns i).writeBuf →
      (c.cv.conns i).writeBuf.stop < (c.cv.conns i).writeBuf.size →
      ∃ c', resendPacket c i p = .ok (0, c') ∧ c'.pub = c.pub ∧ c'.log = c.log ∧
        bytes (c'.cv.conns i).writeBuf = bytes (c.cv.conns i).writeBuf ++
          (CMD_PACKET :: ((PacketHeader.mk p.pid c.nodeId p.payload.data.length c.listenIp c.listenPort).enc ++ p.payload.data)) ∧
        (c'.cv.conns i).readBuf = (c.cv.conns i).readBuf ∧ ∀ j, j ≠ i → c'.cv.conns j = c.cv.conns j) := by
  obtain ⟨pops, L, g, hq, _⟩ := h.good
  have hiL := g.connected.1 hi
  constructor
  · intro ha
    obtain ⟨c', e, _, _, _, h1, h2, h3, h4, h5⟩ := resend_full g hiL (p := p) (by show _ < 1 + 20 + _; omega)
    refine ⟨c', e, h1, h2, fun j => ?_⟩
    by_cases hj : j = i
    · subst hj; exact ⟨h3, h4⟩
    · rw [h5 j hj]; exact ⟨rfl, rfl⟩
  · intro ha hs
    obtain ⟨c', e, _, _, _, h1, h2, h3, h4, h5, _⟩ := resend_ok g hiL (p := p) (by show 1 + 20 + _ ≤ _; omega) hs
    exact ⟨c', e, h1, h2, h3, h4, h5⟩

/-- C29 fails: with room in the buffer but the write position at its very end, the command byte is stored one byte past the
end of the buffer. -/
theorem C29_oob {ops : List Op} {c : PubCtx} (h : Reaches ops c) {i : Nat} (hi : Connected c i) (p : Pkt)
    (ha : 21 + p.payload.data.length ≤ available (c.cv.conns i).writeBuf)
    (hs : (c.cv.conns i).writeBuf.stop = (c.cv.conns i).writeBuf.size) : resendPacket c i p = .error .oob := by
  obtain ⟨pops, L, g, hq, _⟩ := h.good
  exact resend_oob g (g.connected.1 hi) (p := p) (by show 1 + 20 + _ ≤ _; omega) hs

/-- C29: the bytes of a resend decode to the packet id, the length and the payload, for every packet that is still owed. -/
theorem C29_decodable {ops : List Op} {c : PubCtx} (h : Reaches ops c) (h1 : c.nodeId < U32) (h2 : c.listenIp < U32)
    (h3 : c.listenPort < 65536) {i pid : Nat} {p : Payload} {ts : Int} (hm : (pid, p, ts) ∈ c.pub.owedPkts i)
    (more : List UInt8) :
    PacketHeader.dec (((PacketHeader.mk pid c.nodeId p.data.length c.listenIp c.listenPort).enc ++ p.data) ++ more) =
      ⟨pid, c.nodeId, p.data.length, c.listenIp, c.listenPort⟩ ∧
    (((PacketHeader.mk pid c.nodeId p.data.length c.listenIp c.listenPort).enc ++ p.data ++ more).drop HDR_LEN).take
      p.data.length = p.data := by
  obtain ⟨pops, L, g, hq, _⟩ := h.good
  have hmem := g.p.spec_mem
  rw [owedPkts_eq g.p.reached.rel] at hm
  obtain ⟨r, hr, he⟩ := List.mem_map.mp hm
  have hr' := hmem.2.2 r (List.mem_filter.mp hr).1
  cases he
  have hsz := g.p.size_le (.inl hr'.1)
  have : RMC_MAX_PAYLOAD = 65312 := rfl
  constructor
  · rw [List.append_assoc]
    exact PacketHeader.dec_enc ⟨hr'.2.2, h1, by show r.payload.data.length < 65536; omega, h2, h3⟩ _
  · rw [List.append_assoc, List.drop_append_of_le_length (by rw [enc_length]; exact Nat.le_refl _)]
    rw [show HDR_LEN = (PacketHeader.mk r.pid c.nodeId r.payload.data.length c.listenIp c.listenPort).enc.length from
      (enc_length _).symm, List.drop_length, List.nil_append, List.take_left]

/-- Non-vacuity: two subscribers are connected, packets are owed, there is room, and the buffer's end is not reached. -/
example : ∃ c rs, Reaches exPre c ∧ run exC0 exPre = .ok (rs, c) ∧ decide (Connected c 1 ∧ c.nodeId < U32 ∧ c.listenIp < U32 ∧
    c.listenPort < 65536 ∧ (c.pub.owedPkts 1).length = 3 ∧ 21 + 2 ≤ available (c.cv.conns 1).writeBuf ∧
    (c.cv.conns 1).writeBuf.stop < (c.cv.conns 1).writeBuf.size) = true :=
  reaches_of (P := fun rs c => decide (Connected c 1 ∧ c.nodeId < U32 ∧ c.listenIp < U32 ∧
    c.listenPort < 65536 ∧ (c.pub.owedPkts 1).length = 3 ∧ 21 + 2 ≤ available (c.cv.conns 1).writeBuf ∧
    (c.cv.conns 1).writeBuf.stop < (c.cv.conns 1).writeBuf.size)) exPre_sane (by decide) (by decide +kernel)

/-! ## C53, C31: datagrams -/

/-- C53: the datagrams given to the multicast socket are, in order, one per packet multicast: its header and its payload (for
an announcement, whose payload may lie on a dead stack frame, as many bytes). -/
theorem C53_datagrams {ops : List Op} {c : PubCtx} (h : Reaches ops c) (hp : ∀ op ∈ ops, portOk op) :
    (sentAll c.pub.log).length = (dgrams c.log).length ∧
    ∀ (k : Nat) pid (p : Payload) bs, (sentAll c.pub.log)[k]? = some (pid, p) → (dgrams c.log)[k]? = some bs →
      ∃ tail, bs = (PacketHeader.mk pid c.nodeId p.data.length c.listenIp c.listenPort).enc ++ tail ∧
        tail.length = p.data.length ∧ (p.onStack = false → tail = p.data) := by
  have hm := (h.dg hp).m
  exact ⟨hm.1, fun k pid p bs h1 h2 => hm.2 k (pid, p) bs h1 h2⟩

/-- Non-vacuity: three datagrams. -/
example : ∃ c rs, Reaches exPre c ∧ run exC0 exPre = .ok (rs, c) ∧ decide ((dgrams c.log).length = 3 ∧
    (dgrams c.log)[1]? = some ((PacketHeader.mk 2 7 2 1 2).enc ++ [2, 0])) = true :=
  reaches_of (P := fun rs c => decide ((dgrams c.log).length = 3 ∧
    (dgrams c.log)[1]? = some ((PacketHeader.mk 2 7 2 1 2).enc ++ [2, 0]))) exPre_sane (by decide) (by decide +kernel)
example : ∀ op ∈ exPre, portOk op := by simp [exPre, portOk]


/-! ## Where queued payloads come from -/

/-- Specification: the payload an accepted call hands over (`r` is its return code). -/
def opQueues : Op → Nat → List Payload
  | .queue p false, r => if r = 0 then [p] else []
  | _, _ => []

/-- Specification: the payloads of all accepted calls of rmc_pub_queue_packet, in order. -/
def accepted : List Op → List Nat → List Payload
  | op :: ops, r :: rs => opQueues op r ++ accepted ops rs
  | _, _ => []

/-- Specification: `p` is an announcement the call supplies: rmc_pub_queue_packet with the announce flag, or the answer of the
announce callback in rmc_pub_timeout_process. -/
def Supplies (op : Op) (p : Payload) : Prop :=
  op = .queue p true ∨ ∃ now cb sp, op = .timeout now cb sp ∧ (annAnswer cb).1 = true ∧ p = ⟨sp, (annAnswer cb).2, true⟩

theorem queueArgs_nil {ys : List POp} (h : ∀ y ∈ ys, ∀ p, y ≠ .queue p) : queueArgs ys = [] := by
  unfold queueArgs
  rw [List.filterMap_eq_nil_iff]
  intro y hy
  cases y <;> first | rfl | exact absurd rfl (h _ hy _)

theorem announceArgs_nil {ys : List POp} (h : ∀ y ∈ ys, ∀ p, y ≠ .announce p) : announceArgs ys = [] := by
  unfold announceArgs
  rw [List.filterMap_eq_nil_iff]
  intro y hy
  cases y <;> first | rfl | exact absurd rfl (h _ hy _)

theorem step_args {c c' : PubCtx} {pops : List POp} {L : List Nat} {op : Op} {r : Nat} (h : Good c pops L) (hs : op.sane)
    (hb : (queueArgs pops).length + 2 < U64) (hx : step c op = .ok (r, c')) :
    ∃ ys L', Good c' (pops ++ ys) L' ∧ queueArgs ys = opQueues op r ∧ ∀ p ∈ announceArgs ys, Supplies op p := by
  have none : ∀ {d : PubCtx} {M : List Nat} (ys : List POp), Good d (pops ++ ys) M → d = c' → opQueues op r = [] →
      (∀ y ∈ ys, ∀ p, y ≠ .queue p ∧ y ≠ .announce p) →
      ∃ ys L', Good c' (pops ++ ys) L' ∧ queueArgs ys = opQueues op r ∧ ∀ p ∈ announceArgs ys, Supplies op p := by
    intro d M ys g e e2 hy
    subst e
    refine ⟨ys, M, g, ?_, ?_⟩
    · rw [e2]; exact queueArgs_nil fun y hy' p => (hy y hy' p).1
    · rw [announceArgs_nil fun y hy' p => (hy y hy' p).2]; simp
  have same : Good c' pops L → opQueues op r = [] →
      ∃ ys L', Good c' (pops ++ ys) L' ∧ queueArgs ys = opQueues op r ∧ ∀ p ∈ announceArgs ys, Supplies op p := fun g e2 =>
    none [] (by rw [List.append_nil]; exact g) rfl e2 (by simp)
  cases op with
  | queue p ann =>
    have hx' : queuePacket c p ann = .ok (r, c') := hx
    refine ⟨_, L, good_queue h hb hx', ?_, ?_⟩
    · cases ann
      · show _ = if r = 0 then [p] else []
        split <;> rfl
      · show _ = []
        split <;> rfl
    · intro q hq
      cases ann
      · split at hq <;> simp [qop, announceArgs] at hq
      · split at hq <;> simp [qop, announceArgs] at hq
        subst hq; exact .inl rfl
  | readListen ar cb =>
    obtain ⟨r', c'', ys, L', ds, g1, g2, _, _, g4, g5, g3⟩ := readListen_spec h hs cb
    have : step c (.readListen ar cb) = .ok (r', c'') := g1
    rw [this] at hx
    refine none ys g2 (by cases hx; rfl) rfl ?_
    rcases g3 with ⟨e, _⟩ | ⟨_, i, _, _, ⟨e, _⟩ | ⟨e, _⟩⟩ <;> rw [e] <;> simp
  | readMcast err =>
    have hx' : readMcast c err = (r, c') := Except.ok.inj hx
    refine same ?_ rfl
    unfold readMcast at hx'
    split at hx'
    · cases hx'; exact h
    · split at hx'
      · cases hx'; exact h
      · cases hx'
        exact h.pollOther (e := .modify MULTICAST_INDEX c.mcast .R .R) (by show LISTEN_INDEX ≤ MULTICAST_INDEX; decide)
  | read i rv =>
    rcases readConn_spec h hx with ⟨_, _, e⟩ | ⟨_, c1, ys, zs, ds, L', _, hy, g, _, _, _, hds, hds2, _, hz⟩
    · exact same (e ▸ h) rfl
    · refine none (ys ++ zs) (by rw [← List.append_assoc]; exact g) rfl rfl ?_
      intro y hy' p
      rcases List.mem_append.mp hy' with hy' | hy'
      · obtain ⟨_, e2⟩ := hy y hy'; rw [e2]; simp
      · rcases hz with ⟨e2, _⟩ | ⟨e2, _⟩ <;> rw [e2] at hy' <;> simp at hy'
        rw [hy']; simp
  | writeMcast rs =>
    obtain ⟨r', c'', ys, es, ds, g1, g2, _, _, g3, g4, g5, _, g6⟩ := multicastWrite_spec rs h
    have : step c (.writeMcast rs) = .ok (r', c'') := g1
    rw [this] at hx
    refine none ys g2 (by cases hx; rfl) rfl ?_
    intro y hy p
    obtain ⟨_, e2⟩ := g3.sends y hy; rw [e2]; simp
  | write i wv =>
    have hx' : writeConn c i wv = .ok (r, c') := hx
    refine same ?_ rfl
    rcases writeConn_spec h i wv with ⟨_, e | e⟩ | ⟨_, _, e⟩ | ⟨_, _, r', c'', out, e, g, _, _, _, g2, _⟩ <;> rw [e] at hx' <;>
      cases hx' <;> assumption
  | timeout now cb sp =>
    have hx' : timeoutProcess c now cb sp = .ok (r, c') := hx
    by_cases hd : annDue c now
    · obtain ⟨c'', e, g0, _, _, _, _, _, _, g⟩ := timeout_announce h hd cb sp hb
      rw [e] at hx'; cases hx'
      rcases g with ⟨k1, _, g, _⟩ | ⟨_, g, _⟩
      · refine ⟨_, L, g, rfl, ?_⟩
        intro p hp
        simp [announceArgs] at hp
        subst hp
        exact .inr ⟨now, cb, sp, rfl, k1, rfl⟩
      · exact same g rfl
    · have ht := timeout_resend h hd hx'
      obtain ⟨_, ys, g1, g2, g3, _⟩ := subscribersTimeout_spec _ ((subs_nodup h).filter _)
        (fun k hk => (h.slots k).2 (List.mem_filter.mp hk).1) h ht
      refine none ys g1 rfl rfl ?_
      intro y hy p
      obtain ⟨_, _, e2⟩ := g2.acks.acks y hy; rw [e2]; simp
  | close i =>
    have hx' : closeConnection c i = .ok (r, c') := hx
    by_cases hi : i ∈ L
    · obtain ⟨c'', e, g, _, _, g2, _⟩ := close_spec h hi
      rw [e] at hx'; cases hx'
      exact none _ g rfl rfl (by simp)
    · rw [close_none h hi] at hx'; cases hx'
      exact same h rfl
  | setAnnounce n now => cases hx; exact same (h.congr rfl rfl) rfl
  | throttling a b =>
    have hx' : throttling c a b = (r, c') := Except.ok.inj hx
    refine same ?_ rfl
    unfold throttling at hx'
    split at hx' <;> cases hx'
    · exact h
    · exact h.congr rfl rfl
  | setCtlCb b => cases hx; exact same (h.congr rfl rfl) rfl
  | activate x =>
    have hx' : activate c x = (r, c') := Except.ok.inj hx
    refine same ?_ rfl
    unfold activate at hx'
    split at hx' <;> cases hx'
    · exact h.fds rfl rfl
    · rename_i md ld port
      have h := h.fds (c' := { c with cv := c.cv.fdAll [.opened md, .opened ld] }) rfl rfl
      exact ((h.pollOther (e := .add MULTICAST_INDEX (some md) .R) (by show LISTEN_INDEX ≤ MULTICAST_INDEX; decide)).pollOther
        (e := .add LISTEN_INDEX (some ld) .R) (by show LISTEN_INDEX ≤ LISTEN_INDEX; decide)).congr rfl rfl
  | deactivate =>
    obtain ⟨c'', ys, ds, e, g, _, hd, hd2, hy, _⟩ := deactivate_spec h
    have hx' : deactivate c = .ok (r, c') := hx
    rw [e] at hx'; cases hx'
    refine none ys g rfl rfl ?_
    intro y hy' p
    obtain ⟨_, e2⟩ := hy y hy'; rw [e2]; simp

theorem run_args : ∀ (ops : List Op) {c c' : PubCtx} {pops : List POp} {L : List Nat} {rs : List Nat}, Good c pops L →
    (∀ op ∈ ops, op.sane) → (queueArgs pops).length + ops.length + 1 < U64 → run c ops = .ok (rs, c') →
    ∃ ys L', Good c' (pops ++ ys) L' ∧ queueArgs ys = accepted ops rs ∧
      ∀ p ∈ announceArgs ys, ∃ op ∈ ops, Supplies op p := by
  intro ops
  induction ops with
  | nil => intro c c' pops L rs h _ _ hx; cases hx; exact ⟨[], L, by simpa using h, rfl, by simp [announceArgs]⟩
  | cons op ops ih =>
    intro c c' pops L rs h hs hb hx
    rw [run_cons] at hx
    obtain ⟨⟨r, c1⟩, h1, h2⟩ := bind_ok hx
    obtain ⟨⟨rs1, c2⟩, h3, h4⟩ := bind_ok h2
    cases h4
    rw [List.length_cons] at hb
    obtain ⟨ys, L', g1, g2, g3⟩ := step_args h (hs op (by simp)) (by omega) h1
    have hle : (queueArgs ys).length ≤ 1 := by
      rw [g2]; unfold opQueues; split
      · split <;> simp
      · simp
    obtain ⟨zs, L'', g4, g5, g6⟩ := ih g1 (fun o ho => hs o (by simp [ho])) (by
      have : queueArgs (pops ++ ys) = queueArgs pops ++ queueArgs ys := List.filterMap_append ..
      rw [this, List.length_append]; omega) h3
    refine ⟨ys ++ zs, L'', by rw [← List.append_assoc]; exact g4, ?_, ?_⟩
    · have : queueArgs (ys ++ zs) = queueArgs ys ++ queueArgs zs := List.filterMap_append ..
      rw [this, g2, g5]; rfl
    · intro p hp
      have : announceArgs (ys ++ zs) = announceArgs ys ++ announceArgs zs := List.filterMap_append ..
      rw [this] at hp
      rcases List.mem_append.mp hp with hp | hp
      · exact ⟨op, by simp, g3 p hp⟩
      · obtain ⟨o, h1, h2⟩ := g6 p hp
        exact ⟨o, by simp [h1], h2⟩

/-- C16 at the level of the API: the calls of rmc_pub_queue_packet that return 0 get the packet ids 1, 2, 3, ... in order,
and those are all the packets there are. -/
theorem C16_api {mem : Nat → Conn} {n nid ip port : Nat} {ops : List Op} {rs : List Nat} {c : PubCtx} (hn : n ≤ LISTEN_INDEX)
    (hs : ∀ op ∈ ops, op.sane) (hb : ops.length + 1 < U64) (hx : run (init mem n nid ip port) ops = .ok (rs, c)) :
    (queuedPkts c.pub.log).map (·.2) = accepted ops rs ∧
    (queuedPkts c.pub.log).map (·.1) = List.range' 1 (accepted ops rs).length := by
  obtain ⟨ys, L', g, g2, g3⟩ := run_args ops (Good.init mem hn nid ip port) hs (by simpa [queueArgs] using hb) hx
  rw [List.nil_append] at g
  obtain ⟨h1, h2⟩ := C16_ids g.p.legal g.p.bnd g.p.run
  rw [← g2]
  have hl := g.p.reached
  have e1 := run_queued ys PSpec.Inv_init (legal_allowed ys PSpec.init g.p.legal)
  have e1' : (queuedPkts (spec ys).log).map (·.2) = queueArgs ys := e1.1
  rw [hl.log]
  refine ⟨e1', ?_⟩
  have hp := hl.linv.pids
  have hlen := congrArg List.length hp
  rw [List.length_map, List.length_range', ← List.length_map (f := fun x => x.2), e1'] at hlen
  rw [hp, hlen]

example : (match run exC0 (exPre ++ [.queue (exPay 5) true, .throttling 1 1, .queue (exPay 7) false, .queue (exPay 6) false]) with
    | .ok (rs, _) => decide (accepted (exPre ++ [.queue (exPay 5) true, .throttling 1 1, .queue (exPay 7) false,
        .queue (exPay 6) false]) rs = [exPay 1, exPay 2, exPay 3, exPay 7])
    | .error _ => false) = true := by
  decide +kernel

/-! ## C31: announcements -/

/-- C31: what is multicast as an announcement (packet id 0) is one that a call supplied, its header says so and its length
is right.
Missing for the full property: the payload bytes, see `C31_false`; they are right if the dead stack frame they lie in has not
been overwritten, see `C31_intact_partial`. -/
theorem C31_supplied_partial {ops : List Op} {c : PubCtx} (h : Reaches ops c) (hp : ∀ op ∈ ops, portOk op) {k : Nat}
    {p : Payload} {bs : List UInt8} (h1 : (sentAll c.pub.log)[k]? = some (0, p)) (h2 : (dgrams c.log)[k]? = some bs) :
    (∃ op ∈ ops, Supplies op p) ∧ bs.length = 20 + p.data.length ∧
    bs.take 20 = (PacketHeader.mk 0 c.nodeId p.data.length c.listenIp c.listenPort).enc := by
  obtain ⟨tail, t1, t2, _⟩ := (C53_datagrams h hp).2 k 0 p bs h1 h2
  refine ⟨?_, by rw [t1, List.length_append, enc_length, t2], by
    rw [t1, List.take_append_of_le_length (by rw [enc_length]; exact Nat.le_refl _), List.take_of_length_le (by rw [enc_length]; exact Nat.le_refl _)]⟩
  obtain ⟨mem, n, nid, ip, port, rs, h1', h2', h3, h4⟩ := h
  obtain ⟨ys, L', g, g2, g3⟩ := run_args ops (Good.init mem h1' nid ip port) h2' (by simpa [queueArgs] using h3) h4
  rw [List.nil_append] at g
  have hr := g.p.reached
  obtain ⟨_, e2⟩ := run_queued ys PSpec.Inv_init (legal_allowed ys PSpec.init g.p.legal)
  have e2' : queuedAnn (spec ys).log = announceArgs ys := e2
  apply g3
  rw [← e2', hr.linv.qa]
  apply List.mem_append_left
  rw [hr.log] at h1
  have hm := List.mem_of_getElem? h1
  unfold sentAll at hm
  obtain ⟨e, he, he2⟩ := List.mem_filterMap.mp hm
  unfold sentAnn
  refine List.mem_filterMap.mpr ⟨e, he, ?_⟩
  cases e with
  | send pid q ts =>
    simp only [Option.some.injEq, Prod.mk.injEq] at he2
    rw [he2.1, he2.2]; simp
  | _ => cases he2

/-- C31 if the stack memory still holds the bytes when the packet is sent: the datagram is the header followed by what was
supplied.
Missing: nothing keeps that memory alive, see `C31_false`. -/
theorem C31_intact_partial {ops : List Op} {c : PubCtx} (h : Reaches ops c) {p : Payload} {waiting : List Payload}
    (hw : queuedAnn c.pub.log = sentAnn c.pub.log ++ p :: waiting) (hm : c.mcast ≠ none) {ts : Int} {stack : List UInt8}
    (hst : stack.take p.data.length = p.data) :
    ∃ c1 code c', sendSingle c c1 ⟨.ok ts, stack⟩ = .ok (code, c') ∧ Pub.nextQueued c.pub = some c1 ∧ code = 0 ∧
      c'.log = c.log ++ [.datagram ((PacketHeader.mk 0 c.nodeId p.data.length c.listenIp c.listenPort).enc ++ p.data)] := by
  obtain ⟨pops, L, g, hq, _⟩ := h.good
  have hr := g.p.reached
  have hann : (spec pops).ann = p :: waiting := by
    have := hr.linv.qa
    rw [hr.log] at hw
    rw [hw] at this
    exact (List.append_cancel_left this).symm
  rcases g.p.next with ⟨_, e⟩ | ⟨a, pkt, e1, e2, e3, e4, e5, _⟩
  · exfalso
    obtain ⟨Q, N, I, r1, r2, r3, r4, _⟩ := hr.rel
    unfold Pub.queueSize at e
    rw [r4] at e
    have hann' := congrArg List.length hann
    have := congrArg List.length r2
    simp at e this hann'
    rw [e.2] at this
    simp at this
    rw [this] at hann; cases hann
  · obtain ⟨code, c', ys, es, ds, k1, k2, k3, k4, k5, k6, k7, k8, _⟩ := sendSingle_spec g e1 ⟨.ok ts, stack⟩
    obtain ⟨rfl, rfl⟩ := k8 ts rfl hm
    refine ⟨a, 0, c', k1, e1, rfl, ?_⟩
    have hpk : pkt.pid = 0 ∧ pkt.payload = p := by
      revert e3
      generalize pkt.pid = x
      generalize pkt.payload = y
      intro e3
      cases e3 with
      | ann h => rw [hann] at h; cases h; exact ⟨rfl, rfl⟩
      | que h1 h2 => rw [hann] at h1; cases h1
    unfold sendSingle at k1
    rw [if_neg hm, e2, Pub.ok_bind, if_neg (by
        have : HDR_LEN = 20 := rfl
        have : RMC_MAX_PACKET = 65400 := rfl
        have : RMC_MAX_PAYLOAD = 65312 := rfl
        omega)] at k1
    dsimp only at k1
    obtain ⟨s', hs', k1⟩ := bind_ok k1
    cases k1
    show c.log ++ [.datagram (_ ++ wirePayload pkt.payload stack)] = _
    have hwp : wirePayload pkt.payload stack = p.data := by
      rw [hpk.2]
      unfold wirePayload
      split
      · have hl := congrArg List.length hst
        rw [List.length_take] at hl
        rw [List.take_append_of_le_length (by omega), hst]
      · rfl
    rw [hwp]
    unfold header
    rw [hpk.1, hpk.2]

/-- The history of the counterexample: the announce callback answers `[1, 2, 3]`. -/
def exAnn : List Op := [.activate (.ok (7, 8, 9)), .setAnnounce 1000 40, .timeout 1040 (some (true, [1, 2, 3])) 5]

/-- C31 fails: the callback supplies `[1, 2, 3]`, something else is multicast. -/
theorem C31_false : ∃ c, Reaches (exAnn ++ [.writeMcast [⟨.ok 1050, [9, 9, 9]⟩]]) c ∧
    sentAll c.pub.log = [(0, ⟨5, [1, 2, 3], true⟩)] ∧
    dgrams c.log = [(PacketHeader.mk 0 7 3 1 2).enc ++ [9, 9, 9]] := by
  obtain ⟨c, rs, h1, _, h2⟩ := reaches_of (ops := exAnn ++ [.writeMcast [⟨.ok 1050, [9, 9, 9]⟩]])
    (P := fun rs c => decide (sentAll c.pub.log = [(0, ⟨5, [1, 2, 3], true⟩)] ∧
      dgrams c.log = [(PacketHeader.mk 0 7 3 1 2).enc ++ [9, 9, 9]]))
    (by simp [exAnn, Op.sane, saneAcc]) (by decide) (by decide +kernel)
  exact ⟨c, h1, of_decide_eq_true h2⟩

/-- Non-vacuity of `C31_intact_partial`. -/
example : ∃ c rs, Reaches exAnn c ∧ run exC0 exAnn = .ok (rs, c) ∧ decide (c.mcast ≠ none ∧
    queuedAnn c.pub.log = sentAnn c.pub.log ++ ⟨5, [1, 2, 3], true⟩ :: []) = true :=
  reaches_of (P := fun rs c => decide (c.mcast ≠ none ∧ queuedAnn c.pub.log = sentAnn c.pub.log ++ ⟨5, [1, 2, 3], true⟩ :: []))
    (by simp [exAnn, Op.sane, saneAcc]) (by decide) (by decide +kernel)

/-! ## C32: release on deactivation -/

/-- C32, exactly what deactivation gives back: no payload twice, and a payload that was accepted has been handed back if and
only if it was multicast at a time when some subscriber was connected.
Missing for the full property: the others, see `C32_false`. -/
theorem C32_exact_partial {ops : List Op} {c : PubCtx} (h : Reaches (ops ++ [.deactivate]) c) :
    ((frees c.pub.log).map (·.1)).Nodup ∧
    ∀ pid p, (pid, p) ∈ queuedPkts c.pub.log →
      (.free pid p ∈ c.pub.log ↔ ∃ l0 l1 ts, c.pub.log = l0 ++ .send pid p ts :: l1 ∧ subsOf l0 ≠ []) := by
  obtain ⟨c1, r, h1, hx, hs, hb⟩ := h.snoc
  obtain ⟨pops, L, g, hq, _⟩ := h1.good
  obtain ⟨c'', ys, ds, e, g', _⟩ := deactivate_spec g
  have hx' : deactivate c1 = .ok (r, c) := hx
  rw [e] at hx'; cases hx'
  have hr := g'.p.reached
  have hsubs : (spec (pops ++ ys)).subs = [] := by
    have := g'.p.subs
    rw [← this]
    apply List.eq_nil_iff_forall_not_mem.mpr
    intro k hk
    have := (g'.slots k).2 hk
    simp at this
  refine ⟨C18_free_once g'.p.legal g'.p.bnd g'.p.run, ?_⟩
  intro pid p hpq
  have hpid : pid ≠ 0 := by
    intro e0
    rw [hr.log] at hpq
    have : pid ∈ (queuedPkts (spec (pops ++ ys)).log).map (·.1) := List.mem_map.mpr ⟨_, hpq, rfl⟩
    rw [hr.linv.pids, List.mem_range'_1, e0] at this
    omega
  constructor
  · intro hf
    obtain ⟨m0, m1, hm⟩ := List.append_of_mem hf
    rw [hr.log] at hm ⊢
    obtain ⟨l0, l1, ts, e1, _, e2, _⟩ := hr.linv.free m0 pid p m1 hm
    exact ⟨l0, l1 ++ .free pid p :: m1, ts, by rw [hm, e1]; simp, e2⟩
  · rintro ⟨l0, l1, ts, hl, hne⟩
    have := C19_released_partial g'.p.legal g'.p.bnd g'.p.run hl hpid hne ?_
    · rw [hl]; simp [this]
    · intro k hk
      by_cases hset : settled l1 k pid
      · exact hset
      · exfalso
        -- the packet would still be in flight, owed by nobody
        by_cases hfr : pid ∈ (frees (spec (pops ++ ys)).log).map (·.1)
        · obtain ⟨⟨q, p'⟩, hx, rfl⟩ := List.mem_map.mp hfr
          rw [mem_frees] at hx
          obtain ⟨m0, m1, hm⟩ := List.append_of_mem hx
          obtain ⟨k0, k1, us, e1, e2, e3, e4, e5⟩ := hr.linv.free m0 _ p' m1 hm
          have hnd := PSpec.sent_nodup hr.linv
          rw [hr.log] at hl
          rw [hm, e1] at hl hnd
          have hu := send_unique (l1 := k1 ++ .free q p' :: m1) hpid (by simpa using hl) (by simpa using hnd)
          obtain ⟨rfl, _, _, hl1⟩ := hu
          apply hset
          rw [← hl1, settled_append]
          exact .inl (e4 k hk)
        · have hm : (pid, p) ∈ (spec (pops ++ ys)).infl.map (fun r => (r.pid, r.payload)) := by
            rw [hr.linv.inflEq, List.mem_filter]
            refine ⟨mem_sentPkts.mpr ⟨hpid, ts, by rw [← hr.log, hl]; simp⟩, by simpa using hfr⟩
          obtain ⟨r, hrm, hre⟩ := List.mem_map.mp hm
          obtain ⟨rfl, rfl⟩ := Prod.mk.inj hre
          obtain ⟨k0, k1, e1, e2, e3⟩ := hr.linv.infl r hrm
          have hnd := PSpec.sent_nodup hr.linv
          rw [hr.log] at hl
          rw [e1] at hl hnd
          obtain ⟨rfl, _, _, rfl⟩ := send_unique hpid hl hnd
          have hko : k ∈ r.owed := by
            rw [e2, List.mem_filter]; exact ⟨hk, by simpa using hset⟩
          have := hr.inv.owedSub r hrm k hko
          rw [hsubs] at this
          simp at this

/-- C32 fails: a packet still queued and a packet sent while nobody was connected are not handed back. -/
theorem C32_false : ∃ ops c, Reaches (ops ++ [.deactivate]) c ∧ (queuedPkts c.pub.log).length = 2 ∧ frees c.pub.log = [] := by
  obtain ⟨c, rs, h1, _, h2⟩ := reaches_of
    (ops := [.activate (.ok (7, 8, 9)), .queue (exPay 1) false, .writeMcast [⟨.ok 10, []⟩], .queue (exPay 2) false] ++ [.deactivate])
    (P := fun rs c => decide ((queuedPkts c.pub.log).length = 2 ∧ frees c.pub.log = []))
    (by simp [Op.sane, saneAcc]) (by decide) (by decide +kernel)
  exact ⟨_, c, h1, of_decide_eq_true h2⟩

/-- Non-vacuity: three packets sent to two subscribers, one acknowledged by both, all handed back by deactivation. -/
example : ∃ c rs, Reaches (exPre ++ [.read 0 (some (ackBytes 3 3)), .deactivate]) c ∧
    run exC0 (exPre ++ [.read 0 (some (ackBytes 3 3)), .deactivate]) = .ok (rs, c) ∧
    decide ((frees c.pub.log).length = 3) = true :=
  reaches_of (P := fun rs c => decide ((frees c.pub.log).length = 3)) (by simp [exPre, Op.sane, saneAcc]) (by decide)
    (by decide +kernel)

end PubCtx
end Rmc
