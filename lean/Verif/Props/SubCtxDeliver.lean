import Verif.SubCtxSpec
import Verif.Props.Sub

/-!
# Properties C33–C38, C41, C42 of a subscriber context

Every theorem is about the context `c` after an arbitrary history of API calls (`Reaches ops c`): multicast and TCP reads
with whatever bytes the network delivers, writes, timeouts, dispatching, closing, deactivation, with arbitrary results of
the socket calls and an arbitrary packet ready callback. `Up c i` says there is a subscription in slot `i`;
`arrivedAt i c.log` are the data packets that came in for it, `deliveredAt i c.log` those put on the ready list,
`ackedAt i c.log` the acknowledgements put on its connection (see `SubCtxSpec`).

Hypothesis `ValidPids`: the packet ids that arrive are ids a publisher of this library assigns (C16): at least 1, less than
2^64 - 1. (Id 0 never arrives by multicast; a peer can send it over TCP, see C33_pid_zero_false.)
-/

set_option linter.unusedVariables false

namespace Rmc
namespace SubCtx
open SubPub CircBuf ConnVec

/-- Specification: all ids that arrived for the subscription in slot `i` are ids a publisher assigns. -/
def ValidPids (i : Nat) (log : List SEv) : Prop := ∀ a ∈ arrivedAt i log, 0 < a.1.pid ∧ a.1.pid + 1 < U64

instance (i : Nat) (log : List SEv) : Decidable (ValidPids i log) := by unfold ValidPids; infer_instance

theorem ValidPids.ops {i : Nat} {log : List SEv} (h : ValidPids i log) : SubPub.Valid (sess i log).ops := by
  unfold SubPub.Valid; rw [sess_arrivals]; exact h

theorem arrivedPids_eq (i : Nat) (log : List SEv) : arrivedPids (sess i log).ops = (arrivedAt i log).map (·.1.pid) := by
  unfold arrivedPids; rw [sess_arrivals]

/-- The record of the subscription in slot `i` is what sub.c makes of what arrived. -/
theorem Reaches.rec {ops : List Op} {c : SubCtx} (h : Reaches ops c) {i : Nat} (hu : Up c i) :
    c.publishers i = some (Hist.init.run (sess i c.log).ops).s ∧
    deliveredAt i c.log = (Hist.init.run (sess i c.log).ops).out ∧
    takenAt i c.log = (Hist.init.run (sess i c.log).ops).acked := by
  obtain ⟨s, h1, h2, h3, h4⟩ := h.inv.hist i hu
  obtain ⟨-, q2, q3, -⟩ := sess_spec i c.log
  exact ⟨by rw [h1, ← h2], by rw [← q2, h3], by rw [← q3, h4]⟩

/-! ## C33, C34: delivery -/

/-- C33: the packets of a subscription made ready for the application have consecutive ids, without gap or repetition. -/
theorem C33_api {ops : List Op} {c : SubCtx} (h : Reaches ops c) {i : Nat} (hu : Up c i) (hv : ValidPids i c.log) :
    ∃ b n, (deliveredAt i c.log).map (·.pid) = List.range' b n := by
  rw [(h.rec hu).2.1]
  exact C33_in_order hv.ops

/-- C33, C42: what the application finds on the ready list are the packets made ready and not marked dispatched yet, in
the order in which they were made ready (as long as the context is not deactivated, which empties the list). -/
theorem C33_ready_list {ops : List Op} {c : SubCtx} (h : Reaches ops c) (hd : .deactivate ∉ ops) :
    c.ready = (readied c.log).filter (fun p => decide (p.addr ∉ released c.log)) ∧ (readied c.log).Nodup :=
  ⟨(h.rdyOK hd).eq, (h.rdyOK hd).nodup⟩

/-- C34: a packet made ready is the first arrival with its id: the payload is the one that came with it. -/
theorem C34_api {ops : List Op} {c : SubCtx} (h : Reaches ops c) {i : Nat} (hu : Up c i) (hv : ValidPids i c.log)
    {x : SPkt} (hx : x ∈ deliveredAt i c.log) :
    ∃ before m ts after, arrivedAt i c.log = before ++ (x, m, ts) :: after ∧ ∀ a ∈ before, a.1.pid ≠ x.pid := by
  rw [(h.rec hu).2.1] at hx
  obtain ⟨b, m, ts, a, h1, h2⟩ := C34_payload hv.ops hx
  rw [sess_arrivals] at h1
  exact ⟨b, m, ts, a, h1, h2⟩

/-- C36 (see C36_false for what is missing): once all packets from the first one that arrived up to `p` have arrived, in
whatever order and way, `p` has been made ready; and nothing after a gap is. -/
theorem C36_api_partial {ops : List Op} {c : SubCtx} (h : Reaches ops c) {i : Nat} (hu : Up c i) (hv : ValidPids i c.log)
    {b : Nat} (hb : ((arrivedAt i c.log).map (·.1.pid)).head? = some b) (p : Nat) :
    p ∈ (deliveredAt i c.log).map (·.pid) ↔ b ≤ p ∧ ∀ q, b ≤ q → q ≤ p → q ∈ (arrivedAt i c.log).map (·.1.pid) := by
  rw [(h.rec hu).2.1, ← arrivedPids_eq]
  exact C36_delivered_partial hv.ops (by rw [arrivedPids_eq]; exact hb) p

/-! ## What arrives is what the network delivered -/

/-- Specification: the data packets that arrived, for all slots. -/
def arrives (log : List SEv) : List (Nat × SPkt × Bool × Int) :=
  log.filterMap fun e => match e with
    | .arrive i p m ts => some (i, p, m, ts)
    | _ => none

theorem arrives_append (a b : List SEv) : arrives (a ++ b) = arrives a ++ arrives b := List.filterMap_append
theorem arrives_ready (ps : List SPkt) : arrives (ps.map SEv.ready) = [] := by
  unfold arrives; rw [List.filterMap_eq_nil_iff]; intro e he
  obtain ⟨p, _, rfl⟩ := List.mem_map.1 he; rfl

theorem arrives_user : ∀ (us : List UOp) (c : SubCtx), arrives (us.foldl userOp c).log = arrives c.log := by
  intro us
  induction us with
  | nil => intro c; rfl
  | cons u us ih =>
    intro c
    rw [List.foldl_cons, ih]
    cases u with
    | dispatched a =>
      unfold userOp dispatched
      dsimp only
      split
      · rfl
      · show arrives (c.log ++ [_]) = _; rw [arrives_append]; exact List.append_nil _
    | keep a =>
      unfold userOp dispatchedKeep
      dsimp only
      split
      · rfl
      · show arrives (c.log ++ [_]) = _; rw [arrives_append]; exact List.append_nil _

theorem arrives_cb (c : SubCtx) : arrives (runReadyCb c).log = arrives c.log := by
  unfold runReadyCb
  split
  · rfl
  · rw [arrives_user]
    show arrives (c.log ++ [_]) = _; rw [arrives_append]; exact List.append_nil _

theorem noteAck_log {c c' : SubCtx} {i : Nat} (h : noteAck c i = .ok c') : c'.log = c.log := by
  unfold noteAck at h
  obtain ⟨o, ho, h⟩ := bind_ok h
  split at h
  · cases h; rfl
  · obtain ⟨l, hl, h⟩ := bind_ok h
    cases h; rfl

theorem deliver_arrives {c c' : SubCtx} {i pid : Nat} {data : List UInt8} {m : Bool} {ts : Int}
    (h : deliver c i pid data m ts = .ok c') :
    arrives c'.log = arrives c.log ++ [(i, ⟨c.nextAddr, pid, ⟨c.nextAddr, data, false⟩, i⟩, m, ts)] := by
  unfold deliver at h
  obtain ⟨s, hs, h⟩ := bind_ok h
  dsimp only at h
  split at h
  · cases h
    show arrives (c.log ++ [_]) = _
    rw [arrives_append]; rfl
  · have fin : ∀ (c2 : SubCtx) (r : SubPub × List SPkt), c2.log = c.log ++ [.arrive i ⟨c.nextAddr, pid, ⟨c.nextAddr, data, false⟩, i⟩ m ts] ++
        [.alloc ⟨c.nextAddr, pid, ⟨c.nextAddr, data, false⟩, i⟩] →
        arrives (c2.log ++ r.2.map .ready) = arrives c.log ++ [(i, ⟨c.nextAddr, pid, ⟨c.nextAddr, data, false⟩, i⟩, m, ts)] := by
      intro c2 r e
      rw [e, arrives_append, arrives_ready, arrives_append, arrives_append, List.append_nil]
      exact List.append_nil _
    have fin2 : ∀ (c2 : SubCtx) (r : SubPub × List SPkt), c2.log = c.log ++ [.arrive i ⟨c.nextAddr, pid, ⟨c.nextAddr, data, false⟩, i⟩ m ts] ++
        [.alloc ⟨c.nextAddr, pid, ⟨c.nextAddr, data, false⟩, i⟩] → ∀ c3,
        (if r.2 = [] then { SubCtx.setPub c2 i r.1 with ready := (SubCtx.setPub c2 i r.1).ready ++ r.2, log := (SubCtx.setPub c2 i r.1).log ++ r.2.map .ready }
          else runReadyCb { SubCtx.setPub c2 i r.1 with ready := (SubCtx.setPub c2 i r.1).ready ++ r.2, log := (SubCtx.setPub c2 i r.1).log ++ r.2.map .ready }) = c3 →
        arrives c3.log = arrives c.log ++ [(i, ⟨c.nextAddr, pid, ⟨c.nextAddr, data, false⟩, i⟩, m, ts)] := by
      intro c2 r e c3 e3
      subst e3
      split
      · exact fin c2 r e
      · rw [arrives_cb]; exact fin c2 r e
    cases m with
    | true =>
      rw [if_pos rfl] at h
      obtain ⟨c2, h2, h⟩ := bind_ok h
      exact fin2 c2 _ (noteAck_log h2) _ (Except.ok.inj h)
    | false =>
      rw [if_neg (by simp)] at h
      obtain ⟨c2, h2, h⟩ := bind_ok h
      cases h2
      exact fin2 _ _ rfl _ (Except.ok.inj h)

theorem mcast_arrives {c c' : SubCtx} (hc : Core c) {src r : Nat} {bs : List UInt8} {ts : Int} {ann : Option Bool}
    {sk : Except Nat Nat} {cr : ConnRes} (hx : mcastPacket c src bs ts ann sk cr = .ok (r, c')) :
    arrives c'.log = arrives c.log ∨
    ∃ (hd : PacketHeader) (data rest : List UInt8) (i : Nat), hd.Valid ∧ bs = hd.enc ++ data ++ rest ∧
      data.length = hd.payloadLen ∧ hd.pid ≠ 0 ∧ Up c i ∧
      (c.cv.conns i).addr = (if hd.listenIp = 0 then src else hd.listenIp) ∧ (c.cv.conns i).port = hd.listenPort ∧
      ∃ a, arrives c'.log = arrives c.log ++ [(i, ⟨a, hd.pid, ⟨a, data, false⟩, i⟩, true, ts)] := by
  have hann : ∀ hdr, arrives (announced c hdr ann sk cr).log = arrives c.log := by
    intro hdr
    unfold announced
    have one : ∀ (l : List SEv) (e : SEv), (∀ i p m ts, e ≠ .arrive i p m ts) → arrives (l ++ [e]) = arrives l := by
      intro l e he
      rw [arrives_append]
      cases e <;> first | exact absurd rfl (he _ _ _ _) | exact List.append_nil _
    cases ann with
    | none =>
      dsimp only
      rw [if_neg (by simp)]
      split
      · rfl
      · exact one _ _ (by simp)
    | some a =>
      dsimp only
      split
      · exact one _ _ (by simp)
      · split
        · exact one _ _ (by simp)
        · exact (one _ _ (by simp)).trans (one _ _ (by simp))
  unfold mcastPacket at hx
  split at hx
  · cases hx; exact .inl rfl
  · rename_i hlen
    dsimp only at hx
    split at hx
    · cases hx; exact .inl rfl
    · rename_i hpl
      split at hx
      · rw [← (Prod.mk.inj (Except.ok.inj hx)).2]
        split
        · exact .inl rfl
        · exact .inl (hann _)
      · rename_i i hf
        split at hx
        · rw [← (Prod.mk.inj (Except.ok.inj hx)).2]
          split
          · exact .inl rfl
          · exact .inl (hann _)
        · rename_i hm
          split at hx
          · cases hx; exact .inl rfl
          · rename_i hp0
            right
            obtain ⟨L, hL⟩ := hc.v
            obtain ⟨hi, ha, hp⟩ := findByAddress_mem hL hf
            have hu : Up c i := ⟨hL.lt i hi, (mode_cases hL hi).resolve_left hm⟩
            obtain ⟨c2, h2, hx⟩ := bind_ok hx
            cases hx
            have hl20 : (bs.take HDR_LEN).length = HDR_LEN := by rw [List.length_take]; omega
            refine ⟨PacketHeader.dec (bs.take HDR_LEN), (bs.drop HDR_LEN).take (PacketHeader.dec (bs.take HDR_LEN)).payloadLen,
              (bs.drop HDR_LEN).drop (PacketHeader.dec (bs.take HDR_LEN)).payloadLen, i, PacketHeader.valid_dec _, ?_, ?_, hp0, hu, ha, hp,
              c.nextAddr, deliver_arrives h2⟩
            · rw [PacketHeader.enc_dec _ hl20, List.append_assoc, List.take_append_drop, List.take_append_drop]
            · rw [List.length_take, List.length_drop]; omega

/-- C34: what a datagram makes arrive: nothing, or, if it is a header with a packet id other than 0 followed by at least as
many bytes as the header says, and the address in it is that of a publisher subscribed to, that packet with those bytes, for
that publisher. -/
theorem C34_datagram {ops : List Op} {c c' : SubCtx} (h : Reaches ops c) {src r : Nat} {bs : List UInt8} {ts : Int} {ann : Option Bool}
    {sk : Except Nat Nat} {cr : ConnRes} (hx : mcastPacket c src bs ts ann sk cr = .ok (r, c')) :
    arrives c'.log = arrives c.log ∨
    ∃ (hd : PacketHeader) (data rest : List UInt8) (i : Nat), hd.Valid ∧ bs = hd.enc ++ data ++ rest ∧
      data.length = hd.payloadLen ∧ hd.pid ≠ 0 ∧ Up c i ∧
      (c.cv.conns i).addr = (if hd.listenIp = 0 then src else hd.listenIp) ∧ (c.cv.conns i).port = hd.listenPort ∧
      ∃ a, arrives c'.log = arrives c.log ++ [(i, ⟨a, hd.pid, ⟨a, data, false⟩, i⟩, true, ts)] :=
  mcast_arrives h.inv.core hx

/-! ## C35: duplicates -/

theorem dup_of_arrived {ops : List Op} {c : SubCtx} (h : Reaches ops c) {i : Nat} (hu : Up c i) (hv : ValidPids i c.log)
    {pid : Nat} (hp : pid ∈ (arrivedAt i c.log).map (·.1.pid)) :
    ∃ s, c.publishers i = some s ∧ isDuplicate s pid = true := by
  refine ⟨_, (h.rec hu).1, ?_⟩
  rw [← arrivedPids_eq] at hp
  cases hb : (arrivedPids (sess i c.log).ops).head? with
  | none =>
    have : arrivedPids (sess i c.log).ops = [] := by simpa using hb
    rw [this] at hp; simp at hp
  | some b =>
    obtain ⟨hi, h0⟩ := SubPub.hist hv.ops hb
    rw [hi.dup h0]
    right
    intro hn
    rw [first_none] at hn
    obtain ⟨a, ha, he⟩ := List.mem_map.mp hp
    exact hn a ha he

/-- C35: a data packet, by multicast or resent, that has arrived before for this subscription changes nothing (the ghost log
records that it came): no memory is allocated, nothing is made ready, no callback is called. -/
theorem C35_api {ops : List Op} {c : SubCtx} (h : Reaches ops c) {i : Nat} (hu : Up c i) (hv : ValidPids i c.log)
    {pid : Nat} (hp : pid ∈ (arrivedAt i c.log).map (·.1.pid)) (data : List UInt8) (m : Bool) (ts : Int) :
    ∃ p, deliver c i pid data m ts = .ok { c with log := c.log ++ [.arrive i p m ts] } := by
  obtain ⟨s, h1, h2⟩ := dup_of_arrived h hu hv hp
  refine ⟨⟨c.nextAddr, pid, ⟨c.nextAddr, data, false⟩, i⟩, ?_⟩
  unfold deliver getPub
  rw [h1]
  show (if isDuplicate s pid then _ else _) = _
  rw [if_pos h2]
  rfl

/-- C35: the same for the whole call that reads a datagram. -/
theorem C35_datagram {ops : List Op} {c : SubCtx} (h : Reaches ops c) {i : Nat} (hu : Up c i) (hv : ValidPids i c.log)
    (hm : c.mcast ≠ none) {hd : PacketHeader} (hval : hd.Valid) {src : Nat} (h0 : hd.pid ≠ 0)
    (hp : hd.pid ∈ (arrivedAt i c.log).map (·.1.pid)) {data : List UInt8} (hl : data.length = hd.payloadLen)
    (hmax : HDR_LEN + data.length ≤ RMC_MAX_PACKET)
    (hf : findByAddress c.cv (if hd.listenIp = 0 then src else hd.listenIp) hd.listenPort = some i)
    (ts : Int) (ann : Option Bool) (sk : Except Nat Nat) (cr : ConnRes) :
    ∃ p, step c (.readMcast [.dgram src (hd.enc ++ data) ts ann sk cr]) =
      .ok (0, { c with log := c.log ++ [.arrive i p true ts],
                       cv := { c.cv with polls := c.cv.polls ++ [.modify MULTICAST_INDEX c.mcast .R .R] } }) := by
  obtain ⟨p, hdel⟩ := C35_api h hu hv hp data true ts
  refine ⟨p, ?_⟩
  have hlen : (hd.enc ++ data).length = HDR_LEN + data.length := by rw [List.length_append, PacketHeader.length_enc]
  have hne : hd.enc ++ data ≠ [] := by
    intro e; rw [e] at hlen; simp [HDR_LEN] at hlen; omega
  have htk : (hd.enc ++ data).take RMC_MAX_PACKET = hd.enc ++ data := List.take_of_length_le (by omega)
  have e1 : (hd.enc ++ data).take HDR_LEN = hd.enc := take_of_len (PacketHeader.length_enc hd)
  have e2 : (hd.enc ++ data).drop HDR_LEN = data := drop_of_len (PacketHeader.length_enc hd)
  have e3 : PacketHeader.dec hd.enc = hd := by
    have := PacketHeader.dec_enc hval []; rwa [List.append_nil] at this
  have hpk : mcastPacket c src (hd.enc ++ data) ts ann sk cr = .ok (0, { c with log := c.log ++ [.arrive i p true ts] }) := by
    unfold mcastPacket
    rw [if_neg (by omega)]
    dsimp only
    rw [e1, e2, e3, if_neg (by omega), hf]
    dsimp only
    rw [if_neg (by rw [hu.2]; decide), if_neg h0, List.take_of_length_le (by omega), hdel]
    rfl
  show readMcast c _ = _
  unfold readMcast
  rw [if_neg hm]
  unfold mcastLoop
  rw [if_neg hne, htk, hpk, Proto.ok_bind, if_neg (by simp)]
  unfold mcastLoop
  rfl

/-! ## C37, C38: acknowledgements -/

/-- C37: the intervals recorded for the subscription in slot `i` (`s` is its record) are sorted, disjoint and not adjacent; and
the packets in them, together with those already taken off for acknowledgement, are exactly those whose first copy came by
multicast and that are not older than the first arrival; no packet is in both. -/
theorem C37_api {ops : List Op} {c : SubCtx} (h : Reaches ops c) {i : Nat} (hu : Up c i) (hv : ValidPids i c.log)
    {b : Nat} (hb : ((arrivedAt i c.log).map (·.1.pid)).head? = some b) :
    ∃ s, c.publishers i = some s ∧
    s.intervals.Pairwise (fun i j => i.last + 1 < j.first) ∧ (∀ iv ∈ s.intervals, iv.first ≤ iv.last) ∧
    (∀ q, ((∃ iv ∈ s.intervals, iv.first ≤ q ∧ q ≤ iv.last) ∨ (∃ iv ∈ takenAt i c.log, iv.first ≤ q ∧ q ≤ iv.last)) ↔
      b ≤ q ∧ ∃ x ts, (arrivedAt i c.log).find? (fun a => a.1.pid == q) = some (x, true, ts)) ∧
    (∀ q, ¬ ((∃ iv ∈ s.intervals, iv.first ≤ q ∧ q ≤ iv.last) ∧ (∃ iv ∈ takenAt i c.log, iv.first ≤ q ∧ q ≤ iv.last))) := by
  obtain ⟨h1, h2, h3⟩ := h.rec hu
  obtain ⟨q1, q2, q3, q4⟩ := C37_intervals hv.ops (by rw [arrivedPids_eq]; exact hb)
  rw [h3]
  refine ⟨_, h1, q1, q2, ?_, q4⟩
  intro q
  rw [← sess_arrivals]
  exact q3 q

/-- C38: every packet covered by an acknowledgement put on the connection of a subscription has come in by multicast for
that subscription. -/
theorem C38_api {ops : List Op} {c : SubCtx} (h : Reaches ops c) {i : Nat} (hu : Up c i) (hv : ValidPids i c.log)
    {f l : Nat} (ha : (f, l) ∈ ackedAt i c.log) {q : Nat} (h1 : f ≤ q) (h2 : q ≤ l) :
    ∃ a ∈ arrivedAt i c.log, a.1.pid = q ∧ a.2.1 = true := by
  rw [← (sess_spec i c.log).2.2.2.1] at ha
  obtain ⟨iv, hiv, e1, e2⟩ := h.ackOK i f l ha
  rw [(sess_spec i c.log).2.2.1, (h.rec hu).2.2] at hiv
  have := C38_core hv.ops (q := q) ⟨iv, hiv, by omega, by omega⟩
  rwa [sess_arrivals] at this

/-- C38: no acknowledgement is made twice of the same packet: the intervals acknowledged are disjoint from those still
recorded. -/
theorem C38_taken {ops : List Op} {c : SubCtx} (h : Reaches ops c) {i f l : Nat} (ha : (f, l) ∈ ackedAt i c.log) :
    ∃ iv ∈ takenAt i c.log, iv.first = f ∧ iv.last = l := by
  rw [← (sess_spec i c.log).2.2.2.1] at ha
  obtain ⟨iv, hiv, e⟩ := h.ackOK i f l ha
  rw [(sess_spec i c.log).2.2.1] at hiv
  exact ⟨iv, hiv, e⟩

/-- C38: what leaves on the connection is a prefix of the messages put on it, one after the other, and the rest is still in
the write buffer: nothing else gets on the wire, and no message is torn or lost. -/
theorem C38_stream {ops : List Op} {c : SubCtx} (h : Reaches ops c) {i : Nat} (hu : Up c i) :
    bytesOutAt i c.log ++ bytes (c.cv.conns i).writeBuf = (messagesAt i c.log).flatten := by
  have := h.inv.strm i hu
  rw [(sess_spec i c.log).2.2.2.2.2, (sess_spec i c.log).2.2.2.2.1] at this
  exact this

/-! ## A concrete history -/

/-- A new context with two slots. -/
def exS0 : SubCtx :=
  init (fun _ => ⟨0, .none, none, 0, CircBuf.init (fun _ => 0) 1, CircBuf.init (fun _ => 0) 1, .closed, 0, 0⟩) 2 9

/-- A datagram of the publisher listening on port `port`, multicast at address 77. -/
def exDg (port pid : Nat) (data : List UInt8) (ts : Int) : RecvRes :=
  .dgram 77 ((PacketHeader.mk pid 5 data.length 0 port).enc ++ data) ts none (.ok (100 + port)) .inProgress

/-- Activate, an announcement from port 4, the connection is set up. -/
def exUp : List Op := [.activate (.ok 3), .readMcast [exDg 4 0 [] 1], .write 0 (.ok 0) none (.ok 0)]

/-- Check a property of the context a history leads to. -/
def holdsAfter (ops : List Op) (P : List Nat → SubCtx → Bool) : Bool :=
  match run exS0 ops with
  | .ok x => P x.1 x.2
  | .error _ => false

theorem reaches_of {ops : List Op} {P : List Nat → SubCtx → Bool} (h : holdsAfter ops P = true) :
    ∃ c rs, Reaches ops c ∧ run exS0 ops = .ok (rs, c) ∧ P rs c = true := by
  unfold holdsAfter at h
  cases hr : run exS0 ops with
  | error f => rw [hr] at h; cases h
  | ok x =>
    rw [hr] at h
    exact ⟨x.2, x.1, ⟨x.1, _, 2, 9, by decide, hr⟩, rfl, h⟩

/-- Check a property of the result of one call. -/
def afterStep (c : SubCtx) (op : Op) (P : Nat → SubCtx → Bool) : Bool :=
  match step c op with
  | .ok x => P x.1 x.2
  | .error _ => false

theorem afterStep_ok {c : SubCtx} {op : Op} {P : Nat → SubCtx → Bool} (h : afterStep c op P = true) :
    ∃ r c', step c op = .ok (r, c') ∧ P r c' = true := by
  unfold afterStep at h
  cases hr : step c op with
  | error f => rw [hr] at h; cases h
  | ok x => rw [hr] at h; exact ⟨x.1, x.2, rfl, h⟩

/-- A data packet as it is resent over TCP. -/
def exTcp (pid : Nat) (data : List UInt8) : List UInt8 := CMD_PACKET :: ((PacketHeader.mk pid 5 data.length 0 4).enc ++ data)

/-- Packets 5, 7, 7 again and 8 by multicast, 6 resent over TCP; the acknowledgements of 5 and 7–8 are put on the connection
and two bytes of them leave; then 10 comes in. -/
def exHist : List Op :=
  exUp ++ [.readMcast [exDg 4 5 [50] 1000, exDg 4 7 [70] 1100, exDg 4 7 [71] 1150, exDg 4 8 [80] 1200],
    .read 0 (some (exTcp 6 [60])) 1300, .timeout 60000, .write 0 (.ok 0) none (.ok 2), .readMcast [exDg 4 10 [] 60000]]

/-- The hypotheses of the theorems above are met by it, with packets delivered, waiting, acknowledged and still to be
acknowledged. -/
example : .deactivate ∉ exHist ∧ ∃ c rs, Reaches exHist c ∧ run exS0 exHist = .ok (rs, c) ∧
    decide (rs = [0, 0, 0, 0, 0, 0, 0, 0] ∧ Up c 0 ∧ ValidPids 0 c.log ∧ c.mcast ≠ none ∧
      findByAddress c.cv 77 4 = some 0 ∧
      (arrivedAt 0 c.log).map (·.1.pid) = [5, 7, 7, 8, 6, 10] ∧
      (deliveredAt 0 c.log).map (fun p => (p.pid, p.payload.data)) = [(5, [50]), (6, [60]), (7, [70]), (8, [80])] ∧
      c.ready.map (·.pid) = [5, 6, 7, 8] ∧ ackedAt 0 c.log = [(5, 5), (7, 8)] ∧
      (c.publishers 0).map (·.intervals) = some [⟨10, 10, 60000⟩] ∧ bytesOutAt 0 c.log = [2, 5] ∧
      (messagesAt 0 c.log).length = 2 ∧ (c.publishers 0).map (fun s => s.received.map (·.pid)) = some [10]) = true :=
  ⟨by simp [exHist, exUp], reaches_of (P := fun rs c => decide _) (by decide +kernel)⟩

end SubCtx
end Rmc
