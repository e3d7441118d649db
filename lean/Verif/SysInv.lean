import Verif.System

/-! # Invariant of the composed system -/

set_option linter.unusedSimpArgs false
set_option linter.unusedVariables false

namespace Rmc
namespace PubCtx
open PLog

theorem callOk_sane {op : Op} (h : Sys.callOk op = true) : op.sane := by
  cases op with
  | readListen ar cb =>
    cases ar with
    | failed e => exact (of_decide_eq_true h : e ≠ 0)
    | ok d a => trivial
    | noDelayFailed d e => cases h
  | _ => trivial

theorem callOk_port {op : Op} (h : Sys.callOk op = true) : portOk op := by
  cases op with
  | activate r =>
    cases r with
    | error e => trivial
    | ok x => obtain ⟨a, b, port⟩ := x; exact (of_decide_eq_true h : port ≠ 0)
  | _ => trivial

theorem accepted_mem : ∀ (ops : List Op) (rs : List Nat) (p : Payload), p ∈ accepted ops rs → Op.queue p false ∈ ops := by
  intro ops
  induction ops with
  | nil => intro rs p hp; cases rs <;> cases hp
  | cons op ops ih =>
    intro rs p hp
    cases rs with
    | nil => cases hp
    | cons r rs =>
      have hp' : p ∈ opQueues op r ++ accepted ops rs := hp
      rcases List.mem_append.1 hp' with hp' | hp'
      · unfold opQueues at hp'
        split at hp'
        · split at hp'
          · rw [List.mem_singleton] at hp'; subst hp'; simp
          · cases hp'
        · cases hp'
      · exact List.mem_cons_of_mem _ (ih rs p hp')

/-- The packets queued: ids and payloads. -/
theorem queued_ok {ops : List Op} {c : PubCtx} (h : Reaches ops c) (hk : ∀ op ∈ ops, Sys.callOk op = true) {pid : Nat} {p : Payload}
    (hp : (pid, p) ∈ queuedPkts c.pub.log) : 0 < pid ∧ pid + 1 < U64 ∧ p.onStack = false ∧ p.data.length ≤ RMC_MAX_PAYLOAD := by
  obtain ⟨pops, L, g, hq, hb, _⟩ := h.good
  obtain ⟨mem, n, nid, ip, port, rs, h1, h2, h3, h4⟩ := h
  obtain ⟨e1, e2⟩ := C16_api h1 h2 h3 h4
  have m2 : p ∈ (queuedPkts c.pub.log).map (·.2) := List.mem_map.2 ⟨_, hp, rfl⟩
  have m1 : pid ∈ (queuedPkts c.pub.log).map (·.1) := List.mem_map.2 ⟨_, hp, rfl⟩
  rw [e1] at m2
  have hop := accepted_mem ops rs p m2
  have hlen : (accepted ops rs).length ≤ (queueArgs pops).length := by
    rw [← e1, List.length_map]
    have := (C16_ids g.p.legal g.p.bnd g.p.run).1
    have := congrArg List.length this
    simp at this
    omega
  rw [e2, List.mem_range'_1] at m1
  refine ⟨m1.1, ?_, ?_, ?_⟩
  · have := g.p.bnd; omega
  · have := hk _ hop
    simpa [Sys.callOk] using this
  · have hl := g.p.reached
    obtain ⟨q1, q2⟩ := run_queued pops PSpec.Inv_init (legal_allowed pops PSpec.init g.p.legal)
    have q1' : (queuedPkts (spec pops).log).map (·.2) = queueArgs pops := q1
    rw [hl.log] at hp
    exact g.p.size_le (.inl (by rw [← q1']; exact List.mem_map.2 ⟨_, hp, rfl⟩))

theorem sent_queued {ops : List Op} {c : PubCtx} (h : Reaches ops c) {x : Nat × Payload} (hp : x ∈ sentPkts c.pub.log) :
    x ∈ queuedPkts c.pub.log := by
  obtain ⟨pops, L, g, hq, hb, _⟩ := h.good
  have hr := g.p.reached
  rw [hr.log] at hp ⊢
  rw [hr.linv.qp]; exact List.mem_append_left _ hp

/-- What the publisher multicasts is what was sent. -/
theorem datagram_ok {ops : List Op} {c : PubCtx} (h : Reaches ops c) (hk : ∀ op ∈ ops, Sys.callOk op = true)
    (hid : c.nodeId < U32 ∧ c.listenIp < U32 ∧ c.listenPort < 65536) {bs : List UInt8} (hb : bs ∈ dgrams c.log)
    {a q src : Nat} {x : SPkt} (hx : SubCtx.InDatagram a q x src (bs.take RMC_MAX_PACKET)) :
    ∃ p, (x.pid, p) ∈ sentPkts c.pub.log ∧ x.payload.data = p.data := by
  have hport : ∀ op ∈ ops, portOk op := fun op ho => callOk_port (hk op ho)
  have hm := (h.dg hport).m
  obtain ⟨k, hk1⟩ := List.getElem?_of_mem hb
  have hlt : k < (sentAll c.pub.log).length := by
    rw [hm.1]
    exact (List.getElem?_eq_some_iff.1 hk1).1
  obtain ⟨⟨pid, p⟩, hy⟩ : ∃ y, (sentAll c.pub.log)[k]? = some y := ⟨_, List.getElem?_eq_getElem hlt⟩
  obtain ⟨tail, t1, t2, t3⟩ := hm.2 k _ _ hy hk1
  dsimp only at t1 t2 t3
  have hmem : (pid, p) ∈ sentAll c.pub.log := List.mem_of_getElem? hy
  obtain ⟨hd, data, rest, v1, v2, v3, v4, v5, v6, v7, v8⟩ := hx
  have hsend : ∃ ts, PEv.send pid p ts ∈ c.pub.log := by
    obtain ⟨e, he, hh⟩ := List.mem_filterMap.1 hmem
    cases e with
    | send pid' p' ts => cases hh; exact ⟨ts, he⟩
    | _ => cases hh
  -- the header is the one sent
  have htk : bs.take RMC_MAX_PACKET = (PacketHeader.mk pid c.nodeId p.data.length c.listenIp c.listenPort).enc ++
      tail.take (RMC_MAX_PACKET - HDR_LEN) := by
    rw [t1, List.take_append, PacketHeader.length_enc, List.take_of_length_le]
    rw [PacketHeader.length_enc]; decide
  -- the header is decoded in two ways
  have d1 := PacketHeader.dec_enc v1 (data ++ rest)
  rw [← List.append_assoc, ← v2, htk] at d1
  by_cases h0 : pid = 0
  · -- an announcement has packet id 0
    exfalso
    have hz : (PacketHeader.dec ((PacketHeader.mk pid c.nodeId p.data.length c.listenIp c.listenPort).enc ++
        tail.take (RMC_MAX_PACKET - HDR_LEN))).pid = 0 := by
      unfold PacketHeader.dec PacketHeader.enc
      dsimp only
      rw [List.append_assoc, take_of_len (by simp), h0]
      decide
    rw [d1] at hz
    exact v4 hz
  have hs : (pid, p) ∈ sentPkts c.pub.log := mem_sentPkts.2 ⟨h0, hsend⟩
  obtain ⟨o1, o2, o3, o4⟩ := queued_ok h hk (sent_queued h hs)
  have hval : (PacketHeader.mk pid c.nodeId p.data.length c.listenIp c.listenPort).Valid := by
    have : RMC_MAX_PAYLOAD = 65312 := rfl
    exact ⟨by show pid < U64; omega, hid.1, by show p.data.length < 65536; omega, hid.2.1, hid.2.2⟩
  rw [PacketHeader.dec_enc hval] at d1
  subst d1
  have htail : tail = p.data := t3 o3
  have hcut : tail.take (RMC_MAX_PACKET - HDR_LEN) = tail := by
    apply List.take_of_length_le
    rw [htail]
    have e1 : RMC_MAX_PAYLOAD = 65312 := rfl
    have e2 : RMC_MAX_PACKET = 65400 := rfl
    have e3 : HDR_LEN = 20 := rfl
    omega
  rw [hcut, v2, List.append_assoc] at htk
  have := List.append_cancel_left htk
  refine ⟨p, by rw [v7]; exact hs, ?_⟩
  rw [v8, ← htail]
  have hl : data.length = tail.length := by rw [v3, htail]
  have := congrArg (List.take data.length) this
  rw [List.take_append_of_le_length (Nat.le_refl _), List.take_of_length_le (Nat.le_refl _), hl, List.take_of_length_le (Nat.le_refl _)] at this
  exact this

theorem owed_sent {c : PubCtx} {pops : List POp} {L : List Nat} (h : Good c pops L) {k : Nat} {x : Nat × Payload × Int}
    (hx : x ∈ c.pub.owedPkts k) : (x.1, x.2.1) ∈ sentPkts c.pub.log := by
  have hr := h.p.reached
  rw [owedPkts_eq hr.rel] at hx
  obtain ⟨r, hr1, rfl⟩ := List.mem_map.1 hx
  have : r ∈ (spec pops).infl := by
    unfold PSpec.owes at hr1
    exact (List.mem_filter.1 hr1).1
  have h2 : (r.pid, r.payload) ∈ (spec pops).infl.map (fun r => (r.pid, r.payload)) := List.mem_map.2 ⟨r, this, rfl⟩
  rw [hr.linv.inflEq] at h2
  rw [hr.log]
  exact (List.mem_filter.1 h2).1

/-- A packet held for a subscriber has been multicast since it connected. -/
theorem owed_since (k : Nat) : ∀ (n : Nat) (log : List PEv), log.length = n →
    ((owed k log).1 = false → (owed k log).2 = []) ∧ ∀ pid ∈ (owed k log).2, pid ∈ sentTo k log := by
  intro n
  induction n with
  | zero =>
    intro log h
    rw [List.length_eq_zero_iff.1 h]
    exact ⟨fun _ => rfl, fun pid hp => by cases hp⟩
  | succ n ih =>
    intro log h
    obtain ⟨xs, e, rfl⟩ : ∃ xs e, log = xs ++ [e] := ⟨log.dropLast, log.getLast (by intro x; rw [x] at h; cases h), by
      rw [List.dropLast_concat_getLast]⟩
    have hn : xs.length = n := by rw [List.length_append] at h; simp at h; omega
    obtain ⟨i1, i2⟩ := ih xs hn
    rw [owed_append]
    have keep : ∀ (hne : e ≠ .connect k) pid, pid ∈ sentTo k xs → pid ∈ sentTo k (xs ++ [e]) := by
      intro hne pid hp
      rw [sentTo_append_of (by simp; exact fun h => hne h.symm)]
      exact List.mem_append_left _ hp
    cases e with
    | connect j =>
      by_cases hj : j = k
      · subst hj; simp
      · simp only [List.foldl_cons, List.foldl_nil, if_neg hj]
        exact ⟨i1, fun pid hp => keep (by simpa using hj) pid (i2 pid hp)⟩
    | close j =>
      by_cases hj : j = k
      · subst hj; simp
      · simp only [List.foldl_cons, List.foldl_nil, if_neg hj]
        exact ⟨i1, fun pid hp => keep (by simp) pid (i2 pid hp)⟩
    | send pid p ts =>
      simp only [List.foldl_cons, List.foldl_nil]
      by_cases hc : (owed k xs).1 = true ∧ pid ≠ 0
      · rw [if_pos hc]
        refine ⟨fun h => (by rw [hc.1] at h; cases h), fun q hq => ?_⟩
        rcases List.mem_append.1 hq with hq | hq
        · exact keep (by simp) q (i2 q hq)
        · rw [List.mem_singleton.1 hq, sentTo_append_of (by simp)]
          refine List.mem_append_right _ ?_
          simp [sentPkts, hc.2]
      · rw [if_neg hc]
        exact ⟨i1, fun q hq => keep (by simp) q (i2 q hq)⟩
    | ack j pid =>
      simp only [List.foldl_cons, List.foldl_nil]
      by_cases hj : j = k
      · rw [if_pos hj]
        refine ⟨fun h => by rw [i1 h]; rfl, fun q hq => keep (by simp) q (i2 q (List.mem_filter.1 hq).1)⟩
      · rw [if_neg hj]
        exact ⟨i1, fun q hq => keep (by simp) q (i2 q hq)⟩
    | queue pid p => exact ⟨i1, fun q hq => keep (by simp) q (i2 q hq)⟩
    | free pid p => exact ⟨i1, fun q hq => keep (by simp) q (i2 q hq)⟩

theorem owed_sentTo {c : PubCtx} {pops : List POp} {L : List Nat} (h : Good c pops L) {k : Nat} {x : Nat × Payload × Int}
    (hx : x ∈ c.pub.owedPkts k) : x.1 ∈ sentTo k c.pub.log := by
  have hr := h.p.reached
  have ho : x.1 ∈ c.pub.outstanding k := by rw [outstanding_owed hr.rel]; exact List.mem_map.2 ⟨x, hx, rfl⟩
  have := h.owed_log k
  refine (owed_since k _ _ rfl).2 _ ?_
  rw [this]; exact ho

theorem run_snoc : ∀ (ops : List Op) {c c1 c2 : PubCtx} {op : Op} {rs : List Nat} {r : Nat}, run c ops = .ok (rs, c1) →
    step c1 op = .ok (r, c2) → run c (ops ++ [op]) = .ok (rs ++ [r], c2) := by
  intro ops
  induction ops with
  | nil =>
    intro c c1 c2 op rs r h1 h2
    cases h1
    rw [List.nil_append, run_cons, h2]; rfl
  | cons o ops ih =>
    intro c c1 c2 op rs r h1 h2
    rw [run_cons] at h1
    obtain ⟨⟨r0, d⟩, k1, k2⟩ := bind_ok h1
    obtain ⟨⟨rs1, d2⟩, k3, k4⟩ := bind_ok k2
    cases k4
    rw [List.cons_append, run_cons, k1]
    show (run d (ops ++ [op]) >>= _) = _
    rw [ih k3 h2]; rfl

theorem Reaches.snoc' {ops : List Op} {op : Op} {c c' : PubCtx} {r : Nat} (h : Reaches ops c) (hs : op.sane) (hb : ops.length + 2 < U64)
    (hx : step c op = .ok (r, c')) : Reaches (ops ++ [op]) c' := by
  obtain ⟨mem, n, nid, ip, port, rs, h1, h2, h3, h4⟩ := h
  refine ⟨mem, n, nid, ip, port, rs ++ [r], h1, ?_, by simp; omega, run_snoc ops h4 hx⟩
  intro o ho
  rcases List.mem_append.1 ho with ho | ho
  · exact h2 o ho
  · rw [List.mem_singleton.1 ho]; exact hs

end PubCtx

namespace Sys
open PLog CircBuf

/-- The bytes of the connection in the buffers of the publisher. -/
def wbytes (s : Sys) : List UInt8 := match s.acc with | none => [] | some k => bytes (s.pub.cv.conns k).writeBuf
def rbytes (s : Sys) : List UInt8 := match s.acc with | none => [] | some k => bytes (s.pub.cv.conns k).readBuf

/-- Specification: the bytes on their way from the publisher to the subscriber, in order: received but not processed, in the
network, in the publisher's write buffer. -/
def toSub (E : Env) (s : Sys) : List UInt8 := bytes (s.sub.cv.conns E.slot).readBuf ++ s.down ++ s.wbytes
/-- Specification: the bytes on their way from the subscriber to the publisher. -/
def toPub (E : Env) (s : Sys) : List UInt8 := s.rbytes ++ s.up ++ bytes (s.sub.cv.conns E.slot).writeBuf

/-- Specification: a packet as the publisher sends it on the connection. -/
def frame (c : PubCtx) (x : Nat × Payload) : List UInt8 :=
  CMD_PACKET :: ((PacketHeader.mk x.1 c.nodeId x.2.data.length c.listenIp c.listenPort).enc ++ x.2.data)

/-- The packet has been multicast since the publisher accepted the connection. -/
def toLink (s : Sys) (pid : Nat) : Prop := ∃ k, s.acc = some k ∧ pid ∈ PubCtx.sentTo k s.pub.pub.log

/-- The invariant. -/
structure Inv (E : Env) (n : Nat) (s : Sys) : Prop where
  pub : ∃ ops, PubCtx.Reaches ops s.pub ∧ (∀ op ∈ ops, callOk op = true) ∧ ops.length ≤ n
  ids : s.pub.nodeId < U32 ∧ s.pub.listenIp < U32 ∧ s.pub.listenPort < 65536 ∧ s.pub.listenPort ≠ 0
  sub : ∃ ops, SubCtx.Reaches ops s.sub
  live : SubCtx.Live s.sub E.slot
  to : (s.sub.cv.conns E.slot).addr = addr E s.pub ∧ (s.sub.cv.conns E.slot).port = s.pub.listenPort
  srb : WF (s.sub.cv.conns E.slot).readBuf ∧ (s.sub.cv.conns E.slot).readBuf.size = RMC_MAX_PACKET
  acc : ∀ k, s.acc = some k → PubCtx.Connected s.pub k ∧ (s.err = false → WF (s.pub.cv.conns k).readBuf ∧
    (s.pub.cv.conns k).readBuf.size = RMC_MAX_PACKET)
  arr : SubCtx.Up s.sub E.slot → ∀ a ∈ SubCtx.arrivedAt E.slot s.sub.log,
    ∃ p, (a.1.pid, p) ∈ sentPkts s.pub.pub.log ∧ a.1.payload.data = p.data ∧ (a.2.1 = false → s.toLink a.1.pid)
  down : ∃ ps : List (Nat × Payload), (∀ x ∈ ps, x ∈ sentPkts s.pub.pub.log ∧ s.toLink x.1) ∧ toSub E s = (ps.map (frame s.pub)).flatten ∧
    ∀ k, s.acc = some k → s.err = false → ∀ pid ∈ PubCtx.sentTo k s.pub.pub.log, pid ∈ s.pub.pub.outstanding k ∨ pid ∈ ps.map (·.1) ∨
      (SubCtx.Up s.sub E.slot ∧ pid ∈ (SubCtx.arrivedAt E.slot s.sub.log).map (·.1.pid))
  up : s.err = false → SubCtx.Up s.sub E.slot → ∃ m1 m2, SubCtx.messagesAt E.slot s.sub.log = m1 ++ m2 ∧ toPub E s = m2.flatten
  idle : s.err = false → ¬ SubCtx.Up s.sub E.slot → s.rbytes = [] ∧ s.up = []

theorem Inv.start {E : Env} {n : Nat} {s : Sys} (h : Start E n s) : Inv E n s := by
  obtain ⟨sops, hsr⟩ := h.sub
  have hup : ¬ SubCtx.Up s.sub E.slot := by
    rintro ⟨_, h2⟩; rw [h.slot.2] at h2; cases h2
  have hf := hsr.inv.core.fresh E.slot h.slot.1 (by rw [h.slot.2]; simp)
  refine ⟨h.pub, h.ids, h.sub, ⟨h.slot.1, by rw [h.slot.2]; simp⟩, h.to, SubCtx.fresh_WF hf.1, ?_, fun x => absurd x hup, ?_,
    fun _ x => absurd x hup, fun _ _ => ⟨?_, h.up⟩⟩
  · intro k hk; rw [h.acc] at hk; cases hk
  · refine ⟨[], by simp, ?_, ?_⟩
    · unfold toSub wbytes
      rw [h.acc, h.down, SubCtx.fresh_bytes hf.1 (by decide)]; rfl
    · intro k hk; rw [h.acc] at hk; cases hk
  · unfold rbytes; rw [h.acc]

/-- What a call of the publisher leaves as it is. -/
theorem pub_frame {E : Env} {n : Nat} {s : Sys} (h : Inv E n s) {op : PubCtx.Op} {r : Nat} {p : PubCtx} (hc : callOk op = true)
    (hb : n + 2 < U64) (hx : PubCtx.step s.pub op = .ok (r, p)) :
    (∃ ops, PubCtx.Reaches ops p ∧ (∀ op ∈ ops, callOk op = true) ∧ ops.length ≤ n + 1) ∧
    (p.nodeId = s.pub.nodeId ∧ p.listenIp = s.pub.listenIp ∧ p.listenPort = s.pub.listenPort) ∧
    (∀ x ∈ sentPkts s.pub.pub.log, x ∈ sentPkts p.pub.log) := by
  obtain ⟨ops, h1, h2, h3⟩ := h.pub
  obtain ⟨pops, L, g, hq, hb', _⟩ := h1.good
  have hs := PubCtx.callOk_sane hc
  refine ⟨⟨ops ++ [op], h1.snoc' hs (by omega) hx, ?_, by simp; omega⟩, ?_, ?_⟩
  · intro o ho
    rcases List.mem_append.1 ho with ho | ho
    · exact h2 o ho
    · rw [List.mem_singleton.1 ho]; exact hc
  · obtain ⟨i1, i2, i3⟩ := PubCtx.step_ids g hs (by omega) hx
    refine ⟨i1, i2, ?_⟩
    rcases i3 with ⟨e, _⟩ | ⟨_, _, _, _, e⟩
    · exact e
    · rw [e, if_neg h.ids.2.2.2]
  · obtain ⟨ys, L', g', _⟩ := PubCtx.step_good g hs (by omega) hx
    obtain ⟨es, e1, _⟩ := PubCtx.good_events g g'
    intro x hx'
    rw [e1, sentPkts_append]
    exact List.mem_append_left _ hx'

theorem frame_congr {c d : PubCtx} (h : d.nodeId = c.nodeId ∧ d.listenIp = c.listenIp ∧ d.listenPort = c.listenPort) : frame d = frame c := by
  funext x
  unfold frame
  rw [h.1, h.2.1, h.2.2]

theorem addr_congr {E : Env} {c d : PubCtx} (h : d.listenIp = c.listenIp) : addr E d = addr E c := by
  unfold addr; rw [h]

theorem Inv.pubStep {E : Env} {n : Nat} {s t : Sys} (h : Inv E n s) (hb : n + 2 < U64) {op : PubCtx.Op}
    (ht : next E s (.pub op) = some t) : Inv E (n + 1) t := by
  unfold next at ht
  dsimp only at ht
  split at ht
  · rename_i hok
    cases hx : PubCtx.step s.pub op with
    | error f => rw [hx] at ht; cases ht
    | ok x =>
      obtain ⟨r, p⟩ := x
      rw [hx] at ht
      dsimp only at ht
      cases ht
      obtain ⟨f1, f2, f3⟩ := pub_frame h hok.1 hb hx
      obtain ⟨ops, h1, h2, h3⟩ := h.pub
      obtain ⟨pops, L, g, hq, hb', _⟩ := h1.good
      have hs := PubCtx.callOk_sane hok.1
      obtain ⟨ps, d1, d2, d3⟩ := h.down
      have mk : ∀ (hacc : ∀ k, s.acc = some k → PubCtx.Connected p k ∧ (p.cv.conns k).readBuf = (s.pub.cv.conns k).readBuf)
          (hsent : ∀ k, s.acc = some k → ∀ pid ∈ PubCtx.sentTo k s.pub.pub.log, pid ∈ PubCtx.sentTo k p.pub.log)
          (hdown : ∃ ps : List (Nat × Payload), (∀ x ∈ ps, x ∈ sentPkts p.pub.log ∧ toLink { s with pub := p, down := s.down ++ sentDown s p } x.1) ∧
            toSub E { s with pub := p, down := s.down ++ sentDown s p } = (ps.map (frame p)).flatten ∧
            ∀ k, s.acc = some k → s.err = false → ∀ pid ∈ PubCtx.sentTo k p.pub.log, pid ∈ p.pub.outstanding k ∨ pid ∈ ps.map (·.1) ∨
              (SubCtx.Up s.sub E.slot ∧ pid ∈ (SubCtx.arrivedAt E.slot s.sub.log).map (·.1.pid))),
          Inv E (n + 1) { s with pub := p, down := s.down ++ sentDown s p } := by
        intro hacc hsent hdown
        have hrb : rbytes { s with pub := p, down := s.down ++ sentDown s p } = rbytes s := by
          unfold rbytes
          dsimp only
          cases he : s.acc with
          | none => rfl
          | some k => dsimp only; rw [(hacc k he).2]
        refine ⟨f1, ?_, h.sub, h.live, ?_, h.srb, ?_, ?_, hdown, ?_, ?_⟩
        · show p.nodeId < U32 ∧ _
          rw [f2.1]
          show _ ∧ p.listenIp < U32 ∧ p.listenPort < 65536 ∧ p.listenPort ≠ 0
          rw [f2.2.1, f2.2.2]; exact h.ids
        · show _ = addr E p ∧ _ = p.listenPort
          rw [addr_congr f2.2.1, f2.2.2]; exact h.to
        · intro k hk
          obtain ⟨c1, c2⟩ := hacc k hk
          refine ⟨c1, fun he => ?_⟩
          obtain ⟨a2, a3⟩ := (h.acc k hk).2 he
          constructor
          · show WF (p.cv.conns k).readBuf
            rw [c2]; exact a2
          · show (p.cv.conns k).readBuf.size = _
            rw [c2]; exact a3
        · intro hu a ha
          obtain ⟨q, q1, q2, q3⟩ := h.arr hu a ha
          refine ⟨q, f3 _ q1, q2, fun hm => ?_⟩
          obtain ⟨k, w1, w2⟩ := q3 hm
          exact ⟨k, w1, hsent k w1 _ w2⟩
        · intro her hu
          obtain ⟨m1, m2, e1, e2⟩ := h.up her hu
          refine ⟨m1, m2, e1, ?_⟩
          unfold toPub at e2 ⊢
          rw [hrb]; exact e2
        · intro her hu; rw [hrb]; exact h.idle her hu
      obtain ⟨acc, hacc⟩ : ∃ a, s.acc = a := ⟨_, rfl⟩
      cases acc with
      | none =>
        refine mk (fun k hk => by rw [hacc] at hk; cases hk) (fun k hk => by rw [hacc] at hk; cases hk)
          ⟨ps, fun x hx => ?_, ?_, fun k hk => by rw [hacc] at hk; cases hk⟩
        · obtain ⟨_, k, w1, _⟩ := d1 x hx
          rw [hacc] at w1; cases w1
        rw [frame_congr f2, ← d2]
        unfold toSub wbytes sentDown
        dsimp only
        rw [hacc]
        simp
      | some k =>
        obtain ⟨a1, _⟩ := h.acc k hacc
        have hl := hok.2
        rw [hacc] at hl
        obtain ⟨ds, qs, kept⟩ := PubCtx.step_link g hs (by omega) hx a1
          (by rintro rv rfl; simp [leaves] at hl) (by rintro rfl; simp [leaves] at hl) (by rintro rfl; simp [leaves] at hl)
        have hsd : sentDown s p = PubCtx.outs k ds := by
          unfold sentDown
          rw [hacc]
          dsimp only
          rw [kept.log, List.drop_left]
        have hsent : ∀ pid ∈ PubCtx.sentTo k s.pub.pub.log, pid ∈ PubCtx.sentTo k p.pub.log := by
          obtain ⟨es, w1, w2⟩ := kept.plog
          intro pid hp
          rw [w1, PubCtx.sentTo_append_of w2]
          exact List.mem_append_left _ hp
        refine mk ?_ ?_ ⟨ps ++ qs.map (fun x => (x.1, x.2.1)), ?_, ?_, ?_⟩
        · intro j hj
          rw [hacc] at hj; cases hj
          exact ⟨kept.conn, kept.rb⟩
        · intro j hj
          rw [hacc] at hj; cases hj
          exact hsent
        · intro x hx'
          rcases List.mem_append.1 hx' with hx' | hx'
          · obtain ⟨w1, j, w2, w3⟩ := d1 x hx'
            have : j = k := Option.some.inj (w2.symm.trans hacc)
            subst this
            exact ⟨f3 _ w1, j, hacc, hsent _ w3⟩
          · obtain ⟨y, hy, rfl⟩ := List.mem_map.1 hx'
            exact ⟨f3 _ (PubCtx.owed_sent g (kept.owed y hy)), k, hacc, hsent _ (PubCtx.owed_sentTo g (kept.owed y hy))⟩
        · rw [frame_congr f2, List.map_append, List.flatten_append, ← d2]
          unfold toSub wbytes
          dsimp only
          rw [hacc, hsd]
          dsimp only
          have e : (qs.map (fun x => (x.1, x.2.1))).map (frame s.pub) = qs.map (PubCtx.frameOf (PubCtx.cfg s.pub)) := by
            rw [List.map_map]; rfl
          rw [e]
          have := kept.out
          rw [List.append_assoc, List.append_assoc, this]
          simp only [List.append_assoc]
        · intro j hj her pid hp
          rw [hacc] at hj; cases hj
          rcases kept.fate pid hp with q | q | ⟨q1, q2⟩
          · exact .inl q
          · refine .inr (.inl ?_)
            rw [List.map_append, List.map_map]
            exact List.mem_append_right _ q
          · rcases d3 k hacc her pid q1 with w | w | w
            · exact absurd w q2
            · exact .inr (.inl (by rw [List.map_append]; exact List.mem_append_left _ w))
            · exact .inr (.inr w)
  · cases ht

theorem Inv.acceptStep {E : Env} {n : Nat} {s t : Sys} (h : Inv E n s) (hb : n + 2 < U64) {k : Nat} {ar : ConnVec.AccRes} {cb : Option Bool}
    (ht : next E s (.accept k ar cb) = some t) : Inv E (n + 1) t := by
  unfold next at ht
  dsimp only at ht
  split at ht
  · rename_i hok
    cases hx : PubCtx.step s.pub (.readListen ar cb) with
    | error f => rw [hx] at ht; cases ht
    | ok x =>
      obtain ⟨r, p⟩ := x
      rw [hx] at ht
      dsimp only at ht
      split at ht
      · rename_i hcon
        cases ht
        obtain ⟨f1, f2, f3⟩ := pub_frame h hok.2.1 hb hx
        obtain ⟨ops, h1, h2, h3⟩ := h.pub
        obtain ⟨pops, L, g, hq, hb', _⟩ := h1.good
        obtain ⟨fr, _, _⟩ := PubCtx.accept_link g (PubCtx.callOk_sane hok.2.1) hx hok.2.2 hcon
        obtain ⟨ps, d1, d2, d3⟩ := h.down
        have hrb : rbytes { s with pub := p, acc := some k } = rbytes s := by
          unfold rbytes
          rw [hok.1]
          exact fr.rb
        refine ⟨f1, ?_, h.sub, h.live, ?_, h.srb, ?_, ?_, ⟨ps, fun x hx => (by
          obtain ⟨_, j, w1, _⟩ := d1 x hx
          rw [hok.1] at w1; cases w1), ?_, ?_⟩, ?_, ?_⟩
        · show p.nodeId < U32 ∧ _
          rw [f2.1]
          show _ ∧ p.listenIp < U32 ∧ p.listenPort < 65536 ∧ p.listenPort ≠ 0
          rw [f2.2.1, f2.2.2]; exact h.ids
        · show _ = addr E p ∧ _ = p.listenPort
          rw [addr_congr f2.2.1, f2.2.2]; exact h.to
        · intro j hj
          have : k = j := Option.some.inj hj
          subst this
          exact ⟨fr.conn, fun _ => ⟨fr.rwf, fr.rsize⟩⟩
        · intro hu a ha
          obtain ⟨q, q1, q2, q3⟩ := h.arr hu a ha
          refine ⟨q, f3 _ q1, q2, fun hm => ?_⟩
          obtain ⟨j, w1, _⟩ := q3 hm
          rw [hok.1] at w1; cases w1
        · show toSub E { s with pub := p, acc := some k } = (ps.map (frame p)).flatten
          rw [frame_congr f2, ← d2]
          unfold toSub wbytes
          rw [hok.1]
          dsimp only
          rw [fr.wb]
        · intro j hj _ pid hp
          have : k = j := Option.some.inj hj
          subst this
          have hp' : pid ∈ PubCtx.sentTo k p.pub.log := hp
          rw [fr.sent] at hp'
          cases hp'
        · intro her hu
          obtain ⟨m1, m2, e1, e2⟩ := h.up her hu
          refine ⟨m1, m2, e1, ?_⟩
          unfold toPub at e2 ⊢
          rw [hrb]; exact e2
        · intro her hu; rw [hrb]; exact h.idle her hu
      · cases ht
  · cases ht

theorem Inv.valid {E : Env} {n : Nat} {s : Sys} (h : Inv E n s) (hu : SubCtx.Up s.sub E.slot) : SubCtx.ValidPids E.slot s.sub.log := by
  intro a ha
  obtain ⟨p, h1, _⟩ := h.arr hu a ha
  obtain ⟨ops, q1, q2, _⟩ := h.pub
  have := PubCtx.queued_ok q1 q2 (PubCtx.sent_queued q1 h1)
  exact ⟨this.1, this.2.1⟩

theorem Inv.pubReadStep {E : Env} {n : Nat} {s t : Sys} (h : Inv E n s) (hb : n + 2 < U64) {m : Nat}
    (ht : next E s (.pubRead m) = some t) : Inv E (n + 1) t := by
  unfold next at ht
  dsimp only at ht
  split at ht
  · cases ht
  · rename_i k hacc
    split at ht
    · rename_i hok
      cases hx : PubCtx.step s.pub (.read k (some (s.up.take m))) with
      | error f => rw [hx] at ht; cases ht
      | ok x =>
        obtain ⟨r, p⟩ := x
        rw [hx] at ht
        dsimp only at ht
        by_cases hcon : PubCtx.Connected p k
        case neg => rw [if_neg hcon] at ht; cases ht
        rw [if_pos hcon] at ht
        have ht' := Option.some.inj ht
        clear ht
        obtain ⟨f1, f2, f3⟩ := pub_frame h rfl hb hx
        obtain ⟨ops, h1, h2, h3⟩ := h.pub
        obtain ⟨pops, L, g, hq, hb', _⟩ := h1.good
        obtain ⟨sops, hsr⟩ := h.sub
        obtain ⟨a1, a2⟩ := h.acc k hacc
        have hcases : (t.err = false ∧ s.err = false ∧ r ≠ EPROTO) ∨ t.err = true := by
          rw [← ht']
          show ((s.err || decide (r = EPROTO)) = false ∧ _) ∨ (s.err || decide (r = EPROTO)) = true
          cases s.err <;> by_cases hr : r = EPROTO <;> simp [hr]
        obtain ⟨ps, d1, d2, d3⟩ := h.down
        -- what does not depend on the bytes read
        obtain ⟨wb, hsent⟩ : (p.cv.conns k).writeBuf = (s.pub.cv.conns k).writeBuf ∧
            ∀ pid ∈ PubCtx.sentTo k s.pub.pub.log, pid ∈ PubCtx.sentTo k p.pub.log := by
          have hkL : k ∈ L := g.connected.1 a1
          rcases PubCtx.readConn_spec g hx with ⟨q, _⟩ | ⟨_, c1, ys, zs, ds, L', _, qy, q3, _, _, _, _, _, _, q | q⟩
          · exact absurd hkL q
          · refine ⟨q.2.2.2, ?_⟩
            rw [List.append_assoc] at q3
            obtain ⟨es, w1, w2⟩ := PubCtx.good_events g q3
            intro pid hp
            rw [w1, PubCtx.sentTo_append_of (fun x => ?_)]
            · exact List.mem_append_left _ hp
            · have := w2.connect k x
              rw [q.1, List.append_nil] at this
              obtain ⟨_, e⟩ := qy _ this
              cases e
          · exfalso
            have hk' := q3.connected.1 hcon
            rw [q.2.1] at hk'
            exact g.v.nodup.mem_erase_iff.1 hk' |>.1 rfl
        have hdn : toSub E t = (ps.map (frame p)).flatten := by
          rw [← ht', frame_congr f2, ← d2]
          unfold toSub wbytes
          dsimp only
          rw [hacc]
          dsimp only
          rw [wb]
        have mk : (hacc' : t.err = false → WF (p.cv.conns k).readBuf ∧ (p.cv.conns k).readBuf.size = RMC_MAX_PACKET) →
            (hfate : t.err = false → ∀ pid ∈ PubCtx.sentTo k p.pub.log, pid ∈ p.pub.outstanding k ∨ pid ∈ ps.map (·.1) ∨
              (SubCtx.Up s.sub E.slot ∧ pid ∈ (SubCtx.arrivedAt E.slot s.sub.log).map (·.1.pid))) →
            (hup : t.err = false → SubCtx.Up s.sub E.slot → ∃ m1 m2, SubCtx.messagesAt E.slot s.sub.log = m1 ++ m2 ∧ toPub E t = m2.flatten) →
            (hidle : t.err = false → SubCtx.Up s.sub E.slot) → Inv E (n + 1) t := by
          intro hacc' hfate hup hidle
          have e1 : t.pub = p := by rw [← ht']
          have e2 : t.sub = s.sub := by rw [← ht']
          have e3 : t.acc = some k := by rw [← ht']; exact hacc
          have lk : ∀ pid, s.toLink pid → t.toLink pid := by
            rintro pid ⟨j, w1, w2⟩
            have : j = k := Option.some.inj (w1.symm.trans hacc)
            subst this
            exact ⟨j, e3, by rw [e1]; exact hsent _ w2⟩
          refine ⟨by rw [e1]; exact f1, ?_, by rw [e2]; exact h.sub, by rw [e2]; exact h.live, ?_, by rw [e2]; exact h.srb, ?_, ?_,
            ⟨ps, fun x hx => ⟨by rw [e1]; exact f3 _ (d1 x hx).1, lk _ (d1 x hx).2⟩, by rw [e1]; exact hdn, ?_⟩, by rw [e2]; exact hup,
            fun he hn => absurd (hidle he) (by rw [e2] at hn; exact hn)⟩
          · rw [e1, f2.1, f2.2.1, f2.2.2]; exact h.ids
          · rw [e1, e2, addr_congr f2.2.1, f2.2.2]; exact h.to
          · intro j hj
            rw [e3] at hj; cases hj
            rw [e1]; exact ⟨hcon, hacc'⟩
          · rw [e1, e2]
            intro hu a ha
            obtain ⟨q, q1, q2, q3⟩ := h.arr hu a ha
            exact ⟨q, f3 _ q1, q2, fun hm => lk _ (q3 hm)⟩
          · intro j hj
            rw [e3] at hj; cases hj
            rw [e1, e2]; exact hfate
        rcases hcases with ⟨te, her, hr⟩ | te
        case inr =>
          have no : t.err ≠ false := by rw [te]; simp
          exact mk (fun h => absurd h no) (fun h => absurd h no) (fun h => absurd h no) (fun h => absurd h no)
        obtain ⟨a2, a3⟩ := a2 her
        have hu : SubCtx.Up s.sub E.slot := by
          apply Decidable.byContradiction
          intro hn
          have := (h.idle her hn).2
          rw [this] at hok
          simp at hok
          omega
        obtain ⟨m1, m2, e1, e2⟩ := h.up her hu
        have hmsg := SubCtx.messages_ok hsr hu (h.valid hu)
        have hlen : (s.up.take m).length = m := by rw [List.length_take]; omega
        obtain ⟨ms1, ms2, l1, l2, took⟩ := PubCtx.read_link g a1 a2 a3 (xs := s.up.take m)
          (by intro e; rw [e] at hlen; simp at hlen; omega) (by rw [hlen]; exact hok.2.2) hr
          (ms := m2) (fun x hx => (hmsg x (by rw [e1]; exact List.mem_append_right _ hx)).1)
          (ys := s.up.drop m ++ bytes (s.sub.cv.conns E.slot).writeBuf)
          (by
            rw [← e2]; unfold toPub rbytes; rw [hacc]; dsimp only
            rw [List.append_assoc, ← List.append_assoc (s.up.take m), List.take_append_drop, List.append_assoc]) hx
        refine mk (fun _ => ⟨took.wf, took.size⟩) ?_ ?_ (fun _ => hu)
        · intro _ pid hp
          rcases took.fate pid hp with q | ⟨f, l, q1, q2, q3, q4⟩ | ⟨q1, q2⟩
          · exact .inl q
          · have hin : SubCtx.ackFrame f l ∈ SubCtx.messagesAt E.slot s.sub.log := by
              rw [e1, l1]; simp [q4]
            obtain ⟨a, w1, w2⟩ := (hmsg _ hin).2 f l q3.1 q3.2 rfl pid q1 q2
            exact .inr (.inr ⟨hu, List.mem_map.2 ⟨a, w1, w2⟩⟩)
          · rcases d3 k hacc her pid q1 with w | w | w
            · exact absurd w q2
            · exact .inr (.inl w)
            · exact .inr (.inr w)
        · intro _ _
          refine ⟨m1 ++ ms1, ms2, by rw [List.append_assoc, ← l1]; exact e1, ?_⟩
          rw [← l2, ← ht']
          unfold toPub rbytes
          dsimp only
          rw [hacc]
          dsimp only
          rw [List.append_assoc]
    · cases ht

theorem InDatagram.honest {E : Env} {c : PubCtx} {ops : List PubCtx.Op} (h : PubCtx.Reaches ops c) (hk : ∀ op ∈ ops, callOk op = true)
    (hid : c.nodeId < U32 ∧ c.listenIp < U32 ∧ c.listenPort < 65536) {src : Nat} {bs : List UInt8} {ts : Int} {ann : Option Bool}
    {sk : Except Nat Nat} {cr : ConnVec.ConnRes} (hh : honest E c (.dgram src bs ts ann sk cr)) {x : SPkt}
    (hx : SubCtx.InDatagram (addr E c) c.listenPort x src (bs.take RMC_MAX_PACKET)) :
    ∃ p, (x.pid, p) ∈ sentPkts c.pub.log ∧ x.payload.data = p.data := by
  rcases hh with ⟨_, hb⟩ | hh
  · exact PubCtx.datagram_ok h hk hid hb hx
  · exfalso
    obtain ⟨hd, data, rest, v1, v2, v3, v4, v5, v6, v7, v8⟩ := hx
    have hlen : HDR_LEN ≤ (bs.take RMC_MAX_PACKET).length := by
      rw [v2, List.length_append, List.length_append, PacketHeader.length_enc]; omega
    have hlen' : HDR_LEN ≤ bs.length := by rw [List.length_take] at hlen; omega
    have hdec : PacketHeader.dec bs = hd := by
      have e : bs = hd.enc ++ (data ++ rest ++ bs.drop RMC_MAX_PACKET) := by
        rw [← List.append_assoc, ← List.append_assoc, ← v2, List.take_append_drop]
      rw [e]; exact PacketHeader.dec_enc v1 _
    have := hh hlen'
    rw [hdec] at this
    exact this (by rw [v5, v6])

theorem Inv.subStep {E : Env} {n : Nat} {s t : Sys} (h : Inv E n s) {op : SubCtx.Op}
    (ht : next E s (.sub op) = some t) : Inv E n t := by
  unfold next at ht
  dsimp only at ht
  split at ht
  · rename_i hok
    cases hx : SubCtx.step s.sub op with
    | error f => rw [hx] at ht; cases ht
    | ok x =>
      obtain ⟨r, c⟩ := x
      rw [hx] at ht
      dsimp only at ht
      split at ht
      · rename_i hlive
        cases ht
        obtain ⟨ops, h1, h2, h3⟩ := h.pub
        obtain ⟨sops, hsr⟩ := h.sub
        have hsr' := hsr.snoc hx
        have hl := hok.1
        obtain ⟨es, kept, harr⟩ := SubCtx.step_link hsr.inv hx
          (by rintro rv ts rfl; simp [leavesSub] at hl) (by rintro rfl; simp [leavesSub] at hl) h.live hlive
        have hdrop : c.log.drop s.sub.log.length = es := by rw [kept.log, List.drop_left]
        have new : ∀ p m ts, SEv.arrive E.slot p m ts ∈ es →
            ∃ q, (p.pid, q) ∈ sentPkts s.pub.pub.log ∧ p.payload.data = q.data ∧ (m = false → s.toLink p.pid) := by
          intro p m ts hp
          obtain ⟨e0, rs, src, bs, ts', ann, sk, cr, e1, e2, e3⟩ := harr p m ts hp
          rw [h.to.1, h.to.2] at e3
          suffices hq : ∃ q, (p.pid, q) ∈ sentPkts s.pub.pub.log ∧ p.payload.data = q.data by
            obtain ⟨q, q1, q2⟩ := hq
            exact ⟨q, q1, q2, fun hm => by rw [e0] at hm; cases hm⟩
          refine InDatagram.honest h1 h2 ⟨h.ids.1, h.ids.2.1, h.ids.2.2.1⟩ (hok.2 (.dgram src bs ts' ann sk cr) ?_) e3
          rw [e1]; exact e2
        obtain ⟨ps, d1, d2, d3⟩ := h.down
        refine ⟨⟨ops, h1, h2, by omega⟩, h.ids, ⟨_, hsr'⟩, hlive, ?_, ?_, h.acc, ?_, ⟨ps, d1, ?_, ?_⟩, ?_, ?_⟩
        · show (c.cv.conns E.slot).addr = _ ∧ (c.cv.conns E.slot).port = _
          rw [kept.addr, kept.port]; exact h.to
        · show WF (c.cv.conns E.slot).readBuf ∧ (c.cv.conns E.slot).readBuf.size = _
          rw [kept.rb]; exact h.srb
        · intro hu' a ha
          have ha' : a ∈ SubCtx.arrivedAt E.slot c.log := ha
          rw [kept.log] at ha'
          cases kept.ph with
          | up hu _ hn =>
            obtain ⟨as, b1, b2⟩ := SubCtx.arrivedAt_up (log := s.sub.log) hn
            rw [b1] at ha'
            rcases List.mem_append.1 ha' with w | w
            · exact h.arr hu a w
            · exact new _ _ _ ((b2 a).1 w)
          | waiting _ hu _ => exact absurd hu' hu
          | done _ _ e1 e2 he g1 g2 =>
            rw [he] at ha'
            have := (SubCtx.arrivedAt_done g2 a).1 ha'
            exact new a.1 a.2.1 a.2.2 (by rw [he]; simp [this])
        · show bytes (c.cv.conns E.slot).readBuf ++ s.down ++ wbytes s = _
          rw [kept.rb]; exact d2
        · intro k hk her pid hp
          rcases d3 k hk her pid hp with w | w | ⟨w1, w2⟩
          · exact .inl w
          · exact .inr (.inl w)
          · cases kept.ph with
            | up hu hu' hn =>
              obtain ⟨as, b1, b2⟩ := SubCtx.arrivedAt_up (log := s.sub.log) hn
              refine .inr (.inr ⟨hu', ?_⟩)
              show pid ∈ (SubCtx.arrivedAt E.slot c.log).map (·.1.pid)
              rw [kept.log, b1, List.map_append]
              exact List.mem_append_left _ w2
            | waiting hu => exact absurd w1 hu
            | done hu => exact absurd w1 hu
        · intro her hu'
          have st' := SubCtx.C38_stream hsr' hu'
          show ∃ m1 m2, SubCtx.messagesAt E.slot c.log = m1 ++ m2 ∧ rbytes s ++ (s.up ++ SubCtx.outs E.slot (c.log.drop s.sub.log.length)) ++
            bytes (c.cv.conns E.slot).writeBuf = m2.flatten
          rw [hdrop]
          cases kept.ph with
          | up hu _ hn =>
            obtain ⟨m1, m2, e1, e2⟩ := h.up her hu
            have st := SubCtx.C38_stream hsr hu
            obtain ⟨ms, q1⟩ := SubCtx.messages_up (log := s.sub.log) hn
            have q2 := SubCtx.bytesOut_up (log := s.sub.log) hn
            rw [← kept.log] at q1 q2
            rw [q1, q2, List.flatten_append, ← st, List.append_assoc, List.append_assoc] at st'
            have st2 := List.append_cancel_left st'
            refine ⟨m1, m2 ++ ms, by rw [q1, e1, List.append_assoc], ?_⟩
            rw [List.flatten_append, ← e2]
            unfold toPub
            simp only [List.append_assoc]
            rw [st2]
          | waiting _ hu => exact absurd hu' hu
          | done hu _ e1 e2 he g1 g2 =>
            refine ⟨[], SubCtx.messagesAt E.slot c.log, rfl, ?_⟩
            have q2 := SubCtx.bytesOut_done (log := s.sub.log) g1 g2
            rw [← he, ← kept.log] at q2
            rw [(h.idle her hu).1, (h.idle her hu).2, ← st', q2]
            rfl
        · intro her hu'
          cases kept.ph with
          | up _ hu => exact absurd hu hu'
          | waiting hu _ hn =>
            refine ⟨(h.idle her hu).1, ?_⟩
            show s.up ++ SubCtx.outs E.slot (c.log.drop s.sub.log.length) = []
            rw [hdrop, (h.idle her hu).2, SubCtx.outs_unused hn]; rfl
          | done _ hu => exact absurd hu hu'
      · cases ht
  · cases ht

theorem Inv.subReadStep {E : Env} {n : Nat} {s t : Sys} (h : Inv E n s) {m : Nat} {ts : Int}
    (ht : next E s (.subRead m ts) = some t) : Inv E n t := by
  unfold next at ht
  dsimp only at ht
  split at ht
  · rename_i hok
    cases hx : SubCtx.step s.sub (.read E.slot (some (s.down.take m)) ts) with
    | error f => rw [hx] at ht; cases ht
    | ok x =>
      obtain ⟨r, c⟩ := x
      rw [hx] at ht
      dsimp only at ht
      by_cases hup' : SubCtx.Up c E.slot
      case neg => rw [if_neg hup'] at ht; cases ht
      rw [if_pos hup'] at ht
      cases ht
      obtain ⟨hu, hm0, hm1, hm2⟩ := hok
      obtain ⟨ops, h1, h2, h3⟩ := h.pub
      obtain ⟨sops, hsr⟩ := h.sub
      have hsr' := hsr.snoc hx
      obtain ⟨ps, d1, d2, d3⟩ := h.down
      have hlen : (s.down.take m).length = m := by rw [List.length_take]; omega
      obtain ⟨hdr, hhdr⟩ : ∃ f : Nat × Payload → PacketHeader × List UInt8,
        f = fun x => (⟨x.1, s.pub.nodeId, x.2.data.length, s.pub.listenIp, s.pub.listenPort⟩, x.2.data) := ⟨_, rfl⟩
      have hwf : SubCtx.WellFormed (ps.map hdr) := by
        intro y hy
        obtain ⟨x, hx', rfl⟩ := List.mem_map.1 hy
        have := PubCtx.queued_ok h1 h2 (PubCtx.sent_queued h1 (d1 x hx').1)
        have e : RMC_MAX_PAYLOAD = 65312 := rfl
        rw [hhdr]
        exact ⟨⟨by show x.1 < U64; omega, h.ids.1, by show x.2.data.length < 65536; omega, h.ids.2.1, h.ids.2.2.1⟩, rfl⟩
      have hfr : ∀ qs : List (Nat × Payload), (qs.map hdr).map (fun p => SubCtx.frameOf p.1 p.2) = qs.map (frame s.pub) := by
        intro qs; rw [List.map_map]; rw [hhdr]; rfl
      obtain ⟨f1, f2, es, l1, l2, l3, l4, l5, l6, l7, l8, l9, l10, l11⟩ := SubCtx.read_link hsr.inv hu h.srb.1 h.srb.2 (xs := s.down.take m)
        (by intro e; rw [e] at hlen; simp at hlen; omega) (by rw [hlen]; exact hm2) hup' hwf
        (ys := s.down.drop m ++ wbytes s) (by
          rw [hfr, ← d2]; unfold toSub
          rw [List.append_assoc, ← List.append_assoc (s.down.take m), List.take_append_drop, List.append_assoc]) hx
      obtain ⟨p1, p2, r1, r2, r3⟩ := List.map_eq_append_iff.1 l1
      have hcomp := SubCtx.quietEv_complete (i := E.slot) l10
      obtain ⟨as, b1, b2⟩ := SubCtx.arrivedAt_up (log := s.sub.log) hcomp
      have hlive : SubCtx.Live c E.slot := ⟨l2.1, by rw [l2.2]; simp⟩
      refine ⟨⟨ops, h1, h2, by omega⟩, h.ids, ⟨_, hsr'⟩, hlive, ?_, ⟨l3, l4⟩, h.acc, ?_, ⟨p2, ?_, ?_, ?_⟩, ?_, fun _ hn => absurd l2 hn⟩
      · show (c.cv.conns E.slot).addr = _ ∧ (c.cv.conns E.slot).port = _
        rw [l7, l8]; exact h.to
      · intro _ a ha
        have ha' : a ∈ SubCtx.arrivedAt E.slot c.log := ha
        rw [l9, b1] at ha'
        rcases List.mem_append.1 ha' with w | w
        · exact h.arr hu a w
        · have hc : (E.slot, a.1.pid, a.1.payload.data, a.2.1) ∈ SubCtx.came es := SubCtx.mem_came.2 ⟨a.1, a.2.2, (b2 a).1 w, rfl, rfl⟩
          rw [l11, ← r2, List.map_map] at hc
          obtain ⟨x, hx1, hx2⟩ := List.mem_map.1 hc
          rw [hhdr] at hx2
          simp only [Function.comp, Prod.mk.injEq] at hx2
          have := d1 x (by rw [r1]; exact List.mem_append_left _ hx1)
          refine ⟨x.2, ?_, hx2.2.2.1.symm, fun _ => ?_⟩
          · rw [← hx2.2.1]; exact this.1
          · rw [← hx2.2.1]; exact this.2
      · intro x hx'; exact d1 x (by rw [r1]; exact List.mem_append_right _ hx')
      · show bytes (c.cv.conns E.slot).readBuf ++ s.down.drop m ++ wbytes s = _
        rw [List.append_assoc, l5, ← r3, hfr]
      · intro k hk her pid hp
        rcases d3 k hk her pid hp with w | w | ⟨w1, w2⟩
        · exact .inl w
        · rw [r1, List.map_append] at w
          rcases List.mem_append.1 w with w | w
          · refine .inr (.inr ⟨l2, ?_⟩)
            obtain ⟨x, hx1, hx2⟩ := List.mem_map.1 w
            have hc : (E.slot, pid, x.2.data, false) ∈ SubCtx.came es := by
              rw [l11, ← r2, List.map_map]
              refine List.mem_map.2 ⟨x, hx1, ?_⟩
              rw [hhdr, ← hx2]; rfl
            obtain ⟨p, ts', c1, c2, c3⟩ := SubCtx.mem_came.1 hc
            show pid ∈ (SubCtx.arrivedAt E.slot c.log).map (·.1.pid)
            rw [l9, b1, List.map_append]
            refine List.mem_append_right _ (List.mem_map.2 ⟨(p, false, ts'), ?_, c2⟩)
            exact (b2 (p, false, ts')).2 c1
          · exact .inr (.inl w)
        · refine .inr (.inr ⟨l2, ?_⟩)
          show pid ∈ (SubCtx.arrivedAt E.slot c.log).map (·.1.pid)
          rw [l9, b1, List.map_append]
          exact List.mem_append_left _ w2
      · intro her _
        obtain ⟨m1, m2, e1, e2⟩ := h.up her hu
        refine ⟨m1, m2, ?_, ?_⟩
        · show SubCtx.messagesAt E.slot c.log = _
          rw [l9, SubCtx.quietEv_messages l10]; exact e1
        · show rbytes s ++ s.up ++ bytes (c.cv.conns E.slot).writeBuf = _
          rw [l6]; exact e2
  · cases ht

theorem calls_append : ∀ (a b : List SysOp), calls (a ++ b) = calls a + calls b := by
  intro a
  induction a with
  | nil => intro b; simp [calls]
  | cons op a ih => intro b; rw [List.cons_append]; cases op <;> simp only [calls, ih] <;> omega

theorem calls_le : ∀ (a : List SysOp), calls a ≤ a.length := by
  intro a
  induction a with
  | nil => simp [calls]
  | cons op a ih => rw [List.length_cons]; cases op <;> simp only [calls] <;> omega

theorem calls_cons (op : SysOp) (ops : List SysOp) : calls (op :: ops) = calls [op] + calls ops := calls_append [op] ops

theorem Inv.step {E : Env} {n : Nat} {s t : Sys} (h : Inv E n s) {op : SysOp} (hb : n + calls [op] + 1 < U64)
    (ht : next E s op = some t) : Inv E (n + calls [op]) t := by
  cases op with
  | pub op => exact h.pubStep hb ht
  | accept k ar cb => exact h.acceptStep hb ht
  | pubRead m => exact h.pubReadStep hb ht
  | sub op => exact h.subStep ht
  | subRead m ts => exact h.subReadStep ht

theorem Inv.run {E : Env} : ∀ (ops : List SysOp) {n : Nat} {s t : Sys}, Inv E n s → n + calls ops + 1 < U64 →
    run E s ops = some t → Inv E (n + calls ops) t := by
  intro ops
  induction ops with
  | nil => intro n s t h _ ht; cases ht; exact h
  | cons op ops ih =>
    intro n s t h hb ht
    rw [calls_cons] at hb
    unfold Sys.run at ht
    cases hx : next E s op with
    | none => rw [hx] at ht; cases ht
    | some u =>
      rw [hx] at ht
      have := ih (h.step (by omega) hx) (by omega) ht
      rw [calls_cons, ← Nat.add_assoc]
      exact this

end Sys
end Rmc
