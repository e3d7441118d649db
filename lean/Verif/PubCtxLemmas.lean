import Verif.PubCtx
import Verif.Polls
import Verif.ConnLemmas
import Verif.Props.Pub
import Verif.Props.Proto

/-! # Lemmas about the publisher context: refinement to histories of pub.c, connection invariants -/

set_option linter.unusedSimpArgs false
set_option linter.unusedVariables false

namespace Rmc
open CircBuf

/-! ## Histories of pub.c -/

theorem allowed_legal : ∀ (ops : List POp) (A : PSpec), A.allowedAll ops → legal A.subs ops := by
  intro ops
  induction ops with
  | nil => intro A _; trivial
  | cons op ops ih =>
    intro A h
    have h2 := ih _ h.2
    cases op with
    | connect k => exact ⟨h.1, h2⟩
    | close k => exact ⟨h.1, h2⟩
    | queue p => exact h2
    | announce p => exact h2
    | ack k pid => exact h2
    | send ts =>
      have : (A.step (.send ts)).subs = A.subs := by simp only [PSpec.step]; split <;> rfl
      rw [this] at h2; exact h2

theorem allowedAll_snoc : ∀ (ops : List POp) (A : PSpec) (op : POp), A.allowedAll ops → (A.run ops).allowed op →
    A.allowedAll (ops ++ [op]) := by
  intro ops
  induction ops with
  | nil => intro A op _ h; exact ⟨h, trivial⟩
  | cons o ops ih => intro A op h1 h2; exact ⟨h1.1, ih _ _ h1.2 h2⟩

theorem PSpec.run_snoc (A : PSpec) (ops : List POp) (op : POp) : A.run (ops ++ [op]) = (A.run ops).step op := by
  unfold PSpec.run; rw [List.foldl_append]; rfl

theorem Pub.run_cons (s : Pub) (op : POp) (ops : List POp) :
    Pub.run s (op :: ops) = (Pub.step s op >>= fun s => Pub.run s ops) := rfl

theorem Pub.run_snoc : ∀ (ops : List POp) {s s1 s2 : Pub} {op : POp}, Pub.run s ops = .ok s1 →
    Pub.step s1 op = .ok s2 → Pub.run s (ops ++ [op]) = .ok s2 := by
  intro ops
  induction ops with
  | nil =>
    intro s s1 s2 op h1 h2
    cases h1
    rw [List.nil_append, Pub.run_cons, h2]; rfl
  | cons o ops ih =>
    intro s s1 s2 op h1 h2
    rw [Pub.run_cons] at h1
    rw [List.cons_append, Pub.run_cons]
    cases hs : Pub.step s o with
    | error f => rw [hs] at h1; cases h1
    | ok t =>
      rw [hs, Pub.ok_bind] at h1
      rw [Pub.ok_bind]
      exact ih h1 h2

/-- The specification state a history of pub.c leads to. -/
abbrev spec (pops : List POp) : PSpec := PSpec.init.run pops

/-- The payload a history step hands over is not longer than the library's limit. -/
def small : POp → Prop
  | .queue p => p.data.length ≤ RMC_MAX_PAYLOAD
  | .announce p => p.data.length ≤ RMC_MAX_PAYLOAD
  | _ => True

/-- `s` is what pub.c reaches by the legal history `pops`. -/
structure PGood (s : Pub) (pops : List POp) : Prop where
  legal : legal [] pops
  fits : ∀ op ∈ pops, small op
  bnd : (queueArgs pops).length + 1 < U64
  run : Pub.run Pub.init pops = .ok s

theorem PGood.reached {s : Pub} {pops : List POp} (h : PGood s pops) : Reached s (spec pops) :=
  Rmc.reached h.legal h.bnd h.run

theorem PGood.subs {s : Pub} {pops : List POp} (h : PGood s pops) : s.subs = (spec pops).subs := by
  obtain ⟨_, _, _, _, _, _, _, _, _, _, _, _, _, _, r12, _, _⟩ := h.reached.rel; exact r12

theorem PGood.init : PGood Pub.init [] := ⟨trivial, by simp, by decide, rfl⟩

theorem PGood.step {s : Pub} {pops : List POp} (h : PGood s pops) {op : POp} (ha : (spec pops).allowed op) (hf : small op)
    (hb : (queueArgs pops).length + (queueArgs [op]).length + 1 < U64) :
    ∃ s', Pub.step s op = .ok s' ∧ PGood s' (pops ++ [op]) := by
  have hr := h.reached
  have hb' : (queueArgs (pops ++ [op])).length + 1 < U64 := by
    rw [Pub.queueArgs_append, List.length_append]; omega
  have hn : (spec pops).nextPid = (queueArgs pops).length + 1 := by
    have e3 := congrArg List.length hr.linv.pids
    have hid := (C16_ids h.legal h.bnd h.run).1
    rw [List.length_map, List.length_range', ← hr.log, hid] at e3
    have := hr.inv.pos
    simp at e3; omega
  obtain ⟨s', h1, h2⟩ := Pub.sim_step hr.rel hr.inv ha (by rw [hn]; omega)
  refine ⟨s', h1, ?_, ?_, hb', Pub.run_snoc pops h.run h1⟩
  · exact allowed_legal _ PSpec.init (allowedAll_snoc _ _ _ (legal_allowed _ PSpec.init h.legal) ha)
  · intro o ho
    rcases List.mem_append.mp ho with ho | ho
    · exact h.fits o ho
    · rw [List.mem_singleton.mp ho]; exact hf

/-- The payloads handed over in a history. -/
theorem PGood.size_le {s : Pub} {pops : List POp} (h : PGood s pops) {p : Payload}
    (hp : p ∈ queueArgs pops ∨ p ∈ announceArgs pops) : p.data.length ≤ RMC_MAX_PAYLOAD := by
  rcases hp with hp | hp <;>
  · obtain ⟨op, h1, h2⟩ := List.mem_filterMap.mp hp
    have := h.fits op h1
    cases op <;> simp at h2 <;> subst h2 <;> exact this

/-- The packets of the specification state were handed over in the history. -/
theorem PGood.spec_mem {s : Pub} {pops : List POp} (h : PGood s pops) :
    (∀ x ∈ (spec pops).que, x.2 ∈ queueArgs pops ∧ x.1 < U64) ∧ (∀ p ∈ (spec pops).ann, p ∈ announceArgs pops) ∧
    (∀ r ∈ (spec pops).infl, r.payload ∈ queueArgs pops ∧ 0 < r.pid ∧ r.pid < U64) := by
  have hr := h.reached
  obtain ⟨e1, e2⟩ := run_queued pops PSpec.Inv_init (legal_allowed pops PSpec.init h.legal)
  have e1' : (PLog.queuedPkts (spec pops).log).map (·.2) = queueArgs pops := e1
  have e2' : PLog.queuedAnn (spec pops).log = announceArgs pops := e2
  have hpid : ∀ x ∈ PLog.queuedPkts (spec pops).log, x.1 < U64 := by
    intro x hx
    have h1 : x.1 ∈ (PLog.queuedPkts (spec pops).log).map (·.1) := List.mem_map.mpr ⟨x, hx, rfl⟩
    have hlen := congrArg List.length hr.linv.pids
    rw [List.length_map, List.length_range', ← List.length_map (f := fun x => x.2), e1'] at hlen
    rw [hr.linv.pids, List.mem_range'_1] at h1
    have := h.bnd
    omega
  have hsent : ∀ x ∈ PLog.sentPkts (spec pops).log, x.2 ∈ queueArgs pops ∧ x.1 < U64 := by
    intro x hx
    have : x ∈ PLog.queuedPkts (spec pops).log := by rw [hr.linv.qp]; exact List.mem_append_left _ hx
    exact ⟨by rw [← e1']; exact List.mem_map.mpr ⟨x, this, rfl⟩, hpid x this⟩
  refine ⟨?_, ?_, ?_⟩
  · intro x hx
    have : x ∈ PLog.queuedPkts (spec pops).log := by rw [hr.linv.qp]; exact List.mem_append_right _ hx
    exact ⟨by rw [← e1']; exact List.mem_map.mpr ⟨x, this, rfl⟩, hpid x this⟩
  · intro p hp
    rw [← e2', hr.linv.qa]; exact List.mem_append_right _ hp
  · intro r hx
    have : (r.pid, r.payload) ∈ (spec pops).infl.map (fun r => (r.pid, r.payload)) := List.mem_map.mpr ⟨r, hx, rfl⟩
    rw [hr.linv.inflEq] at this
    obtain ⟨h1, h2⟩ := hsent _ (List.mem_filter.mp this).1
    exact ⟨h1, (hr.inv.range r.pid (List.mem_append_left _ (List.mem_map.mpr ⟨r, hx, rfl⟩))).1, h2⟩

/-- The packet `send` takes. -/
inductive Next (A : PSpec) : Nat → Payload → Prop
  | ann {p : Payload} {ps : List Payload} (h : A.ann = p :: ps) : Next A 0 p
  | que {pid : Nat} {p : Payload} {q : List (Nat × Payload)} (h1 : A.ann = []) (h2 : A.que = (pid, p) :: q) : Next A pid p

/-- The next packet to multicast: `none` iff nothing is queued. -/
theorem PGood.next {s : Pub} {pops : List POp} (h : PGood s pops) :
    (Pub.nextQueued s = none ∧ s.queueSize = 0) ∨
    (∃ a pkt, Pub.nextQueued s = some a ∧ Pub.deref s.pk a = .ok pkt ∧ Next (spec pops) pkt.pid pkt.payload ∧
      pkt.pid < U64 ∧ pkt.payload.data.length ≤ RMC_MAX_PAYLOAD ∧ s.queueSize ≠ 0) := by
  have hr := h.reached
  have hm := h.spec_mem
  obtain ⟨Q, N, I, r1, r2, r3, r4, r5, r6, r7, r8, r9, _⟩ := hr.rel
  unfold Pub.nextQueued Pub.queueSize Pub.deref
  cases N with
  | cons e N =>
    right
    refine ⟨e.1, ⟨0, 0, some .queued, 0, e.2⟩, by rw [r4]; simp, by rw [r8 e (by simp)], .ann (by rw [r2]; rfl), (by show 0 < U64; decide),
      h.size_le (.inr (hm.2.1 _ (by rw [r2]; simp))), by rw [r4]; simp⟩
  | nil =>
    cases Q with
    | nil => left; rw [r4]; simp
    | cons e Q =>
      right
      have h1 := hm.1 e.2 (by rw [r1]; simp)
      refine ⟨e.1, ⟨e.2.1, 0, some .queued, 0, e.2.2⟩, by rw [r4]; simp, by rw [r7 e (by simp)],
        .que (by rw [r2]; rfl) (by rw [r1]; rfl), h1.2, h.size_le (.inl h1.1), by rw [r4]; simp⟩

/-! ## The invariant of a publisher context -/

namespace PubCtx

/-- What holds of a publisher context between API calls: the packet store is what pub.c reaches by the history `pops`;
exactly the slots in `L` are in use, they are the connected subscribers of the store; their write buffers are well
formed; read readiness is asked for, and write readiness exactly when the write buffer is not empty; the event loop has each registered with its action. -/
structure Good (c : PubCtx) (pops : List POp) (L : List Nat) : Prop where
  p : PGood c.pub pops
  v : ConnVec.VInv c.cv L
  slots : ∀ k, k ∈ L ↔ k ∈ c.pub.subs
  conn : ∀ i ∈ L, (c.cv.conns i).mode = .connected
  wb : ∀ i ∈ L, WF (c.cv.conns i).writeBuf ∧ (c.cv.conns i).writeBuf.size = c.cv.bufSize
  buf : c.cv.bufSize = RMC_MAX_PACKET
  arm : ∀ i ∈ L, (c.cv.conns i).action.r = true ∧ ((c.cv.conns i).action.w = true ↔ bytes (c.cv.conns i).writeBuf ≠ [])
  regs : ∀ i, i < c.cv.size → reg i c.cv.polls = some (if i ∈ L then some (c.cv.conns i).action else none)
  zero : ∀ i ∈ L, bytes (c.cv.conns i).writeBuf = [] → (c.cv.conns i).writeBuf.start = 0

theorem Good.congr {c c' : PubCtx} {pops : List POp} {L : List Nat} (h : Good c pops L) (e1 : c'.pub = c.pub)
    (e2 : c'.cv = c.cv) : Good c' pops L := by
  obtain ⟨a, b, c1, d, e, f, g, i, z⟩ := h
  exact ⟨e1 ▸ a, e2 ▸ b, e1 ▸ c1, e2 ▸ d, e2 ▸ e, e2 ▸ f, e2 ▸ g, e2 ▸ i, e2 ▸ z⟩

theorem Good.fds {c c' : PubCtx} {pops : List POp} {L : List Nat} (h : Good c pops L) {es : List FdEv} (e1 : c'.pub = c.pub)
    (e2 : c'.cv = c.cv.fdAll es) : Good c' pops L := by
  obtain ⟨a, b, c1, d, e, f, g, i, z⟩ := h
  have : Good { c with cv := c.cv.fdAll es } pops L := ⟨a, ConnVec.VInv_fdAll b es, c1, d, e, f, g, i, z⟩
  exact this.congr e1 e2

theorem Good.setPub {c : PubCtx} {pops pops' : List POp} {L : List Nat} (h : Good c pops L) {s : Pub} (hs : PGood s pops')
    (hsubs : s.subs = c.pub.subs) : Good { c with pub := s } pops' L :=
  ⟨hs, h.v, by intro k; rw [h.slots k]; show _ ↔ k ∈ s.subs; rw [hsubs], h.conn, h.wb, h.buf, h.arm, h.regs, h.zero⟩

theorem Good.init (mem : Nat → Conn) {n : Nat} (hn : n ≤ LISTEN_INDEX) (a b c : Nat) :
    Good (PubCtx.init mem n a b c) [] [] :=
  ⟨PGood.init, ConnVec.VInv_init mem n RMC_MAX_PACKET hn, by intro k; simp [PubCtx.init, Pub.init], by simp, by simp, rfl,
    by simp, by intro i _; rfl, by simp⟩

/-- A poll callback about the multicast or the listen socket. -/
theorem Good.pollOther {c : PubCtx} {pops : List POp} {L : List Nat} (h : Good c pops L) {e : PollEv}
    (he : LISTEN_INDEX ≤ e.idx) : Good { c with cv := c.cv.poll e } pops L := by
  refine ⟨h.p, ConnVec.VInv_poll h.v e, h.slots, h.conn, h.wb, h.buf, h.arm, ?_, h.zero⟩
  intro i hi
  have hsz := h.v.sz
  have hi' : i < c.cv.size := hi
  show reg i (c.cv.polls ++ [e]) = _
  rw [reg_other (by omega)]
  exact h.regs i hi

/-- Changing a connection in use, with or without telling the event loop. -/
theorem Good.setConn {c : PubCtx} {pops : List POp} {L : List Nat} (h : Good c pops L) {i : Nat} (hi : i ∈ L) {x : Conn}
    {es : List PollEv} (hd : x.desc = (c.cv.conns i).desc) (hm : x.mode = (c.cv.conns i).mode) (hx : x.index = i)
    (hwf : WF x.writeBuf) (hsz : x.writeBuf.size = c.cv.bufSize) (harm : x.action.r = true ∧ (x.action.w = true ↔ bytes x.writeBuf ≠ []))
    (hz : bytes x.writeBuf = [] → x.writeBuf.start = 0)
    (hes : (es = [] ∧ x.action = (c.cv.conns i).action) ∨
      ∃ d, es = [.modify i d (c.cv.conns i).action x.action]) :
    Good { c with cv := { c.cv.set i x with polls := c.cv.polls ++ es } } pops L := by
  have hlt := h.v.lt i hi
  refine ⟨h.p, ?_, h.slots, ?_, ?_, h.buf, ?_, ?_, ?_⟩
  rotate_left 5
  · intro j hj
    show bytes (if j = i then x else c.cv.conns j).writeBuf = [] → (if j = i then x else c.cv.conns j).writeBuf.start = 0
    split
    · exact hz
    · exact h.zero j hj
  · refine ConnVec.VInv_set h.v hi x ?_ ?_ hx _
    · rw [hd]; exact (h.v.desc i hlt).2 hi
    · rw [hm]; exact (h.v.mode i hlt).2 hi
  · intro j hj
    show (if j = i then x else c.cv.conns j).mode = _
    split
    · rw [hm]; exact h.conn i hi
    · exact h.conn j hj
  · intro j hj
    show WF (if j = i then x else c.cv.conns j).writeBuf ∧ (if j = i then x else c.cv.conns j).writeBuf.size = _
    split
    · exact ⟨hwf, hsz⟩
    · exact h.wb j hj
  · intro j hj
    show (if j = i then x else c.cv.conns j).action.r = true ∧ ((if j = i then x else c.cv.conns j).action.w = true ↔
      bytes (if j = i then x else c.cv.conns j).writeBuf ≠ [])
    split
    · exact harm
    · exact h.arm j hj
  · intro j hj
    show reg j (c.cv.polls ++ es) = some (if j ∈ L then some (if j = i then x else c.cv.conns j).action else none)
    have hr := h.regs j hj
    rcases hes with ⟨rfl, he⟩ | ⟨d, rfl⟩
    · rw [List.append_nil, hr]
      by_cases e : j = i
      · subst e; rw [if_pos rfl, he]
      · rw [if_neg e]
    · by_cases e : j = i
      · subst e
        rw [if_pos hi] at hr
        rw [reg_modify hr, if_pos hi, if_pos rfl]
      · rw [reg_other (by simp only [PollEv.idx]; exact fun h => e h.symm), hr, if_neg e]

/-! ## Queueing, acknowledging -/

/-- The history step of pub.c for a queued packet. -/
def qop (p : Payload) (ann : Bool) : POp := if ann then .announce p else .queue p

theorem queuePacket_long {c : PubCtx} {p : Payload} {ann : Bool} (h : RMC_MAX_PAYLOAD < p.data.length) :
    queuePacket c p ann = .ok (EMSGSIZE, c) := by
  unfold queuePacket; rw [if_pos h]

theorem queuePacket_busy {c : PubCtx} {p : Payload} {ann : Bool} (h : ¬ RMC_MAX_PAYLOAD < p.data.length)
    (hs : c.suspended = true) : queuePacket c p ann = .ok (EBUSY, c) := by
  unfold queuePacket trafficSuspended; rw [if_neg h, hs]; rfl

theorem queuePacket_ok {c : PubCtx} {p : Payload} {ann : Bool} (h : ¬ RMC_MAX_PAYLOAD < p.data.length)
    (hs : c.suspended = false) {s' : Pub} (hp : Pub.step c.pub (qop p ann) = .ok s') :
    queuePacket c p ann = .ok (0, { c with
      pub := s', cv := c.cv.poll (.modify MULTICAST_INDEX c.mcast (wIf (Pub.nextQueued c.pub).isSome) .W),
      suspended := decide (c.suspendThr > 0 ∧ Pub.unackedCount s' ≥ c.suspendThr) }) := by
  unfold queuePacket trafficSuspended
  rw [if_neg h, if_neg (by rw [hs]; decide)]
  have key : ∀ d : PubCtx, d.pub = s' → d.suspendThr = c.suspendThr → d.suspended = false →
      (if d.suspendThr > 0 ∧ Pub.unackedCount d.pub ≥ d.suspendThr then { d with suspended := true } else d) =
      { d with suspended := decide (c.suspendThr > 0 ∧ Pub.unackedCount s' ≥ c.suspendThr) } := by
    intro d e1 e2 e3
    rw [e1, e2]
    by_cases hc : c.suspendThr > 0 ∧ Pub.unackedCount s' ≥ c.suspendThr
    · rw [if_pos hc, decide_eq_true hc]
    · rw [if_neg hc, decide_eq_false hc, ← e3, ← e1, ← e2]
  cases ann with
  | true =>
    have e : Pub.queueNoAck c.pub p = .ok s' := hp
    simp only [if_true]
    rw [e, Pub.ok_bind]
    refine congrArg (fun d => Except.ok (0, d)) (key _ rfl rfl rfl)
  | false =>
    have e : (Pub.queuePacket c.pub p >>= fun r => pure r.2) = .ok s' := hp
    cases hq : Pub.queuePacket c.pub p with
    | error f => rw [hq] at e; cases e
    | ok r =>
      rw [hq, Pub.ok_bind] at e
      cases e
      simp only [Bool.false_eq_true, if_false]
      rw [hq]
      refine congrArg (fun d => Except.ok (0, d)) (key _ rfl rfl rfl)

/-- Every outcome of `rmc_pub_queue_packet`. -/
theorem queue_cases {c : PubCtx} {pops : List POp} {L : List Nat} (h : Good c pops L) (p : Payload) (ann : Bool)
    (hb : (queueArgs pops).length + 2 < U64) :
    (RMC_MAX_PAYLOAD < p.data.length ∧ queuePacket c p ann = .ok (EMSGSIZE, c)) ∨
    (p.data.length ≤ RMC_MAX_PAYLOAD ∧ c.suspended = true ∧ queuePacket c p ann = .ok (EBUSY, c)) ∨
    (p.data.length ≤ RMC_MAX_PAYLOAD ∧ c.suspended = false ∧ ∃ s', Pub.step c.pub (qop p ann) = .ok s' ∧
      PGood s' (pops ++ [qop p ann]) ∧ s'.subs = c.pub.subs ∧
      queuePacket c p ann = .ok (0, { c with
        pub := s', cv := c.cv.poll (.modify MULTICAST_INDEX c.mcast (wIf (Pub.nextQueued c.pub).isSome) .W),
        suspended := decide (c.suspendThr > 0 ∧ Pub.unackedCount s' ≥ c.suspendThr) })) := by
  by_cases hl : RMC_MAX_PAYLOAD < p.data.length
  · exact .inl ⟨hl, queuePacket_long hl⟩
  · cases hs : c.suspended with
    | true => exact .inr (.inl ⟨by omega, rfl, queuePacket_busy hl hs⟩)
    | false =>
      have hq : (queueArgs [qop p ann]).length ≤ 1 := by cases ann <;> simp [qop, queueArgs]
      obtain ⟨s', h1, h2⟩ := h.p.step (op := qop p ann) (by cases ann <;> trivial)
        (by cases ann <;> exact Nat.le_of_not_lt hl) (by omega)
      refine .inr (.inr ⟨by omega, rfl, s', h1, h2, ?_, queuePacket_ok hl hs h1⟩)
      rw [h2.subs, h.p.subs]; unfold spec; rw [PSpec.run_snoc]
      cases ann <;> rfl

theorem good_queue {c c' : PubCtx} {pops : List POp} {L : List Nat} (h : Good c pops L) {p : Payload} {ann : Bool}
    (hb : (queueArgs pops).length + 2 < U64) {r : Nat} (hr : queuePacket c p ann = .ok (r, c')) :
    Good c' (pops ++ if r = 0 then [qop p ann] else []) L := by
  rcases queue_cases h p ann hb with ⟨_, e⟩ | ⟨_, _, e⟩ | ⟨_, _, s', h1, h2, h3, e⟩ <;> rw [e] at hr <;> cases hr
  · rw [if_neg (by decide), List.append_nil]; exact h
  · rw [if_neg (by decide), List.append_nil]; exact h
  · rw [if_pos rfl]
    exact ((h.setPub h2 h3).pollOther (e := .modify MULTICAST_INDEX c.mcast (wIf (Pub.nextQueued c.pub).isSome) .W)
      (by show LISTEN_INDEX ≤ MULTICAST_INDEX; decide)).congr rfl rfl

/-- `rmc_pub_packet_ack`. -/
theorem ack_eq {c : PubCtx} {pops : List POp} {L : List Nat} (h : Good c pops L) (i pid : Nat) :
    ∃ s', Pub.step c.pub (.ack i pid) = .ok s' ∧ PGood s' (pops ++ [.ack i pid]) ∧ s'.subs = c.pub.subs ∧
      packetAck c i pid = .ok { c with
        pub := s', suspended := c.suspended && decide (c.resumeThr < Pub.unackedCount s') } := by
  obtain ⟨s', h1, h2⟩ := h.p.step (op := .ack i pid) trivial trivial (by simpa [queueArgs] using h.p.bnd)
  refine ⟨s', h1, h2, ?_, ?_⟩
  · rw [h2.subs, h.p.subs]; unfold spec; rw [PSpec.run_snoc]; rfl
  · unfold packetAck
    have h1' : Pub.packetAck c.pub i pid = .ok s' := h1
    rw [h1', Pub.ok_bind]
    dsimp only
    have key : ∀ d : PubCtx, d.pub = s' → d.resumeThr = c.resumeThr → d.suspended = c.suspended →
        (if d.suspended = true ∧ Pub.unackedCount d.pub ≤ d.resumeThr then { d with suspended := false } else d) =
        { d with suspended := c.suspended && decide (c.resumeThr < Pub.unackedCount s') } := by
      intro d e1 e2 e3
      rw [e1, e2]
      by_cases hc : d.suspended = true ∧ Pub.unackedCount s' ≤ c.resumeThr
      · rw [if_pos hc, decide_eq_false (by omega), Bool.and_false]
      · rw [if_neg hc]
        cases hs : c.suspended with
        | false => rw [Bool.false_and, ← hs, ← e3, ← e1, ← e2]
        | true =>
          rw [hs] at e3
          rw [decide_eq_true (by simp [e3] at hc; omega), Bool.and_true, ← e3, ← e1, ← e2]
    exact congrArg Except.ok (key { c with pub := s' } rfl rfl rfl)

theorem good_ack {c : PubCtx} {pops : List POp} {L : List Nat} (h : Good c pops L) (i pid : Nat) :
    ∃ c', packetAck c i pid = .ok c' ∧ Good c' (pops ++ [.ack i pid]) L ∧ c'.cv = c.cv := by
  obtain ⟨s', h1, h2, h3, h4⟩ := ack_eq h i pid
  exact ⟨_, h4, (h.setPub h2 h3).congr rfl rfl, rfl⟩

end PubCtx
end Rmc
