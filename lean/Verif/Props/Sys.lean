import Verif.SysDrain
import Verif.Props.SubCtxTcp

/-! # Properties of a publisher and a subscriber together (C49, C50, C51)

`Sys.run E s0 ops = some s`: the history `ops` of calls on both sides leads from `s0` to `s`; multicast datagrams get lost,
duplicated and reordered in any way, the TCP connection between the two delivers its bytes in order, in pieces of any size.
`Sys.Start` is the moment at which the subscriber has begun to connect.

`PLog.queuedPkts`: the packets the application of the publisher has queued, with the ids they got (1, 2, 3, ...: C16_api).
`SubCtx.deliveredAt i`: the packets made ready for the application of the subscriber since the connection was set up. -/

set_option linter.unusedSimpArgs false
set_option linter.unusedVariables false

namespace Rmc
namespace Sys
open PLog

/-- The states of the composed system as long as the connection is not closed. -/
def Reached (E : Env) (s : Sys) : Prop :=
  ∃ n s0 ops, Start E n s0 ∧ n + calls ops + 1 < U64 ∧ run E s0 ops = some s

theorem Reached.inv {E : Env} {s : Sys} (h : Reached E s) : ∃ n, Inv E n s ∧ n + 1 < U64 := by
  obtain ⟨n, s0, ops, h1, h2, h3⟩ := h
  exact ⟨_, (Inv.start h1).run ops h2 h3, by omega⟩

theorem queued_ids {ops : List PubCtx.Op} {c : PubCtx} (h : PubCtx.Reaches ops c) :
    (queuedPkts c.pub.log).map (·.1) = List.range' 1 (queuedPkts c.pub.log).length := by
  obtain ⟨mem, n, nid, ip, port, rs, h1, h2, h3, h4⟩ := h
  obtain ⟨e1, e2⟩ := PubCtx.C16_api h1 h2 h3 h4
  rw [e2, ← e1, List.length_map]

theorem take_range' {b m k : Nat} (h : k ≤ m) : (List.range' b m).take k = List.range' b k := by
  have e : List.range' b m = List.range' b k ++ List.range' (b + k) (m - k) := by
    have := List.range'_append_1 (s := b) (m := k) (n := m - k)
    rw [this, show k + (m - k) = m by omega]
  rw [e, List.take_left' (by simp)]

/-- A list of packets whose ids are consecutive and each of which has the bytes the other list has under this id is a piece of it. -/
theorem piece {q : List (Nat × Payload)} (hq : q.map (·.1) = List.range' 1 q.length) {d : List SPkt} {b m : Nat}
    (hd : d.map (·.pid) = List.range' b m) (h : ∀ x ∈ d, ∃ p, (x.pid, p) ∈ q ∧ x.payload.data = p.data) :
    d.map (·.payload.data) = ((q.map (·.2.data)).drop (b - 1)).take d.length := by
  have hm : d.length = m := by have := congrArg List.length hd; simpa using this
  have hqi : ∀ j, j < q.length → ∃ p, q[j]? = some (j + 1, p) := by
    intro j hj
    have := congrArg (·[j]?) hq
    simp only [List.getElem?_map, List.getElem?_eq_getElem hj, Option.map_some] at this
    rw [List.getElem?_range' hj] at this
    refine ⟨q[j].2, ?_⟩
    rw [List.getElem?_eq_getElem hj]
    have e : q[j].1 = j + 1 := by have := Option.some.inj this; omega
    rw [← e]
  have hmem : ∀ j p, (j, p) ∈ q → ∃ i, j = i + 1 ∧ q[i]? = some (j, p) := by
    intro j p hp
    obtain ⟨i, hi, e⟩ := List.mem_iff_getElem.1 hp
    obtain ⟨p', hp'⟩ := hqi i hi
    rw [List.getElem?_eq_getElem hi, e] at hp'
    have e2 := Option.some.inj hp'
    exact ⟨i, congrArg Prod.fst e2, by rw [List.getElem?_eq_getElem hi, e]⟩
  apply List.ext_getElem?
  intro i
  by_cases hi : i < d.length
  · have hpid : d[i].pid = b + i := by
      have := congrArg (·[i]?) hd
      simp only [List.getElem?_map, List.getElem?_eq_getElem hi, Option.map_some] at this
      rw [List.getElem?_range' (by omega)] at this
      have := Option.some.inj this
      omega
    obtain ⟨p, h1, h2⟩ := h d[i] (List.getElem_mem hi)
    obtain ⟨j, e1, e2⟩ := hmem _ _ h1
    have hb : 1 ≤ b := by
      have h0 : 0 < d.length := by omega
      have hpid0 : d[0].pid = b := by
        have := congrArg (·[0]?) hd
        simp only [List.getElem?_map, List.getElem?_eq_getElem h0, Option.map_some] at this
        rw [List.getElem?_range' (by omega)] at this
        have := Option.some.inj this
        omega
      obtain ⟨p', h1', _⟩ := h d[0] (List.getElem_mem h0)
      obtain ⟨j', e1', _⟩ := hmem _ _ h1'
      omega
    have hj : b - 1 + i = j := by omega
    rw [List.getElem?_map, List.getElem?_eq_getElem hi, Option.map_some, List.getElem?_take_of_lt hi, List.getElem?_drop,
      hj, List.getElem?_map, e2, Option.map_some, h2]
  · rw [List.getElem?_eq_none (by rw [List.length_map]; omega), List.getElem?_eq_none (by rw [List.length_take]; omega)]

/-- C49: as long as the connection is up, the payloads delivered to the application of the subscriber are a contiguous piece of
the sequence of payloads queued by the application of the publisher: nothing is left out in between, repeated, reordered, altered
or invented, whatever the multicast network does and however the TCP stream is cut into reads; and the ids go up by one. -/
theorem C49_end_to_end {E : Env} {s : Sys} (h : Reached E s) (hu : SubCtx.Up s.sub E.slot) :
    ∃ b, (SubCtx.deliveredAt E.slot s.sub.log).map (·.payload.data) =
      (((queuedPkts s.pub.pub.log).map (·.2.data)).drop b).take (SubCtx.deliveredAt E.slot s.sub.log).length ∧
      (SubCtx.deliveredAt E.slot s.sub.log).map (·.pid) =
      (((queuedPkts s.pub.pub.log).map (·.1)).drop b).take (SubCtx.deliveredAt E.slot s.sub.log).length := by
  obtain ⟨n, hi, _⟩ := h.inv
  obtain ⟨sops, hsr⟩ := hi.sub
  obtain ⟨ops, h1, h2, h3⟩ := hi.pub
  have hv := hi.valid hu
  obtain ⟨b, m, hd⟩ := SubCtx.C33_api hsr hu hv
  have hp : ∀ x ∈ SubCtx.deliveredAt E.slot s.sub.log, ∃ p, (x.pid, p) ∈ queuedPkts s.pub.pub.log ∧ x.payload.data = p.data := by
    intro x hx
    obtain ⟨before, mc, ts, after, e1, _⟩ := SubCtx.C34_api hsr hu hv hx
    obtain ⟨p, p1, p2, _⟩ := hi.arr hu (x, mc, ts) (by rw [e1]; simp)
    exact ⟨p, PubCtx.sent_queued h1 p1, p2⟩
  refine ⟨b - 1, piece (queued_ids h1) hd hp, ?_⟩
  have hm : (SubCtx.deliveredAt E.slot s.sub.log).length = m := by have := congrArg List.length hd; simpa using this
  rw [hd, queued_ids h1, hm]
  cases m with
  | zero => rfl
  | succ m =>
    -- the first and the last one are ids of queued packets
    have hids : ∀ j, b ≤ j → j < b + (m + 1) → 1 ≤ j ∧ j < 1 + (queuedPkts s.pub.pub.log).length := by
      intro j j1 j2
      have : j ∈ (SubCtx.deliveredAt E.slot s.sub.log).map (·.pid) := by rw [hd, List.mem_range'_1]; omega
      obtain ⟨x, hx, rfl⟩ := List.mem_map.1 this
      obtain ⟨p, q1, _⟩ := hp x hx
      have : x.pid ∈ (queuedPkts s.pub.pub.log).map (·.1) := List.mem_map.2 ⟨_, q1, rfl⟩
      rw [queued_ids h1, List.mem_range'_1] at this
      exact this
    have a1 := hids b (by omega) (by omega)
    have a2 := hids (b + m) (by omega) (by omega)
    rw [List.drop_range', take_range' (by omega)]
    congr 1; omega

/-- C50: as long as the connection is up and no read from it has returned a protocol error to the publisher, every packet multicast
since the publisher has accepted the connection is still held for the subscriber, or is on its way to it as a frame of the TCP
stream, complete and with its bytes, or has arrived. -/
theorem C50_nothing_lost {E : Env} {s : Sys} (h : Reached E s) {k : Nat} (hk : s.acc = some k) (he : s.err = false) :
    ∃ ps : List (Nat × Payload), (∀ x ∈ ps, x ∈ queuedPkts s.pub.pub.log) ∧
      CircBuf.bytes (s.sub.cv.conns E.slot).readBuf ++ s.down ++ CircBuf.bytes (s.pub.cv.conns k).writeBuf =
        (ps.map fun x => CMD_PACKET :: ((PacketHeader.mk x.1 s.pub.nodeId x.2.data.length s.pub.listenIp s.pub.listenPort).enc ++
          x.2.data)).flatten ∧
      ∀ pid ∈ PubCtx.sentTo k s.pub.pub.log,
        (pid ∈ s.pub.pub.outstanding k ∧ pid ∉ (frees s.pub.pub.log).map (·.1)) ∨ pid ∈ ps.map (·.1) ∨
        (SubCtx.Up s.sub E.slot ∧ pid ∈ (SubCtx.arrivedAt E.slot s.sub.log).map (·.1.pid)) := by
  obtain ⟨n, hi, _⟩ := h.inv
  obtain ⟨ops, h1, h2, h3⟩ := hi.pub
  obtain ⟨pops, L, g, hq, hb, _⟩ := h1.good
  obtain ⟨ps, d1, d2, d3⟩ := hi.down
  refine ⟨ps, fun x hx => PubCtx.sent_queued h1 (d1 x hx).1, ?_, ?_⟩
  · have : toSub E s = CircBuf.bytes (s.sub.cv.conns E.slot).readBuf ++ s.down ++ CircBuf.bytes (s.pub.cv.conns k).writeBuf := by
      unfold toSub wbytes; rw [hk]
    rw [← this]; exact d2
  · intro pid hp
    rcases d3 k hk he pid hp with q | q | q
    · refine .inl ⟨q, ?_⟩
      have hr := g.p.reached
      rw [outstanding_eq hr.rel] at q
      obtain ⟨r, r1, rfl⟩ := List.mem_map.1 q
      have : (r.pid, r.payload) ∈ (spec pops).infl.map (fun r => (r.pid, r.payload)) :=
        List.mem_map.2 ⟨r, (List.mem_filter.1 r1).1, rfl⟩
      rw [hr.linv.inflEq, ← hr.log, List.mem_filter] at this
      simpa using this.2
    · exact .inr (.inl q)
    · exact .inr (.inr q)

/-- C50: a payload multicast to the subscriber and given back to the application has arrived there or is in the TCP stream. -/
theorem C50_released {E : Env} {s : Sys} (h : Reached E s) {k : Nat} (hk : s.acc = some k) (he : s.err = false) {pid : Nat}
    (hp : pid ∈ PubCtx.sentTo k s.pub.pub.log) (hf : pid ∈ (frees s.pub.pub.log).map (·.1)) :
    (∃ ps : List (Nat × Payload), pid ∈ ps.map (·.1) ∧
      CircBuf.bytes (s.sub.cv.conns E.slot).readBuf ++ s.down ++ CircBuf.bytes (s.pub.cv.conns k).writeBuf =
        (ps.map fun x => CMD_PACKET :: ((PacketHeader.mk x.1 s.pub.nodeId x.2.data.length s.pub.listenIp s.pub.listenPort).enc ++
          x.2.data)).flatten) ∨
    (SubCtx.Up s.sub E.slot ∧ pid ∈ (SubCtx.arrivedAt E.slot s.sub.log).map (·.1.pid)) := by
  obtain ⟨ps, _, h2, h3⟩ := C50_nothing_lost h hk he
  rcases h3 pid hp with q | q | q
  · exact absurd hf q.2
  · exact .inl ⟨ps, q, h2⟩
  · exact .inr q

/-- C51, what holds when everything has come to rest: if the publisher holds nothing for the subscriber any more and nothing is
in the TCP stream, then every packet multicast since the connection was accepted has arrived, and is delivered if it and those
before it were multicast after that, or arrived anyway, from the first packet that arrived on. -/
theorem C51_rest_partial {E : Env} {s : Sys} (h : Reached E s) {k : Nat} (hk : s.acc = some k) (he : s.err = false)
    (hu : SubCtx.Up s.sub E.slot) (ho : s.pub.pub.outstanding k = [])
    (hw : CircBuf.bytes (s.sub.cv.conns E.slot).readBuf ++ s.down ++ CircBuf.bytes (s.pub.cv.conns k).writeBuf = []) :
    (∀ pid ∈ PubCtx.sentTo k s.pub.pub.log, pid ∈ (SubCtx.arrivedAt E.slot s.sub.log).map (·.1.pid)) ∧
    ∀ b p, ((SubCtx.arrivedAt E.slot s.sub.log).map (·.1.pid)).head? = some b → b ≤ p →
      (∀ q, b ≤ q → q ≤ p → q ∈ PubCtx.sentTo k s.pub.pub.log ∨ q ∈ (SubCtx.arrivedAt E.slot s.sub.log).map (·.1.pid)) →
      p ∈ (SubCtx.deliveredAt E.slot s.sub.log).map (·.pid) := by
  have hall : ∀ pid ∈ PubCtx.sentTo k s.pub.pub.log, pid ∈ (SubCtx.arrivedAt E.slot s.sub.log).map (·.1.pid) := by
    intro pid hp
    obtain ⟨ps, _, h2, h3⟩ := C50_nothing_lost h hk he
    rcases h3 pid hp with q | q | q
    · rw [ho] at q; cases q.1
    · exfalso
      rw [hw] at h2
      obtain ⟨x, hx, _⟩ := List.mem_map.1 q
      have := List.flatten_eq_nil_iff.1 h2.symm _ (List.mem_map.2 ⟨x, hx, rfl⟩)
      cases this
    · exact q.2
  refine ⟨hall, ?_⟩
  intro b p hb hbp hq
  obtain ⟨n, hi, _⟩ := h.inv
  obtain ⟨sops, hsr⟩ := hi.sub
  refine (SubCtx.C36_api_partial hsr hu (hi.valid hu) hb p).2 ⟨hbp, ?_⟩
  intro q q1 q2
  rcases hq q q1 q2 with w | w
  · exact hall q w
  · exact w

/-- C51, the part that holds, for every schedule: let a call of the publisher's timeout processing succeed at a time when every packet
held for the subscriber is overdue (and no announcement is due). Then, whatever is called afterwards and whatever multicast
loses, once the TCP stream to the subscriber has been drained every packet multicast to it before that call has arrived; and if the
first packet it got had been multicast after the publisher accepted the connection, all of them from that one on are delivered.
(Missing, and false: the same without the last condition, see C51_false; and a read that runs into the trim defect closes the
connection, see C12_subscriber_false.) -/
theorem C51_drained_partial {E : Env} {n : Nat} {s0 s s' : Sys} {pre post : List SysOp} {now : Int} {cb : Option (Bool × List UInt8)}
    {sp : Nat} {p : PubCtx} {k : Nat} (h0 : Start E n s0) (hn : n + (calls pre + (1 + calls post)) + 1 < U64)
    (hr : run E s0 pre = some s) (hk : s.acc = some k) (hto : PubCtx.step s.pub (.timeout now cb sp) = .ok (0, p))
    (hd : ¬ PubCtx.annDue s.pub now) (hall : ∀ x ∈ s.pub.pub.owedPkts k, x.2.2 + s.pub.resendTimeout ≤ now)
    (hr' : run E s (.pub (.timeout now cb sp) :: post) = some s') (he : s'.err = false) (hu : SubCtx.Up s'.sub E.slot)
    (hw : CircBuf.bytes (s'.sub.cv.conns E.slot).readBuf ++ s'.down ++ CircBuf.bytes (s'.pub.cv.conns k).writeBuf = []) :
    (∀ pid ∈ PubCtx.sentTo k s.pub.pub.log, pid ∈ (SubCtx.arrivedAt E.slot s'.sub.log).map (·.1.pid)) ∧
    ∀ b, ((SubCtx.arrivedAt E.slot s'.sub.log).map (·.1.pid)).head? = some b → b ∈ PubCtx.sentTo k s'.pub.pub.log →
      ∀ pid ∈ PubCtx.sentTo k s.pub.pub.log, b ≤ pid → pid ∈ (SubCtx.deliveredAt E.slot s'.sub.log).map (·.pid) := by
  have hc1 : calls (.pub (.timeout now cb sp) :: post) = 1 + calls post := rfl
  have hc2 : calls [.pub (.timeout now cb sp)] = 1 := rfl
  have hinv : Inv E (n + calls pre) s := (Inv.start h0).run pre (by omega) hr
  have hinv' : Inv E (n + calls pre + (1 + calls post)) s' := hinv.run (.pub (.timeout now cb sp) :: post) (by omega) hr'
  have hreach : Reached E s' := by
    refine ⟨n, s0, pre ++ .pub (.timeout now cb sp) :: post, h0, by rw [calls_append]; omega, ?_⟩
    rw [run_append, hr]; exact hr'
  -- the state after the call
  have hr1 : (next E s (.pub (.timeout now cb sp))).bind (fun t => run E t post) = some s' := hr'
  cases hnx : next E s (.pub (.timeout now cb sp)) with
  | none => rw [hnx] at hr1; cases hr1
  | some t =>
    rw [hnx] at hr1
    have hr2 : run E t post = some s' := hr1
    have htp : t.pub = p := by
      unfold next at hnx
      dsimp only at hnx
      split at hnx
      · rw [hto] at hnx; cases hnx; rfl
      · cases hnx
    obtain ⟨a1, _, es1, a2, a3⟩ := next_acc hinv (by omega) hnx hk
    have hit := hinv.step (by omega) hnx
    obtain ⟨b1, es2, b2, b3⟩ := run_acc post hit (by omega) hr2 a1
    obtain ⟨ops, h1, h2, h3⟩ := hinv.pub
    obtain ⟨opst, t1, t2, t3⟩ := hit.pub
    obtain ⟨ops', p1, p2, p3⟩ := hinv'.pub
    have hset : t.pub.pub.outstanding k = [] := by
      rw [htp] at t1 ⊢
      exact PubCtx.timeout_settles h1 hd hto (hinv.acc k hk).1 hall t1
    have hsub : ∀ pid ∈ PubCtx.sentTo k s.pub.pub.log, pid ∈ PubCtx.sentTo k t.pub.pub.log ∧ pid ∈ PubCtx.sentTo k s'.pub.pub.log := by
      intro pid hp
      have : pid ∈ PubCtx.sentTo k t.pub.pub.log := by
        rw [a2, PubCtx.sentTo_append_of a3]; exact List.mem_append_left _ hp
      refine ⟨this, ?_⟩
      rw [b2, PubCtx.sentTo_append_of b3]; exact List.mem_append_left _ this
    have harr : ∀ pid ∈ PubCtx.sentTo k s.pub.pub.log, pid ∈ (SubCtx.arrivedAt E.slot s'.sub.log).map (·.1.pid) := by
      intro pid hp
      obtain ⟨m1, m2⟩ := hsub pid hp
      obtain ⟨ps, _, q2, q3⟩ := C50_nothing_lost hreach b1 he
      rcases q3 pid m2 with q | q | q
      · exfalso
        have hmem : pid ∈ (sentPkts t.pub.pub.log).map (·.1) := by
          unfold PubCtx.sentTo at m1
          obtain ⟨x, x1, x2⟩ := List.mem_map.1 m1
          obtain ⟨pr, hpr⟩ := PubCtx.since_split k t.pub.pub.log
          refine List.mem_map.2 ⟨x, ?_, x2⟩
          rw [hpr, sentPkts_append]; exact List.mem_append_right _ x1
        have hno := PubCtx.not_resent p1 b2 hmem
        obtain ⟨_, L, g, _⟩ := t1.good
        obtain ⟨_, L', g', _⟩ := p1.good
        have o1 := g.owed_log k
        have o2 := g'.owed_log k
        have := PubCtx.owed_gone (k := k) (pid := pid) t.pub.pub.log (by rw [o1, hset]; simp) _ es2 rfl hno
        rw [← b2, o2] at this
        exact this q.1
      · exfalso
        rw [hw] at q2
        obtain ⟨x, hx, _⟩ := List.mem_map.1 q
        have := List.flatten_eq_nil_iff.1 q2.symm _ (List.mem_map.2 ⟨x, hx, rfl⟩)
        cases this
      · exact q.2
    refine ⟨harr, ?_⟩
    intro b hb hbs pid hp hbp
    obtain ⟨sops, hsr⟩ := hinv'.sub
    refine (SubCtx.C36_api_partial hsr hu (hinv'.valid hu) hb pid).2 ⟨hbp, ?_⟩
    intro q q1 q2
    have hq := PubCtx.sentTo_between p1 hbs (hsub pid hp).2 q1 q2
    -- multicast before the call, too
    have : q ∈ PubCtx.sentTo k s.pub.pub.log :=
      PubCtx.sentTo_before p1 (show s'.pub.pub.log = s.pub.pub.log ++ (es1 ++ es2) by rw [b2, a2, List.append_assoc])
        (by simp [a3, b3]) hq hp q2
    exact harr q this

/-! ## Examples -/

/-- The subscriber's slot is 0, the publisher's datagrams come from address 77. -/
def exE : Env := ⟨0, 77⟩
/-- The publisher before the history: activated. -/
def exP : List PubCtx.Op := [.activate (.ok (7, 8, 9)), .setCtlCb true]
/-- A datagram of the publisher (node 7, listening on address 1, port 2). -/
def exMc (pid : Nat) (data : List UInt8) (ts : Int) : SubCtx.RecvRes :=
  .dgram 77 ((PacketHeader.mk pid 7 data.length 1 2).enc ++ data) ts none (.ok 50) .inProgress
/-- The subscriber before the history: activated, and an announcement of the publisher has come in. -/
def exQ : List SubCtx.Op := [.activate (.ok 3), .readMcast [exMc 0 [] 1]]

/-- Check a property of the system a history leads to. -/
def holdsAfter (ops : List SysOp) (P : Sys → Bool) : Bool :=
  match PubCtx.run PubCtx.exC0 exP, SubCtx.run SubCtx.exS0 exQ with
  | .ok p, .ok q =>
    decide (p.2.nodeId < U32 ∧ p.2.listenIp < U32 ∧ p.2.listenPort < 65536 ∧ p.2.listenPort ≠ 0 ∧
      0 < q.2.cv.size ∧ (q.2.cv.conns 0).mode = .connecting ∧ (q.2.cv.conns 0).addr = addr exE p.2 ∧
      (q.2.cv.conns 0).port = p.2.listenPort) &&
    (match run exE ⟨p.2, q.2, none, [], [], false⟩ ops with
     | some s => P s
     | none => false)
  | _, _ => false

theorem started_of {ops : List SysOp} {P : Sys → Bool} (h : holdsAfter ops P = true) :
    ∃ s0 s, Start exE 2 s0 ∧ run exE s0 ops = some s ∧ P s = true := by
  unfold holdsAfter at h
  cases hp : PubCtx.run PubCtx.exC0 exP with
  | error f => rw [hp] at h; cases h
  | ok p =>
    cases hq : SubCtx.run SubCtx.exS0 exQ with
    | error f => rw [hp, hq] at h; cases h
    | ok q =>
      rw [hp, hq] at h
      dsimp only at h
      rw [Bool.and_eq_true, decide_eq_true_eq] at h
      obtain ⟨⟨h1, h2, h3, h4, h5, h6, h7, h8⟩, h⟩ := h
      cases hr : run exE ⟨p.2, q.2, none, [], [], false⟩ ops with
      | none => rw [hr] at h; cases h
      | some s =>
        rw [hr] at h
        refine ⟨_, s, ?_, hr, h⟩
        exact ⟨⟨exP, ⟨_, 2, 7, 1, 2, p.1, by decide, by simp [exP, PubCtx.Op.sane], by decide, hp⟩,
          by simp [exP, callOk], by decide⟩, ⟨h1, h2, h3, h4⟩, ⟨exQ, q.1, _, 2, 9, by decide, hq⟩, ⟨h5, h6⟩, ⟨h7, h8⟩,
          rfl, rfl, rfl, rfl⟩

theorem reached_of {ops : List SysOp} {P : Sys → Bool} (hl : 2 + ops.length + 1 < U64) (h : holdsAfter ops P = true) :
    ∃ s, Reached exE s ∧ P s = true := by
  obtain ⟨s0, s, h1, h2, h3⟩ := started_of h
  exact ⟨s, ⟨2, s0, ops, h1, by have := calls_le ops; omega, h2⟩, h3⟩

/-- Three packets are multicast; 2 is lost, 1 and 3 come in, 1 twice; they are acknowledged. -/
def exLost : List SysOp :=
  [.sub (.write 0 (.ok 0) none (.ok 0)), .accept 0 (.ok 5 1) none, .pub (.queue (PubCtx.exPay 1) false),
   .pub (.queue (PubCtx.exPay 2) false), .pub (.queue (PubCtx.exPay 3) false),
   .pub (.writeMcast [⟨.ok 10, []⟩, ⟨.ok 20, []⟩, ⟨.ok 30, []⟩]),
   .sub (.readMcast [exMc 1 [1, 0] 1000, exMc 3 [3, 0] 1000, exMc 1 [1, 0] 1100]),
   .sub (.timeout 60000), .sub (.write 0 (.ok 0) none (.ok 34)), .pubRead 5, .pubRead 29]
/-- The publisher sends 2 again, over TCP, which comes in two pieces. -/
def exResent : List SysOp :=
  [.pub (.timeout 200000 none 0), .pub (.write 0 (.ok 23)), .subRead 7 200100, .subRead 16 200200]

/-- Halfway: 1 is delivered, 3 has arrived, 2 is held for the subscriber. -/
example : ∃ s, Reached exE s ∧ decide (SubCtx.Up s.sub 0 ∧ s.acc = some 0 ∧ s.err = false ∧
    PubCtx.sentTo 0 s.pub.pub.log = [1, 2, 3] ∧ s.pub.pub.outstanding 0 = [2] ∧
    (SubCtx.deliveredAt 0 s.sub.log).map (·.pid) = [1] ∧ (SubCtx.arrivedAt 0 s.sub.log).map (·.1.pid) = [1, 3, 1] ∧
    (frees s.pub.pub.log).map (·.1) = [1, 3]) = true :=
  reached_of (ops := exLost) (P := fun s => decide _) (by decide) (by decide +kernel)

/-- At the end: nothing is held, nothing in the stream, all three are delivered. -/
example : ∃ s, Reached exE s ∧ decide (SubCtx.Up s.sub 0 ∧ s.acc = some 0 ∧ s.err = false ∧
    PubCtx.sentTo 0 s.pub.pub.log = [1, 2, 3] ∧ s.pub.pub.outstanding 0 = [] ∧ s.down = [] ∧
    CircBuf.bytes (s.pub.cv.conns 0).writeBuf = [] ∧ CircBuf.bytes (s.sub.cv.conns 0).readBuf = [] ∧
    (SubCtx.deliveredAt 0 s.sub.log).map (fun x => (x.pid, x.payload.data)) = [(1, [1, 0]), (2, [2, 0]), (3, [3, 0])]) = true :=
  reached_of (ops := exLost ++ exResent) (P := fun s => decide _) (by decide) (by decide +kernel)

/-- The hypotheses of C51_drained_partial, checked for the history `pre`, the timeout call at `now`, then `post`. -/
def drainCheck (pre post : List SysOp) (now : Int) (P : Sys → Sys → Bool) : Bool :=
  match PubCtx.run PubCtx.exC0 exP, SubCtx.run SubCtx.exS0 exQ with
  | .ok p, .ok q =>
    match run exE ⟨p.2, q.2, none, [], [], false⟩ pre with
    | some s =>
      (match PubCtx.step s.pub (.timeout now none 0) with
       | .ok r => decide (r.1 = 0)
       | .error _ => false) &&
      decide (s.acc = some 0 ∧ ¬ PubCtx.annDue s.pub now ∧
        ∀ x ∈ s.pub.pub.owedPkts 0, x.2.2 + s.pub.resendTimeout ≤ now) &&
      (match run exE s (.pub (.timeout now none 0) :: post) with
       | some s' => decide (s'.err = false ∧ SubCtx.Up s'.sub 0 ∧
           CircBuf.bytes (s'.sub.cv.conns 0).readBuf ++ s'.down ++ CircBuf.bytes (s'.pub.cv.conns 0).writeBuf = []) && P s s'
       | none => false)
    | none => false
  | _, _ => false

/-- They are met by the history above (packet 2 is held at the call and overdue), and then all three packets are delivered. -/
example : drainCheck exLost [.pub (.write 0 (.ok 23)), .subRead 7 200100, .subRead 16 200200] 200000 (fun s s' => decide (
    (s.pub.pub.owedPkts 0).map (·.1) = [2] ∧ PubCtx.sentTo 0 s.pub.pub.log = [1, 2, 3] ∧
    (SubCtx.deliveredAt 0 s'.sub.log).map (·.pid) = [1, 2, 3])) = true := by decide +kernel

/-- 1 and 2 are multicast before the publisher accepts the connection the subscriber has set up; 1 comes in, 2 is lost; 3 is
multicast and comes in; it is acknowledged. -/
def exStuck : List SysOp :=
  [.sub (.write 0 (.ok 0) none (.ok 0)), .pub (.queue (PubCtx.exPay 1) false),
   .pub (.queue (PubCtx.exPay 2) false), .pub (.writeMcast [⟨.ok 10, []⟩, ⟨.ok 20, []⟩]),
   .sub (.readMcast [exMc 1 [1, 0] 1000]), .accept 0 (.ok 5 1) none,
   .pub (.queue (PubCtx.exPay 3) false), .pub (.writeMcast [⟨.ok 30, []⟩]), .sub (.readMcast [exMc 3 [3, 0] 1000]),
   .sub (.timeout 60000), .sub (.write 0 (.ok 0) none (.ok 34)), .pubRead 34]

/-- C51 is not true of the code: a packet multicast after the publisher has accepted the connection has arrived and is
acknowledged, nothing is held for the subscriber any more and nothing is on its way, and yet the packet is not delivered: the
subscriber waits for packet 2, which the publisher does not owe it. -/
theorem C51_false : ∃ s, Reached exE s ∧ SubCtx.Up s.sub 0 ∧ s.acc = some 0 ∧ s.err = false ∧ 3 ∈ PubCtx.sentTo 0 s.pub.pub.log ∧
    s.pub.pub.outstanding 0 = [] ∧ CircBuf.bytes (s.sub.cv.conns 0).readBuf ++ s.down ++ CircBuf.bytes (s.pub.cv.conns 0).writeBuf = [] ∧
    3 ∉ (SubCtx.deliveredAt 0 s.sub.log).map (fun x : SPkt => x.pid) := by
  obtain ⟨s, h1, h2⟩ := reached_of (ops := exStuck) (P := fun s => decide (SubCtx.Up s.sub 0 ∧ s.acc = some 0 ∧ s.err = false ∧
    3 ∈ PubCtx.sentTo 0 s.pub.pub.log ∧ s.pub.pub.outstanding 0 = [] ∧
    CircBuf.bytes (s.sub.cv.conns 0).readBuf ++ s.down ++ CircBuf.bytes (s.pub.cv.conns 0).writeBuf = [] ∧
    3 ∉ (SubCtx.deliveredAt 0 s.sub.log).map (fun x : SPkt => x.pid))) (by decide) (by decide +kernel)
  exact ⟨s, h1, of_decide_eq_true h2⟩

end Sys
end Rmc
