import Verif.Props.SelfIdle
import Verif.Props.TestPub

/-! # Subscribers that are there from the start get everything, and the whole self-test (C98) -/

set_option linter.unusedVariables false

namespace Rmc
namespace PubCtx
open PLog CircBuf

/-- A call that leaves subscriber `k` connected does not connect it anew. -/
theorem step_stays {c c' : PubCtx} {ops : List Op} (h : Reaches ops c) {op : Op} (hs : op.sane) (hb : ops.length + 2 < U64) {r k : Nat}
    (hx : step c op = .ok (r, c')) (hk : Connected c k) (hk' : Connected c' k) : ∃ es, c'.pub.log = c.pub.log ++ es ∧ PEv.connect k ∉ es := by
  obtain ⟨pops, L, g, hl, _⟩ := h.good
  have hkL : k ∈ L := g.connected.1 hk
  by_cases h2 : op = .close k
  · subst h2
    obtain ⟨c'', e, g', _⟩ := close_spec g hkL
    have hx' : closeConnection c k = .ok (r, c') := hx
    rw [e] at hx'; cases hx'
    obtain ⟨es, e1, e2⟩ := good_events g g'
    exact ⟨es, e1, fun hc => by have := e2.connect k hc; simp at this⟩
  by_cases h3 : op = .deactivate
  · subst h3
    obtain ⟨c'', ys, ds, e, g', _⟩ := deactivate_spec g
    have hx' : deactivate c = .ok (r, c') := hx
    rw [e] at hx'; cases hx'
    have := g'.connected.1 hk'
    cases this
  by_cases h1 : ∃ rv, op = .read k rv
  · obtain ⟨rv, rfl⟩ := h1
    rcases readConn_spec g hx with ⟨_, _, e⟩ | ⟨_, c1, ys, zs, ds, L', _, hy, g', _, _, _, hds, hds2, hcj, hz⟩
    · subst e; exact ⟨[], by simp, by simp⟩
    · obtain ⟨es, e1, e2⟩ := good_events g (ys := ys ++ zs) (by rw [← List.append_assoc]; exact g')
      refine ⟨es, e1, fun hc => ?_⟩
      rcases List.mem_append.mp (e2.connect k hc) with hy' | hy'
      · obtain ⟨_, e3⟩ := hy _ hy'; cases e3
      · rcases hz with ⟨e3, _⟩ | ⟨e3, _⟩ <;> rw [e3] at hy' <;> simp at hy'
  · obtain ⟨ds, ps, hkept⟩ := step_link g hs (by omega) hx hk (fun rv e => h1 ⟨rv, e⟩) h2 h3
    exact hkept.plog

/-- Specification: the connect callback of the publisher is there whenever a connection is accepted. -/
def Answered (ops : List Op) : Prop := ∀ op ∈ ops, ∀ ar, op ≠ .readListen ar none

/-- The callbacks of a run are added to the log. -/
theorem run_bal : ∀ (ops2 : List Op) {m c : PubCtx} {rs : List Nat}, (∀ op ∈ ops2, op.sane) → Answered ops2 → run m ops2 = .ok (rs, c) →
    ∃ ds, c.log = m.log ++ ds ∧ c.cv.size = m.cv.size := by
  intro ops2
  induction ops2 with
  | nil => intro m c rs _ _ h; cases h; exact ⟨[], by simp, rfl⟩
  | cons op ops2 ih =>
    intro m c rs h1 h2 h
    rw [run_cons] at h
    cases hx : step m op with
    | error f => rw [hx] at h; cases h
    | ok y =>
      rw [hx, Pub.ok_bind] at h
      cases hy : run y.2 ops2 with
      | error f => rw [hy] at h; cases h
      | ok z =>
        rw [hy] at h; cases h
        obtain ⟨ds, ps, e1, _, e3, _⟩ := step_bal (q := true) (h1 op (by simp)) (fun _ => h2 op (by simp)) hx
        obtain ⟨ds', f1, f2⟩ := ih (fun o ho => h1 o (by simp [ho])) (fun o ho => h2 o (by simp [ho])) hy
        exact ⟨ds ++ ds', by rw [f1, e1, List.append_assoc], by rw [f2, e3]⟩

theorem disconnects_append (i : Nat) (l m : List CEv) : disconnects i (l ++ m) = disconnects i l + disconnects i m := List.countP_append

theorem connects_append (i : Nat) (l m : List CEv) : connects i (l ++ m) = connects i l + connects i m := List.countP_append

/-- A subscriber that is never disconnected stays, and is not connected anew. -/
theorem stays : ∀ (ops2 : List Op) {ops1 : List Op} {m c : PubCtx} {rs : List Nat} {k : Nat}, Reaches ops1 m → Answered (ops1 ++ ops2) → (∀ op ∈ ops2, op.sane) →
    ops1.length + ops2.length + 1 < U64 → run m ops2 = .ok (rs, c) → Connected m k → disconnects k c.log = 0 →
    Connected c k ∧ ∃ es, c.pub.log = m.pub.log ++ es ∧ PEv.connect k ∉ es := by
  intro ops2
  induction ops2 with
  | nil => intro ops1 m c rs k _ _ _ _ h hk _; cases h; exact ⟨hk, [], by simp, by simp⟩
  | cons op ops2 ih =>
    intro ops1 m c rs k hm ha hsane hb h hk hd
    rw [run_cons] at h
    cases hx : step m op with
    | error f => rw [hx] at h; cases h
    | ok y =>
      rw [hx, Pub.ok_bind] at h
      cases hy : run y.2 ops2 with
      | error f => rw [hy] at h; cases h
      | ok z =>
        rw [hy] at h; cases h
        obtain ⟨r, m1⟩ := y
        rw [List.length_cons] at hb
        have hs := hsane op (by simp)
        have hm1 : Reaches (ops1 ++ [op]) m1 := hm.snoc' hs (by omega) hx
        have ha1 : Answered (ops1 ++ [op]) := fun o ho => ha o (by simp only [List.mem_append, List.mem_cons, List.not_mem_nil, or_false] at ho ⊢; rcases ho with ho | ho <;> simp [ho])
        obtain ⟨ds, ps, e1, _, e3, _⟩ := step_bal (q := true) hs (fun _ => ha op (by simp)) hx
        obtain ⟨ds', f1, f2⟩ := run_bal ops2 (fun o ho => hsane o (by simp [ho])) (fun o ho => ha o (by simp [ho])) hy
        have f1 : z.2.log = m1.log ++ ds' := f1
        have hd1 : disconnects k m1.log = 0 := by
          rw [f1, disconnects_append] at hd; omega
        have hk1 : Connected m1 k := by
          have b0 := C58_balance hm (fun o ho => ha o (by simp [ho])) (i := k) hk.1
          have b1 := C58_balance hm1 ha1 (i := k) (by rw [e3]; exact hk.1)
          rw [if_pos hk] at b0
          rw [e1, connects_append] at b1
          rw [← e1, hd1] at b1
          by_cases hc : Connected m1 k
          · exact hc
          · rw [if_neg hc] at b1; omega
        obtain ⟨es, g1, g2⟩ := step_stays hm hs (by omega) hx hk hk1
        obtain ⟨k1, es', k2, k3⟩ := ih hm1 (by rw [List.append_assoc]; exact ha) (fun o ho => hsane o (by simp [ho]))
          (by rw [List.length_append, List.length_singleton]; omega) hy hk1 hd
        refine ⟨k1, es ++ es', by rw [k2, g1, List.append_assoc], fun hc => ?_⟩
        rcases List.mem_append.1 hc with hc | hc
        · exact g2 hc
        · exact k3 hc

/-- C98: whoever is connected, and is not disconnected any more, gets everything queued from then on that is multicast. -/
theorem C98_stays {ops1 ops2 : List Op} {m c : PubCtx} {rs : List Nat} {k : Nat} (hm : Reaches ops1 m) (ha : Answered (ops1 ++ ops2)) (hs : ∀ op ∈ ops2, op.sane)
    (hb : ops1.length + ops2.length + 1 < U64) (hr : run m ops2 = .ok (rs, c)) (hk : Connected m k) (hd : disconnects k c.log = 0) :
    Connected c k ∧ ∀ x ∈ sentPkts c.pub.log, x ∉ queuedPkts m.pub.log → x.1 ∈ sentTo k c.pub.log := by
  obtain ⟨h1, es, h2, h3⟩ := stays ops2 hm ha hs hb hr hk hd
  refine ⟨h1, fun x hx hn => ?_⟩
  obtain ⟨pops, L, g, _⟩ := hm.good
  have hr := g.p.reached
  have e3 := hr.linv.qp
  rw [← hr.log] at e3
  rw [h2, sentTo_append_of h3]
  rw [h2, sentPkts_append] at hx
  rcases List.mem_append.1 hx with hx | hx
  · exact absurd (by rw [e3]; exact List.mem_append_left _ hx) hn
  · exact List.mem_append_right _ (List.mem_map_of_mem hx)

theorem countP_lt {p q : Nat → Bool} : ∀ (l : List Nat), (∀ x ∈ l, p x = true → q x = true) → (∃ x ∈ l, q x = true ∧ p x = false) → l.countP p < l.countP q := by
  intro l
  induction l with
  | nil => rintro _ ⟨x, hx, _⟩; cases hx
  | cons a l ih =>
    intro h ⟨x, hx, h1, h2⟩
    have hle : l.countP p ≤ l.countP q := List.countP_mono_left fun y hy => h y (List.mem_cons_of_mem _ hy)
    rw [List.countP_cons, List.countP_cons]
    rcases List.mem_cons.1 hx with rfl | hx
    · rw [if_pos h1, if_neg (by rw [h2]; decide)]; omega
    · have := ih (fun y hy => h y (List.mem_cons_of_mem _ hy)) ⟨x, hx, h1, h2⟩
      have h3 := h a (by simp)
      by_cases ha : p a = true
      · rw [if_pos ha, if_pos (h3 ha)]; omega
      · rw [if_neg ha]; omega

/-- If at least as many subscribers were connected before as there are now, and none has been disconnected, they are the same. -/
theorem same_group {ops1 ops2 : List Op} {m c : PubCtx} {rs : List Nat} {k : Nat} (hm : Reaches ops1 m) (hc : Reaches (ops1 ++ ops2) c) (ha : Answered (ops1 ++ ops2))
    (hs : ∀ op ∈ ops2, op.sane) (hb : ops1.length + ops2.length + 1 < U64) (hr : run m ops2 = .ok (rs, c)) (hd : ∀ j, disconnects j c.log = 0)
    (hn : subscriberCount c ≤ subscriberCount m) (hk : Connected c k) : Connected m k := by
  obtain ⟨ds, _, hsz⟩ := run_bal ops2 hs (fun o ho => ha o (List.mem_append_right _ ho)) hr
  by_cases hmk : Connected m k
  · exact hmk
  · exfalso
    have h1 := (C56_publisher hm).1
    have h2 := (C56_publisher hc).1
    rw [hsz] at h2
    have := countP_lt (p := fun i => decide ((m.cv.conns i).mode = .connected)) (q := fun i => decide ((c.cv.conns i).mode = .connected)) (List.range m.cv.size) (by
      intro x hx hp
      have hx' : Connected m x := ⟨List.mem_range.1 hx, of_decide_eq_true hp⟩
      exact decide_eq_true (stays ops2 hm ha hs hb hr hx' (hd x)).1.2) ⟨k, List.mem_range.2 (by rw [← hsz]; exact hk.1), decide_eq_true hk.2, by
        rw [decide_eq_false_iff_not]
        exact fun e => hmk ⟨by rw [← hsz]; exact hk.1, e⟩⟩
    omega

end PubCtx

namespace TestPub
open PubCtx PLog

/-- C98: if the test publisher has not lost a subscriber, and has no more of them than it was told to wait for, every one of them has been sent everything it has multicast. -/
theorem C98_publisher {mem : Nat → Conn} {nodeId listenIp listenPort node count : Nat} {expected : Int} {k : Script} (hk : k.ok) (hb : k.cost + 1 < U64)
    {st : Stage} {c : PubCtx} (h : main mem nodeId listenIp listenPort node count expected k = .ok (st, c)) (hst : st ≠ .waiting)
    (hd : ∀ j, disconnects j c.log = 0) (hn : (subscriberCount c : Int) ≤ expected) {j : Nat} (hj : Connected c j) :
    ∀ x ∈ sentPkts c.pub.log, x.1 ∈ sentTo j c.pub.log := by
  obtain ⟨ops, hl, hp⟩ := (main_out node count expected hk hb).1 _ h
  rcases hp with hp | ⟨ops1, ops2, m, e, hm, hx, hp⟩
  · exact absurd hp.1 hst
  · obtain ⟨qs, _, hpi⟩ := hp.pi
    obtain ⟨rs1, h1⟩ := hm.run
    obtain ⟨rs, h2⟩ := hpi.run
    have hreach := hpi.reach
    have hcalls := hpi.calls
    subst e
    obtain ⟨rs2, h3⟩ := run_split ops1 h1 h2
    have ha : Answered (ops1 ++ ops2) := by
      intro o ho ar e
      have := hcalls o ho
      rw [e] at this
      have := this.2
      cases this
    have hs : ∀ op ∈ ops2, op.sane := fun o ho => (hcalls o (List.mem_append_right _ ho)).sane
    rw [List.length_append] at hl
    have hbd : ops1.length + ops2.length + 1 < U64 := by omega
    have hmj := same_group hm.reach hreach ha hs hbd h3 hd (Int.ofNat_le.1 (Int.le_trans hn hx)) hj
    have hq : queuedPkts m.pub.log = [] := List.map_eq_nil_iff.1 hm.queued
    intro x hx'
    exact (C98_stays hm.reach ha hs hbd h3 hmj (hd j)).2 x hx' (by rw [hq]; simp)

theorem active_mid : ∀ (ops : List Op), (∀ op ∈ ops, midCall op) → ops.foldl activeAfter true = true := by
  intro ops
  induction ops with
  | nil => intro _; rfl
  | cons op ops ih =>
    intro h
    rw [List.foldl_cons]
    have h1 : activeAfter true op = true := by
      have := h op (by simp)
      cases op <;> first | rfl | exact this.elim
    rw [h1]
    exact ih fun o ho => h o (by simp [ho])

theorem orderly_mid {op : Op} (h : midCall op) : orderly true op := by
  cases op <;> first | trivial | rfl | exact h.elim

theorem callOk_mid {op : Op} (h : midCall op) : Sys.callOk op = true := by
  cases op with
  | queue p a => 
    obtain ⟨rfl, h2⟩ : a = false ∧ p.onStack = false := h
    show (!p.onStack) = true
    rw [h2]; rfl
  | readListen ar cb =>
    obtain ⟨h1, -⟩ : saneAcc ar ∧ cb = some true := h
    cases ar with
    | failed e => exact decide_eq_true h1
    | ok _ _ => rfl
    | noDelayFailed _ _ => exact h1.elim
  | activate x => exact h.elim
  | _ => rfl

/-- C98: up to its end the test publisher uses its context in order: it activates it once, before anything is queued, and does not deactivate it. -/
theorem C98_history {mem : Nat → Conn} {nodeId listenIp listenPort node count : Nat} {expected : Int} {k : Script} (hk : k.ok) (hb : k.cost + 1 < U64)
    {md ld port : Nat} (ha : k.act = .ok (md, ld, port)) (hport : port ≠ 0)
    {st : Stage} {c : PubCtx} (h : main mem nodeId listenIp listenPort node count expected k = .ok (st, c)) (hst : st ≠ .done) :
    ∃ ops rs, ops.length ≤ k.cost ∧ run (start mem nodeId listenIp listenPort) ops = .ok (rs, c) ∧ (∀ op ∈ ops, Sys.callOk op = true) ∧ Orderly ops ∧
      activeBy ops = true ∧ CleanStarts (start mem nodeId listenIp listenPort) ops := by
  obtain ⟨ops, hl, hp, rest, e⟩ := (main_shape node count expected hk hb).1 _ h
  obtain ⟨J, qs, _, hpi⟩ := hp.pi
  obtain ⟨rs, hrs⟩ := hpi.run
  have hmid : ∀ op ∈ rest, midCall op := by
    have := hpi.mid hst
    rw [e] at this; exact this
  rw [ha] at e
  refine ⟨ops, rs, hl, hrs, ?_, ?_, ?_, ?_⟩
  · rw [e]
    intro op ho
    rcases List.mem_cons.1 ho with rfl | ho
    · rfl
    · rcases List.mem_cons.1 ho with rfl | ho
      · exact decide_eq_true hport
      · exact callOk_mid (hmid op ho)
  · rw [e]
    intro pre op post he
    cases pre with
    | nil => cases he; trivial
    | cons a pre =>
      cases pre with
      | nil => cases he; rfl
      | cons b pre =>
        have e1 := congrArg List.tail (congrArg List.tail he)
        have ea := congrArg List.head? he
        have eb := congrArg (fun l : List Op => l.tail.head?) he
        simp only [List.cons_append, List.tail_cons, List.head?_cons, Option.some.injEq] at e1 ea eb
        have : activeBy (a :: b :: pre) = true := by
          rw [← ea, ← eb]
          exact active_mid pre fun o ho => hmid o (by rw [e1]; simp [ho])
        rw [this]
        exact orderly_mid (hmid op (by rw [e1]; simp))
  · rw [e]
    exact active_mid rest hmid
  · rw [e]
    intro pre t post rs' c' he hr
    cases pre with
    | nil => cases he
    | cons a pre =>
      have ea := congrArg List.head? he
      simp only [List.cons_append, List.head?_cons, Option.some.injEq] at ea
      cases pre with
      | nil =>
        rw [← ea] at hr
        cases hr
        show ¬ (0 < 0)
        omega
      | cons b pre =>
        have e1 := congrArg List.tail (congrArg List.tail he)
        simp only [List.cons_append, List.tail_cons] at e1
        exact absurd (hmid (.activate (.ok t)) (by rw [e1]; simp)) (fun x => x)

/-- Nothing left to be sent: everything queued has been multicast. -/
theorem all_sent {ops : List Op} {c : PubCtx} (h : Reaches ops c) (hn : ¬ ToSend c) : queuedPkts c.pub.log = sentPkts c.pub.log := by
  obtain ⟨pops, L, g, _⟩ := h.good
  have hr := g.p.reached
  have e1 := hr.linv.qp
  have e2 := hr.linv.qa
  rw [← hr.log] at e1 e2
  unfold ToSend at hn
  rw [sentAll_length, e1, e2, List.length_append, List.length_append] at hn
  have : (spec pops).que = [] := List.length_eq_zero_iff.1 (by omega)
  rw [e1, this, List.append_nil]

end TestPub

namespace Net
open PLog CircBuf PubCtx

/-- Specification: publisher `p` is the test publisher (`TestPub.main`), told to send `count` signals as node `node`. It has queued all of them and is waiting for its subscribers to leave; it has lost none so
far, and it has no more of them than it was told to wait for. bind() has given it a port. -/
def Published (c : PubCtx) (node count : Nat) : Prop :=
  ∃ (mem : Nat → Conn) (nodeId ip port : Nat) (expected : Int) (k : TestPub.Script), k.ok ∧ k.cost + 1 < U64 ∧
    (∃ md ld port, k.act = .ok (md, ld, port) ∧ port ≠ 0) ∧ TestPub.main mem nodeId ip port node count expected k = .ok (.leaving, c) ∧ (∀ j, disconnects j c.log = 0) ∧ (subscriberCount c : Int) ≤ expected

/-- Specification: the connections of test subscriber `q`, all asleep: it has set up one for each slot, each to a test publisher of another node, and the first packet to arrive was the first one. -/
structure Playing (E : NetEnv) (s : Net) (q : Nat) (node count : Nat → Nat) : Prop where
  range : ∀ i, SEv.complete i ∈ (s.subs q).log → node i < 4294967296 ∧ 0 < count i ∧ count i < 2147483647
  nodes : ∀ i j, SEv.complete i ∈ (s.subs q).log → SEv.complete j ∈ (s.subs q).log → node i = node j → i = j
  once : ∀ i, (s.subs q).log.count (.complete i) ≤ 1
  link : ∀ i, SEv.complete i ∈ (s.subs q).log → ∃ l ∈ s.links, l.q = q ∧ l.slot = i ∧ Resting E s l ∧ Published (s.pubs l.p) (node i) (count i) ∧
    (arrived s l).head? = some 1

/-- C98: the self-test, with all its programs. Any number of test publishers have queued their signals and wait for their subscribers to leave, having lost none and having no more than they
were told to wait for; a test subscriber is connected once to each of the publishers it expects, and the first packet of each to arrive was the first one. When these programs have nothing to wake up for,
the subscriber has been given exactly the packets of its publishers, of each one all, in order; its checks run over them end the test successfully; so does its program, as soon as it has looked at them. -/
theorem C98_self_test {E : NetEnv} {n : Nat} {s0 s : Net} {ops : List NetOp} (hs : Start E n s0) (hr : run E s0 ops = some s) (hn : n + calls ops + 1 < U64)
    {q : Nat} {node count : Nat → Nat} (hq : Playing E s q node count)
    {map : List Bool} (hmap : ∀ j, map[j]? = some true ↔ ∃ i, SEv.complete i ∈ (s.subs q).log ∧ node i = j) (hex : ∃ i, SEv.complete i ∈ (s.subs q).log) :
    (∀ i, SEv.complete i ∈ (s.subs q).log → Selftest.part i (given (s.subs q)) = Selftest.payloads (node i) (count i) 1) ∧
    (∃ es d, Selftest.run (Selftest.start map) ((SubCtx.readied (s.subs q).log).map (·.payload.data)) = .ok (.last es, d)) ∧
    ∀ (mem : Nat → Conn) (nid : Nat) (x : SubCtx.ActRes) (rs : List TestSub.Round) (res : Selftest.Res), TestSub.main mem nid map x rs = .ok (res, s.subs q) → ∃ es, res = .last es := by
  have hinv := (NInv.start hs).run ops (by omega) hr
  refine C97_self_test hs hr hn ⟨hq.range, hq.nodes, hq.once, fun i hi => ?_⟩ hmap hex
  obtain ⟨l, hl, e1, e2, hsl, ⟨mem, nodeId, ip, port, expected, k, hk, hb, ⟨md, ld, port', ha, hport⟩, hmain, hd, hc⟩, h1⟩ := hq.link i hi
  obtain ⟨pops, rs, g1, g2, g3, g5, g6, g7⟩ := TestPub.C98_history hk hb ha hport hmain (by decide)
  have g4 : pops.length + 1 < U64 := by omega
  have hN : TestPub.MAX_CONNECTIONS ≤ LISTEN_INDEX := by decide
  refine ⟨l, hl, e1, e2, ⟨hsl, _, _, _, _, _, pops, rs, hN, g2, g3, g4, g5, g6, g7⟩, (TestPub.C90_queued hk hb hmain).2.2 (.inl rfl), ?_, h1⟩
  intro j hj x hx
  obtain ⟨-, hts, -⟩ := asleep_any hs hr hn hl hsl.asleep hsl.err hN g2 g3 g4 g5 g6 g7 hsl.fds.1 hsl.fds.2 hsl.clock.1 hsl.clock.2
  obtain ⟨pops', -, -, -, hreach, -⟩ := TestPub.C90_calls hk hb hmain
  have hcon : Connected (s.pubs l.p) j := by
    obtain ⟨n', s0', pre', b1, b2, b3⟩ := hinv.link l hl
    have hi' := (Sys.Inv.start b1).run pre' (by omega) b3
    exact (hi'.acc j hj).1
  have e : queued s l.p = sentPkts (s.pubs l.p).pub.log := TestPub.all_sent hreach hts
  rw [e] at hx
  exact TestPub.C98_publisher hk hb hmain (by decide) hd hc hcon x hx

/-- One test publisher, one test subscriber. -/
def exE1 : NetEnv := ⟨1, fun _ => 77⟩
/-- The publisher waits for one subscriber, sends its signal, which is lost, and waits for the subscriber to leave: in the first round it sends the signal again, over the connection. -/
def exGroupScript : TestPub.Script :=
  TestPub.exScript TestPub.exWaits [TestPub.exSend] [⟨500001, [⟨some [{ idx := 0, rd := false, wr := true, wv := .ok 41 }], 500002, 0, 0⟩], some []⟩]
/-- The subscriber: the announcement, the connection, the signal over the connection. -/
def exGroupR : List TestSub.Round := TestSub.exR.take 2 ++
  [⟨500100, [], some [{ idx := 0, rd := true, wr := false, rv := some (1 :: ((PacketHeader.mk 1 7 20 1 2).enc ++ (Selftest.sig 1 1 1).enc)), ts := 500100 }]⟩]
/-- The two in a network, from the moment the subscriber has made its first round. -/
def exGroupOps : List NetOp := [.link 0 0 0, .sub 0 (.write 0 (.ok 0) none (.ok 0)), .accept 0 0 0 (.ok 5 1) (some true),
  .pub 0 (.setAnnounce 0 300002), .pub 0 (.queue ⟨1, (Selftest.fill 1 1 [] 1).1, false⟩ false), .pub 0 (.writeMcast [⟨.ok 400000, []⟩, ⟨.ok 400000, []⟩]),
  .pub 0 (.timeout 400001 none 0), .pub 0 (.setAnnounce 0 400002), .pub 0 (.timeout 500002 none 0), .pub 0 (.write 0 (.ok 41)), .subRead 0 0 41 500100]

def groupAfter (P : Net → Net → Bool) : Bool :=
  match PubCtx.run TestPub.exStartP TestPub.exBefore, TestSub.exMain (TestSub.exR.take 1) with
  | .ok p, .ok q =>
    decide (p.2.nodeId = 7 ∧ p.2.listenIp = 1 ∧ p.2.listenPort = 2) &&
    (match run exE1 ⟨fun _ => p.2, fun _ => q.2, []⟩ exGroupOps with
     | some s => P ⟨fun _ => p.2, fun _ => q.2, []⟩ s
     | none => false)
  | _, _ => false

/-- Both contexts at the end. -/
def groupBoth : Option (PubCtx × SubCtx) :=
  match PubCtx.run TestPub.exStartP TestPub.exBefore, TestSub.exMain (TestSub.exR.take 1) with
  | .ok p, .ok q => (run exE1 ⟨fun _ => p.2, fun _ => q.2, []⟩ exGroupOps).map fun t => (t.pubs 0, t.subs 0)
  | _, _ => none

theorem groupBoth_pub : groupBoth.map (·.1) = (TestPub.exPubMain exGroupScript).toOption.map (·.2) := by
  run_tac do
    let g ← Lean.Elab.Tactic.getMainGoal
    let some (_, l, _) := (← g.getType).eq? | throwError "no equation"
    g.assign (← Lean.Meta.mkEqRefl l)

theorem groupBoth_sub : groupBoth.map (·.2) = (TestSub.exMain exGroupR).toOption.map (·.2) := by
  run_tac do
    let g ← Lean.Elab.Tactic.getMainGoal
    let some (_, l, _) := (← g.getType).eq? | throwError "no equation"
    g.assign (← Lean.Meta.mkEqRefl l)

/-- What is checked of the two contexts and of their connection. -/
def groupLink (s0 s : Net) : Bool :=
  (decide ((s.subs 0).log.count (.complete 0) = 1) && (s.subs 0).log.all (fun e => match e with | .complete j => decide (j = 0) | _ => true)) &&
  ((s.pubs 0).log.all (fun e => match e with | .disconnectCb _ => false | _ => true) && decide (subscriberCount (s.pubs 0) ≤ 1)) &&
  s.links.any fun l =>
    osOk (s.pubs l.p).cv.fds && osOk (s.subs l.q).cv.fds && Sys.asleepB (view s l) &&
    decide (l.q = 0 ∧ l.slot = 0 ∧ l.p = 0 ∧ l.err = false ∧ 
      (∀ j ∈ List.range (s.pubs l.p).cv.size, ∀ x ∈ (s.pubs l.p).pub.owedPkts j, 0 ≤ x.2.2) ∧
      (∀ j ∈ List.range (s.subs l.q).cv.size, ∀ a ∈ SubCtx.arrivedAt j (s.subs l.q).log, 0 ≤ a.2.2) ∧ (arrived s l).head? = some 1)

/-- The hypotheses of C98 are met by the two programs. -/
example : ∃ s0 s st res, Start exE1 3 s0 ∧ run exE1 s0 exGroupOps = some s ∧ 3 + calls exGroupOps + 1 < U64 ∧
    Playing exE1 s 0 (fun _ => 1) (fun _ => 1) ∧
    (∀ j, [false, true][j]? = some true ↔ ∃ i, SEv.complete i ∈ (s.subs 0).log ∧ (fun _ => 1 : Nat → Nat) i = j) ∧ (∃ i, SEv.complete i ∈ (s.subs 0).log) ∧
    TestPub.exPubMain exGroupScript = .ok (st, s.pubs 0) ∧ TestSub.exMain exGroupR = .ok (res, s.subs 0) := by
  have hpub := groupBoth_pub
  have hsub := groupBoth_sub
  have h : groupAfter groupLink = true := by decide +kernel
  have hst : TestPub.pubCheck exGroupScript (fun st _ => decide (st = .leaving)) = true := by decide +kernel
  unfold groupAfter at h
  unfold groupBoth at hsub hpub
  cases hp : PubCtx.run TestPub.exStartP TestPub.exBefore with
  | error f => rw [hp] at h; cases h
  | ok p =>
    cases hq : TestSub.exMain (TestSub.exR.take 1) with
    | error f => rw [hp, hq] at h; cases h
    | ok q =>
      rw [hp, hq] at h hsub hpub
      obtain ⟨res0, q⟩ := q
      dsimp only at h hsub hpub
      rw [Bool.and_eq_true, decide_eq_true_eq] at h
      obtain ⟨⟨h1, h2, h3⟩, h⟩ := h
      cases hr : run exE1 ⟨fun _ => p.2, fun _ => q, []⟩ exGroupOps with
      | none => rw [hr] at h; cases h
      | some s =>
        rw [hr] at h hsub hpub
        dsimp only at h
        obtain ⟨calls0, r1, _⟩ := TestSub.main_spec hq
        have hstart : Start exE1 3 ⟨fun _ => p.2, fun _ => q, []⟩ := by
          refine ⟨?_, ?_, ?_, fun _ => ⟨_, r1⟩, rfl⟩
          · intro i hi
            exact ⟨TestPub.exBefore, ⟨_, TestPub.MAX_CONNECTIONS, 7, 1, 2, p.1, by decide, by simp [TestPub.exBefore, PubCtx.Op.sane], by decide, hp⟩,
              by simp [TestPub.exBefore, Sys.callOk], by decide⟩
          · intro i hi
            dsimp only; rw [h1, h2, h3]; decide
          · intro i j hi hj e
            have a1 : i < 1 := hi
            have a2 : j < 1 := hj
            omega
        have hmp : TestPub.exPubMain exGroupScript = .ok (.leaving, s.pubs 0) := by
          unfold TestPub.pubCheck at hst
          cases hm : TestPub.exPubMain exGroupScript with
          | error f => rw [hm] at hst; cases hst
          | ok y =>
            rw [hm] at hpub hst
            obtain ⟨st, c⟩ := y
            rw [show c = s.pubs 0 from (Option.some.inj hpub).symm, show st = .leaving from of_decide_eq_true hst]
        have hms : ∃ res, TestSub.exMain exGroupR = .ok (res, s.subs 0) := by
          cases hm : TestSub.exMain exGroupR with
          | error f => rw [hm] at hsub; cases hsub
          | ok y =>
            rw [hm] at hsub
            obtain ⟨res, c⟩ := y
            exact ⟨res, by rw [show c = s.subs 0 from (Option.some.inj hsub).symm]⟩
        obtain ⟨res, hms⟩ := hms
        unfold groupLink at h
        rw [Bool.and_eq_true, Bool.and_eq_true, Bool.and_eq_true, Bool.and_eq_true, decide_eq_true_eq, decide_eq_true_eq] at h
        obtain ⟨⟨⟨c1, c2⟩, c3, c4⟩, h⟩ := h
        obtain ⟨l, hl, h⟩ := List.any_eq_true.1 h
        simp only [Bool.and_eq_true, decide_eq_true_eq] at h
        obtain ⟨⟨⟨b4, b5⟩, b6⟩, a1, a2, a0, a3, a8, a9, a12⟩ := h
        have hmem : SEv.complete 0 ∈ (s.subs 0).log := List.count_pos_iff.1 (by rw [c1]; decide)
        have hz : ∀ i, SEv.complete i ∈ (s.subs 0).log → i = 0 := fun i hi => of_decide_eq_true (List.all_eq_true.1 c2 _ hi)
        have hd : ∀ j, disconnects j (s.pubs 0).log = 0 := by
          intro j
          unfold disconnects
          rw [List.countP_eq_zero]
          intro e he hc
          have := List.all_eq_true.1 c3 e he
          cases e <;> simp at hc this
        refine ⟨_, s, .leaving, res, hstart, hr, by decide +kernel, ⟨fun i hi => by decide, fun i j hi hj _ => by rw [hz i hi, hz j hj], ?_, ?_⟩, ?_, ⟨0, hmem⟩, hmp, hms⟩
        · intro i
          by_cases hi : i = 0
          · rw [hi, c1]
          · rw [List.count_eq_zero.2 fun hc => hi (hz i hc)]; decide
        · intro i hi
          rw [hz i hi]
          refine ⟨l, hl, a1, a2, ⟨Sys.asleepB_ok b6, a3, ⟨osOk_ok b4, osOk_ok b5⟩, ?_, ?_⟩, ?_, a12⟩
          · exact fun j hj x hx => a8 j (List.mem_range.2 hj.1) x hx
          · exact fun j hj a ha => a9 j (List.mem_range.2 hj.1) a ha
          · rw [a0]
            refine ⟨_, 7, 1, 2, 1, exGroupScript, ⟨?_, ?_, ?_⟩, by decide, ⟨7, 8, 9, rfl, by decide⟩, hmp, hd, by omega⟩
            · intro w hw e he
              rcases List.mem_cons.1 hw with rfl | hw
              · cases he
              · rw [List.mem_singleton.1 hw] at he
                rw [show e = _ from List.mem_singleton.1 he]
                unfold saneAcc
                decide
            · intro t ht
              rw [List.mem_singleton.1 ht]
              refine ⟨fun w hw => by (cases hw), ?_⟩
              intro e he
              rw [show e = _ from List.mem_singleton.1 he]
              unfold saneAcc
              decide
            · intro t ht
              rw [List.mem_singleton.1 ht]
              refine ⟨fun w hw => ?_, fun e he => by (cases he)⟩
              rw [List.mem_singleton.1 hw]
              intro e he
              rw [show e = _ from List.mem_singleton.1 he]
              unfold saneAcc
              decide
        · intro j
          constructor
          · intro hj
            have hlt : j < 2 := (List.getElem?_eq_some_iff.1 hj).1
            refine ⟨0, hmem, ?_⟩
            rcases (show j = 0 ∨ j = 1 by omega) with rfl | rfl
            · cases hj
            · rfl
          · rintro ⟨i, _, rfl⟩
            rfl

end Net
end Rmc
