import Verif.Props.PubCtxTold
import Verif.Props.PubCtxPoll
import Verif.SysInv

/-!
# The publisher with the event loop of the test programs

C84 for the publisher: what the epoll instance kept by rmc_proto_test_common.c watches.
-/

set_option linter.unusedVariables false

namespace Rmc
namespace PubCtx
open CircBuf ConnVec Proto PLog

/-! ## The multicast socket -/

theorem ship_only (i : Nat) (es : List PollEv) : ship i (only i es) = ship i es := by
  induction es using snoc_ind with
  | h0 => rfl
  | h1 xs e ih =>
    by_cases he : e.idx = i
    · have : only i (xs ++ [e]) = only i xs ++ [e] := by unfold only; rw [List.filter_append]; simp [he]
      rw [this, ship_snoc, ship_snoc, ih]
    · rw [only_other he, ih, ship_other he]

theorem View.ship : View fun es => some (Rmc.ship MULTICAST_INDEX es) := by
  refine ⟨fun es => congrArg some (ship_only _ _), ?_⟩
  intro xs x old d a h hw
  have h := Option.some.inj h
  by_cases ho : old = a
  · refine ⟨x, ?_, by rw [hw, ho]⟩
    rw [ship_snoc, h]; simp [shipStep, ho]
  · refine ⟨a, ?_, rfl⟩
    rw [ship_snoc, h]; simp [shipStep, ho]

/-- Specification: whenever the context was activated successfully, everything given to it had been multicast. -/
def CleanStarts (c0 : PubCtx) (ops : List Op) : Prop :=
  ∀ pre t post rs c, ops = pre ++ .activate (.ok t) :: post → run c0 pre = .ok (rs, c) → ¬ ToSend c

/-- While the context is active, the multicast socket is registered for write events iff something is to be sent. -/
theorem mcast_armed {mem : Nat → Conn} {n nid ip port : Nat} (hn : n ≤ LISTEN_INDEX) : ∀ (ops : List Op) {rs : List Nat} {c : PubCtx},
    (∀ op ∈ ops, op.sane) → ops.length + 1 < U64 → run (init mem n nid ip port) ops = .ok (rs, c) → CleanStarts (init mem n nid ip port) ops →
    activeBy ops = true → Armed (fun es => some (ship MULTICAST_INDEX es)) c := by
  intro ops
  induction ops using snoc_ind with
  | h0 => intro rs c _ _ _ _ h; cases h
  | h1 ops op ih =>
    intro rs c' hs hl hx hc ha
    obtain ⟨rs1, r, c, h1, h2, h3⟩ := run_snoc_inv ops hx
    rw [List.length_append, List.length_singleton] at hl
    have hr : Reaches ops c := ⟨mem, n, nid, ip, port, rs1, hn, fun o ho => hs o (by simp [ho]), by omega, h1⟩
    have e : activeBy (ops ++ [op]) = activeAfter (activeBy ops) op := by unfold activeBy; rw [List.foldl_append]; rfl
    rw [e] at ha
    obtain ⟨pops, L, g, hq, _⟩ := hr.good
    have ih' := fun h => ih (fun o ho => hs o (by simp [ho])) (by omega) h1
      (fun pre t post rs0 c0 e0 => hc pre t (post ++ [op]) rs0 c0 (by rw [e0]; simp)) h
    by_cases hqu : quiet op
    · refine step_armed .ship g (hs op (by simp)) hqu (by omega) (ih' ?_) h2
      cases op <;> first | exact ha | exact hqu.elim
    · cases op with
      | readMcast err =>
        have ih' := ih' ha
        have hx' : readMcast c err = (r, c') := Except.ok.inj h2
        unfold readMcast at hx'
        split at hx'
        · cases hx'; exact ih'
        · split at hx' <;> cases hx'
          · exact ih'
          · obtain ⟨a, e1, e2⟩ := ih'
            refine ⟨a, ?_, e2⟩
            show some (ship MULTICAST_INDEX (c.cv.polls ++ [.modify MULTICAST_INDEX c.mcast .R .R])) = _
            rw [ship_snoc]
            simp only [shipStep]
            rw [if_neg (by simp)]; exact e1
      | activate x =>
        cases x with
        | error e w => cases ha
        | ok t =>
          obtain ⟨md, ld, prt⟩ := t
          have hw := hc ops (md, ld, prt) [] rs1 c rfl h1
          rw [toSend_waiting hr] at hw
          have hx' : activate c (.ok (md, ld, prt)) = (r, c') := Except.ok.inj h2
          unfold activate at hx'
          cases hx'
          refine ⟨.R, ?_, fun h => (by cases h), fun h => absurd h hw⟩
          show some (ship MULTICAST_INDEX (c.cv.polls ++ [.add MULTICAST_INDEX (some md) .R] ++ [.add LISTEN_INDEX (some ld) .R])) = _
          rw [ship_other (by show LISTEN_INDEX ≠ MULTICAST_INDEX; decide), ship_snoc]
          simp [shipStep]
      | deactivate => cases ha
      | _ => exact absurd trivial hqu

/-! ## The property -/

theorem Reaches.watched {ops : List Op} {c : PubCtx} (h : Reaches ops c) (ho : Orderly ops) (hd : OsOk c.cv.fds) :
    ∃ w, epoll c.cv.polls = some w ∧ ∀ d i a, w d = some (i, a) ↔ Idx c.cv i ∧ descOf c.cv c.mcast c.listen i = some d ∧
      ship i c.cv.polls = some a := by
  obtain ⟨t, -, -, -⟩ := h.told (K := fun _ => True) (fun _ => ho) (fun _ => ⟨fun _ => trivial, hd⟩)
  have hn : ∀ i, Rmc.told i c.cv.polls ≠ none := by
    intro i
    by_cases hi : Idx c.cv i
    · rw [t.ok i trivial hi]; simp
    · rw [t.other i hi]; simp
  obtain ⟨w, e1, e2⟩ := epoll_watch (es := c.cv.polls) (fun i => by
    cases ht : Rmc.told i c.cv.polls with
    | none => exact absurd ht (hn i)
    | some x => rw [(watch_told i ht).1]; simp) ((t.dist trivial).apart hn)
  refine ⟨w, e1, fun d i a => ?_⟩
  rw [e2 d i a]
  by_cases hi : Idx c.cv i
  · have ht := t.ok i trivial hi
    rw [(watch_told i ht).1]
    unfold both
    cases hx : descOf c.cv c.mcast c.listen i with
    | none => simp
    | some x =>
      cases hs : ship i c.cv.polls with
      | none => simp
      | some b => simp [hi]
  · have ht := t.other i hi
    rw [(watch_told i ht).1]
    simp [both, hi]

/-- C84 for the publisher: with the event loop of the test programs, if the system never hands out a descriptor that is still open and the context is
used in an orderly way: no call of epoll_ctl() ever fails; a slot is registered exactly while it holds a connected subscriber, with its
descriptor, for read events, and for write events exactly while bytes are pending for it; the listen and the multicast socket are registered exactly
while the context is active, the listen socket for read events; and nothing else is registered.
Missing for the full property: histories that are not orderly, see `C84_pub_false`; the events the multicast socket is registered for, see
`C84_pub_multicast_partial`. -/
theorem C84_publisher_partial {ops : List Op} {c : PubCtx} (h : Reaches ops c) (ho : Orderly ops) (hd : OsOk c.cv.fds) :
    ∃ w, epoll c.cv.polls = some w ∧
      (∀ i, Connected c i → ∃ d a, (c.cv.conns i).desc = some d ∧ w d = some (i, a) ∧ a.r = true ∧
        (a.w = true ↔ bytes (c.cv.conns i).writeBuf ≠ [])) ∧
      (activeBy ops = true → ∃ m l, c.mcast = some m ∧ c.listen = some l ∧ w l = some (LISTEN_INDEX, .R) ∧ ∃ a, w m = some (MULTICAST_INDEX, a)) ∧
      ∀ d i a, w d = some (i, a) → (Connected c i ∧ (c.cv.conns i).desc = some d) ∨
        (activeBy ops = true ∧ (i = LISTEN_INDEX ∧ c.listen = some d ∨ i = MULTICAST_INDEX ∧ c.mcast = some d)) := by
  obtain ⟨t, t1, t2, -⟩ := h.told (K := fun _ => True) (fun _ => ho) (fun _ => ⟨fun _ => trivial, hd⟩)
  obtain ⟨w, e1, e2⟩ := h.watched ho hd
  obtain ⟨pops, L, g, -⟩ := h.good
  have hsz := g.v.sz
  have hM : MULTICAST_INDEX = 32766 := rfl
  have hLI : LISTEN_INDEX = 32765 := rfl
  have known : ∀ i, Idx c.cv i → (ship i c.cv.polls).isSome = (descOf c.cv c.mcast c.listen i).isSome := fun i hi =>
    (watch_told i (t.ok i trivial hi)).2
  refine ⟨w, e1, ?_, ?_, ?_⟩
  · intro i hc
    have hL := g.connected.1 hc
    have hr := g.regs i hc.1
    rw [if_pos hL] at hr
    cases hde : (c.cv.conns i).desc with
    | none => exact absurd hde ((g.v.desc i hc.1).2 hL)
    | some d =>
      exact ⟨d, _, rfl, (e2 d i _).2 ⟨.inl hc.1, by rw [descOf_lt hc.1 hsz]; exact hde, ship_reg hr⟩, g.arm i hL⟩
  · intro ha
    rw [ha] at t1 t2
    cases hm : c.mcast with
    | none => rw [hm] at t1; cases t1
    | some m =>
      cases hl : c.listen with
      | none => rw [hl] at t2; cases t2
      | some l =>
        refine ⟨m, l, rfl, rfl, (e2 l _ _).2 ⟨.inr (.inl rfl), hl, ?_⟩, ?_⟩
        · have := known LISTEN_INDEX (.inr (.inl rfl))
          rw [show descOf c.cv c.mcast c.listen LISTEN_INDEX = c.listen from rfl, hl] at this
          rcases ship_listen t.lst with e | e
          · rw [e] at this; cases this
          · exact e
        · have := known MULTICAST_INDEX (.inr (.inr rfl))
          rw [show descOf c.cv c.mcast c.listen MULTICAST_INDEX = c.mcast from rfl, hm] at this
          obtain ⟨a, ea⟩ := Option.isSome_iff_exists.1 this
          exact ⟨a, (e2 m _ _).2 ⟨.inr (.inr rfl), hm, ea⟩⟩
  · intro d i a hw
    obtain ⟨hi, h1, h2⟩ := (e2 d i a).1 hw
    rcases hi with hi | hi | hi
    · rw [descOf_lt hi hsz] at h1
      left
      exact ⟨g.connected.2 ((g.v.desc i hi).1 (by rw [h1]; simp)), h1⟩
    · right
      subst hi
      have h1 : c.listen = some d := h1
      exact ⟨by rw [← t2, h1]; rfl, .inl ⟨rfl, h1⟩⟩
    · right
      subst hi
      have h1 : c.mcast = some d := h1
      exact ⟨by rw [← t1, h1]; rfl, .inr ⟨rfl, h1⟩⟩

/-- C84 for the multicast socket of a publisher, if moreover everything given to the context had been multicast whenever it was activated: while the
context is active, the multicast socket is registered for write events exactly while something given to the context is still to be multicast.
Missing for the full property: see `C84_pub_false`. -/
theorem C84_pub_multicast_partial {mem : Nat → Conn} {n nid ip port : Nat} (hn : n ≤ LISTEN_INDEX) {ops : List Op} {rs : List Nat} {c : PubCtx}
    (hs : ∀ op ∈ ops, op.sane) (hl : ops.length + 1 < U64) (hx : run (init mem n nid ip port) ops = .ok (rs, c)) (ho : Orderly ops)
    (hd : OsOk c.cv.fds) (hc : CleanStarts (init mem n nid ip port) ops) (ha : activeBy ops = true) :
    ∃ w m a, epoll c.cv.polls = some w ∧ c.mcast = some m ∧ w m = some (MULTICAST_INDEX, a) ∧ (a.w = true ↔ ToSend c) := by
  have h : Reaches ops c := ⟨mem, n, nid, ip, port, rs, hn, hs, hl, hx⟩
  obtain ⟨a, e1, e2⟩ := mcast_armed hn ops hs hl hx hc ha
  obtain ⟨w, e3, e4⟩ := h.watched ho hd
  obtain ⟨t, t1, -, -⟩ := h.told (K := fun _ => True) (fun _ => ho) (fun _ => ⟨fun _ => trivial, hd⟩)
  rw [ha] at t1
  obtain ⟨m, hm⟩ := Option.isSome_iff_exists.1 t1
  exact ⟨w, m, a, e3, hm, (e4 m _ _).2 ⟨.inr (.inr rfl), hm, Option.some.inj e1⟩, e2.trans (toSend_waiting h).symm⟩

/-! ## The hypotheses are met -/

/-- A check for `Orderly`. -/
def orderlyB (b : Bool) : Op → Bool
  | .activate _ => !b
  | .deactivate => b
  | .queue _ _ => b
  | .timeout _ _ _ => b
  | .readListen _ _ => b
  | _ => true

theorem orderlyB_ok {b : Bool} {op : Op} (h : orderlyB b op = true) : orderly b op := by
  cases op <;> simp_all [orderlyB, orderly]

def orderlyAll : Bool → List Op → Bool
  | _, [] => true
  | b, op :: ops => orderlyB b op && orderlyAll (activeAfter b op) ops

theorem orderlyAll_ok {ops : List Op} (h : orderlyAll false ops = true) : Orderly ops := by
  have key : ∀ (ops : List Op) (b : Bool), orderlyAll b ops = true → ∀ pre op post, ops = pre ++ op :: post → orderly (pre.foldl activeAfter b) op := by
    intro ops
    induction ops with
    | nil => intro b _ pre op post e; simp at e
    | cons o os ih =>
      intro b hb pre op post e
      unfold orderlyAll at hb
      rw [Bool.and_eq_true] at hb
      cases pre with
      | nil => cases e; exact orderlyB_ok hb.1
      | cons p pre => cases e; exact ih _ hb.2 pre op post rfl
  exact key ops false h

/-- A check for `CleanStarts`. -/
def cleanAll : PubCtx → List Op → Bool
  | _, [] => true
  | c, op :: ops =>
    (match op with | .activate (.ok _) => !decide (ToSend c) | _ => true) &&
    match step c op with | .ok r => cleanAll r.2 ops | .error _ => true

theorem cleanAll_ok : ∀ (ops : List Op) {c : PubCtx}, cleanAll c ops = true → CleanStarts c ops := by
  intro ops
  induction ops with
  | nil => intro c _ pre t post rs c' e _; simp at e
  | cons o os ih =>
    intro c h pre t post rs c' e hx
    unfold cleanAll at h
    rw [Bool.and_eq_true] at h
    obtain ⟨h1, h2⟩ := h
    cases pre with
    | nil =>
      cases e; cases hx
      simpa using h1
    | cons p pre =>
      cases e
      rw [run_cons] at hx
      obtain ⟨⟨r1, c1⟩, k1, hx⟩ := bind_ok hx
      obtain ⟨⟨rs1, c2⟩, k2, hx⟩ := bind_ok hx
      cases hx
      rw [k1] at h2
      exact ih h2 pre t post rs1 _ rfl k2

/-- Specification for the examples: what the event loop watches a descriptor for. -/
def loopAt (es : List PollEv) (d : Nat) : Option (Nat × Act) := (epoll es).bind fun w => w d

/-- Three packets multicast to two subscribers, deactivated, activated again with a descriptor used before, one subscriber accepted, a packet queued. -/
def exReopen : List Op := exPre ++ [.deactivate, .activate (.ok (17, 8, 9)), .readListen (.ok 7 1) none, .readMcast none, .queue (exPay 4) false]

example : Orderly exReopen := orderlyAll_ok (by decide +kernel)
example : CleanStarts exC0 exReopen := cleanAll_ok _ (by decide +kernel)
example : activeBy exReopen = true := rfl

/-- The hypotheses are met, with a packet waiting; and the subscriber gets the next packet over TCP when it has timed out. -/
example : ∃ c rs, Reaches (exReopen ++ [.writeMcast [⟨.ok 10, []⟩], .timeout 100011 none 0, .queue (exPay 5) false]) c ∧
    run exC0 (exReopen ++ [.writeMcast [⟨.ok 10, []⟩], .timeout 100011 none 0, .queue (exPay 5) false]) = .ok (rs, c) ∧
    (osOk c.cv.fds && decide (Connected c 0 ∧ ToSend c ∧ bytes (c.cv.conns 0).writeBuf ≠ [] ∧ loopAt c.cv.polls 7 = some (0, ⟨true, true⟩) ∧
      loopAt c.cv.polls 8 = some (LISTEN_INDEX, .R) ∧ loopAt c.cv.polls 17 = some (MULTICAST_INDEX, .W) ∧ loopAt c.cv.polls 5 = none)) = true :=
  reaches_of (P := fun rs c => _) (by simp [exReopen, exPre, Op.sane, saneAcc]) (by decide) (by decide +kernel)

/-! ## Counterexamples -/

/-- C84 is not true in full of the publisher. (1) A packet queued, the context deactivated and activated again: the packet waits, as does each one queued
later, but the multicast socket is registered for read events only. (2) A packet queued before activation ends the program. -/
theorem C84_pub_false :
    (∃ ops c, Reaches ops c ∧ Orderly ops ∧ OsOk c.cv.fds ∧ activeBy ops = true ∧ ToSend c ∧ c.mcast = some 7 ∧
      ∃ w, epoll c.cv.polls = some w ∧ w 7 = some (MULTICAST_INDEX, .R)) ∧
    (∃ c, Reaches [.queue (exPay 1) false] c ∧ epoll c.cv.polls = none) := by
  refine ⟨?_, ?_⟩
  · obtain ⟨c, rs, h1, _, h2⟩ := reaches_of
      (ops := [.activate (.ok (7, 8, 9)), .queue (exPay 1) false, .deactivate, .activate (.ok (7, 8, 9)), .queue (exPay 2) false, .queue (exPay 3) false])
      (P := fun rs c => osOk c.cv.fds && decide (ToSend c ∧ c.mcast = some 7 ∧ loopAt c.cv.polls 7 = some (MULTICAST_INDEX, .R)))
      (by simp [Op.sane, saneAcc]) (by decide) (by decide +kernel)
    rw [Bool.and_eq_true, decide_eq_true_iff] at h2
    obtain ⟨h2, h3, h4, h5⟩ := h2
    refine ⟨_, c, h1, orderlyAll_ok (by decide +kernel), osOk_ok h2, rfl, h3, h4, ?_⟩
    unfold loopAt at h5
    obtain ⟨w, e1, e2⟩ := Option.bind_eq_some_iff.1 h5
    exact ⟨w, e1, e2⟩
  · obtain ⟨c, rs, h1, _, h2⟩ := reaches_of (ops := [.queue (exPay 1) false])
      (P := fun rs c => (epoll c.cv.polls).isNone) (by simp [Op.sane, saneAcc]) (by decide) (by decide +kernel)
    exact ⟨c, h1, Option.isNone_iff_eq_none.1 h2⟩

/-! ## For ever -/

/-- Specification: a call that neither activates nor deactivates the context, nor writes to the multicast socket. -/
def waits : Op → Prop
  | .activate _ => False
  | .deactivate => False
  | .writeMcast _ => False
  | _ => True

/-- Something waits, and the event loop is not asked for write events on the multicast socket. -/
def Stuck (c : PubCtx) : Prop := Waiting c ∧ ship MULTICAST_INDEX c.cv.polls = some .R

theorem Stuck.fr {c c' : PubCtx} (h : Stuck c) (f : Fr c c') (hq : Pub.queueSize c'.pub = Pub.queueSize c.pub) : Stuck c' := by
  refine ⟨by unfold Waiting; rw [hq]; exact h.1, ?_⟩
  have := f.1
  unfold mcs at this
  rw [← ship_only, this, ship_only]; exact h.2

theorem queue_still {c c' : PubCtx} {pops : List POp} {L : List Nat} (g : Good c pops L) {p : Payload} {ann : Bool} {r : Nat}
    (hb : (queueArgs pops).length + 2 < U64) (h : Stuck c) (hx : queuePacket c p ann = .ok (r, c')) : Stuck c' := by
  rcases queue_cases g p ann hb with ⟨_, e⟩ | ⟨_, _, e⟩ | ⟨_, _, s', h1, h2, h3, e⟩ <;> rw [e] at hx <;> cases hx
  · exact h
  · exact h
  · refine ⟨?_, ?_⟩
    · show Pub.queueSize s' ≠ 0
      obtain ⟨Q, N, I, r1, r2, r3, r4, _⟩ := h2.reached.rel
      unfold Pub.queueSize
      rw [r4]
      intro h0
      have hlen : (spec (pops ++ [qop p ann])).que = [] ∧ (spec (pops ++ [qop p ann])).ann = [] := by
        rw [r1, r2]
        simp at h0
        rw [h0.1, h0.2]; simp
      unfold spec at hlen
      rw [PSpec.run_snoc] at hlen
      cases ann <;> simp [qop, PSpec.step] at hlen
    · have := (next_waiting g).2 h.1
      rw [this]
      show ship MULTICAST_INDEX (c.cv.polls ++ [.modify MULTICAST_INDEX c.mcast .W .W]) = _
      rw [ship_snoc]
      simp only [shipStep]
      rw [if_neg (by simp)]; exact h.2

theorem step_still {c c' : PubCtx} {pops : List POp} {L : List Nat} {op : Op} {r : Nat} (h : Good c pops L) (hs : op.sane)
    (hq : waits op) (hb : (queueArgs pops).length + 2 < U64) (ha : Stuck c) (hx : step c op = .ok (r, c')) : Stuck c' := by
  cases op with
  | queue p ann => exact queue_still h hb ha hx
  | readListen ar cb =>
    obtain ⟨r', c'', ys, L', ds, g1, g2, _, _, g4, g5, g3⟩ := readListen_spec h hs cb
    have : step c (.readListen ar cb) = .ok (r', c'') := g1
    rw [this] at hx; cases hx
    refine ha.fr (readListen_fr h hs g1) (queueSize_eq h g2 ?_)
    rcases g3 with ⟨e, _⟩ | ⟨_, i, _, _, ⟨e, _⟩ | ⟨e, _⟩⟩ <;> rw [e] <;> simp
  | readMcast err =>
    have hx' : readMcast c err = (r, c') := Except.ok.inj hx
    unfold readMcast at hx'
    split at hx'
    · cases hx'; exact ha
    · split at hx' <;> cases hx'
      · exact ha
      · refine ⟨ha.1, ?_⟩
        show ship MULTICAST_INDEX (c.cv.polls ++ [.modify MULTICAST_INDEX c.mcast .R .R]) = _
        rw [ship_snoc]
        simp only [shipStep]
        rw [if_neg (by simp)]; exact ha.2
  | read i rv =>
    have hx' : readConn c i rv = .ok (r, c') := hx
    rcases readConn_spec h hx with ⟨_, _, e⟩ | ⟨_, c1, ys, zs, ds, L', _, hy, g, _, _, _, hds, hds2, _, hz⟩
    · exact e ▸ ha
    · refine ha.fr (readConn_fr h hx') (queueSize_eq h (ys := ys ++ zs) (by rw [← List.append_assoc]; exact g) ?_)
      intro y hy'
      rcases List.mem_append.mp hy' with hy' | hy'
      · obtain ⟨_, e2⟩ := hy y hy'; exact .inl ⟨_, _, e2⟩
      · rcases hz with ⟨e2, _⟩ | ⟨e2, _⟩ <;> rw [e2] at hy' <;> simp at hy'
        exact .inr (.inl ⟨_, hy'⟩)
  | writeMcast rs => exact hq.elim
  | write i wv =>
    have hx' : writeConn c i wv = .ok (r, c') := hx
    refine ha.fr (writeConn_fr h.v.sz hx') ?_
    rcases writeConn_spec h i wv with ⟨_, e | e⟩ | ⟨_, _, e⟩ | ⟨_, _, r', c'', out, e, g, _, _, g3, g2, _⟩ <;> rw [e] at hx' <;>
      cases hx' <;> first | rfl | rw [g3]
  | timeout now cb sp =>
    have hx' : timeoutProcess c now cb sp = .ok (r, c') := hx
    by_cases hd : annDue c now
    · unfold timeoutProcess at hx'
      rw [if_pos ⟨hd.1, hd.2.1, by have := hd.2.2; omega⟩] at hx'
      dsimp only at hx'
      have h' : Good (ev c (.announce now c.annInterval)) pops L := h.congr rfl rfl
      have ha' : Stuck (ev c (.announce now c.annInterval)) := ha
      split at hx'
      · obtain ⟨⟨r1, c1⟩, h1, hx'⟩ := bind_ok hx'
        cases hx'
        have : Stuck c1 := queue_still h' hb ha' h1
        exact this
      · cases hx'; exact ha'
    · have ht := timeout_resend h hd hx'
      obtain ⟨_, ys, g1, g2, g3, _⟩ := subscribersTimeout_spec _ ((subs_nodup h).filter _)
        (fun k hk => (h.slots k).2 (List.mem_filter.mp hk).1) h ht
      refine ha.fr (subscribers_fr _ ?_ ht) (queueSize_eq h g1 ?_)
      · intro k hk
        exact mult_ne (h.v.lt k ((h.slots k).2 (List.mem_filter.mp hk).1)) h.v.sz
      · intro y hy
        obtain ⟨_, _, e2⟩ := g2.acks.acks y hy; exact .inl ⟨_, _, e2⟩
  | close i =>
    have hx' : closeConnection c i = .ok (r, c') := hx
    by_cases hi : i ∈ L
    · refine ha.fr (close_fr h hx') ?_
      obtain ⟨c'', e, g, _, _, g2, _⟩ := close_spec h hi
      rw [e] at hx'; cases hx'
      exact queueSize_eq h g (by simp)
    · rw [close_none h hi] at hx'; cases hx'
      exact ha
  | setAnnounce n now => cases hx; exact ha
  | throttling a b =>
    have hx' : throttling c a b = (r, c') := Except.ok.inj hx
    unfold throttling at hx'
    split at hx' <;> cases hx' <;> exact ha
  | setCtlCb b => cases hx; exact ha
  | activate x => exact hq.elim
  | deactivate => exact hq.elim

theorem still_forever {ops : List Op} {c : PubCtx} (h : Reaches ops c) (hw : ToSend c) (hs : ship MULTICAST_INDEX c.cv.polls = some .R) :
    ∀ (os : List Op) {rs : List Nat} {c' : PubCtx}, (∀ op ∈ os, op.sane ∧ waits op) → (ops ++ os).length + 1 < U64 →
      run c os = .ok (rs, c') → Reaches (ops ++ os) c' ∧ ToSend c' ∧ ship MULTICAST_INDEX c'.cv.polls = some .R ∧
        activeBy (ops ++ os) = activeBy ops ∧ c.cv.fds <+: c'.cv.fds := by
  intro os
  induction os using snoc_ind with
  | h0 => intro rs c' _ _ hx; cases hx; rw [List.append_nil]; exact ⟨h, hw, hs, rfl, List.prefix_rfl⟩
  | h1 os op ih =>
    intro rs c' ho hl hx
    obtain ⟨rs1, r, c1, k1, k2, k3⟩ := run_snoc_inv os hx
    rw [← List.append_assoc, List.length_append, List.length_singleton] at hl
    obtain ⟨hr, i1, i2, i3, i4⟩ := ih (fun o hm => ho o (by simp [hm])) (by omega) k1
    obtain ⟨pops, L, g, hq, _⟩ := hr.good
    have hsane := ho op (by simp)
    obtain ⟨j1, j2⟩ := step_still g hsane.1 hsane.2 (by omega) ⟨(toSend_waiting hr).1 i1, i2⟩ k2
    have hr' := hr.snoc' hsane.1 (by omega) k2
    rw [← List.append_assoc]
    refine ⟨hr', (toSend_waiting hr').2 j1, j2, ?_, i4.trans (step_fds k2)⟩
    have e : activeBy (ops ++ os ++ [op]) = activeAfter (activeBy (ops ++ os)) op := by
      unfold activeBy; rw [List.foldl_append]; rfl
    rw [e, i3]
    have := hsane.2
    cases op <;> first | rfl | exact this.elim

/-- C84, what follows: a publisher that has something to multicast while the event loop watches the multicast socket for read events only (as in
`C84_pub_false`) stays so, whatever is queued, read, resent or accepted, as long as it is not deactivated and the program does not write to the multicast
socket without being told to by the event loop. -/
theorem C84_pub_forever {ops os : List Op} {c c' : PubCtx} {rs : List Nat} {m : Nat} (h : Reaches ops c) (hw : ToSend c) (hm : c.mcast = some m)
    (hr : loopAt c.cv.polls m = some (MULTICAST_INDEX, .R)) (hos : ∀ op ∈ os, op.sane ∧ waits op) (hl : (ops ++ os).length + 1 < U64)
    (hx : run c os = .ok (rs, c')) (ho : Orderly (ops ++ os)) (hd : OsOk c'.cv.fds) :
    ToSend c' ∧ ∃ m', c'.mcast = some m' ∧ loopAt c'.cv.polls m' = some (MULTICAST_INDEX, .R) := by
  have ho1 : Orderly ops := fun pre op post e => ho pre op (post ++ os) (by rw [e]; simp)
  have hfd : c.cv.fds <+: c'.cv.fds := by
    clear hl ho hd hos
    have key : ∀ (os : List Op) {c c' : PubCtx} {rs : List Nat}, run c os = .ok (rs, c') → c.cv.fds <+: c'.cv.fds := by
      intro os
      induction os with
      | nil => intro c c' rs hx; cases hx; exact List.prefix_rfl
      | cons o os ih =>
        intro c c' rs hx
        rw [run_cons] at hx
        obtain ⟨⟨r1, c1⟩, k1, hx⟩ := bind_ok hx
        obtain ⟨⟨rs1, c2⟩, k2, hx⟩ := bind_ok hx
        cases hx
        exact (step_fds k1).trans (ih k2)
    exact key os hx
  have hs : ship MULTICAST_INDEX c.cv.polls = some .R := by
    obtain ⟨w, e1, e2⟩ := h.watched ho1 (hd.mono hfd)
    unfold loopAt at hr
    rw [e1] at hr
    exact ((e2 m _ _).1 hr).2.2
  obtain ⟨g1, g2, g3, g4, -⟩ := still_forever h hw hs os hos hl hx
  refine ⟨g2, ?_⟩
  obtain ⟨-, t1, -, -⟩ := h.told (K := fun _ => True) (fun _ => ho1) (fun _ => ⟨fun _ => trivial, hd.mono hfd⟩)
  obtain ⟨-, t2, -, -⟩ := g1.told (K := fun _ => True) (fun _ => ho) (fun _ => ⟨fun _ => trivial, hd⟩)
  rw [g4, ← t1, hm] at t2
  obtain ⟨m', hm'⟩ := Option.isSome_iff_exists.1 t2
  obtain ⟨w, e1, e2⟩ := g1.watched ho hd
  refine ⟨m', hm', ?_⟩
  unfold loopAt
  rw [e1]
  exact (e2 m' _ _).2 ⟨.inr (.inr rfl), hm', g3⟩

end PubCtx
end Rmc
