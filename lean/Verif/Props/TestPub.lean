import Verif.TestPub
import Verif.Props.Loop
import Verif.Props.TestSub
import Verif.Props.PubCtxCb

/-! # C90: the test publisher's program; C58: the callbacks, summed up -/

set_option linter.unusedSimpArgs false
set_option linter.unusedVariables false

namespace Rmc

namespace PubCtx
open PLog

theorem timeoutGetNext_total {ops : List Op} {c : PubCtx} (h : Reaches ops c) : ∃ t, timeoutGetNext c = .ok t := by
  obtain ⟨pops, L, g, _⟩ := h.good
  have key : ∀ (ks : List Nat) (o : Int), ∃ t, Pub.oldestUnacked c.pub o ks = .ok t := by
    intro ks
    induction ks with
    | nil => intro o; exact ⟨o, rfl⟩
    | cons k ks ih =>
      intro o
      obtain ⟨l, h1, h2, h3⟩ := Holds_all g.p k
      unfold Pub.oldestUnacked
      rw [h1, List.getLast?_reverse, List.head?_map]
      cases l with
      | nil => exact ih o
      | cons e l =>
        obtain ⟨rc, hr⟩ := h3.pk e (by simp)
        have hde : Pub.deref c.pub.pk e.1 = .ok ⟨e.2.1, rc, some .inflight, e.2.2.2, e.2.2.1⟩ := by unfold Pub.deref; rw [hr]
        simp only [List.head?_cons, Option.map_some]
        rw [hde, Pub.ok_bind]
        exact ih _
  obtain ⟨o, ho⟩ := key c.pub.subs (-1)
  unfold timeoutGetNext
  rw [ho, Pub.ok_bind]
  dsimp only
  repeat' split
  all_goals exact ⟨_, rfl⟩

/-- The packets queued by a call. -/
theorem step_queued {ops : List Op} {c c' : PubCtx} (h : Reaches ops c) {op : Op} (hs : op.sane) (hb : ops.length + 2 < U64) {r : Nat}
    (hx : step c op = .ok (r, c')) : (queuedPkts c'.pub.log).map (·.2) = (queuedPkts c.pub.log).map (·.2) ++ opQueues op r := by
  obtain ⟨pops, L, g, hq, _⟩ := h.good
  have key : ∀ {c : PubCtx} {ys : List POp} {L : List Nat}, Good c ys L → (queuedPkts c.pub.log).map (·.2) = queueArgs ys := by
    intro c ys L g
    have e1 := run_queued ys PSpec.Inv_init (legal_allowed ys PSpec.init g.p.legal)
    have e1' : (queuedPkts (spec ys).log).map (·.2) = queueArgs ys := e1.1
    rw [g.p.reached.log]; exact e1'
  obtain ⟨ys, L', g1, g2, _⟩ := step_args g hs (by omega) hx
  rw [key g1, key g, show queueArgs (pops ++ ys) = queueArgs pops ++ queueArgs ys from List.filterMap_append .., g2]

/-! ## The callbacks, summed up -/

/-- How often the connect callback was called for a slot below `n`. -/
def connectsBelow (n : Nat) (log : List CEv) : Nat := log.countP fun e => match e with
  | .connectCb j _ => decide (j < n)
  | _ => false

/-- How often the disconnect callback was called for a slot below `n`. -/
def disconnectsBelow (n : Nat) (log : List CEv) : Nat := log.countP fun e => match e with
  | .disconnectCb j => decide (j < n)
  | _ => false

theorem below_succ (n : Nat) (log : List CEv) : connectsBelow (n + 1) log = connectsBelow n log + connects n log ∧
    disconnectsBelow (n + 1) log = disconnectsBelow n log + disconnects n log := by
  unfold connectsBelow disconnectsBelow connects disconnects
  induction log with
  | nil => exact ⟨rfl, rfl⟩
  | cons e log ih =>
    obtain ⟨i1, i2⟩ := ih
    simp only [List.countP_cons, i1, i2]
    cases e with
    | connectCb j b =>
      rcases Nat.lt_trichotomy j n with h | h | h
      · simp [h, show j < n + 1 by omega, show j ≠ n by omega]; omega
      · simp [h]; omega
      · simp [show ¬ j < n by omega, show ¬ j < n + 1 by omega, show j ≠ n by omega]
    | disconnectCb j =>
      rcases Nat.lt_trichotomy j n with h | h | h
      · simp [h, show j < n + 1 by omega, show j ≠ n by omega]; omega
      · simp [h]; omega
      · simp [show ¬ j < n by omega, show ¬ j < n + 1 by omega, show j ≠ n by omega]
    | _ => simp

theorem below_count {p : Nat → Bool} {log : List CEv} : ∀ (n : Nat), (∀ i, i < n → connects i log = disconnects i log + if p i then 1 else 0) →
    connectsBelow n log = disconnectsBelow n log + (List.range n).countP p := by
  intro n
  induction n with
  | zero =>
    intro _
    have h1 : connectsBelow 0 log = 0 := by
      unfold connectsBelow
      rw [List.countP_eq_zero]
      intro e _; cases e <;> simp
    have h2 : disconnectsBelow 0 log = 0 := by
      unfold disconnectsBelow
      rw [List.countP_eq_zero]
      intro e _; cases e <;> simp
    rw [h1, h2]; rfl
  | succ n ih =>
    intro h
    have a := ih (fun i hi => h i (by omega))
    obtain ⟨b1, b2⟩ := below_succ n log
    have d := h n (by omega)
    rw [b1, b2, List.range_succ, List.countP_append, List.countP_singleton]
    omega

/-- The calls of the two callbacks of a call, and those it may make for slots of the table only. -/
structure Called (c : PubCtx) : Prop where
  bal : ∀ i, i < LISTEN_INDEX → connects i c.log = opens i c.cv.polls
  idx : ∀ e ∈ c.log, ∀ i, callbackFor i e → i < c.cv.size

theorem Called.step {c c' : PubCtx} (h : Called c) {op : Op} (hs : op.sane) (hq : ∀ ar, op ≠ .readListen ar none) {r : Nat}
    (hx : step c op = .ok (r, c')) : Called c' := by
  obtain ⟨ds, ps, e1, e2, e3, e4, e5⟩ := step_bal (q := true) hs (fun _ => hq) hx
  refine ⟨?_, ?_⟩
  · intro i hi
    have := (e5 i hi).2 rfl
    have := h.bal i hi
    unfold connects opens at *
    rw [e1, e2, List.countP_append, List.countP_append]; omega
  · intro e he i hi
    rw [e1] at he
    rw [e3]
    rcases List.mem_append.1 he with he | he
    · exact h.idx e he i hi
    · exact e4 e he i hi

theorem Reaches.called {ops : List Op} {c : PubCtx} (h : Reaches ops c) (hq : ∀ op ∈ ops, ∀ ar, op ≠ .readListen ar none) : Called c := by
  refine Reaches.induct (P := fun ops c => (∀ op ∈ ops, ∀ ar, op ≠ .readListen ar none) → Called c) ?_ ?_ h hq
  · intro mem n nid ip port hn _
    exact ⟨fun _ _ => rfl, fun e he => by cases he⟩
  · intro ops c op r c' hr ha hs hb hx hq
    exact (ha (fun o ho => hq o (by simp [ho]))).step hs (hq op (by simp)) hx

/-- C58, summed up: if there is a connect callback whenever a connection is accepted, it is called once for each connection, so that for each slot it was called as
often as the disconnect callback, and once more if somebody is connected there. -/
theorem C58_balance {ops : List Op} {c : PubCtx} (h : Reaches ops c) (hq : ∀ op ∈ ops, ∀ ar, op ≠ .readListen ar none) {i : Nat} (hi : i < c.cv.size) :
    connects i c.log = disconnects i c.log + if Connected c i then 1 else 0 := by
  obtain ⟨pops, L, g, _⟩ := h.good
  rw [(h.called hq).bal i (Nat.lt_of_lt_of_le hi g.v.sz), (C58_disconnect h hi).2]

/-! ## Announcements -/

/-- How often the announcement timer has fired. -/
def announcements (log : List CEv) : Nat := log.countP fun e => match e with
  | .announce _ _ => true
  | _ => false

theorem announcements_other {l m : List CEv} (h : ∀ e ∈ m, ∀ a b, e ≠ .announce a b) : announcements (l ++ m) = announcements l := by
  unfold announcements
  have h0 : m.countP (fun e => match e with | .announce _ _ => true | _ => false) = 0 := by
    rw [List.countP_eq_zero]
    intro e he
    have := h e he
    cases e <;> first | (exact absurd rfl (this _ _)) | simp
  rw [List.countP_append, h0, Nat.add_zero]

/-- The announce interval is changed by one call only; while it is 0 the timer does not fire. -/
theorem step_silent {c c' : PubCtx} {pops : List POp} {L : List Nat} {op : Op} {r : Nat} (h : Good c pops L) (hs : op.sane)
    (hb : (queueArgs pops).length + 2 < U64) (hn : ∀ n t, op ≠ .setAnnounce n t) (hx : step c op = .ok (r, c')) :
    c'.annInterval = c.annInterval ∧ (c.annInterval = 0 → announcements c'.log = announcements c.log) := by
  have ha : ∀ {d : PubCtx} {ds : List CEv}, d.log = c.log ++ ds → (∀ e ∈ ds, ∀ a b, e ≠ .announce a b) → cfg d = cfg c →
      d.annInterval = c.annInterval ∧ (c.annInterval = 0 → announcements d.log = announcements c.log) := by
    intro d ds e1 e2 e3
    exact ⟨congrArg Cfg.annInterval e3, fun _ => by rw [e1, announcements_other e2]⟩
  have hsame : c.annInterval = c.annInterval ∧ (c.annInterval = 0 → announcements c.log = announcements c.log) := ⟨rfl, fun _ => rfl⟩
  cases op with
  | queue p ann =>
    have hx' : queuePacket c p ann = .ok (r, c') := hx
    rcases queue_cases h p ann hb with ⟨_, e⟩ | ⟨_, _, e⟩ | ⟨_, _, s', h1, h2, h3, e⟩ <;> rw [e] at hx' <;> cases hx' <;> exact hsame
  | readListen ar cb =>
    obtain ⟨r', c'', ys, L', ds, g1, g2, g3, _, g4, g5, _⟩ := readListen_spec h hs cb
    have : step c (.readListen ar cb) = .ok (r', c'') := g1
    rw [this] at hx; cases hx
    refine ha g4 ?_ g3
    intro e he
    obtain ⟨i, e2 | e2 | e2⟩ := g5 e he <;> rw [e2] <;> simp
  | readMcast err =>
    have hx' : readMcast c err = (r, c') := Except.ok.inj hx
    unfold readMcast at hx'
    split at hx'
    · cases hx'; exact hsame
    · split at hx' <;> cases hx' <;> exact hsame
  | read i rv =>
    rcases readConn_spec h hx with ⟨_, _, e⟩ | ⟨_, c1, ys, zs, ds, L', hst, hy, g, hcf, hss, _, hds, hds2, _, hz⟩
    · subst e; exact hsame
    · refine ha hds ?_ ?_
      · intro e he
        rcases hds2 e he with ⟨bs, e2⟩ | e2 <;> rw [e2] <;> simp
      · first | exact hcf | exact hcf.trans hst.cfg | skip
  | writeMcast rs =>
    obtain ⟨r', c'', ys, es, ds, g1, g2, g3, _, g4, _, g5, _, g6⟩ := multicastWrite_spec rs h
    have : step c (.writeMcast rs) = .ok (r', c'') := g1
    rw [this] at hx; cases hx
    refine ha g5 ?_ g3
    intro e he
    obtain ⟨bs, e2⟩ := sends_no_ann g4 e he
    rw [e2]; simp
  | write i wv =>
    have hx' : writeConn c i wv = .ok (r, c') := hx
    rcases writeConn_spec h i wv with ⟨_, e | e⟩ | ⟨_, _, e⟩ | ⟨_, _, r', c'', out, e, g, g3, _, _, g2, _⟩ <;> rw [e] at hx' <;>
      cases hx'
    · exact hsame
    · exact hsame
    · exact hsame
    · refine ha g2 ?_ g3
      intro e he
      rw [List.mem_singleton.mp he]; simp
  | timeout now cb sp =>
    have hx' : timeoutProcess c now cb sp = .ok (r, c') := hx
    by_cases hd : annDue c now
    · obtain ⟨c'', e, g0, g1, g2, _⟩ := timeout_announce h hd cb sp hb
      rw [e] at hx'; cases hx'
      exact ⟨g1, fun h0 => absurd h0 hd.1⟩
    · have ht := timeout_resend h hd hx'
      obtain ⟨_, ys, g1, g2, g3, _⟩ := subscribersTimeout_spec _ ((subs_nodup h).filter _)
        (fun k hk => (h.slots k).2 (List.mem_filter.mp hk).1) h ht
      exact ha (ds := []) (by rw [g3, List.append_nil]) (by simp) g2.cfg
  | close i =>
    have hx' : closeConnection c i = .ok (r, c') := hx
    by_cases hi : i ∈ L
    · obtain ⟨c'', e, g, g3, _, g2, _⟩ := close_spec h hi
      rw [e] at hx'; cases hx'
      refine ha g2 ?_ g3
      intro e he
      rw [List.mem_singleton.mp he]; simp
    · rw [close_none h hi] at hx'; cases hx'
      exact hsame
  | setAnnounce n now => exact absurd rfl (hn n now)
  | throttling s t =>
    have hx' : PubCtx.throttling c s t = (r, c') := Except.ok.inj hx
    unfold PubCtx.throttling at hx'
    split at hx' <;> cases hx' <;> exact hsame
  | setCtlCb b => cases hx; exact hsame
  | activate a =>
    have hx' : PubCtx.activate c a = (r, c') := Except.ok.inj hx
    unfold PubCtx.activate at hx'
    split at hx' <;> cases hx' <;> exact hsame
  | deactivate =>
    have hx' : PubCtx.deactivate c = .ok (r, c') := hx
    obtain ⟨c'', ys, ds, g1, g2, _, g4, g5, _, g6, _⟩ := deactivate_spec h
    rw [g1] at hx'; cases hx'
    refine ⟨congrArg Cfg.annInterval g6, fun _ => ?_⟩
    rw [g4]
    refine announcements_other ?_
    intro e he
    obtain ⟨i, e2⟩ := g5 e he
    rw [e2]; simp

/-- The packets waiting to be sent become more only by being queued. -/
theorem step_waiting {ops : List Op} {c c' : PubCtx} (h : Reaches ops c) {op : Op} (hs : op.sane) (hb : ops.length + 2 < U64) {r : Nat}
    (h0 : c.annInterval = 0) (hq : ∀ p, op ≠ .queue p true) (hx : step c op = .ok (r, c')) :
    Pub.queueSize c'.pub ≤ Pub.queueSize c.pub + (opQueues op r).length := by
  obtain ⟨pops, L, g, hl, _⟩ := h.good
  have key : ∀ {ys : List POp} {L' : List Nat}, Good c' (pops ++ ys) L' → queueArgs ys = opQueues op r → announceArgs ys = [] →
      Pub.queueSize c'.pub ≤ Pub.queueSize c.pub + (opQueues op r).length := by
    intro ys L' g1 e1 e2
    have a1 := queueSize_log g
    have a2 := queueSize_log g1
    obtain ⟨es, he, _⟩ := good_events g g1
    have b1 : ∀ {c : PubCtx} {ys : List POp} {L : List Nat}, Good c ys L → (queuedPkts c.pub.log).length = (queueArgs ys).length ∧
        (queuedAnn c.pub.log).length = (announceArgs ys).length := by
      intro c ys L g
      obtain ⟨k1, k2⟩ := run_queued ys PSpec.Inv_init (legal_allowed ys PSpec.init g.p.legal)
      have k1' : (queuedPkts (spec ys).log).map (·.2) = queueArgs ys := k1
      have k2' : queuedAnn (spec ys).log = announceArgs ys := k2
      rw [g.p.reached.log, k2', ← k1', List.length_map]
      exact ⟨rfl, rfl⟩
    rw [(b1 g).1, (b1 g).2] at a1
    rw [(b1 g1).1, (b1 g1).2, show queueArgs (pops ++ ys) = queueArgs pops ++ queueArgs ys from List.filterMap_append ..,
      show announceArgs (pops ++ ys) = announceArgs pops ++ announceArgs ys from List.filterMap_append .., e1, e2, he, sentAll_append,
      List.length_append, List.length_append, List.length_append, List.length_nil] at a2
    omega
  by_cases ht : ∃ now cb sp, op = .timeout now cb sp
  · obtain ⟨now, cb, sp, rfl⟩ := ht
    have ht := timeout_resend g (fun hd => hd.1 h0) hx
    obtain ⟨_, ys, g1, g2, g3, _⟩ := subscribersTimeout_spec _ ((subs_nodup g).filter _)
      (fun k hk => (g.slots k).2 (List.mem_filter.mp hk).1) g ht
    refine key g1 ?_ ?_
    · refine queueArgs_nil ?_
      intro y hy p
      obtain ⟨k, pid, e⟩ := g2.acks.acks y hy
      rw [e]; simp
    · refine announceArgs_nil ?_
      intro y hy p
      obtain ⟨k, pid, e⟩ := g2.acks.acks y hy
      rw [e]; simp
  · obtain ⟨ys, L', g1, g2, g3⟩ := step_args g hs (by omega) hx
    refine key g1 g2 ?_
    apply List.eq_nil_iff_forall_not_mem.2
    intro p hp
    rcases g3 p hp with e | ⟨now, cb, sp, e, _⟩
    · exact hq p e
    · exact ht ⟨now, cb, sp, e⟩

end PubCtx

namespace TestPub
open PubCtx PLog

theorem counter_append (xs ys : List CEv) : counter (xs ++ ys) = counter xs + counter ys := by
  have key : ∀ (ys : List CEv) (n : Int), ys.foldl counted n = n + counter ys := by
    intro ys
    induction ys with
    | nil => intro n; simp [counter]
    | cons e ys ih =>
      intro n
      unfold counter
      rw [List.foldl_cons, List.foldl_cons, ih, ih]
      cases e <;> simp [counted] <;> omega
  unfold counter
  rw [List.foldl_append, key]
  rfl

theorem counter_below {n : Nat} : ∀ (log : List CEv), (∀ e ∈ log, ∀ i, callbackFor i e → i < n) →
    counter log = (connectsBelow n log : Int) - disconnectsBelow n log := by
  intro log
  induction log with
  | nil => intro _; rfl
  | cons e log ih =>
    intro h
    have a := ih (fun e he => h e (List.mem_cons_of_mem _ he))
    rw [show e :: log = [e] ++ log from rfl, counter_append, a]
    have he := h e (List.mem_cons_self ..)
    unfold connectsBelow disconnectsBelow
    rw [List.countP_append, List.countP_append, List.countP_singleton, List.countP_singleton]
    cases e with
    | connectCb j b => simp [counter, counted, he j rfl]; omega
    | disconnectCb j => simp [counter, counted, he j rfl]; omega
    | _ => simp [counter, counted]

/-- C90: the counter kept by the callbacks of the test publisher is the number of subscribers connected. -/
theorem C90_counter {ops : List Op} {c : PubCtx} (h : Reaches ops c) (hq : ∀ op ∈ ops, ∀ ar, op ≠ .readListen ar none) :
    counter c.log = subscriberCount c := by
  have hc := h.called hq
  have e := below_count (p := fun i => decide ((c.cv.conns i).mode = .connected)) (log := c.log) c.cv.size (by
    intro i hi
    rw [C58_balance h hq hi]
    congr 1
    have : Connected c i ↔ (c.cv.conns i).mode = .connected := ⟨fun x => x.2, fun x => ⟨hi, x⟩⟩
    simp only [this, decide_eq_true_eq])
  rw [counter_below c.log hc.idx, (C56_publisher h).1, e]
  omega

/-! ## A logic for the program -/

/-- Specification: the calls the program makes: its connect callback always accepts, there is no announce callback; accept() behaves (`saneAcc`). -/
def progCall : Op → Prop
  | .queue p ann => ann = false ∧ p.onStack = false
  | .readListen ar cb => saneAcc ar ∧ cb = some true
  | .timeout _ cb _ => cb = none
  | .throttling _ _ => False
  | .setCtlCb _ => False
  | _ => True

/-- Specification: the calls it makes between activation and deactivation. -/
def midCall : Op → Prop
  | .queue p ann => ann = false ∧ p.onStack = false
  | .readListen ar cb => saneAcc ar ∧ cb = some true
  | .timeout _ cb _ => cb = none
  | .throttling _ _ => False
  | .setCtlCb _ => False
  | .activate _ => False
  | .deactivate => False
  | _ => True

theorem midCall.prog {op : Op} (h : midCall op) : progCall op := by
  cases op <;> first | trivial | exact h | exact h.elim

theorem progCall.sane {op : Op} (h : progCall op) : op.sane := by
  cases op <;> first | trivial | exact h.1

/-- The state of the program started in `c0` after the calls `ops`: it has queued packets with the contents `qs`, and `J` holds. -/
structure PI0 (c0 : PubCtx) (J : PubCtx → Prop) (qs : List (List UInt8)) (ops : List Op) (c : PubCtx) : Prop where
  reach : Reaches ops c
  run : ∃ rs, run c0 ops = .ok (rs, c)
  queued : (queuedPkts c.pub.log).map (·.2.data) = qs
  thr : c.suspendThr = 0
  susp : c.suspended = false
  calls : ∀ op ∈ ops, progCall op
  inv : J c

/-- ... and has not deactivated the context. -/
structure PI (c0 : PubCtx) (J : PubCtx → Prop) (qs : List (List UInt8)) (ops : List Op) (c : PubCtx) : Prop extends PI0 c0 J qs ops c where
  mid : ∀ op ∈ ops.drop 2, midCall op

/-- The same, unless it is at its end. -/
structure PIx (st : Stage) (c0 : PubCtx) (J : PubCtx → Prop) (qs : List (List UInt8)) (ops : List Op) (c : PubCtx) : Prop extends PI0 c0 J qs ops c where
  mid : st ≠ .done → ∀ op ∈ ops.drop 2, midCall op

theorem PI.px {c0 : PubCtx} {J : PubCtx → Prop} {qs : List (List UInt8)} {ops : List Op} {c : PubCtx} (h : PI c0 J qs ops c) (st : Stage) : PIx st c0 J qs ops c :=
  ⟨h.toPI0, fun _ => h.mid⟩

/-- `J` is kept by all calls but queueing and setting the announce interval. -/
def Stable (J : PubCtx → Prop) : Prop := ∀ {ops : List Op} {c c' : PubCtx} {op : Op} {r : Nat}, Reaches ops c → progCall op →
  (∀ n t, op ≠ .setAnnounce n t) → (∀ p a, op ≠ .queue p a) → ops.length + 2 < U64 → PubCtx.step c op = .ok (r, c') → J c → J c'

/-- While it waits: announcements are made every 0.3 seconds. -/
def Announcing (c : PubCtx) : Prop := c.annInterval = ANNOUNCE_INTERVAL

/-- Later: no announcement is made any more, and at most `B` packets wait to be sent. -/
def Quiet (A B : Nat) (c : PubCtx) : Prop := c.annInterval = 0 ∧ announcements c.log = A ∧ queueLength c ≤ B

theorem Announcing.stable : Stable Announcing := by
  intro ops c c' op r h hp h1 h2 hb hx hj
  obtain ⟨pops, L, g, hl, _⟩ := h.good
  exact (step_silent g hp.sane (by omega) h1 hx).1.trans hj

theorem Quiet.stable {A B : Nat} : Stable (Quiet A B) := by
  intro ops c c' op r h hp h1 h2 hb hx hj
  obtain ⟨pops, L, g, hl, _⟩ := h.good
  obtain ⟨k1, k2⟩ := step_silent g hp.sane (by omega) h1 hx
  obtain ⟨j1, j2, j3⟩ := hj
  have k3 := step_waiting h hp.sane hb j1 (fun p e => h2 p true e) hx
  have : opQueues op r = [] := by cases op <;> first | rfl | exact absurd rfl (h2 _ _)
  rw [this, List.length_nil] at k3
  exact ⟨k1.trans j1, (k2 j1).trans j2, Nat.le_trans k3 j3⟩

theorem PI.weaken {c0 : PubCtx} {J K : PubCtx → Prop} {qs : List (List UInt8)} {ops : List Op} {c : PubCtx} (h : PI c0 J qs ops c) (hk : K c) : PI c0 K qs ops c :=
  ⟨⟨h.reach, h.run, h.queued, h.thr, h.susp, h.calls, hk⟩, h.mid⟩

variable {c0 : PubCtx} {J : PubCtx → Prop}

theorem run_snoc' : ∀ (ops : List Op) {c c1 c2 : PubCtx} {rs : List Nat} {op : Op} {r : Nat}, PubCtx.run c ops = .ok (rs, c1) → step c1 op = .ok (r, c2) →
    PubCtx.run c (ops ++ [op]) = .ok (rs ++ [r], c2) := by
  intro ops
  induction ops with
  | nil =>
    intro c c1 c2 rs op r h hx
    cases h
    rw [List.nil_append, run_cons, hx]
    rfl
  | cons o ops ih =>
    intro c c1 c2 rs op r h hx
    rw [run_cons] at h
    rw [List.cons_append, run_cons]
    cases ho : step c o with
    | error f => rw [ho] at h; cases h
    | ok y =>
      rw [ho, Pub.ok_bind] at h
      rw [Pub.ok_bind]
      cases hy : PubCtx.run y.2 ops with
      | error f => rw [hy] at h; cases h
      | ok z =>
        rw [hy, Pub.ok_bind] at h
        have h := Except.ok.inj h
        have e1 : z.2 = c1 := congrArg Prod.snd h
        have e2 : y.1 :: z.1 = rs := congrArg Prod.fst h
        rw [ih (rs := z.1) (by rw [hy, ← e1]) hx, Pub.ok_bind, ← e2]
        rfl

theorem run_split : ∀ (ops1 : List Op) {ops2 : List Op} {c c1 c2 : PubCtx} {rs1 rs : List Nat}, PubCtx.run c ops1 = .ok (rs1, c1) →
    PubCtx.run c (ops1 ++ ops2) = .ok (rs, c2) → ∃ rs2, PubCtx.run c1 ops2 = .ok (rs2, c2) := by
  intro ops1
  induction ops1 with
  | nil => intro ops2 c c1 c2 rs1 rs h hx; cases h; exact ⟨rs, hx⟩
  | cons o ops ih =>
    intro ops2 c c1 c2 rs1 rs h hx
    rw [run_cons] at h
    rw [List.cons_append, run_cons] at hx
    cases ho : step c o with
    | error f => rw [ho] at h; cases h
    | ok y =>
      rw [ho, Pub.ok_bind] at h hx
      cases hy : PubCtx.run y.2 ops with
      | error f => rw [hy] at h; cases h
      | ok z =>
        rw [hy, Pub.ok_bind] at h
        have e1 : z.2 = c1 := congrArg Prod.snd (Except.ok.inj h)
        cases hz : PubCtx.run y.2 (ops ++ ops2) with
        | error f => rw [hz] at hx; cases hx
        | ok w =>
          rw [hz, Pub.ok_bind] at hx
          have e2 : w.2 = c2 := congrArg Prod.snd (Except.ok.inj hx)
          exact ih (rs1 := z.1) (rs := w.1) (by rw [hy, ← e1]) (by rw [hz, ← e2])

theorem PI0.counter {qs : List (List UInt8)} {ops : List Op} {c : PubCtx} (h : PI0 c0 J qs ops c) : counter c.log = subscriberCount c := by
  refine C90_counter h.reach ?_
  intro op ho ar e
  have := h.calls op ho
  rw [e] at this
  cases this.2

theorem PI0.step {qs : List (List UInt8)} {ops : List Op} {c c' : PubCtx} (h : PI0 c0 J qs ops c) {op : Op} (hp : progCall op) (hb : ops.length + 2 < U64)
    {r : Nat} (hx : step c op = .ok (r, c')) {K : PubCtx → Prop} (hk : K c') : PI0 c0 K (qs ++ (opQueues op r).map (·.data)) (ops ++ [op]) c' := by
  obtain ⟨rs, hrs⟩ := h.run
  refine ⟨h.reach.snoc' hp.sane hb hx, ⟨_, run_snoc' ops hrs hx⟩, ?_, ?_, ?_, ?_, hk⟩
  · have := PubCtx.step_queued h.reach hp.sane hb hx
    have e : ∀ l : List (Nat × Payload), l.map (·.2.data) = (l.map (·.2)).map (·.data) := by intro l; rw [List.map_map]; rfl
    rw [e, this, List.map_append, ← e, h.queued]
  · obtain ⟨pops, L, g, hq, _⟩ := h.reach.good
    have := step_thr g hp.sane (by omega) hx
    have t := h.thr
    cases op <;> first | exact hp.elim | (rw [← t]; exact congrArg Prod.fst this)
  · cases hs : c'.suspended with
    | false => rfl
    | true =>
      have := (C25_suspend h.reach hp.sane hb hx (by unfold trafficSuspended; rw [h.susp]; rfl) (by unfold trafficSuspended; rw [hs]; rfl)).2.1
      rw [h.thr] at this; cases this
  · intro o ho
    rcases List.mem_append.1 ho with ho | ho
    · exact h.calls o ho
    · rw [List.mem_singleton.1 ho]; exact hp

theorem PI.step {qs : List (List UInt8)} {ops : List Op} {c c' : PubCtx} (h : PI c0 J qs ops c) {op : Op} (hp : midCall op) (hb : ops.length + 2 < U64)
    {r : Nat} (hx : PubCtx.step c op = .ok (r, c')) {K : PubCtx → Prop} (hk : K c') : PI c0 K (qs ++ (opQueues op r).map (·.data)) (ops ++ [op]) c' := by
  refine ⟨h.toPI0.step hp.prog hb hx hk, ?_⟩
  intro o ho
  rw [List.drop_append] at ho
  rcases List.mem_append.1 ho with ho | ho
  · exact h.mid o ho
  · rw [List.mem_singleton.1 (List.mem_of_mem_drop ho)]; exact hp

/-- The program, started in `c0` and having made the calls `ops`, stops in a call of the library. -/
def Fail (c0 : PubCtx) (ops : List Op) (f : Fault) : Prop :=
  ∃ calls m op, (∀ o ∈ calls, progCall o) ∧ (Reaches (ops ++ calls) m ∧ ∃ rs, run c0 (ops ++ calls) = .ok (rs, m)) ∧ progCall op ∧
    PubCtx.step m op = .error f ∧ (ops ++ calls).length + 2 < U64

/-- A part of the program run after the calls `ops` makes at most `n` calls; if it comes to its end then `P` holds of its result and all calls so far; otherwise
a call of the library failed. -/
def Out {α : Type} (c0 : PubCtx) (ops : List Op) (n : Nat) (x : M α) (P : α → List Op → Prop) : Prop :=
  (∀ a, x = .ok a → ∃ calls, calls.length ≤ n ∧ P a (ops ++ calls)) ∧ (∀ f, x = .error f → Fail c0 ops f)

theorem Fail.later {ops calls : List Op} {f : Fault} (hc : ∀ o ∈ calls, progCall o) (h : Fail c0 (ops ++ calls) f) : Fail c0 ops f := by
  obtain ⟨k, m, op, h1, h2, h3, h4, h5⟩ := h
  refine ⟨calls ++ k, m, op, ?_, by rw [← List.append_assoc]; exact h2, h3, h4, by rw [← List.append_assoc]; exact h5⟩
  intro o ho
  rcases List.mem_append.1 ho with ho | ho
  · exact hc o ho
  · exact h1 o ho

theorem Out.pure {α : Type} {ops : List Op} {n : Nat} {a : α} {P : α → List Op → Prop} (h : P a ops) : Out c0 ops n (.ok a) P := by
  refine ⟨?_, fun f hf => by cases hf⟩
  intro b hb
  cases hb
  exact ⟨[], by simp, by rw [List.append_nil]; exact h⟩

theorem Out.weaken {α : Type} {ops : List Op} {n m : Nat} {x : M α} {P Q : α → List Op → Prop} (h : Out c0 ops n x P) (hn : n ≤ m)
    (hq : ∀ a o, P a o → Q a o) : Out c0 ops m x Q := by
  refine ⟨?_, h.2⟩
  intro a ha
  obtain ⟨k, h1, h2⟩ := h.1 a ha
  exact ⟨k, by omega, hq _ _ h2⟩

theorem Out.bind {α β : Type} {ops : List Op} {n m : Nat} {x : M α} {f : α → M β} {P : α → List Op → Prop} {Q : β → List Op → Prop}
    (h : Out c0 ops n x P) (hp : ∀ a o, P a o → ∀ op ∈ o, progCall op)
    (hf : ∀ a calls, calls.length ≤ n → P a (ops ++ calls) → Out c0 (ops ++ calls) m (f a) Q) : Out c0 ops (n + m) (x >>= f) Q := by
  cases x with
  | error g =>
    refine ⟨fun a ha => (by cases ha), fun f hf => ?_⟩
    cases hf
    exact h.2 _ rfl
  | ok a =>
    obtain ⟨k, h1, h2⟩ := h.1 a rfl
    obtain ⟨g1, g2⟩ := hf a k h1 h2
    refine ⟨?_, ?_⟩
    · intro b hb
      obtain ⟨k', h3, h4⟩ := g1 b hb
      exact ⟨k ++ k', by rw [List.length_append]; omega, by rw [← List.append_assoc]; exact h4⟩
    · intro f hf
      exact (g2 f hf).later (fun o ho => hp _ _ h2 o (List.mem_append_right _ ho))

theorem Out.step {qs : List (List UInt8)} {ops : List Op} {c : PubCtx} (h : PI c0 J qs ops c) {op : Op} (hp : midCall op) (hb : ops.length + 2 < U64)
    {K : PubCtx → Prop} (hk : ∀ r c', PubCtx.step c op = .ok (r, c') → K c') :
    Out c0 ops 1 (step c op) (fun r o => PI c0 K (qs ++ (opQueues op r.1).map (·.data)) o r.2) := by
  refine ⟨?_, ?_⟩
  · intro a ha
    exact ⟨[op], by simp, h.step hp hb ha (hk _ _ ha)⟩
  · intro f hf
    exact ⟨[], c, op, by simp, by rw [List.append_nil]; exact ⟨h.reach, h.run⟩, hp.prog, hf, by rw [List.append_nil]; exact hb⟩

/-- A call that queues nothing. -/
theorem Out.keep {qs : List (List UInt8)} {ops : List Op} {c : PubCtx} (h : PI c0 J qs ops c) {op : Op} (hp : midCall op)
    (hq : ∀ p a, op ≠ .queue p a) (hb : ops.length + 2 < U64) {K : PubCtx → Prop} (hk : ∀ r c', PubCtx.step c op = .ok (r, c') → K c') :
    Out c0 ops 1 (PubCtx.step c op) (fun r o => PI c0 K qs o r.2) := by
  refine (Out.step h hp hb hk).weaken (Nat.le_refl _) ?_
  intro a o ho
  have : opQueues op a.1 = [] := by cases op <;> first | rfl | exact absurd rfl (hq _ _)
  rw [this, List.map_nil, List.append_nil] at ho
  exact ho

/-- ... and does not set the announce interval. -/
theorem Out.quiet (hJ : Stable J) {qs : List (List UInt8)} {ops : List Op} {c : PubCtx} (h : PI c0 J qs ops c) {op : Op} (hp : midCall op)
    (hn : ∀ n t, op ≠ .setAnnounce n t) (hq : ∀ p a, op ≠ .queue p a) (hb : ops.length + 2 < U64) :
    Out c0 ops 1 (PubCtx.step c op) (fun r o => PI c0 J qs o r.2) :=
  Out.keep h hp hq hb (fun r c' hx => hJ h.reach hp.prog hn hq hb hx h.inv)

/-! ## The loops -/

/-- The events reported by a call of epoll_wait(). -/
def evsOf (o : Option (List Event)) : List Event := o.getD []

/-- Assumption: accept() gives a new descriptor a connection can have (`saneAcc`). -/
def okEvs (o : Option (List Event)) : Prop := ∀ e ∈ evsOf o, saneAcc e.ar

/-- A bound on the calls of the library made for the events. -/
def evsCost (o : Option (List Event)) : Nat := 3 * (evsOf o).length

theorem onEvent_out (hJ : Stable J) {qs : List (List UInt8)} {ops : List Op} {c : PubCtx} (h : PI c0 J qs ops c) {e : Event} (he : saneAcc e.ar) (hb : ops.length + 4 < U64) :
    Out c0 ops 3 (onEvent c (answered e)) (fun c' o => PI c0 J qs o c') := by
  have hout : ∀ {ops : List Op} {c : PubCtx}, PI c0 J qs ops c → ops.length + 3 < U64 → Out c0 ops 2 (onOut c (answered e)) (fun c' o => PI c0 J qs o c') := by
    intro ops c h hb
    unfold onOut
    split
    · unfold onWrite
      refine Out.bind (n := 1) (m := 1) (Out.quiet hJ h (by unfold Event.writeOp; split <;> trivial) (by unfold Event.writeOp; intro p a; split <;> exact fun x => by cases x) (by unfold Event.writeOp; intro p a; split <;> exact fun x => by cases x) (by omega))
        (fun a o ho => ho.calls) ?_
      intro r k hk hr
      split
      · refine Out.bind (n := 1) (m := 0) (Out.quiet hJ hr (by trivial) (fun p a x => by cases x) (fun p a x => by cases x) (by rw [List.length_append]; omega)) (fun a o ho => ho.calls) ?_
        intro x k' _ hx
        exact Out.pure hx
      · exact Out.pure hr
    · exact Out.pure h
  unfold onEvent
  split
  · refine Out.bind (n := 1) (m := 2) (Out.quiet hJ h ?_ ?_ ?_ (by omega)) (fun a o ho => ho.calls) ?_
    · unfold Event.readOp
      split
      · exact ⟨he, rfl⟩
      · split <;> trivial
    · unfold Event.readOp
      intro p a
      split
      · exact fun x => by cases x
      · split <;> exact fun x => by cases x
    · unfold Event.readOp
      intro p a
      split
      · exact fun x => by cases x
      · split <;> exact fun x => by cases x
    · intro r k hk hr
      exact hout hr (by rw [List.length_append]; omega)
  · exact (hout h (by omega)).weaken (by omega) (fun _ _ x => x)

theorem onEvents_out (hJ : Stable J) {qs : List (List UInt8)} : ∀ (l : List Event) {ops : List Op} {c : PubCtx}, PI c0 J qs ops c → (∀ e ∈ l, saneAcc e.ar) →
    ops.length + 3 * l.length + 1 < U64 → Out c0 ops (3 * l.length) (onEvents c (l.map answered)) (fun c' o => PI c0 J qs o c') := by
  intro l
  induction l with
  | nil => intro ops c h _ _; exact Out.pure h
  | cons e l ih =>
    intro ops c h he hb
    rw [List.length_cons] at hb
    rw [List.map_cons, onEvents, List.length_cons, show 3 * (l.length + 1) = 3 + 3 * l.length by omega]
    refine Out.bind (onEvent_out hJ h (he e (by simp)) (by omega)) (fun a o ho => ho.calls) ?_
    intro c' k hk hr
    exact ih hr (fun e he' => he e (by simp [he'])) (by rw [List.length_append]; omega)

theorem poll_out (hJ : Stable J) {qs : List (List UInt8)} {ops : List Op} {c : PubCtx} (h : PI c0 J qs ops c) {o : Option (List Event)} (ho : okEvs o)
    (hb : ops.length + evsCost o + 1 < U64) : Out c0 ops (evsCost o) (poll c o) (fun c' o => PI c0 J qs o c') := by
  cases o with
  | none => exact Out.pure h
  | some evs =>
    unfold poll processEvents
    have := onEvents_out hJ evs.reverse h (fun e he => ho e (List.mem_reverse.1 he)) (by rw [List.length_reverse]; exact hb)
    rw [List.map_reverse, List.length_reverse] at this
    exact this

/-- A bound on the calls made in a round. -/
def Wait.cost (w : Wait) : Nat := evsCost w.evs + 1

/-- A bound on the calls made in a list of rounds. -/
def waitsCost (ws : List Wait) : Nat := (ws.map Wait.cost).sum

theorem wait_out (hJ : Stable J) {qs : List (List UInt8)} {ops : List Op} {c : PubCtx} (h : PI c0 J qs ops c) {w : Wait} (ho : okEvs w.evs)
    (hb : ops.length + w.cost + 1 < U64) : Out c0 ops w.cost (wait c w) (fun c' o => PI c0 J qs o c') := by
  unfold wait
  unfold Wait.cost at *
  split
  next e =>
    rw [e, show evsCost none + 1 = 1 + 0 from rfl]
    refine Out.bind (Out.quiet hJ h (by rfl) (fun p a x => by cases x) (fun p a x => by cases x) (by omega)) (fun a o ho => ho.calls) ?_
    intro r k _ hr
    exact Out.pure hr
  · exact (poll_out hJ h ho (by omega)).weaken (by omega) (fun _ _ x => x)

theorem gather_out (hJ : Stable J) {qs : List (List UInt8)} (expected : Int) : ∀ (ws : List Wait) {ops : List Op} {c : PubCtx}, PI c0 J qs ops c → (∀ w ∈ ws, okEvs w.evs) →
    ops.length + waitsCost ws + 1 < U64 →
    Out c0 ops (waitsCost ws) (gather expected ws c) (fun x o => PI c0 J qs o x.2 ∧ (x.1 = true → expected ≤ counter x.2.log) ∧ (x.1 = false → counter x.2.log < expected)) := by
  intro ws
  induction ws with
  | nil => intro ops c h _ _; exact Out.pure ⟨h, fun x => of_decide_eq_true x, fun x => Int.not_le.1 (of_decide_eq_false x)⟩
  | cons w ws ih =>
    intro ops c h hw hb
    rw [gather]
    rw [show waitsCost (w :: ws) = w.cost + waitsCost ws from List.sum_cons] at hb ⊢
    split
    next e => exact Out.pure ⟨h, fun _ => e, fun x => by cases x⟩
    · refine Out.bind (wait_out hJ h (hw w (by simp)) (by omega)) (fun a o ho => ho.calls) ?_
      intro c' k hk hr
      exact ih hr (fun w hw' => hw w (by simp [hw'])) (by rw [List.length_append]; omega)

theorem pause_out (hJ : Stable J) {qs : List (List UInt8)} (tout : Int) : ∀ (ws : List Wait) (cur : Int) {ops : List Op} {c : PubCtx}, PI c0 J qs ops c → (∀ w ∈ ws, okEvs w.evs) →
    ops.length + waitsCost ws + 1 < U64 →
    Out c0 ops (waitsCost ws) (pause tout cur ws c) (fun x o => PI c0 J qs o x.2 ∧ (x.1 = true → queueLength x.2 ≤ QUEUE_MAX)) := by
  intro ws
  induction ws with
  | nil => intro cur ops c h _ _; exact Out.pure ⟨h, fun x => (of_decide_eq_true x).2⟩
  | cons w ws ih =>
    intro cur ops c h hw hb
    rw [pause]
    rw [show waitsCost (w :: ws) = w.cost + waitsCost ws from List.sum_cons] at hb ⊢
    split
    next e => exact Out.pure ⟨h, fun _ => e.2⟩
    · refine Out.bind (wait_out hJ h (hw w (by simp)) (by omega)) (fun a o ho => ho.calls) ?_
      intro c' k hk hr
      exact ih w.cur hr (fun w hw' => hw w (by simp [hw'])) (by rw [List.length_append]; omega)

theorem queueData_out {A B : Nat} {qs : List (List UInt8)} {ops : List Op} {c : PubCtx} (h : PI c0 (Quiet A B) qs ops c) {ptr : Nat} {payload : List UInt8}
    (hl : payload.length ≤ RMC_MAX_PAYLOAD) (hb : ops.length + 2 < U64) :
    Out c0 ops 1 (queueData c ptr payload) (fun c' o => PI c0 (Quiet A (B + 1)) (qs ++ [payload]) o c') := by
  unfold queueData
  obtain ⟨pops, L, g, hq, _⟩ := h.reach.good
  rcases queue_cases g ⟨ptr, payload, false⟩ false (by omega) with ⟨a, _⟩ | ⟨_, a, _⟩ | ⟨_, _, s', _, _, _, e⟩
  · exact absurd hl (Nat.not_le.2 a)
  · rw [h.susp] at a; cases a
  · refine Out.bind (n := 1) (m := 0) (Q := fun c' o => PI c0 (Quiet A (B + 1)) (qs ++ [payload]) o c') (P := fun r o => r.1 = 0 ∧ PI c0 (Quiet A (B + 1)) (qs ++ [payload]) o r.2) ?_ (fun a o ho => ho.2.calls) ?_
    · refine ⟨?_, ?_⟩
      · intro a ha
        obtain ⟨r, c'⟩ := a
        have hr : r = 0 := by
          have := ha.symm.trans e
          exact congrArg Prod.fst (Except.ok.inj this)
        have hk : Quiet A (B + 1) c' := by
          obtain ⟨j1, j2, j3⟩ := h.inv
          obtain ⟨k1, k2⟩ := step_silent g (op := .queue ⟨ptr, payload, false⟩ false) trivial (by omega) (fun n t x => by cases x) ha
          have k3 := step_waiting h.reach (op := .queue ⟨ptr, payload, false⟩ false) trivial hb j1 (fun p x => by cases x) ha
          rw [hr] at k3
          exact ⟨k1.trans j1, (k2 j1).trans j2, Nat.le_trans k3 (Nat.succ_le_succ j3)⟩
        have := h.step (op := .queue ⟨ptr, payload, false⟩ false) (show midCall (.queue ⟨ptr, payload, false⟩ false) from ⟨rfl, rfl⟩) hb ha hk
        rw [hr] at this
        exact ⟨[_], by simp, hr, this⟩
      · intro f hf
        exact ⟨[], c, _, by simp, by rw [List.append_nil]; exact ⟨h.reach, h.run⟩, (show progCall (.queue ⟨ptr, payload, false⟩ false) from ⟨rfl, rfl⟩), hf, by rw [List.append_nil]; exact hb⟩
    · intro r k _ hr
      rw [if_neg (fun x => x hr.1)]
      exact Out.pure hr.2

/-- The waiting loop after the packet of `s` is not over: the clock read last is before the time of the next packet, or more than 100 packets are queued. -/
def Held (s : Send) (c : PubCtx) : Prop := ∃ t, (t = startClock s ∨ ∃ w ∈ s.waits, t = w.cur) ∧ (t < s.tout ∨ 100 < queueLength c)

/-- The waiting loop ends as soon as the time has come and not too many packets are queued, and not before. -/
theorem pause_end (tout : Int) : ∀ (ws : List Wait) (cur : Int) {c c' : PubCtx} {b : Bool}, pause tout cur ws c = .ok (b, c') →
    ∃ t, (t = cur ∨ ∃ w ∈ ws, t = w.cur) ∧ (b = true ↔ tout ≤ t ∧ queueLength c' ≤ 100) := by
  intro ws
  induction ws with
  | nil =>
    intro cur c c' b h
    rw [pause] at h
    have h := Except.ok.inj h
    obtain ⟨rfl, rfl⟩ := Prod.mk.inj h
    exact ⟨cur, .inl rfl, decide_eq_true_iff⟩
  | cons w ws ih =>
    intro cur c c' b h
    rw [pause] at h
    split at h
    next e =>
      have h := Except.ok.inj h
      obtain ⟨rfl, rfl⟩ := Prod.mk.inj h
      exact ⟨cur, .inl rfl, fun _ => e, fun _ => rfl⟩
    next e =>
      cases hw : wait c w with
      | error f => rw [hw] at h; cases h
      | ok c1 =>
        rw [hw] at h
        obtain ⟨t, h1, h2⟩ := ih w.cur h
        refine ⟨t, .inr ?_, h2⟩
        rcases h1 with h1 | ⟨v, hv, h1⟩
        · exact ⟨w, by simp, h1⟩
        · exact ⟨v, by simp [hv], h1⟩

theorem sendOne_end {c c' : PubCtx} {s : Send} {payload : List UInt8} (h : sendOne c s payload = .ok (false, c')) : Held s c' := by
  unfold sendOne at h
  cases hq : queueData c s.ptr payload with
  | error f => rw [hq] at h; cases h
  | ok c1 =>
    rw [hq, Pub.ok_bind] at h
    cases hp : pause s.tout (startClock s) s.waits c1 with
    | error f => rw [hp] at h; cases h
    | ok x =>
      rw [hp, Pub.ok_bind] at h
      obtain ⟨b, c2⟩ := x
      obtain ⟨t, h1, h2⟩ := pause_end _ _ _ hp
      cases b with
      | true =>
        rw [if_pos rfl] at h
        cases hz : settleOnce c2 s with
        | error f => rw [hz] at h; cases h
        | ok c3 => rw [hz] at h; cases h
      | false =>
        have e : c2 = c' := congrArg Prod.snd (Except.ok.inj h)
        rw [e] at h2
        refine ⟨t, h1, ?_⟩
        apply Classical.byContradiction
        intro hn
        exact absurd (h2.2 ⟨by omega, by omega⟩) (by decide)

/-- A bound on the calls made for one packet. -/
def Send.cost (s : Send) : Nat := 1 + (waitsCost s.waits + (evsCost s.evs + 1))

/-- Assumption: accept() behaves. -/
def Send.ok (s : Send) : Prop := (∀ w ∈ s.waits, okEvs w.evs) ∧ okEvs s.evs

theorem sendOne_out {A B : Nat} (hB : QUEUE_MAX ≤ B) {qs : List (List UInt8)} {ops : List Op} {c : PubCtx} (h : PI c0 (Quiet A B) qs ops c) {s : Send} (hs : s.ok)
    {payload : List UInt8} (hl : payload.length ≤ RMC_MAX_PAYLOAD) (hb : ops.length + s.cost + 1 < U64) :
    Out c0 ops s.cost (sendOne c s payload) (fun x o => PI c0 (Quiet A (if x.1 then B else B + 1)) (qs ++ [payload]) o x.2) := by
  unfold Send.cost at *
  unfold sendOne
  refine Out.bind (queueData_out h hl (by omega)) (fun a o ho => ho.calls) ?_
  intro c1 k1 l1 h1
  refine Out.bind (pause_out Quiet.stable s.tout s.waits (startClock s) h1 hs.1 (by rw [List.length_append]; omega)) (fun a o ho => ho.1.calls) ?_
  intro x k2 l2 h2
  split
  next e =>
    have hj : Quiet A B x.2 := ⟨h2.1.inv.1, h2.1.inv.2.1, Nat.le_trans (h2.2 e) hB⟩
    have h2' := h2.1.weaken hj
    have hJ : Stable (Quiet A B) := Quiet.stable
    unfold settleOnce
    refine Out.bind (n := evsCost s.evs + 1) (m := 0) (P := fun c' o => PI c0 (Quiet A B) (qs ++ [payload]) o c') ?_ (fun a o ho => ho.calls) ?_
    · refine Out.bind (poll_out hJ h2' hs.2 (by rw [List.length_append, List.length_append]; omega)) (fun a o ho => ho.calls) ?_
      intro c3 k3 l3 h3
      refine Out.bind (n := 1) (m := 0) (Out.quiet hJ h3 (by rfl) (fun p a x => by cases x) (fun p a x => by cases x) (by simp only [List.length_append]; omega)) (fun a o ho => ho.calls) ?_
      intro r k _ hr
      exact Out.pure hr
    · intro c' k _ hr
      exact Out.pure hr
  · exact Out.pure h2.1

/-- A bound on the calls made for all packets. -/
def sendsCost (ss : List Send) : Nat := (ss.map Send.cost).sum

theorem sends_out {A B : Nat} (hB : QUEUE_MAX ≤ B) (node count : Nat) : ∀ (ss : List Send) (ind : Nat) {qs : List (List UInt8)} {ops : List Op} {c : PubCtx}, PI c0 (Quiet A B) qs ops c → (∀ s ∈ ss, s.ok) →
    ops.length + sendsCost ss + 1 < U64 →
    Out c0 ops (sendsCost ss) (sends node count ss ind c) (fun x o => ∃ ps rest, Selftest.payloads node count ind = ps ++ rest ∧
      ((x.1 = true → rest = []) ∧ (x.1 = false → rest ≠ [] ∨ ∃ s ∈ ss, Held s x.2)) ∧ PI c0 (Quiet A (B + 1)) (qs ++ ps) o x.2) := by
  intro ss
  induction ss with
  | nil =>
    intro ind qs ops c h _ _
    refine Out.pure ⟨[], _, rfl, ?_, by rw [List.append_nil]; exact h.weaken ⟨h.inv.1, h.inv.2.1, Nat.le_succ_of_le h.inv.2.2⟩⟩
    refine ⟨fun x => Selftest.payloads_nil (Nat.not_le.2 (of_decide_eq_true x)), fun x => .inl ?_⟩
    rw [Selftest.payloads_cons (Nat.not_lt.1 (of_decide_eq_false x))]
    exact List.cons_ne_nil _ _
  | cons s ss ih =>
    intro ind qs ops c h hs hb
    rw [sends]
    rw [show sendsCost (s :: ss) = s.cost + sendsCost ss from List.sum_cons] at hb ⊢
    split
    next e => exact Out.pure ⟨[], [], Selftest.payloads_nil (Nat.not_le.2 e), ⟨fun _ => rfl, (fun x => by cases x)⟩, by rw [List.append_nil]; exact h.weaken ⟨h.inv.1, h.inv.2.1, Nat.le_succ_of_le h.inv.2.2⟩⟩
    next e =>
      have hp := Selftest.payloads_cons (node := node) (Nat.not_lt.1 e)
      obtain ⟨k, hk, hf⟩ := Selftest.fill_spec node count [] ind
      rw [show (RMC_MAX_PAYLOAD - ([] : List UInt8).length) / 20 = 3265 by decide] at hk
      rw [List.nil_append] at hf
      rw [← hk] at hp
      rw [hf]
      dsimp only
      obtain ⟨pl, hpl⟩ : ∃ pl, pl = (List.range' ind k).flatMap (fun i => (Selftest.sig node count i).enc) := ⟨_, rfl⟩
      have hlen : pl.length ≤ RMC_MAX_PAYLOAD := by
        rw [hpl, Selftest.length_encs, List.length_range']
        have : RMC_MAX_PAYLOAD = 65312 := rfl
        omega
      rw [← hpl] at hp ⊢
      refine Out.bind (n := s.cost) (P := fun x o => PI c0 (Quiet A (if x.1 then B else B + 1)) (qs ++ [pl]) o x.2 ∧ sendOne c s pl = .ok x) ?_ (fun a o ho => ho.1.calls) ?_
      · have hq := sendOne_out hB h (hs s (by simp)) hlen (by omega)
        refine ⟨?_, hq.2⟩
        intro a ha
        obtain ⟨k3, l3, h3⟩ := hq.1 a ha
        exact ⟨k3, l3, h3, ha⟩
      rintro x k1 l1 ⟨h1, hso⟩
      split
      next e =>
        rw [e, if_pos rfl] at h1
        refine (ih (ind + k) h1 (fun s hs' => hs s (by simp [hs'])) (by rw [List.length_append]; omega)).weaken (Nat.le_refl _) ?_
        rintro a o ⟨ps, rest, e1, e2, e3⟩
        refine ⟨pl :: ps, rest, by rw [hp, e1]; rfl, ⟨e2.1, fun y => (e2.2 y).imp_right ?_⟩, by rw [List.append_assoc] at e3; exact e3⟩
        rintro ⟨v, hv, hh⟩
        exact ⟨v, by simp [hv], hh⟩
      next e =>
        rw [if_neg e] at h1
        have e' : x.1 = false := Bool.eq_false_iff.2 e
        refine Out.pure ⟨[pl], _, hp, ⟨(fun x => by cases x), fun _ => .inr ⟨s, by simp, ?_⟩⟩, h1⟩
        refine sendOne_end (c := c) (payload := pl) ?_
        rw [hso, ← e']

theorem serveEvents_out (hJ : Stable J) {qs : List (List UInt8)} (cur : Int) : ∀ (ws : List Wait) (tout : Int) {ops : List Op} {c : PubCtx}, PI c0 J qs ops c → (∀ w ∈ ws, okEvs w.evs) →
    ops.length + waitsCost ws + 1 < U64 → Out c0 ops (waitsCost ws) (serveEvents cur tout ws c) (fun x o => PI c0 J qs o x.2) := by
  intro ws
  induction ws with
  | nil => intro tout ops c h _ _; exact Out.pure h
  | cons w ws ih =>
    intro tout ops c h hw hb
    rw [serveEvents]
    rw [show waitsCost (w :: ws) = w.cost + waitsCost ws from List.sum_cons] at hb ⊢
    split
    · exact Out.pure h
    · rw [show w.cost + waitsCost ws = 1 + (evsCost w.evs + waitsCost ws) by unfold Wait.cost; omega] at hb ⊢
      refine Out.bind (n := 1) (Out.quiet hJ h (by rfl) (fun p a x => by cases x) (fun p a x => by cases x) (by omega)) (fun a o ho => ho.calls) ?_
      intro r k hk hr
      obtain ⟨t, ht⟩ := timeoutGetNext_total hr.reach
      rw [ht, Pub.ok_bind]
      refine Out.bind (poll_out hJ hr (hw w (by simp)) (by rw [List.length_append]; omega)) (fun a o ho => ho.calls) ?_
      intro c' k' hk' hr'
      exact ih t hr' (fun w hw' => hw w (by simp [hw'])) (by simp only [List.length_append]; omega)

/-- A bound on the calls made in a round of the last loop. -/
def Leave.cost (l : Leave) : Nat := waitsCost l.inner + evsCost l.evs

/-- Assumption: accept() behaves. -/
def Leave.ok (l : Leave) : Prop := (∀ w ∈ l.inner, okEvs w.evs) ∧ okEvs l.evs

/-- A bound on the calls made in the last loop. -/
def leavesCost (ls : List Leave) : Nat := (ls.map Leave.cost).sum

theorem leave_out (hJ : Stable J) {qs : List (List UInt8)} : ∀ (ls : List Leave) {ops : List Op} {c : PubCtx}, PI c0 J qs ops c → (∀ l ∈ ls, l.ok) →
    ops.length + leavesCost ls + 1 < U64 →
    Out c0 ops (leavesCost ls) (leave ls c) (fun x o => PI c0 J qs o x.2 ∧ (x.1 = true → counter x.2.log ≤ 0)) := by
  intro ls
  induction ls with
  | nil => intro ops c h _ _; exact Out.pure ⟨h, fun x => of_decide_eq_true x⟩
  | cons l ls ih =>
    intro ops c h hl hb
    rw [leave]
    rw [show leavesCost (l :: ls) = l.cost + leavesCost ls from List.sum_cons] at hb ⊢
    split
    next e => exact Out.pure ⟨h, fun _ => e⟩
    · have ho := hl l (by simp)
      refine Out.bind (n := l.cost) (P := fun x o => PI c0 J qs o x.2) ?_ (fun a o ho => ho.calls) ?_
      · unfold leaveRound
        obtain ⟨t, ht⟩ := timeoutGetNext_total h.reach
        rw [ht, Pub.ok_bind]
        unfold Leave.cost at *
        refine Out.bind (serveEvents_out hJ l.cur l.inner t h ho.1 (by omega)) (fun a o ho => ho.calls) ?_
        intro x k hk hr
        split
        · refine Out.bind (m := 0) (poll_out hJ hr ho.2 (by rw [List.length_append]; omega)) (fun a o ho => ho.calls) ?_
          intro c' k' _ h'
          exact Out.pure h'
        · exact Out.pure hr
      · intro x k hk hr
        split
        · exact ih hr (fun l hl' => hl l (by simp [hl'])) (by rw [List.length_append]; omega)
        · exact Out.pure ⟨hr, fun x => by cases x⟩

/-! ## The program -/

/-- Assumption: accept() behaves. -/
def Script.ok (k : Script) : Prop := (∀ w ∈ k.waits, okEvs w.evs) ∧ (∀ s ∈ k.sends, s.ok) ∧ ∀ l ∈ k.leaves, l.ok

/-- A bound on the calls of the library made. -/
def Script.cost (k : Script) : Nat := 2 + (waitsCost k.waits + (1 + (sendsCost k.sends + (1 + (leavesCost k.leaves + 1)))))

/-- What is true of the last part of the program. -/
def Post3 (c0 : PubCtx) (J : PubCtx → Prop) (qs : List (List UInt8)) (x : Stage × PubCtx) (o : List Op) : Prop :=
  PIx x.1 c0 J qs o x.2 ∧ (x.1 = .leaving ∨ x.1 = .done ∧ ∃ calls m r, PI c0 J qs calls m ∧ subscriberCount m = 0 ∧ PubCtx.step m .deactivate = .ok (r, x.2))

theorem main3_out {A B : Nat} {qs : List (List UInt8)} {ops : List Op} {c : PubCtx} (h : PI c0 (Quiet A B) qs ops c) {k : Script} (hk : ∀ l ∈ k.leaves, l.ok)
    (hb : ops.length + (1 + (leavesCost k.leaves + 1)) + 1 < U64) : Out c0 ops (1 + (leavesCost k.leaves + 1)) (main3 k c) (Post3 c0 (Quiet A B) qs) := by
  have hJ : Stable (Quiet A B) := Quiet.stable
  unfold main3
  refine Out.bind (Out.keep (K := Quiet A B) h (by trivial) (fun p a x => by cases x) (by omega) ?_) (fun a o ho => ho.calls) ?_
  · intro r c' hx
    have e : setAnnounceInterval c 0 k.now2 = c' := congrArg Prod.snd (Except.ok.inj hx)
    rw [← e]
    obtain ⟨j1, j2, j3⟩ := h.inv
    exact ⟨rfl, (announcements_other (m := [.setAnnounce k.now2 0]) (by simp)).trans j2, j3⟩
  intro r k1 l1 h1
  refine Out.bind (leave_out hJ k.leaves h1 hk (by rw [List.length_append]; omega)) (fun a o ho => ho.1.calls) ?_
  intro x k2 l2 h2
  split
  next e =>
    refine Out.bind (n := 1) (m := 0) (P := fun r o => PI0 c0 (Quiet A B) qs o r.2 ∧ PubCtx.step x.2 .deactivate = .ok r) ?_ (fun a o ho => ho.1.calls) ?_
    · have hbd : (ops ++ k1 ++ k2).length + 2 < U64 := by simp only [List.length_append]; omega
      refine ⟨?_, ?_⟩
      · intro a ha
        have hz := h2.1.toPI0.step (op := .deactivate) trivial hbd ha
          (hJ h2.1.reach (op := .deactivate) trivial (fun p a x => by cases x) (fun p a x => by cases x) hbd ha h2.1.inv)
        rw [show opQueues .deactivate a.1 = [] from rfl, List.map_nil, List.append_nil] at hz
        exact ⟨[.deactivate], by simp, hz, ha⟩
      · intro f hf
        exact ⟨[], x.2, .deactivate, by simp, by rw [List.append_nil]; exact ⟨h2.1.reach, h2.1.run⟩, trivial, hf, by rw [List.append_nil]; exact hbd⟩
    · intro r k3 l3 h3
      refine Out.pure ⟨⟨h3.1, fun x => absurd rfl x⟩, .inr ⟨rfl, _, x.2, r.1, h2.1, ?_, h3.2⟩⟩
      have h0 := h2.2 e
      rw [h2.1.counter] at h0
      omega
  · exact Out.pure ⟨h2.1.px _, .inl rfl⟩

/-- What is true of the program from the moment all subscribers are there. -/
def Post2 (c0 : PubCtx) (J : PubCtx → Prop) (node count : Nat) (ss : List Send) (x : Stage × PubCtx) (o : List Op) : Prop :=
  (x.1 = .sending ∧ ∃ qs, qs <+: Selftest.payloads node count 1 ∧ PI c0 J qs o x.2 ∧
    (qs ≠ Selftest.payloads node count 1 ∨ ∃ s ∈ ss, Held s x.2)) ∨ Post3 c0 J (Selftest.payloads node count 1) x o

theorem Post2.pi {node count : Nat} {ss : List Send} {x : Stage × PubCtx} {o : List Op} (h : Post2 c0 J node count ss x o) :
    ∃ qs, qs <+: Selftest.payloads node count 1 ∧ PIx x.1 c0 J qs o x.2 := by
  rcases h with ⟨_, qs, h1, h2, _⟩ | h
  · exact ⟨qs, h1, h2.px _⟩
  · exact ⟨_, List.prefix_refl _, h.1⟩

/-- How many packets can wait to be sent, if `n` did when the first packet was queued. -/
def queueBound (n : Nat) : Nat := max QUEUE_MAX n + 1

theorem main2_out (node count : Nat) {ops : List Op} {c : PubCtx} (h : PI c0 J [] ops c) {k : Script} (hk : k.ok)
    (hb : ops.length + (1 + (sendsCost k.sends + (1 + (leavesCost k.leaves + 1)))) + 1 < U64) :
    Out c0 ops (1 + (sendsCost k.sends + (1 + (leavesCost k.leaves + 1)))) (main2 node count k c)
      (Post2 c0 (Quiet (announcements c.log) (queueBound (queueLength c))) node count k.sends) := by
  unfold main2 queueBound
  obtain ⟨B, hB⟩ : ∃ B, B = max QUEUE_MAX (queueLength c) := ⟨_, rfl⟩
  obtain ⟨A, hA⟩ : ∃ A, A = announcements c.log := ⟨_, rfl⟩
  rw [← hB, ← hA]
  refine Out.bind (Out.keep (K := Quiet A B) h (by trivial) (fun p a x => by cases x) (by omega) ?_) (fun a o ho => ho.calls) ?_
  · intro r c' hx
    have e : setAnnounceInterval c 0 k.now1 = c' := congrArg Prod.snd (Except.ok.inj hx)
    rw [← e]
    exact ⟨rfl, (announcements_other (m := [.setAnnounce k.now1 0]) (by simp)).trans hA.symm, by rw [hB]; exact Nat.le_max_right ..⟩
  intro r k1 l1 h1
  refine Out.bind (sends_out (by rw [hB]; exact Nat.le_max_left ..) node count k.sends 1 h1 hk.2.1 (by rw [List.length_append]; omega)) (fun a o ho => ?_) ?_
  · obtain ⟨_, _, _, _, ho⟩ := ho; exact ho.calls
  rintro x k2 l2 ⟨ps, rest, e1, e2, h2⟩
  rw [List.nil_append] at h2
  split
  next e =>
    rw [e2.1 e, List.append_nil] at e1
    rw [← e1] at h2
    exact (main3_out h2 hk.2.2 (by simp only [List.length_append]; omega)).weaken (Nat.le_refl _) (fun a o ho => .inr ho)
  next e =>
    refine Out.pure (.inl ⟨rfl, ps, ⟨rest, e1.symm⟩, h2, (e2.2 (Bool.eq_false_iff.2 e)).imp_left ?_⟩)
    intro h e'
    rw [e'] at e1
    exact h (List.append_right_eq_self.1 e1.symm)

/-- What is true of the whole program. -/
def Post1 (c0 : PubCtx) (node count : Nat) (expected : Int) (ss : List Send) (x : Stage × PubCtx) (o : List Op) : Prop :=
  (x.1 = .waiting ∧ PI c0 Announcing [] o x.2 ∧ subscriberCount x.2 < expected) ∨
  ∃ ops1 ops2 m, o = ops1 ++ ops2 ∧ PI c0 Announcing [] ops1 m ∧ expected ≤ subscriberCount m ∧
    Post2 c0 (Quiet (announcements m.log) (queueBound (queueLength m))) node count ss x o

theorem Post1.pi {node count : Nat} {expected : Int} {ss : List Send} {x : Stage × PubCtx} {o : List Op} (h : Post1 c0 node count expected ss x o) :
    ∃ J qs, qs <+: Selftest.payloads node count 1 ∧ PIx x.1 c0 J qs o x.2 := by
  rcases h with h | ⟨_, _, _, _, _, _, h⟩
  · exact ⟨_, [], List.nil_prefix, h.2.1.px _⟩
  · exact ⟨_, h.pi⟩

theorem main1_out (node count : Nat) (expected : Int) {ops : List Op} {c : PubCtx} (h : PI c0 Announcing [] ops c) {k : Script} (hk : k.ok)
    (hb : ops.length + k.cost - 2 + 1 < U64) :
    Out c0 ops (k.cost - 2) (main1 node count expected k c) (Post1 c0 node count expected k.sends) := by
  unfold main1
  rw [show k.cost - 2 = waitsCost k.waits + (1 + (sendsCost k.sends + (1 + (leavesCost k.leaves + 1)))) by unfold Script.cost; omega]
  unfold Script.cost at hb
  refine Out.bind (gather_out Announcing.stable expected k.waits h hk.1 (by omega)) (fun a o ho => ho.1.calls) ?_
  intro x k1 l1 h1
  have hcnt := h1.1.counter
  rw [hcnt] at h1
  split
  next e =>
    obtain ⟨g1, g2⟩ := main2_out node count h1.1 hk (by rw [List.length_append]; omega)
    refine ⟨?_, g2⟩
    intro a ha
    obtain ⟨k2, l2, h2⟩ := g1 a ha
    exact ⟨k2, l2, .inr ⟨ops ++ k1, k2, x.2, rfl, h1.1, h1.2.1 e, h2⟩⟩
  next e => exact Out.pure (.inl ⟨rfl, h1.1, h1.2.2 (by simpa using e)⟩)

/-- The context of the program at its start. -/
def start (mem : Nat → Conn) (nodeId listenIp listenPort : Nat) : PubCtx := init mem MAX_CONNECTIONS nodeId listenIp listenPort

theorem main_shape {mem : Nat → Conn} {nodeId listenIp listenPort : Nat} (node count : Nat) (expected : Int) {k : Script} (hk : k.ok) (hb : k.cost + 1 < U64) :
    (∀ x, main mem nodeId listenIp listenPort node count expected k = .ok x →
      ∃ ops, ops.length ≤ k.cost ∧ Post1 (start mem nodeId listenIp listenPort) node count expected k.sends x ops ∧
        ∃ rest, ops = .setAnnounce ANNOUNCE_INTERVAL k.now0 :: .activate k.act :: rest) ∧
    (∀ f, main mem nodeId listenIp listenPort node count expected k = .error f →
      (f = .exit255 ∧ ((∃ e w, k.act = .error e w) ∨ k.ttl ≠ 0)) ∨ Fail (start mem nodeId listenIp listenPort) [] f) := by
  obtain ⟨c0, hc0⟩ : ∃ c0, c0 = start mem nodeId listenIp listenPort := ⟨_, rfl⟩
  have hr0 : Reaches [] c0 := by
    rw [hc0]; exact ⟨mem, MAX_CONNECTIONS, nodeId, listenIp, listenPort, [], by decide, by simp, by simp [U64], rfl⟩
  have hp0 : PI0 c0 (fun _ => True) [] [] c0 := by
    refine ⟨hr0, ⟨[], rfl⟩, ?_, ?_, ?_, by simp, trivial⟩
    · rw [hc0]; rfl
    · rw [hc0]; rfl
    · rw [hc0]; rfl
  have hbig : k.cost ≥ 2 := by unfold Script.cost; omega
  have hp1 := hp0.step (op := .setAnnounce ANNOUNCE_INTERVAL k.now0) (by trivial) (by rw [List.length_nil]; omega) rfl (K := Announcing) rfl
  obtain ⟨c1, h1⟩ : ∃ c1, c1 = (PubCtx.activate (setAnnounceInterval c0 ANNOUNCE_INTERVAL k.now0) k.act) := ⟨_, rfl⟩
  have hp2 := hp1.step (op := .activate k.act) (c' := c1.2) (r := c1.1) (by trivial) (by simp [U64]) (by rw [h1]; rfl) (K := Announcing) (by rw [h1]; cases k.act <;> rfl)
  have hm : main mem nodeId listenIp listenPort node count expected k =
      if c1.1 ≠ 0 ∨ setTtl c1.2 k.ttl ≠ 0 then .error .exit255 else main1 node count expected k c1.2 := by
    rw [h1, hc0]; rfl
  rw [hm]
  have hp2' : PI c0 Announcing [] ([] ++ [.setAnnounce ANNOUNCE_INTERVAL k.now0] ++ [.activate k.act]) c1.2 := ⟨hp2, fun op ho => by simp at ho⟩
  obtain ⟨g1, g2⟩ := main1_out node count expected hp2' hk (by simp only [List.length_append, List.length_cons, List.length_nil]; omega)
  rw [← hc0]
  refine ⟨?_, ?_⟩
  · intro x hx
    split at hx
    · cases hx
    next e =>
      obtain ⟨k1, l1, h2⟩ := g1 x hx
      exact ⟨_, by simp only [List.length_append, List.length_cons, List.length_nil]; omega, h2, k1, rfl⟩
  · intro f hf
    split at hf
    next e =>
      left
      cases hf
      refine ⟨rfl, ?_⟩
      cases ha : k.act with
      | error e w => exact .inl ⟨e, w, rfl⟩
      | ok y =>
        right
        obtain ⟨md, ld, port⟩ := y
        rw [ha] at h1
        rw [h1] at e
        rcases e with e | e
        · exact absurd rfl e
        · have : setTtl (PubCtx.activate (setAnnounceInterval c0 ANNOUNCE_INTERVAL k.now0) (.ok (md, ld, port))).2 k.ttl = k.ttl := rfl
          rw [this] at e; exact e
    · right
      exact Fail.later (calls := [.setAnnounce ANNOUNCE_INTERVAL k.now0, .activate k.act]) (by
        intro o ho
        rcases List.mem_cons.1 ho with rfl | ho
        · trivial
        · rw [List.mem_singleton.1 ho]; trivial) (g2 f hf)

theorem main_out {mem : Nat → Conn} {nodeId listenIp listenPort : Nat} (node count : Nat) (expected : Int) {k : Script} (hk : k.ok) (hb : k.cost + 1 < U64) :
    (∀ x, main mem nodeId listenIp listenPort node count expected k = .ok x →
      ∃ ops, ops.length ≤ k.cost ∧ Post1 (start mem nodeId listenIp listenPort) node count expected k.sends x ops) ∧
    (∀ f, main mem nodeId listenIp listenPort node count expected k = .error f →
      (f = .exit255 ∧ ((∃ e w, k.act = .error e w) ∨ k.ttl ≠ 0)) ∨ Fail (start mem nodeId listenIp listenPort) [] f) := by
  obtain ⟨h1, h2⟩ := main_shape (mem := mem) (nodeId := nodeId) (listenIp := listenIp) (listenPort := listenPort) node count expected hk hb
  exact ⟨fun x hx => by obtain ⟨ops, a, b, _⟩ := h1 x hx; exact ⟨ops, a, b⟩, h2⟩

/-- Specification: the contents of the packets queued, in order. -/
def contents (c : PubCtx) : List (List UInt8) := (queuedPkts c.pub.log).map (·.2.data)

/-- C90: what the test publisher has queued: nothing as long as it waits for subscribers; then a beginning of the packets of the self-test, and all of them once
it waits for the subscribers to leave. -/
theorem C90_queued {mem : Nat → Conn} {nodeId listenIp listenPort node count : Nat} {expected : Int} {k : Script} (hk : k.ok) (hb : k.cost + 1 < U64)
    {st : Stage} {c : PubCtx} (h : main mem nodeId listenIp listenPort node count expected k = .ok (st, c)) :
    (st = .waiting → contents c = []) ∧ contents c <+: Selftest.payloads node count 1 ∧
    (st = .leaving ∨ st = .done → contents c = Selftest.payloads node count 1) := by
  obtain ⟨ops, _, hp⟩ := (main_out node count expected hk hb).1 _ h
  refine ⟨?_, ?_, ?_⟩
  · rintro rfl
    rcases hp with hp | ⟨_, _, _, _, _, _, hp | hp⟩
    · exact hp.2.1.queued
    · cases hp.1
    · rcases hp.2 with e | e
      · cases e
      · cases e.1
  · obtain ⟨J, qs, h1, h2⟩ := hp.pi
    unfold contents; rw [h2.queued]; exact h1
  · intro e
    rcases hp with hp | ⟨_, _, _, _, _, _, hp | hp⟩
    · have hp1 : st = _ := hp.1
      rw [hp1] at e; rcases e with e | e <;> cases e
    · have hp1 : st = _ := hp.1
      rw [hp1] at e; rcases e with e | e <;> cases e
    · exact hp.1.queued

/-- C90: all calls made by the test publisher; it is a program of the kind the other theorems are about. -/
theorem C90_calls {mem : Nat → Conn} {nodeId listenIp listenPort node count : Nat} {expected : Int} {k : Script} (hk : k.ok) (hb : k.cost + 1 < U64)
    {st : Stage} {c : PubCtx} (h : main mem nodeId listenIp listenPort node count expected k = .ok (st, c)) :
    ∃ ops rs, ops.length ≤ k.cost ∧ (∀ op ∈ ops, progCall op) ∧ Reaches ops c ∧ run (start mem nodeId listenIp listenPort) ops = .ok (rs, c) ∧
      counter c.log = subscriberCount c := by
  obtain ⟨ops, hl, hp⟩ := (main_out node count expected hk hb).1 _ h
  obtain ⟨J, qs, _, h2⟩ := hp.pi
  obtain ⟨rs, hr⟩ := h2.run
  exact ⟨ops, rs, hl, h2.calls, h2.reach, hr, h2.counter⟩

/-- C90: as long as the test publisher waits, fewer subscribers are connected than it was asked to wait for, and announcements are made every 0.3 seconds (C30). -/
theorem C90_waiting {mem : Nat → Conn} {nodeId listenIp listenPort node count : Nat} {expected : Int} {k : Script} (hk : k.ok) (hb : k.cost + 1 < U64)
    {c : PubCtx} (h : main mem nodeId listenIp listenPort node count expected k = .ok (.waiting, c)) :
    subscriberCount c < expected ∧ c.annInterval = 300000 := by
  obtain ⟨ops, _, hp⟩ := (main_out node count expected hk hb).1 _ h
  rcases hp with hp | ⟨_, _, _, _, _, _, hp | hp⟩
  · exact ⟨hp.2.2, hp.2.1.inv⟩
  · cases hp.1
  · rcases hp.2 with e | e
    · cases e
    · cases e.1

/-- C90: before the test publisher queues its first packet, at one moment at least the number of subscribers asked for are connected. From then on no announcement
is made, and the packets waiting to be sent are at most 101 (or one more than at that moment, if announcements were waiting). -/
theorem C90_expected {mem : Nat → Conn} {nodeId listenIp listenPort node count : Nat} {expected : Int} {k : Script} (hk : k.ok) (hb : k.cost + 1 < U64)
    {st : Stage} {c : PubCtx} (h : main mem nodeId listenIp listenPort node count expected k = .ok (st, c)) (hst : st ≠ .waiting) :
    ∃ ops1 ops2 rs1 rs2 m, run (start mem nodeId listenIp listenPort) ops1 = .ok (rs1, m) ∧ run m ops2 = .ok (rs2, c) ∧ contents m = [] ∧
      expected ≤ subscriberCount m ∧ announcements c.log = announcements m.log ∧ queueLength c ≤ max 100 (queueLength m) + 1 := by
  obtain ⟨ops, _, hp⟩ := (main_out node count expected hk hb).1 _ h
  rcases hp with hp | ⟨ops1, ops2, m, e, hm, hx, hp⟩
  · exact absurd hp.1 hst
  · obtain ⟨qs, _, hpi⟩ := hp.pi
    obtain ⟨rs1, h1⟩ := hm.run
    obtain ⟨rs, h2⟩ := hpi.run
    rw [e] at h2
    obtain ⟨rs2, h3⟩ := run_split ops1 h1 h2
    exact ⟨ops1, ops2, rs1, rs2, m, h1, h3, hm.queued, hx, hpi.inv.2.1, hpi.inv.2.2⟩

/-- C90: as long as the test publisher sends, not all packets have been queued, or it waits after one of them: the time of the next has not come, or more than 100
packets are waiting to be sent. -/
theorem C90_sending {mem : Nat → Conn} {nodeId listenIp listenPort node count : Nat} {expected : Int} {k : Script} (hk : k.ok) (hb : k.cost + 1 < U64)
    {c : PubCtx} (h : main mem nodeId listenIp listenPort node count expected k = .ok (.sending, c)) :
    contents c ≠ Selftest.payloads node count 1 ∨
    ∃ s ∈ k.sends, ∃ t, (t = startClock s ∨ ∃ w ∈ s.waits, t = w.cur) ∧ (t < s.tout ∨ 100 < queueLength c) := by
  obtain ⟨ops, _, hp⟩ := (main_out node count expected hk hb).1 _ h
  rcases hp with hp | ⟨_, _, _, _, _, _, hp | hp⟩
  · cases hp.1
  · obtain ⟨_, qs, _, h1, h2⟩ := hp
    have e : contents c = qs := h1.queued
    rw [e]
    exact h2
  · rcases hp.2 with e | e
    · cases e
    · cases e.1

/-- The inner loop of the last loop: timeouts are processed, and events handled after that, until the deadline read after processing timeouts is none or not before the time
`cur` at which the round began. -/
theorem serveEvents_end (cur : Int) : ∀ (ws : List Wait) (tout : Int) {c c' : PubCtx} {b : Bool}, serveEvents cur tout ws c = .ok (b, c') →
    (tout = -1 ∨ cur ≤ tout → b = true ∧ c' = c) ∧
    ∃ t, (b = true ↔ t = -1 ∨ cur ≤ t) ∧ (t = tout ∧ c' = c ∨ ∃ m0 r m, ∃ w ∈ ws, PubCtx.step m0 (.timeout w.now none w.sp) = .ok (r, m) ∧
      timeoutGetNext m = .ok t ∧ poll m w.evs = .ok c') := by
  intro ws
  induction ws with
  | nil =>
    intro tout c c' b h
    rw [serveEvents] at h
    obtain ⟨rfl, rfl⟩ := Prod.mk.inj (Except.ok.inj h)
    exact ⟨fun e => ⟨decide_eq_true e, rfl⟩, tout, decide_eq_true_iff, .inl ⟨rfl, rfl⟩⟩
  | cons w ws ih =>
    intro tout c c' b h
    rw [serveEvents] at h
    split at h
    next e =>
      obtain ⟨rfl, rfl⟩ := Prod.mk.inj (Except.ok.inj h)
      exact ⟨fun _ => ⟨rfl, rfl⟩, tout, ⟨fun _ => e, fun _ => rfl⟩, .inl ⟨rfl, rfl⟩⟩
    next e =>
      refine ⟨fun e' => absurd e' e, ?_⟩
      cases h1 : PubCtx.step c (.timeout w.now none w.sp) with
      | error f => rw [h1] at h; cases h
      | ok r =>
        rw [h1, Pub.ok_bind] at h
        cases h2 : timeoutGetNext r.2 with
        | error f => rw [h2] at h; cases h
        | ok t =>
          rw [h2, Pub.ok_bind] at h
          cases h3 : poll r.2 w.evs with
          | error f => rw [h3] at h; cases h
          | ok c1 =>
            rw [h3, Pub.ok_bind] at h
            obtain ⟨_, t', k1, k2⟩ := ih t h
            refine ⟨t', k1, .inr ?_⟩
            rcases k2 with ⟨rfl, rfl⟩ | ⟨m0, r', m, v, hv, k3, k4, k5⟩
            · exact ⟨c, r.1, r.2, w, by simp, h1, h2, h3⟩
            · exact ⟨m0, r', m, v, by simp [hv], k3, k4, k5⟩

/-- C90: a round of the last loop. If no deadline is before the time at which the round begins, no timeouts are processed in it and events are handled once. Otherwise timeouts are
processed, each time followed by handling events, until the deadline read after processing timeouts is none or not before that time; then, and only then, events are
handled once more and the round ends. -/
theorem C90_round {c c' : PubCtx} {l : Leave} {b : Bool} (h : leaveRound c l = .ok (b, c')) :
    ∃ t0, timeoutGetNext c = .ok t0 ∧ (t0 = -1 ∨ l.cur ≤ t0 → b = true ∧ poll c l.evs = .ok c') ∧
    ∃ t m, (b = true → (t = -1 ∨ l.cur ≤ t) ∧ poll m l.evs = .ok c') ∧ (b = false → t ≠ -1 ∧ t < l.cur ∧ m = c') ∧
      (t = t0 ∧ m = c ∨ ∃ m0 r m1, ∃ w ∈ l.inner, PubCtx.step m0 (.timeout w.now none w.sp) = .ok (r, m1) ∧ timeoutGetNext m1 = .ok t ∧ poll m1 w.evs = .ok m) := by
  unfold leaveRound at h
  cases h1 : timeoutGetNext c with
  | error f => rw [h1] at h; cases h
  | ok t0 =>
    rw [h1, Pub.ok_bind] at h
    cases h2 : serveEvents l.cur t0 l.inner c with
    | error f => rw [h2] at h; cases h
    | ok x =>
      obtain ⟨b', m⟩ := x
      rw [h2, Pub.ok_bind] at h
      obtain ⟨k1, t, k2, k3⟩ := serveEvents_end _ _ _ h2
      have hb : b' = b ∧ (b = true → poll m l.evs = .ok c') ∧ (b = false → m = c') := by
        cases b' with
        | true =>
          rw [if_pos rfl] at h
          dsimp only at h
          cases h3 : poll m l.evs with
          | error f => rw [h3] at h; cases h
          | ok c1 =>
            rw [h3, Pub.ok_bind] at h
            obtain ⟨rfl, rfl⟩ := Prod.mk.inj (Except.ok.inj h)
            exact ⟨rfl, fun _ => rfl, fun x => by cases x⟩
        | false =>
          obtain ⟨rfl, rfl⟩ := Prod.mk.inj (Except.ok.inj h)
          exact ⟨rfl, (fun x => by cases x), fun _ => rfl⟩
      obtain ⟨rfl, k4, k5⟩ := hb
      refine ⟨t0, rfl, ?_, t, m, fun e => ⟨k2.1 e, k4 e⟩, ?_, k3⟩
      · intro e
        obtain ⟨e1, e2⟩ := k1 e
        rw [← e2]
        exact ⟨e1, k4 e1⟩
      · intro e
        have hn : ¬ (t = -1 ∨ l.cur ≤ t) := fun x => by have := k2.2 x; rw [e] at this; cases this
        exact ⟨fun x => hn (.inl x), by omega, k5 e⟩

theorem leave_end : ∀ (ls : List Leave) {c c' : PubCtx}, leave ls c = .ok (false, c') →
    0 < counter c'.log ∨ ∃ m, ∃ l ∈ ls, leaveRound m l = .ok (false, c') := by
  intro ls
  induction ls with
  | nil =>
    intro c c' h
    rw [leave] at h
    obtain ⟨h1, rfl⟩ := Prod.mk.inj (Except.ok.inj h)
    have := of_decide_eq_false h1
    exact .inl (by omega)
  | cons l ls ih =>
    intro c c' h
    rw [leave] at h
    split at h
    · cases h
    · cases h1 : leaveRound c l with
      | error f => rw [h1] at h; cases h
      | ok x =>
        rw [h1, Pub.ok_bind] at h
        split at h
        · rcases ih h with k | ⟨m, v, hv, k⟩
          · exact .inl k
          · exact .inr ⟨m, v, by simp [hv], k⟩
        next e =>
          have e2 : x.2 = c' := congrArg Prod.snd (Except.ok.inj h)
          refine .inr ⟨c, l, by simp, ?_⟩
          rw [h1, ← e2, ← Bool.eq_false_iff.2 e]

/-- C90: the test publisher stays in its last loop only because a subscriber is connected, or because it is in a round in which the deadline read last was before the time at
which the round began. -/
theorem C90_leaving {mem : Nat → Conn} {nodeId listenIp listenPort node count : Nat} {expected : Int} {k : Script} (hk : k.ok) (hb : k.cost + 1 < U64)
    {c : PubCtx} (h : main mem nodeId listenIp listenPort node count expected k = .ok (.leaving, c)) :
    0 < subscriberCount c ∨ ∃ m, ∃ l ∈ k.leaves, leaveRound m l = .ok (false, c) := by
  have hx := main_out (mem := mem) (nodeId := nodeId) (listenIp := listenIp) (listenPort := listenPort) node count expected hk hb
  obtain ⟨ops, _, hp⟩ := hx.1 _ h
  obtain ⟨_, _, _, hpi⟩ := hp.pi
  have hc := hpi.counter
  dsimp only at hc
  have hl : ∃ c1, leave k.leaves c1 = .ok (false, c) := by
    unfold main at h
    cases h1 : PubCtx.step (init mem MAX_CONNECTIONS nodeId listenIp listenPort) (.setAnnounce ANNOUNCE_INTERVAL k.now0) with
    | error f => rw [h1] at h; cases h
    | ok r1 =>
      rw [h1, Pub.ok_bind] at h
      cases h2 : PubCtx.step r1.2 (.activate k.act) with
      | error f => rw [h2] at h; cases h
      | ok r2 =>
        rw [h2, Pub.ok_bind] at h
        split at h
        · cases h
        · unfold main1 at h
          cases h3 : gather expected k.waits r2.2 with
          | error f => rw [h3] at h; cases h
          | ok x3 =>
            rw [h3, Pub.ok_bind] at h
            split at h
            · unfold main2 at h
              cases h4 : PubCtx.step x3.2 (.setAnnounce 0 k.now1) with
              | error f => rw [h4] at h; cases h
              | ok r4 =>
                rw [h4, Pub.ok_bind] at h
                cases h5 : sends node count k.sends 1 r4.2 with
                | error f => rw [h5] at h; cases h
                | ok x5 =>
                  rw [h5, Pub.ok_bind] at h
                  split at h
                  · unfold main3 at h
                    cases h6 : PubCtx.step x5.2 (.setAnnounce 0 k.now2) with
                    | error f => rw [h6] at h; cases h
                    | ok r6 =>
                      rw [h6, Pub.ok_bind] at h
                      cases h7 : leave k.leaves r6.2 with
                      | error f => rw [h7] at h; cases h
                      | ok x7 =>
                        rw [h7, Pub.ok_bind] at h
                        split at h
                        · cases h8 : PubCtx.step x7.2 .deactivate with
                          | error f => rw [h8] at h; cases h
                          | ok r8 => rw [h8] at h; cases h
                        next e =>
                          have e2 : x7.2 = c := congrArg Prod.snd (Except.ok.inj h)
                          exact ⟨r6.2, by rw [h7, ← e2, ← Bool.eq_false_iff.2 e]⟩
                  · cases h
            · cases h
  obtain ⟨c1, hl⟩ := hl
  refine (leave_end _ hl).imp_left fun k => ?_
  omega

/-- C90: when the test publisher is done, all packets have been queued, nobody was connected any more before the context was deactivated, and no socket is left. -/
theorem C90_done {mem : Nat → Conn} {nodeId listenIp listenPort node count : Nat} {expected : Int} {k : Script} (hk : k.ok) (hb : k.cost + 1 < U64)
    {c : PubCtx} (h : main mem nodeId listenIp listenPort node count expected k = .ok (.done, c)) :
    contents c = Selftest.payloads node count 1 ∧ c.mcast = none ∧ c.listen = none ∧
    ∃ calls rs m r, run (start mem nodeId listenIp listenPort) calls = .ok (rs, m) ∧ (∀ i, ¬ Connected m i) ∧
      PubCtx.step m .deactivate = .ok (r, c) := by
  refine ⟨(C90_queued hk hb h).2.2 (.inr rfl), ?_⟩
  obtain ⟨ops, _, hp⟩ := (main_out node count expected hk hb).1 _ h
  rcases hp with hp | ⟨_, _, _, _, _, _, hp | hp⟩
  · cases hp.1
  · cases hp.1
  · rcases hp.2 with e | ⟨_, calls, m, r, h1, h2, h3⟩
    · cases e
    · obtain ⟨rs, hr⟩ := h1.run
      have hd : c.mcast = none ∧ c.listen = none := by
        have h3' : PubCtx.deactivate m = .ok (r, c) := h3
        unfold PubCtx.deactivate at h3'
        dsimp only at h3'
        split at h3'
        · have e : _ = c := congrArg Prod.snd (Except.ok.inj h3')
          exact ⟨by rw [← e], by rw [← e]⟩
        · cases hz : closeAll _ _ with
          | error f => rw [hz] at h3'; cases h3'
          | ok z =>
            rw [hz] at h3'
            have e : _ = c := congrArg Prod.snd (Except.ok.inj h3')
            exact ⟨by rw [← e], by rw [← e]⟩
      refine ⟨hd.1, hd.2, calls, rs, m, r, hr, ?_, h3⟩
      intro i hi
      have := (C56_publisher h1.reach).1
      rw [h2] at this
      have := (List.countP_eq_zero.1 this.symm) i (List.mem_range.2 hi.1)
      exact this (by simp [hi.2])

/-- C90: how the test publisher can stop before its end: activation fails or the time to live cannot be set (it ends with 255); or a call of the library fails:
reading bytes from a connected subscriber (C15), or processing timeouts, by the store beyond the end of a write buffer (C29). It never ends because a packet
is refused. -/
theorem C90_faults {mem : Nat → Conn} {nodeId listenIp listenPort node count : Nat} {expected : Int} {k : Script} (hk : k.ok) (hb : k.cost + 1 < U64)
    {f : Fault} (h : main mem nodeId listenIp listenPort node count expected k = .error f) :
    (f = .exit255 ∧ ((∃ e w, k.act = .error e w) ∨ k.ttl ≠ 0)) ∨
    ∃ calls rs m op, (∀ o ∈ calls, progCall o) ∧ run (start mem nodeId listenIp listenPort) calls = .ok (rs, m) ∧ PubCtx.step m op = .error f ∧
      ((∃ i xs, op = .read i (some xs) ∧ xs ≠ [] ∧ Connected m i) ∨ (∃ now sp, op = .timeout now none sp ∧ f = .oob)) := by
  rcases (main_out node count expected hk hb).2 f h with e | ⟨calls, m, op, h1, ⟨h2, rs, h3⟩, h4, h5, h6⟩
  · exact .inl e
  · right
    rw [List.nil_append] at h2 h3
    refine ⟨calls, rs, m, op, h1, h3, h5, ?_⟩
    rcases C52_publisher_faults h2 h4.sane h6 h5 with e | ⟨now, cb, sp, e1, e2, _⟩
    · exact .inl e
    · rw [e1] at h4
      have : cb = none := h4
      rw [this] at e1
      exact .inr ⟨now, sp, e1, e2⟩

/-- C90: both test programs, with one subscriber connected once: a test that has ended has ended successfully, which it has done exactly when all packets of the
self-test were delivered (no other node being expected); the publisher has then queued all of them. When the subscriber looks at packets it gives no alarm,
unless it missed the first packet. -/
theorem C90_end_to_end {E : Env} {s : Sys} (h : Sys.Reached E s) (hu : SubCtx.Up s.sub E.slot) (h1 : ∀ j, SEv.complete j ∈ s.sub.log → j = E.slot)
    (h2 : s.sub.log.count (.complete E.slot) ≤ 1) {node count : Nat} (hn : node < 4294967296) (hc : 0 < count) (hm : count < 2147483647)
    {map : List Bool} (hmap : map[node]? = some true)
    {mem : Nat → Conn} {nodeId listenIp listenPort : Nat} {expected : Int} {k : Script} (hk : k.ok) (hb : k.cost + 1 < U64)
    {st : Stage} (hp : main mem nodeId listenIp listenPort node count expected k = .ok (st, s.pub))
    {mem' : Nat → Conn} {nid : Nat} {x : SubCtx.ActRes} {rs : List TestSub.Round} :
    (∀ res, TestSub.main mem' nid map x rs = .ok (res, s.sub) → res ≠ .corrupt ∧ ((∀ n, map[n]? = some true → n = node) →
      ((∃ es, res = .last es) ↔ (SubCtx.readied s.sub.log).map (·.payload.data) = Selftest.payloads node count 1) ∧
      ((∃ es, res = .last es) → contents s.pub = Selftest.payloads node count 1))) ∧
    (∀ c es r, TestSub.main mem' nid map x rs = .ok (.more es, c) → TestSub.events c r = .ok (true, s.sub) →
      (SubCtx.deliveredAt E.slot s.sub.log).head?.all (fun p => decide (p.pid = 1)) = true → ∃ y, TestSub.round es c r = .ok y) := by
  have hq := (C90_queued hk hb hp).2.1
  obtain ⟨a1, a2⟩ := TestSub.C89_end_to_end h hu h1 h2 hn hc hm hq hmap (mem := mem') (nid := nid) (x := x) (rs := rs)
  refine ⟨?_, a2⟩
  intro res hres
  refine ⟨(a1 res hres).1, fun ho => ⟨(a1 res hres).2 ho, ?_⟩⟩
  intro hl
  have e := ((a1 res hres).2 ho).1 hl
  have hrd : SubCtx.readied s.sub.log = SubCtx.deliveredAt E.slot s.sub.log := by
    obtain ⟨_, hi, _⟩ := h.inv
    obtain ⟨ops, hr⟩ := hi.sub
    exact TestSub.C89_one_publisher hr h1 h2
  obtain ⟨b, k1, k2⟩ := Sys.C49_end_to_end h hu
  rw [hrd, k1] at e
  refine hq.eq_of_length_le ?_
  rw [← e, List.length_take, List.length_drop]
  unfold contents
  omega

/-- C90: the loop after a packet is not run "at least once": if the time of the next packet is past (the jitter can make it so) and not too many packets are
queued, no event is handled in it. -/
theorem C90_no_round {s : Send} (h : s.tout ≤ s.cur) {c : PubCtx} (hq : queueLength c ≤ QUEUE_MAX) :
    pause s.tout (startClock s) s.waits c = .ok (true, c) := by
  have e : s.tout ≤ startClock s := by unfold startClock; split <;> omega
  cases hw : s.waits with
  | nil => rw [pause, decide_eq_true ⟨e, hq⟩]
  | cons w ws => rw [pause, if_pos ⟨e, hq⟩]

/-! ## Examples -/

/-- A round with an announcement; a subscriber is accepted. -/
def exWaits : List Wait := [⟨none, 300001, 500, 0⟩, ⟨some [{ idx := LISTEN_INDEX, rd := true, wr := false, ar := .ok 5 1 }], 0, 0, 0⟩]
/-- The only packet is queued and multicast. -/
def exSend : Send := ⟨1, 10, 5, [], some [{ idx := MULTICAST_INDEX, rd := false, wr := true, ss := [⟨.ok 400000, []⟩, ⟨.ok 400000, []⟩] }], 400001, 0⟩
/-- The subscriber closes its connection. -/
def exLeave : Leave := ⟨400002, [], some [{ idx := 0, rd := true, wr := false }]⟩

def exScript (waits : List Wait) (sends : List Send) (leaves : List Leave) : Script := ⟨0, .ok (7, 8, 9), 0, waits, 300002, sends, 400002, leaves⟩

def exPubMain (k : Script) : M (Stage × PubCtx) :=
  main (fun _ => ⟨0, .none, none, 0, CircBuf.init (fun _ => 0) 1, CircBuf.init (fun _ => 0) 1, .closed, 0, 0⟩) 7 1 2 1 1 1 k

def pubCheck (k : Script) (P : Stage → PubCtx → Bool) : Bool :=
  match exPubMain k with
  | .ok (st, c) => P st c
  | .error _ => false

example : (exScript exWaits [exSend] [exLeave]).ok ∧ (exScript exWaits [exSend] [exLeave]).cost + 1 < U64 := by
  refine ⟨⟨?_, ?_, ?_⟩, by decide⟩
  · intro w hw e he
    rcases List.mem_cons.1 hw with rfl | hw
    · cases he
    · rw [List.mem_singleton.1 hw] at he
      rw [show e = _ from List.mem_singleton.1 he]
      unfold saneAcc
      decide
  · intro s hs
    rw [List.mem_singleton.1 hs]
    refine ⟨fun w hw => by (cases hw), ?_⟩
    intro e he
    rw [show e = _ from List.mem_singleton.1 he]
    unfold saneAcc
    decide
  · intro s hs
    rw [List.mem_singleton.1 hs]
    refine ⟨fun w hw => by (cases hw), ?_⟩
    intro e he
    rw [show e = _ from List.mem_singleton.1 he]
    unfold saneAcc
    decide

/-- The program in its four stages (C90_queued, C90_calls, C90_expected, C90_done). -/
example : pubCheck (exScript (exWaits.take 1) [] []) (fun st c => decide (st = .waiting ∧ contents c = [] ∧ counter c.log = 0)) = true := by decide +kernel
example : pubCheck (exScript exWaits [] []) (fun st c => decide (st = .sending ∧ contents c = [] ∧ counter c.log = 1)) = true := by decide +kernel
example : pubCheck (exScript exWaits [exSend] []) (fun st c => decide (st = .leaving ∧ contents c = Selftest.payloads 1 1 1 ∧ counter c.log = 1 ∧
    c.pub.outstanding 0 = [1])) = true := by decide +kernel
example : pubCheck (exScript exWaits [exSend] [exLeave]) (fun st c => decide (st = .done ∧ contents c = Selftest.payloads 1 1 1 ∧ counter c.log = 0)) = true := by
  decide +kernel

/-- The time after the only packet is not over: the program is still sending, although nothing is left to queue (C90_sending). -/
example : pubCheck (exScript exWaits [{ exSend with tout := 11 }] []) (fun st c => decide (st = .sending ∧ contents c = Selftest.payloads 1 1 1)) = true := by
  decide +kernel
/-- The packet was multicast at 400000. In a round that begins at 500000 it is not sent again; in one that begins at 500001 it is, and until that is done the round is not
over (C90_leaving, C90_round). -/
example : pubCheck (exScript exWaits [exSend] [{ exLeave with cur := 500000 }]) (fun st _ => decide (st = .done)) = true := by decide +kernel
example : pubCheck (exScript exWaits [exSend] [{ exLeave with cur := 500001 }]) (fun st c => decide (st = .leaving ∧ counter c.log = 1 ∧ c.pub.outstanding 0 = [1])) = true := by
  decide +kernel
example : pubCheck (exScript exWaits [exSend] [{ exLeave with cur := 500001, inner := [⟨some [], 500002, 0, 0⟩], evs := none }])
    (fun st c => decide (st = .leaving ∧ counter c.log = 1 ∧ c.pub.outstanding 0 = [])) = true := by
  decide +kernel

/-- Activation fails: the program ends with 255 (C90_faults). -/
example : exPubMain { exScript [] [] [] with act := .error 98 .mcastSocket } = .error .exit255 := by rfl

/-- The calls of the publisher before the subscriber connects. -/
def exBefore : List Op := [.setAnnounce ANNOUNCE_INTERVAL 0, .activate (.ok (7, 8, 9)), .timeout 300001 none 500]

/-- The two programs in a system, from the moment the subscriber has made its first round. -/
def exBothOps : List SysOp :=
  [.sub (.write 0 (.ok 0) none (.ok 0)), .accept 0 (.ok 5 1) (some true), .pub (.setAnnounce 0 300002),
   .pub (.queue ⟨1, (Selftest.fill 1 1 [] 1).1, false⟩ false), .pub (.writeMcast [⟨.ok 400000, []⟩, ⟨.ok 400000, []⟩]), .pub (.timeout 400001 none 0),
   .pub (.setAnnounce 0 400002), .sub (.readMcast [Sys.exMc 1 (Selftest.sig 1 1 1).enc 1000])]

def exStartP : PubCtx := start (fun _ => ⟨0, .none, none, 0, CircBuf.init (fun _ => 0) 1, CircBuf.init (fun _ => 0) 1, .closed, 0, 0⟩) 7 1 2

def exBoth : Option Sys :=
  match PubCtx.run exStartP exBefore, TestSub.exMain (TestSub.exR.take 1) with
  | .ok p, .ok q => Sys.run Sys.exE ⟨p.2, q.2, none, [], [], false⟩ exBothOps
  | _, _ => none

theorem exBoth_sub : exBoth.map (·.sub) = (TestSub.exMain TestSub.exR).toOption.map (·.2) := by with_unfolding_all rfl
theorem exBoth_pub : exBoth.map (·.pub) = (exPubMain (exScript exWaits [exSend] [])).toOption.map (·.2) := by with_unfolding_all rfl

def bothCheck : Bool :=
  match PubCtx.run exStartP exBefore, TestSub.exMain (TestSub.exR.take 1) with
  | .ok p, .ok q => decide (p.2.nodeId < U32 ∧ p.2.listenIp < U32 ∧ p.2.listenPort < 65536 ∧ p.2.listenPort ≠ 0 ∧
      0 < q.2.cv.size ∧ (q.2.cv.conns 0).mode = .connecting ∧ (q.2.cv.conns 0).addr = Sys.addr Sys.exE p.2 ∧
      (q.2.cv.conns 0).port = p.2.listenPort)
  | _, _ => false

/-- C90_end_to_end applies to a system of the two programs in which the test ends successfully. -/
example : ∃ s es, Sys.Reached Sys.exE s ∧ exPubMain (exScript exWaits [exSend] []) = .ok (.leaving, s.pub) ∧ TestSub.exMain TestSub.exR = .ok (.last es, s.sub) ∧
    SubCtx.Up s.sub 0 ∧ s.sub.log.count (.complete 0) = 1 ∧ (∀ j, SEv.complete j ∈ s.sub.log → j = 0) := by
  have hs := exBoth_sub
  have hpub := exBoth_pub
  have h1 : bothCheck = true := by decide +kernel
  have h2 : TestSub.mainCheck TestSub.exR (fun res c => (match res with | .last _ => true | _ => false) && decide (SubCtx.Up c 0 ∧ c.log.count (.complete 0) = 1 ∧
    c.log.all (fun e => match e with | .complete j => decide (j = 0) | _ => true) = true)) = true := by decide +kernel
  have h3 : pubCheck (exScript exWaits [exSend] []) (fun st _ => decide (st = .leaving)) = true := by decide +kernel
  unfold pubCheck at h3
  cases hm : TestSub.exMain TestSub.exR with
  | error f => unfold TestSub.mainCheck at h2; rw [hm] at h2; cases h2
  | ok y =>
    obtain ⟨res, c⟩ := y
    unfold TestSub.mainCheck at h2
    rw [hm] at h2 hs
    cases hk : exPubMain (exScript exWaits [exSend] []) with
    | error f => rw [hk] at h3; cases h3
    | ok z =>
      obtain ⟨st, d⟩ := z
      rw [hk] at h3 hpub
      have hst : st = .leaving := of_decide_eq_true h3
      cases he : exBoth with
      | none => rw [he] at hs; cases hs
      | some s =>
        rw [he] at hs hpub
        have e : s.sub = c := Option.some.inj hs
        have e' : s.pub = d := Option.some.inj hpub
        dsimp only at h2
        rw [Bool.and_eq_true, decide_eq_true_eq] at h2
        obtain ⟨g1, g2, g3, g4⟩ := h2
        have : ∃ es, res = .last es := by
          cases res with
          | last es => exact ⟨es, rfl⟩
          | _ => cases g1
        obtain ⟨es, rfl⟩ := this
        refine ⟨s, es, ?_, by rw [e', hst], by rw [e], by rw [e]; exact g2, by rw [e]; exact g3, ?_⟩
        · unfold exBoth at he
          unfold bothCheck at h1
          cases hp : PubCtx.run exStartP exBefore with
          | error f => rw [hp] at he; cases he
          | ok p =>
            cases hq : TestSub.exMain (TestSub.exR.take 1) with
            | error f => rw [hp, hq] at he; cases he
            | ok q =>
              rw [hp, hq] at he h1
              obtain ⟨k1, k2, k3, k4, k5, k6, k7, k8⟩ := of_decide_eq_true h1
              obtain ⟨res0, q0⟩ := q
              obtain ⟨calls, r1, _⟩ := TestSub.main_spec hq
              refine ⟨3, _, exBothOps, ?_, by decide, he⟩
              exact ⟨⟨exBefore, ⟨_, MAX_CONNECTIONS, 7, 1, 2, p.1, by decide, by simp [exBefore, PubCtx.Op.sane], by decide, hp⟩,
                by simp [exBefore, Sys.callOk], by decide⟩, ⟨k1, k2, k3, k4⟩, ⟨_, r1⟩, ⟨k5, k6⟩, ⟨k7, k8⟩, rfl, rfl, rfl, rfl⟩
        · intro j hj
          rw [e] at hj
          have := List.all_eq_true.1 g4 _ hj
          exact of_decide_eq_true this

end TestPub

end Rmc
