import Verif.TestSub
import Verif.Props.Selftest
import Verif.Props.Loop
import Verif.Props.Serve
import Verif.Props.PubCtxTime
set_option linter.unusedSimpArgs false
set_option linter.unusedVariables false

/-! # C88, C89: the wait for events, and the test subscriber's program -/

namespace Rmc

namespace SubCtx
open SubPub

/-- From `c` to `c'` packets were only added to the ready list, the same ones that were made ready. -/
def Grows (c c' : SubCtx) : Prop :=
  c'.readyCb = c.readyCb ∧ ∃ new, readied c'.log = readied c.log ++ new ∧ c'.ready = c.ready ++ new

theorem Grows.refl (c : SubCtx) : Grows c c := ⟨rfl, [], by simp, by simp⟩

theorem Grows.trans {a b c : SubCtx} (h : Grows a b) (h' : Grows b c) : Grows a c := by
  obtain ⟨h1, n1, h2, h3⟩ := h
  obtain ⟨g1, n2, g2, g3⟩ := h'
  exact ⟨g1.trans h1, n1 ++ n2, by rw [g2, h2, List.append_assoc], by rw [g3, h3, List.append_assoc]⟩

theorem Micro.grows {tm : Nat} {c c' : SubCtx} (m : Micro tm c c') (ht : tm ≠ 0) (hn : c.readyCb = none) :
    Grows c c' ∧ (tm = 1 → c'.ready = c.ready) := by
  have quiet : ∀ {d : SubCtx} (es : List SEv), d.log = c.log ++ es → readied es = [] → d.readyCb = c.readyCb → d.ready = c.ready → Grows c d ∧ (tm = 1 → d.ready = c.ready) := by
    intro d es h1 h2 h3 h4
    exact ⟨⟨h3, [], by rw [h1, readied_append, h2], by rw [h4, List.append_nil]⟩, fun _ => h4⟩
  cases m with
  | @user a p ps hx e he hk => exact absurd hn (hk.resolve_left ht)
  | setCb f hk => exact absurd hk ht
  | cb hk => exact quiet _ rfl rfl rfl rfl
  | annCb a => exact quiet _ rfl rfl rfl rfl
  | sock m es hes hfs => exact quiet [] (by simp) rfl rfl rfl
  | dup hu hs hp hd hk => exact quiet _ rfl rfl rfl rfl
  | recv hu hs hd ha hk =>
    refine ⟨⟨rfl, _, ?_, rfl⟩, fun e => by omega⟩
    show readied (c.log ++ _ ++ _ ++ _) = _
    rw [readied_append, readied_append, readied_append, readied_ready]
    simp [readied]
  | io hu rb a es hact hes hk => exact quiet [] (by simp) rfl rfl rfl
  | taken hs hi ha ht => exact quiet _ rfl rfl rfl rfl
  | dropAck ha hs hi => exact quiet [] (by simp) rfl rfl rfl
  | msg hu hw hz hb he =>
    refine quiet [_] rfl ?_ rfl rfl
    rcases he with ⟨iv, _, rfl, _⟩ | ⟨bs, ds, rfl, _⟩ <;> rfl
  | out hu hw hz hb a es hact hes hr => exact quiet _ rfl rfl rfl rfl
  | connect => exact quiet _ rfl rfl rfl rfl
  | noConnect => exact quiet [] (by simp) rfl rfl rfl
  | complete hi hm => exact quiet _ rfl rfl rfl rfl
  | noComplete hi hm hv hv' h1 h2 h3 h4 hx =>
    rcases hx with rfl | rfl <;> exact quiet _ rfl rfl rfl rfl
  | close hi hs hk =>
    refine quiet _ (by show c.log ++ _ ++ _ = _; rw [List.append_assoc]) ?_ rfl rfl
    rw [readied_append, readied_free]; rfl

theorem Steps.grows {tm : Nat} {c c' : SubCtx} (h : Steps tm c c') (ht : tm ≠ 0) (hn : c.readyCb = none) : Grows c c' := by
  induction h with
  | nil => exact .refl _
  | cons m _ ih =>
    have g := (m.grows ht hn).1
    exact g.trans (ih (g.1.trans hn))

theorem Steps.still {c c' : SubCtx} (h : Steps 1 c c') (hn : c.readyCb = none) : c'.ready = c.ready := by
  induction h with
  | nil => rfl
  | cons m _ ih =>
    have g := m.grows (by omega) hn
    exact (ih (g.1.1.trans hn)).trans (g.2 rfl)

/-- The calls the loops of the test subscriber make. -/
def loopCall : Op → Prop
  | .readMcast _ | .read .. | .write .. | .timeout _ | .close _ => True
  | _ => False

theorem step_grows {c c' : SubCtx} {op : Op} {r : Nat} (hc : Core c) (ho : loopCall op) (hn : c.readyCb = none) (h : step c op = .ok (r, c')) : Grows c c' := by
  cases op with
  | readMcast rs => exact (readMcast_steps hc h).grows (by omega) hn
  | read i rv ts => exact (readConn_steps hc h).grows (by omega) hn
  | write i so nd wv => exact (writeConn_steps (tm := 1) (by omega) hc h).grows (by omega) hn
  | timeout now => exact (timeoutLoop_steps _ hc rfl h).grows (by omega) hn
  | close i => exact (closeConnection_steps (tm := 1) (by omega) hc h).grows (by omega) hn
  | _ => exact absurd ho id

theorem onEvent_calls {ops : List Op} {c c' : SubCtx} (h : Reaches ops c) (hn : c.readyCb = none) {e : Event} (hx : onEvent c e = .ok c') :
    ∃ calls, Reaches (ops ++ calls) c' ∧ (∀ op ∈ calls, loopCall op) ∧ Grows c c' := by
  have out : ∀ {pre : List Op} {d : SubCtx}, Reaches (ops ++ pre) d → (∀ op ∈ pre, loopCall op) → Grows c d → onOut d e = .ok c' →
      ∃ calls, Reaches (ops ++ calls) c' ∧ (∀ op ∈ calls, loopCall op) ∧ Grows c c' := by
    intro pre d hd hp hg hw
    unfold onOut at hw
    split at hw
    · unfold onWrite at hw
      obtain ⟨⟨r, d1⟩, h1, hw⟩ := bind_ok hw
      have hd1 := hd.snoc h1
      have g1 := hg.trans (step_grows hd.inv.core (by trivial) (hg.1.trans hn) h1)
      dsimp only at hw
      split at hw
      · obtain ⟨⟨r2, d2⟩, h2, hw⟩ := bind_ok hw
        cases hw
        have hd2 := hd1.snoc h2
        refine ⟨pre ++ [_] ++ [_], by rw [← List.append_assoc, ← List.append_assoc]; exact hd2, ?_, g1.trans (step_grows hd1.inv.core (by trivial) (g1.1.trans hn) h2)⟩
        intro op ho
        simp only [List.mem_append, List.mem_singleton] at ho
        rcases ho with (ho | rfl) | rfl
        · exact hp op ho
        · trivial
        · trivial
      · cases hw
        refine ⟨pre ++ [_], by rw [← List.append_assoc]; exact hd1, ?_, g1⟩
        intro op ho
        simp only [List.mem_append, List.mem_singleton] at ho
        rcases ho with ho | rfl
        · exact hp op ho
        · trivial
    · cases hw; exact ⟨pre, hd, hp, hg⟩
  unfold onEvent at hx
  by_cases hr : e.rd = true
  · rw [if_pos hr] at hx
    obtain ⟨⟨r, d⟩, h1, hx⟩ := bind_ok hx
    have hl : loopCall e.readOp := by unfold Event.readOp; split <;> trivial
    exact out (pre := [e.readOp]) (h.snoc h1) (by intro op ho; rw [List.mem_singleton] at ho; rw [ho]; exact hl) (step_grows h.inv.core hl hn h1) hx
  · rw [if_neg hr] at hx
    exact out (pre := []) (by rw [List.append_nil]; exact h) (by simp) (.refl _) hx

theorem onEvents_calls : ∀ (l : List Event) {ops : List Op} {c c' : SubCtx}, Reaches ops c → c.readyCb = none → onEvents c l = .ok c' →
    ∃ calls, Reaches (ops ++ calls) c' ∧ (∀ op ∈ calls, loopCall op) ∧ Grows c c' := by
  intro l
  induction l with
  | nil => intro ops c c' h hn hx; cases hx; exact ⟨[], by rw [List.append_nil]; exact h, by simp, .refl _⟩
  | cons e l ih =>
    intro ops c c' h hn hx
    rw [onEvents.eq_2] at hx
    obtain ⟨d, h1, hx⟩ := bind_ok hx
    obtain ⟨k1, a1, a2, a3⟩ := onEvent_calls h hn h1
    obtain ⟨k2, b1, b2, b3⟩ := ih a1 (a3.1.trans hn) hx
    refine ⟨k1 ++ k2, by rw [← List.append_assoc]; exact b1, ?_, a3.trans b3⟩
    intro op ho
    rcases List.mem_append.1 ho with ho | ho
    · exact a2 op ho
    · exact b2 op ho

theorem serve_calls {cur : Int} : ∀ (nows : List Int) {ops : List Op} {c c' : SubCtx} {b : Bool}, Reaches ops c → c.readyCb = none →
    serve cur nows c = .ok (b, c') → ∃ calls, Reaches (ops ++ calls) c' ∧ (∀ op ∈ calls, loopCall op) ∧ Grows c c' ∧ c'.ready = c.ready := by
  intro nows
  induction nows with
  | nil =>
    intro ops c c' b h hn hx
    rw [serve.eq_1] at hx
    obtain ⟨t, h1, hx⟩ := bind_ok hx
    cases hx
    exact ⟨[], by rw [List.append_nil]; exact h, by simp, .refl _, rfl⟩
  | cons now nows ih =>
    intro ops c c' b h hn hx
    rw [serve.eq_2] at hx
    obtain ⟨t, h1, hx⟩ := bind_ok hx
    by_cases ht : t = -1 ∨ cur ≤ t
    · rw [if_pos ht] at hx
      cases hx
      exact ⟨[], by rw [List.append_nil]; exact h, by simp, .refl _, rfl⟩
    · rw [if_neg ht] at hx
      obtain ⟨⟨r, d⟩, h2, hx⟩ := bind_ok hx
      have hs : step c (.timeout now) = .ok (r, d) := h2
      have g := step_grows h.inv.core (by trivial) hn hs
      obtain ⟨k, b1, b2, b3, b4⟩ := ih (h.snoc hs) (g.1.trans hn) hx
      refine ⟨.timeout now :: k, by rw [List.append_assoc] at b1; exact b1, ?_, g.trans b3, b4.trans ((timeoutLoop_steps _ h.inv.core rfl hs).still hn)⟩
      intro op ho
      rcases List.mem_cons.1 ho with rfl | ho
      · trivial
      · exact b2 op ho

/-- How a small step lengthens the log: with no packet made ready and no connection set up; with packets made ready for a connection that is up; or with a
connection set up. -/
theorem Micro.logged {tm : Nat} {c c' : SubCtx} (m : Micro tm c c') (hc : Core c) : ∃ es, c'.log = c.log ++ es ∧
    ((readied es = [] ∧ ∀ j, SEv.complete j ∉ es) ∨
     (∃ i, Up c i ∧ (∀ p ∈ readied es, p.slot = i) ∧ ∀ j, SEv.complete j ∉ es) ∨ ∃ j, es = [.complete j]) := by
  have rdy : ∀ (i : Nat) (ps : List SPkt), SEv.complete i ∉ ps.map SEv.ready := by
    intro i ps hx; obtain ⟨p, _, e⟩ := List.mem_map.1 hx; cases e
  have fre : ∀ (i : Nat) (ps : List SPkt), SEv.complete i ∉ ps.map (fun p => SEv.free p.payload.ptr p.payload.data.length (.u32 p.slot)) := by
    intro i ps hx; obtain ⟨p, _, e⟩ := List.mem_map.1 hx; cases e
  cases m with
  | user hx he => exact ⟨_, rfl, .inl (by rcases he with rfl | rfl <;> exact ⟨rfl, by simp⟩)⟩
  | cb hk => exact ⟨_, rfl, .inl ⟨rfl, by simp⟩⟩
  | setCb f hk => exact ⟨[], (List.append_nil _).symm, .inl ⟨rfl, by simp⟩⟩
  | annCb a => exact ⟨_, rfl, .inl ⟨rfl, by simp⟩⟩
  | sock m es => exact ⟨[], (List.append_nil _).symm, .inl ⟨rfl, by simp⟩⟩
  | dup hu hs hp hd hk => exact ⟨_, rfl, .inl ⟨rfl, by simp⟩⟩
  | @recv i t hu hs pid data m ts hd al ha =>
    obtain ⟨p, hp⟩ : ∃ p, p = (⟨c.nextAddr, pid, ⟨c.nextAddr, data, false⟩, i⟩ : SPkt) := ⟨_, rfl⟩
    rw [← hp]
    have hslot : ∀ q ∈ (process (received' t p m ts)).2, q.slot = i := by
      intro q hq
      have : q ∈ (received' t p m ts).received := by rw [← process_parts]; exact List.mem_append_left _ hq
      rcases received_mem.1 this with rfl | hq
      · rw [hp]
      · exact hc.slot i t hs q hq
    refine ⟨[.arrive i p m ts, .alloc p] ++ (process (received' t p m ts)).2.map .ready, by unfold recvd; simp, .inr (.inl ⟨i, hu, ?_, ?_⟩)⟩
    · rw [readied_append, readied_ready]; exact hslot
    · intro j hj
      rw [List.mem_append] at hj
      rcases hj with hj | hj
      · simp at hj
      · exact rdy j _ hj
  | @io i hu rb a es => exact ⟨[], (List.append_nil _).symm, .inl ⟨rfl, by simp⟩⟩
  | @taken i s iv rest hs hi ha => exact ⟨_, rfl, .inl ⟨rfl, by simp⟩⟩
  | dropAck ha hs hi => exact ⟨[], (List.append_nil _).symm, .inl ⟨rfl, by simp⟩⟩
  | @msg i hu b e xs hw hz hb he =>
    refine ⟨[e], rfl, .inl ?_⟩
    rcases he with ⟨iv, -, rfl, -⟩ | ⟨bs, ds, rfl, -⟩ <;> exact ⟨rfl, by simp⟩
  | @out i hu b xs hw hz hb a es => exact ⟨_, rfl, .inl ⟨rfl, by simp⟩⟩
  | @connect i addr port nid d L hv hL hi v hv' h1 h2 h3 h4 h5 => exact ⟨_, rfl, .inl ⟨rfl, by simp⟩⟩
  | @noConnect L hv v hv' h1 h2 h3 h4 => exact ⟨[], (List.append_nil _).symm, .inl ⟨rfl, by simp⟩⟩
  | @complete i hi hm => exact ⟨_, rfl, .inr (.inr ⟨i, rfl⟩)⟩
  | @noComplete i hi hm L hv v hv' h1 h2 h3 h4 xs hx =>
    rcases hx with rfl | rfl
    · exact ⟨[], rfl, .inl ⟨rfl, by simp⟩⟩
    · exact ⟨_, rfl, .inr (.inr ⟨i, rfl⟩)⟩
  | @close i s hi hs =>
    refine ⟨[.closed i] ++ (reset s).2.map fun p => .free p.payload.ptr p.payload.data.length (.u32 p.slot), by unfold closedAt; simp, .inl ⟨?_, ?_⟩⟩
    · rw [readied_append, readied_free]; rfl
    · intro j hj
      rw [List.mem_append] at hj
      rcases hj with hj | hj
      · simp at hj
      · exact fre j _ hj

/-- Packets are made ready for connections that were set up. -/
structure OneOK (i : Nat) (c : SubCtx) : Prop where
  up : ∀ j, Up c j → SEv.complete j ∈ c.log
  rdy : ∀ p ∈ readied c.log, SEv.complete p.slot ∈ c.log
  one : (∀ j, SEv.complete j ∈ c.log → j = i) → c.log.count (.complete i) ≤ 1 → readied c.log = deliveredAt i c.log

theorem delivered_append {i : Nat} {log es : List SEv} (h : SEv.complete i ∉ es) :
    deliveredAt i (log ++ es) = deliveredAt i log ++ (readied es).filter (fun p => decide (p.slot = i)) := by
  unfold deliveredAt
  rw [since_append_of h, List.filterMap_append]
  congr 1
  clear h
  induction es with
  | nil => rfl
  | cons e es ih =>
    rw [List.filterMap_cons, ih]
    cases e with
    | ready p =>
      have hr : readied (SEv.ready p :: es) = p :: readied es := rfl
      rw [hr, List.filter_cons]
      by_cases hp : p.slot = i
      · simp [hp]
      · simp [hp]
    | _ => rfl

theorem OneOK.micro {tm i : Nat} {c c' : SubCtx} (m : Micro tm c c') (hc : Core c) (h : OneOK i c) : OneOK i c' := by
  obtain ⟨es, h1, h2⟩ := m.logged hc
  have hup : ∀ j, Up c' j → SEv.complete j ∈ c'.log := by
    intro j hj
    rcases m.up hc hj with g | ⟨l, g, _⟩
    · rw [h1]; exact List.mem_append_left _ (h.up j g)
    · rw [g]; simp
  have step : (∀ p ∈ readied es, SEv.complete p.slot ∈ c.log) → (∀ j, SEv.complete j ∉ es) → OneOK i c' := by
    intro g1 g2
    refine ⟨hup, ?_, ?_⟩
    · intro p hp
      rw [h1, readied_append, List.mem_append] at hp
      rw [h1, List.mem_append]
      exact .inl (hp.elim (h.rdy p) (g1 p))
    · intro k1 k2
      rw [h1] at k1 k2
      rw [h1, readied_append, delivered_append (g2 i), h.one (fun j hj => k1 j (List.mem_append_left _ hj)) (by
        rw [List.count_append] at k2; omega)]
      congr 1
      symm
      rw [List.filter_eq_self]
      intro p hp
      exact decide_eq_true (k1 _ (List.mem_append_left _ (g1 p hp)))
  rcases h2 with ⟨g1, g2⟩ | ⟨k, g1, g2, g3⟩ | ⟨j, g1⟩
  · exact step (by rw [g1]; simp) g2
  · exact step (fun p hp => by rw [g2 p hp]; exact h.up k g1) g3
  · subst g1
    refine ⟨hup, ?_, ?_⟩
    · intro p hp
      rw [h1, readied_append, show readied [SEv.complete j] = [] from rfl, List.append_nil] at hp
      rw [h1]; exact List.mem_append_left _ (h.rdy p hp)
    · intro k1 k2
      rw [h1] at k1 k2
      have hj : j = i := k1 j (by simp)
      subst hj
      rw [List.count_append, List.count_singleton] at k2
      simp only [beq_self_eq_true, if_true] at k2
      have h0 : c.log.count (.complete j) = 0 := by omega
      rw [List.count_eq_zero] at h0
      have hr : readied c.log = [] := by
        apply List.eq_nil_iff_forall_not_mem.2
        intro p hp
        have := h.rdy p hp
        exact h0 (by rw [k1 _ (List.mem_append_left _ this)] at this; exact this)
      rw [h1, readied_append, hr]
      unfold deliveredAt
      rw [since_snoc, if_pos rfl]; rfl

theorem OneOK.steps {tm i : Nat} {c c' : SubCtx} (st : Steps tm c c') (hc : Core c) (h : OneOK i c) : OneOK i c' := by
  induction st with
  | nil => exact h
  | cons m _ ih => exact ih (hc.micro m) (h.micro m hc)

theorem Reaches.oneOK {ops : List Op} {c : SubCtx} (h : Reaches ops c) (i : Nat) : OneOK i c := by
  refine Reaches.induct (P := fun _ c => OneOK i c) ?_ ?_ h
  · intro mem n nid hn
    refine ⟨fun j hj => ?_, fun p hp => by simp [init, readied] at hp, fun _ _ => rfl⟩
    have h0 : ((init mem n nid).cv.conns j).mode = .closed := rfl
    have h1 := hj.2
    rw [h0] at h1; cases h1
  · intro ops c op r c' hr ih hs
    rcases step_cases hr.inv.core hr.inv.mem hs with st | ⟨_, st⟩
    · exact ih.steps st hr.inv.core
    · exact OneOK.steps st hr.inv.core.forget ⟨ih.up, ih.rdy, ih.one⟩

end SubCtx

namespace TestSub
open SubCtx

theorem events_calls {ops : List Op} {c c' : SubCtx} {b : Bool} (h : Reaches ops c) (hn : c.readyCb = none) {r : Round} (hx : events c r = .ok (b, c')) :
    ∃ calls, Reaches (ops ++ calls) c' ∧ (∀ op ∈ calls, loopCall op) ∧ Grows c c' ∧ (b = false → c'.ready = c.ready) := by
  unfold events at hx
  obtain ⟨⟨x, d⟩, h1, hx⟩ := bind_ok hx
  obtain ⟨k1, a1, a2, a3, a4⟩ := serve_calls _ h hn h1
  dsimp only at hx
  split at hx
  · obtain ⟨d', h2, hx⟩ := bind_ok hx
    cases hx
    obtain ⟨k2, b1, b2, b3⟩ := onEvents_calls _ a1 (a3.1.trans hn) h2
    refine ⟨k1 ++ k2, by rw [← List.append_assoc]; exact b1, ?_, a3.trans b3, fun e => by cases e⟩
    intro op ho
    rcases List.mem_append.1 ho with ho | ho
    · exact a2 op ho
    · exact b2 op ho
  · cases hx
    exact ⟨k1, a1, a2, a3, fun _ => a4⟩

theorem run_append : ∀ (ps qs : List (List UInt8)) (es es' : List Selftest.Expect) (n : Nat), Selftest.run es ps = .ok (.more es', n) →
    Selftest.run es (ps ++ qs) = match Selftest.run es' qs with | .error f => .error f | .ok r => .ok (r.1, n + r.2) := by
  intro ps
  induction ps with
  | nil =>
    intro qs es es' n h
    rw [Selftest.run] at h
    cases h
    rw [List.nil_append]
    cases Selftest.run es qs with
    | error f => rfl
    | ok r => simp
  | cons p ps ih =>
    intro qs es es' n h
    rw [Selftest.run.eq_2] at h
    rw [List.cons_append, Selftest.run.eq_2]
    cases hp : Selftest.packet es p with
    | error f => rw [hp] at h; cases h
    | ok r =>
      rw [hp] at h
      cases r with
      | more e1 =>
        dsimp only at h ⊢
        cases hr : Selftest.run e1 ps with
        | error f => rw [hr] at h; cases h
        | ok x =>
          rw [hr] at h
          obtain ⟨x1, x2⟩ := x
          dsimp only at h
          have e1' : x1 = .more es' := congrArg Prod.fst (Except.ok.inj h)
          have e2' : x2 + 1 = n := congrArg Prod.snd (Except.ok.inj h)
          rw [e1'] at hr
          rw [ih qs _ _ _ hr]
          cases Selftest.run es' qs with
          | error f => rfl
          | ok y => dsimp only; rw [← e2']; congr 2; omega
      | last e1 => cases h
      | corrupt => cases h

/-- What the packets in `ps` contain. -/
def contents (ps : List SPkt) : List (List UInt8) := ps.map (·.payload.data)

/-- The state of the program between two packets: those marked dispatched have been judged. -/
def Judged (map : List Bool) (es : List Selftest.Expect) (c : SubCtx) : Prop :=
  ∃ D, readied c.log = D ++ c.ready ∧ Selftest.run (Selftest.start map) (contents D) = .ok (.more es, D.length)

/-- The state of the program in the end. -/
def Ended (map : List Bool) (res : Selftest.Res) (c : SubCtx) : Prop :=
  ∃ d, Selftest.run (Selftest.start map) (contents (readied c.log)) = .ok (res, d) ∧ c.ready = (readied c.log).drop d ∧
    (∀ es, res = .more es → c.ready = [])

theorem Ended.judged {map : List Bool} {es : List Selftest.Expect} {c : SubCtx} (h : Ended map (.more es) c) : Judged map es c := by
  obtain ⟨d, h1, h2, h3⟩ := h
  refine ⟨readied c.log, by rw [h3 es rfl, List.append_nil], ?_⟩
  rw [h1]
  have hlen : ∀ (ps : List (List UInt8)) (e e' : List Selftest.Expect) (n : Nat), Selftest.run e ps = .ok (.more e', n) → n = ps.length := by
    intro ps
    induction ps with
    | nil => intro e e' n h; rw [Selftest.run] at h; cases h; rfl
    | cons p ps ih =>
      intro e e' n h
      rw [Selftest.run.eq_2] at h
      cases hp : Selftest.packet e p with
      | error f => rw [hp] at h; cases h
      | ok r =>
        rw [hp] at h
        cases r with
        | more e1 =>
          dsimp only at h
          cases hr : Selftest.run e1 ps with
          | error f => rw [hr] at h; cases h
          | ok x =>
            rw [hr] at h
            obtain ⟨x1, x2⟩ := x
            have e1' : x1 = .more e' := congrArg Prod.fst (Except.ok.inj h)
            have e2' : x2 + 1 = n := congrArg Prod.snd (Except.ok.inj h)
            rw [e1'] at hr
            rw [List.length_cons, ← ih _ _ _ hr, e2']
        | last e1 => cases h
        | corrupt => cases h
  have := hlen _ _ _ _ h1
  rw [this]; unfold contents; rw [List.length_map]

theorem takeReady_head (p : SPkt) (ps : List SPkt) : takeReady p.addr (p :: ps) = some (p, ps) := by
  rw [takeReady, if_pos rfl]

theorem dispatchAll_spec {map : List Bool} : ∀ (n : Nat) {es : List Selftest.Expect} {ops : List Op} {c : SubCtx}, Reaches ops c → Judged map es c →
    c.ready.length ≤ n →
    (∀ {res : Selftest.Res} {c' : SubCtx}, dispatchAll n es c = .ok (res, c') → ∃ calls, Reaches (ops ++ calls) c' ∧
      (∀ op ∈ calls, ∃ a, op = .dispatched a) ∧ c'.readyCb = c.readyCb ∧ Ended map res c') ∧
    (∀ {f : Fault}, dispatchAll n es c = .error f → Selftest.run (Selftest.start map) (contents (readied c.log)) = .error f) := by
  intro n
  induction n with
  | zero =>
    intro es ops c h hj hl
    have h0 : c.ready = [] := List.eq_nil_of_length_eq_zero (by omega)
    obtain ⟨D, h1, h2⟩ := hj
    rw [h0, List.append_nil] at h1
    refine ⟨?_, fun hx => by cases hx⟩
    intro res c' hx
    cases hx
    refine ⟨[], by rw [List.append_nil]; exact h, by simp, rfl, D.length, ?_, ?_, fun _ _ => h0⟩
    · rw [h1]; exact h2
    · rw [h0, h1, List.drop_length]
  | succ n ih =>
    intro es ops c h hj hl
    obtain ⟨D, h1, h2⟩ := hj
    rw [dispatchAll.eq_2]
    unfold nextReady
    cases hr : c.ready with
    | nil =>
      refine ⟨?_, fun hx => by cases hx⟩
      intro res c' hx
      cases hx
      rw [hr, List.append_nil] at h1
      refine ⟨[], by rw [List.append_nil]; exact h, by simp, rfl, D.length, ?_, ?_, fun _ _ => hr⟩
      · rw [h1]; exact h2
      · rw [hr, h1, List.drop_length]
    | cons p ps =>
      dsimp only [List.head?]
      rw [hr] at h1 hl
      have hrun : Selftest.run (Selftest.start map) (contents (readied c.log)) =
          match Selftest.run es (contents (p :: ps)) with | .error f => .error f | .ok r => .ok (r.1, D.length + r.2) := by
        rw [h1, show contents (D ++ p :: ps) = contents D ++ contents (p :: ps) by unfold contents; rw [List.map_append]]
        exact run_append _ _ _ _ _ h2
      have hcons : contents (p :: ps) = p.payload.data :: contents ps := rfl
      rw [hcons, Selftest.run.eq_2] at hrun
      cases hp : Selftest.packet es p.payload.data with
      | error g =>
        dsimp only
        refine ⟨fun hx => (by cases hx), fun {f} hx => ?_⟩
        cases hx
        rw [hp] at hrun; exact hrun
      | ok r =>
        rw [hp] at hrun
        cases r with
        | more e1 =>
          dsimp only at hrun ⊢
          obtain ⟨d, hd⟩ : ∃ d, d = ev { c with ready := ps } (.free p.payload.ptr p.payload.data.length .ctx) := ⟨_, rfl⟩
          have hstep : step c (.dispatched p.addr) = .ok (0, d) := by
            show Except.ok (dispatched c p.addr) = _
            unfold dispatched
            rw [hr, takeReady_head, hd]
          rw [hstep, Pub.ok_bind]
          have hrd : readied d.log = readied c.log := by
            rw [hd]
            show readied (c.log ++ [_]) = _
            rw [readied_append]; simp [readied]
          have hreach := h.snoc hstep
          have hj' : Judged map e1 d := by
            refine ⟨D ++ [p], ?_, ?_⟩
            · rw [hrd, h1, hd, List.append_assoc]; rfl
            · rw [show contents (D ++ [p]) = contents D ++ [p.payload.data] by unfold contents; simp, run_append _ _ _ _ _ h2, Selftest.run.eq_2, hp]
              simp [Selftest.run]
          obtain ⟨a1, a2⟩ := ih hreach hj' (by rw [hd]; simp at hl; exact hl)
          refine ⟨?_, ?_⟩
          · intro res c' hx
            obtain ⟨calls, b1, b2, b3, b4⟩ := a1 hx
            refine ⟨.dispatched p.addr :: calls, by rw [List.append_assoc] at b1; exact b1, ?_, by rw [b3, hd]; rfl, b4⟩
            intro op ho
            rcases List.mem_cons.1 ho with rfl | ho
            · exact ⟨_, rfl⟩
            · exact b2 op ho
          · intro f hx
            rw [← hrd]; exact a2 hx
        | last e1 =>
          dsimp only
          refine ⟨?_, fun hx => by cases hx⟩
          intro res c' hx
          cases hx
          refine ⟨[], by rw [List.append_nil]; exact h, by simp, rfl, D.length, hrun, ?_, fun es he => by cases he⟩
          rw [h1, hr, List.drop_left]
        | corrupt =>
          dsimp only
          refine ⟨?_, fun hx => by cases hx⟩
          intro res c' hx
          cases hx
          refine ⟨[], by rw [List.append_nil]; exact h, by simp, rfl, D.length, hrun, ?_, fun es he => by cases he⟩
          rw [h1, hr, List.drop_left]

/-- Specification: the calls the program makes in its main loop: those of the loops that serve timeouts and handle events, and marking packets dispatched. -/
def mainCall (op : Op) : Prop := loopCall op ∨ ∃ a, op = .dispatched a

theorem Judged.grows {map : List Bool} {es : List Selftest.Expect} {c c' : SubCtx} (h : Judged map es c) (hg : Grows c c') : Judged map es c' := by
  obtain ⟨D, h1, h2⟩ := h
  obtain ⟨_, new, g1, g2⟩ := hg
  exact ⟨D, by rw [g1, g2, h1, List.append_assoc], h2⟩

theorem round_spec {map : List Bool} {es : List Selftest.Expect} {ops : List Op} {c : SubCtx} (h : Reaches ops c) (hn : c.readyCb = none)
    (hj : Ended map (.more es) c) {r : Round} :
    (∀ {res : Selftest.Res} {c' : SubCtx}, round es c r = .ok (res, c') → ∃ calls, Reaches (ops ++ calls) c' ∧ (∀ op ∈ calls, mainCall op) ∧
      c'.readyCb = none ∧ Ended map res c') ∧
    (∀ {f : Fault}, round es c r = .error f → events c r = .error f ∨
      ∃ d, events c r = .ok (true, d) ∧ Selftest.run (Selftest.start map) (contents (readied d.log)) = .error f) := by
  unfold round
  cases he : events c r with
  | error g =>
    refine ⟨fun hx => (by cases hx), fun {f} hx => ?_⟩
    cases hx; exact .inl rfl
  | ok x =>
    obtain ⟨b, d⟩ := x
    obtain ⟨k1, a1, a2, a3, a4⟩ := events_calls h hn he
    rw [Pub.ok_bind]
    dsimp only
    have hd := hj.judged.grows a3
    cases b with
    | true =>
      rw [if_pos rfl]
      obtain ⟨s1, s2⟩ := dispatchAll_spec (map := map) d.ready.length a1 hd (Nat.le_refl _)
      refine ⟨?_, fun {f} hx => .inr ⟨d, rfl, s2 hx⟩⟩
      intro res c' hx
      obtain ⟨k2, b1, b2, b3, b4⟩ := s1 hx
      refine ⟨k1 ++ k2, by rw [← List.append_assoc]; exact b1, ?_, b3.trans (a3.1.trans hn), b4⟩
      intro op ho
      rcases List.mem_append.1 ho with ho | ho
      · exact .inl (a2 op ho)
      · exact .inr (b2 op ho)
    | false =>
      rw [if_neg (by simp)]
      refine ⟨?_, fun {f} hx => by cases hx⟩
      intro res c' hx
      cases hx
      refine ⟨k1, a1, fun op ho => .inl (a2 op ho), a3.1.trans hn, ?_⟩
      obtain ⟨q, h1, h2, h3⟩ := hj
      obtain ⟨_, new, g1, g2⟩ := a3
      have h4 := a4 rfl
      have hnew : new = [] := by
        rw [h4] at g2
        have := congrArg List.length g2
        rw [List.length_append] at this
        exact List.eq_nil_of_length_eq_zero (by omega)
      rw [hnew, List.append_nil] at g1
      exact ⟨q, by rw [g1]; exact h1, by rw [h4, g1]; exact h2, fun e he => by rw [h4]; exact h3 es rfl⟩

theorem rounds_spec {map : List Bool} : ∀ (rs : List Round) {es : List Selftest.Expect} {ops : List Op} {c : SubCtx}, Reaches ops c → c.readyCb = none →
    Ended map (.more es) c →
    (∀ {res : Selftest.Res} {c' : SubCtx}, rounds es c rs = .ok (res, c') → ∃ calls, Reaches (ops ++ calls) c' ∧ (∀ op ∈ calls, mainCall op) ∧
      c'.readyCb = none ∧ Ended map res c') ∧
    (∀ {f : Fault}, rounds es c rs = .error f → ∃ pre r post es' c0, rs = pre ++ r :: post ∧ rounds es c pre = .ok (.more es', c0) ∧
      (events c0 r = .error f ∨
      ∃ d, events c0 r = .ok (true, d) ∧ Selftest.run (Selftest.start map) (contents (readied d.log)) = .error f)) := by
  intro rs
  induction rs with
  | nil =>
    intro es ops c h hn hj
    refine ⟨?_, fun hx => by cases hx⟩
    intro res c' hx
    cases hx
    exact ⟨[], by rw [List.append_nil]; exact h, by simp, hn, hj⟩
  | cons r rs ih =>
    intro es ops c h hn hj
    obtain ⟨s1, s2⟩ := round_spec h hn hj (r := r)
    rw [rounds.eq_2]
    cases hr : round es c r with
    | error g =>
      refine ⟨fun hx => (by cases hx), fun {f} hx => ?_⟩
      cases hx
      exact ⟨[], r, rs, es, c, rfl, rfl, s2 hr⟩
    | ok x =>
      obtain ⟨res1, d⟩ := x
      obtain ⟨k1, a1, a2, a3, a4⟩ := s1 hr
      rw [Pub.ok_bind]
      cases res1 with
      | more e1 =>
        obtain ⟨t1, t2⟩ := ih a1 a3 a4
        dsimp only
        refine ⟨?_, ?_⟩
        · intro res c' hx
          obtain ⟨k2, b1, b2, b3, b4⟩ := t1 hx
          refine ⟨k1 ++ k2, by rw [← List.append_assoc]; exact b1, ?_, b3, b4⟩
          intro op ho
          rcases List.mem_append.1 ho with ho | ho
          · exact a2 op ho
          · exact b2 op ho
        · intro f hx
          obtain ⟨pre, r', post, es', c0, b1, b2, b3⟩ := t2 hx
          refine ⟨r :: pre, r', post, es', c0, by rw [b1]; rfl, ?_, b3⟩
          rw [rounds.eq_2, hr, Pub.ok_bind]; exact b2
      | last e1 =>
        dsimp only
        refine ⟨?_, fun hx => by cases hx⟩
        intro res c' hx
        cases hx
        exact ⟨k1, a1, a2, a3, a4⟩
      | corrupt =>
        dsimp only
        refine ⟨?_, fun hx => by cases hx⟩
        intro res c' hx
        cases hx
        exact ⟨k1, a1, a2, a3, a4⟩

theorem activate_start {mem : Nat → Conn} {nid : Nat} {x : ActRes} {r : Nat} {c : SubCtx} (h : step (init mem MAX_CONNECTIONS nid) (.activate x) = .ok (r, c)) :
    Reaches [.activate x] c ∧ c.readyCb = none ∧ c.log = [] ∧ c.ready = [] := by
  have h0 : Reaches [] (init mem MAX_CONNECTIONS nid) := ⟨[], mem, MAX_CONNECTIONS, nid, by decide, rfl⟩
  refine ⟨h0.snoc h, ?_⟩
  have e : _ = c := congrArg Prod.snd (Except.ok.inj h)
  rw [← e]
  unfold activate
  split
  · exact ⟨rfl, rfl, rfl⟩
  · split <;> exact ⟨rfl, rfl, rfl⟩

theorem main_spec {mem : Nat → Conn} {nid : Nat} {map : List Bool} {x : ActRes} {rs : List Round} {res : Selftest.Res} {c : SubCtx}
    (h : main mem nid map x rs = .ok (res, c)) :
    ∃ calls, Reaches (.activate x :: calls) c ∧ (∀ op ∈ calls, mainCall op) ∧ c.readyCb = none ∧ Ended map res c := by
  unfold main at h
  obtain ⟨⟨r, c1⟩, h1, h⟩ := bind_ok h
  obtain ⟨a1, a2, a3, a4⟩ := activate_start h1
  dsimp only at h
  by_cases hr : r ≠ 0
  · rw [if_pos hr] at h; cases h
  · rw [if_neg hr] at h
    exact (rounds_spec (map := map) rs a1 a2 ⟨0, by rw [a3]; rfl, by rw [a3, a4]; rfl, fun _ _ => a4⟩).1 h

/-- C89: the test subscriber judges exactly the packets the library made ready, each once and in the order in which they were made ready: at the end of every
number of rounds of its main loop its verdict is that of the checks run over the contents of all packets made ready so far; all those judged before the
last have been marked dispatched and the others are still on the ready list - none if the test goes on. Up to there it has made no calls but those of
the loops and marking packets dispatched. -/
theorem C89_verdict {mem : Nat → Conn} {nid : Nat} {map : List Bool} {x : ActRes} {rs : List Round} {res : Selftest.Res} {c : SubCtx}
    (h : main mem nid map x rs = .ok (res, c)) :
    (∃ calls, Reaches (.activate x :: calls) c ∧ ∀ op ∈ calls, mainCall op) ∧
    ∃ d, Selftest.run (Selftest.start map) ((readied c.log).map (·.payload.data)) = .ok (res, d) ∧ c.ready = (readied c.log).drop d ∧
      ∀ es, res = .more es → c.ready = [] := by
  obtain ⟨k, b1, b2, _, b3⟩ := main_spec h
  exact ⟨⟨k, b1, b2⟩, b3⟩

/-- C89: when the program stops with an alarm, the checks run over the contents of all packets made ready by then give that alarm - or a call of the library
failed while timeouts were served and events handled, or the context could not be activated. -/
theorem C89_alarm {mem : Nat → Conn} {nid : Nat} {map : List Bool} {x : ActRes} {rs : List Round} {f : Fault}
    (h : main mem nid map x rs = .error f) :
    (f = .exit255 ∧ ∃ r c, step (init mem MAX_CONNECTIONS nid) (.activate x) = .ok (r, c) ∧ r ≠ 0) ∨
    ∃ pre r post es c, rs = pre ++ r :: post ∧ main mem nid map x pre = .ok (.more es, c) ∧
      (events c r = .error f ∨
       ∃ d, events c r = .ok (true, d) ∧ Selftest.run (Selftest.start map) ((readied d.log).map (·.payload.data)) = .error f) := by
  unfold main at h ⊢
  cases h1 : step (init mem MAX_CONNECTIONS nid) (.activate x) with
  | error g => cases h1
  | ok y =>
    obtain ⟨r, c1⟩ := y
    obtain ⟨a1, a2, a3, a4⟩ := activate_start h1
    rw [h1, Pub.ok_bind] at h
    dsimp only at h
    by_cases hr : r ≠ 0
    · rw [if_pos hr] at h; cases h
      exact .inl ⟨rfl, r, c1, rfl, hr⟩
    · rw [if_neg hr] at h
      obtain ⟨pre, r', post, es', c0, b1, b2, b3⟩ := (rounds_spec (map := map) rs a1 a2 ⟨0, by rw [a3]; rfl, by rw [a3, a4]; rfl, fun _ _ => a4⟩).2 h
      refine .inr ⟨pre, r', post, es', c0, b1, ?_, b3⟩
      rw [Pub.ok_bind]
      dsimp only
      rw [if_neg hr]; exact b2

/-- C89: a test that ends successfully has seen, in the packets made ready, for each publisher expected all its signals, each once and in order, and no signal
of another node; and as long as it goes on there was no signal out of order. -/
theorem C89_success {mem : Nat → Conn} {nid : Nat} {map : List Bool} {x : ActRes} {rs : List Round} {res : Selftest.Res} {c : SubCtx}
    (h : main mem nid map x rs = .ok (res, c)) {xs : List Selftest.Signal}
    (hxs : xs = ((readied c.log).map (·.payload.data)).flatMap Selftest.signalsIn)
    (hl : ∀ p ∈ readied c.log, 20 ∣ p.payload.data.length) (hm : ∀ s ∈ xs, s.max < 2147483647) :
    (∃ es, res = .more es ∧ Selftest.Legal map xs ∧ ∀ j, 0 < j → j ≤ xs.length → ¬ Selftest.Done map (xs.take j)) ∨
    (∃ es k, res = .last es ∧ 0 < k ∧ k ≤ xs.length ∧ Selftest.Legal map (xs.take k) ∧ Selftest.Done map (xs.take k)) := by
  obtain ⟨-, d, h1, -, -⟩ := C89_verdict h
  rw [hxs] at hm ⊢
  obtain ⟨v1, v2, v3, v4⟩ := Selftest.C85_verdict (map := map) (ps := (readied c.log).map (·.payload.data)) (by
    intro p hp
    obtain ⟨q, hq, rfl⟩ := List.mem_map.1 hp
    exact hl q hq) hm
  cases res with
  | more es => exact .inl ⟨es, rfl, v1.1 ⟨es, d, h1⟩⟩
  | last es =>
    obtain ⟨k, hk⟩ := v2.1 ⟨es, d, h1⟩
    exact .inr ⟨es, k, rfl, hk⟩
  | corrupt => exact absurd h1 (v4 d)

/-- C89: in a program connected to one publisher, once, the packets judged are the packets delivered from it. -/
theorem C89_one_publisher {ops : List Op} {c : SubCtx} (h : Reaches ops c) {i : Nat} (h1 : ∀ j, SEv.complete j ∈ c.log → j = i)
    (h2 : c.log.count (.complete i) ≤ 1) : readied c.log = deliveredAt i c.log := (h.oneOK i).one h1 h2

/-- C89: the test subscriber with one publisher, connected once, that queues the packets of the self-test: a test that has ended has ended successfully, and
exactly when all packets were delivered (no other node being expected); and when it looks at packets it gives no alarm, unless it missed the first packet. -/
theorem C89_end_to_end {E : Env} {s : Sys} (h : Sys.Reached E s) (hu : Up s.sub E.slot) (h1 : ∀ j, SEv.complete j ∈ s.sub.log → j = E.slot)
    (h2 : s.sub.log.count (.complete E.slot) ≤ 1) {node count : Nat} (hn : node < 4294967296) (hc : 0 < count) (hm : count < 2147483647)
    (hq : (PLog.queuedPkts s.pub.pub.log).map (·.2.data) <+: Selftest.payloads node count 1) {map : List Bool} (hmap : map[node]? = some true)
    {mem : Nat → Conn} {nid : Nat} {x : ActRes} {rs : List Round} :
    (∀ res, main mem nid map x rs = .ok (res, s.sub) → res ≠ .corrupt ∧ ((∀ n, map[n]? = some true → n = node) →
      ((∃ es, res = .last es) ↔ (readied s.sub.log).map (·.payload.data) = Selftest.payloads node count 1))) ∧
    (∀ c es r, main mem nid map x rs = .ok (.more es, c) → events c r = .ok (true, s.sub) →
      (deliveredAt E.slot s.sub.log).head?.all (fun p => decide (p.pid = 1)) = true → ∃ y, round es c r = .ok y) := by
  have hrd : readied s.sub.log = deliveredAt E.slot s.sub.log := by
    obtain ⟨_, hi, _⟩ := h.inv
    obtain ⟨ops, hr⟩ := hi.sub
    exact C89_one_publisher hr h1 h2
  obtain ⟨a1, a2, a3⟩ := Selftest.C86_end_to_end h hu hn hc hm hq hmap (ps := (readied s.sub.log).map (·.payload.data)) (by rw [hrd])
  refine ⟨?_, ?_⟩
  · intro res hx
    obtain ⟨-, d, k1, -, -⟩ := C89_verdict hx
    refine ⟨?_, fun ho => ?_⟩
    · rintro rfl
      cases hd : (deliveredAt E.slot s.sub.log).head?.all (fun p => decide (p.pid = 1)) with
      | true =>
        obtain ⟨es, d', k2 | k2⟩ := a1 hd <;> (rw [k1] at k2; cases k2)
      | false =>
        have k2 := a2 hd
        rw [k1] at k2; cases k2
    · rw [← a3 ho]
      constructor
      · rintro ⟨es, rfl⟩; exact ⟨es, d, k1⟩
      · rintro ⟨es, d', k2⟩
        rw [k1] at k2; cases k2; exact ⟨es, rfl⟩
  · intro c es r hx he hd
    obtain ⟨calls, g1, g2, hn0, g3⟩ := main_spec hx
    cases hr : round es c r with
    | ok y => exact ⟨y, rfl⟩
    | error f =>
      exfalso
      rcases (round_spec (map := map) g1 hn0 g3).2 hr with k | ⟨d, k1, k2⟩
      · rw [he] at k; cases k
      · rw [he] at k1
        have e : s.sub = d := congrArg Prod.snd (Except.ok.inj k1)
        rw [← e] at k2
        obtain ⟨es', d', k3 | k3⟩ := a1 hd <;> (rw [show contents (readied s.sub.log) = (readied s.sub.log).map (·.payload.data) from rfl, k3] at k2; cases k2)

/-- C89: where the program can fail in the library: if what epoll_wait() reports is what it can report (C87), only by timeout processing that stores one byte
behind a write buffer (see C55 for when), or in reading bytes that came in on a connection. -/
theorem C89_library {ops : List Op} {c : SubCtx} (h : Reaches ops c) (hn : c.readyCb = none) {r : Round} {f : Fault} (hx : events c r = .error f)
    (hr : ∀ d, serve r.cur r.nows c = .ok (true, d) → ∀ evs, r.evs = some evs → OsOk d.cv.fds ∧ ∃ ws, EpollReport d ws ∧ evs = ws.map (·.2)) :
    ∃ calls m, Reaches (ops ++ calls) m ∧ (∀ op ∈ calls, loopCall op) ∧
      ((f = .oob ∧ ∃ now ∈ r.nows, step m (.timeout now) = .error .oob) ∨ ∃ i rv ts, Up m i ∧ step m (.read i rv ts) = .error f) := by
  unfold events at hx
  cases hs : serve r.cur r.nows c with
  | error g =>
    rw [hs] at hx
    have : g = f := by cases hx; rfl
    subst this
    have key : ∀ (nows : List Int) {ops : List Op} {c : SubCtx}, Reaches ops c → c.readyCb = none → serve r.cur nows c = .error g →
        ∃ calls m, Reaches (ops ++ calls) m ∧ (∀ op ∈ calls, loopCall op) ∧ g = .oob ∧ ∃ now ∈ nows, step m (.timeout now) = .error .oob := by
      have tot : ∀ {ops : List Op} {c : SubCtx}, Reaches ops c → ∃ t, timeoutGetNext c = .ok t := by
        intro ops c h
        rcases C40_returns h with ⟨_, e⟩ | ⟨_, _, _, _, _, e⟩ <;> exact ⟨_, e⟩
      intro nows
      induction nows with
      | nil =>
        intro ops c h _ hx
        obtain ⟨t, ht⟩ := tot h
        rw [serve.eq_1, ht, Pub.ok_bind] at hx
        cases hx
      | cons now nows ih =>
        intro ops c h hn hx
        obtain ⟨t, ht⟩ := tot h
        rw [serve.eq_2, ht, Pub.ok_bind] at hx
        by_cases hd : t = -1 ∨ r.cur ≤ t
        · rw [if_pos hd] at hx; cases hx
        · rw [if_neg hd] at hx
          rcases C55_timeout h now with ⟨r', c', hs⟩ | ⟨hs, _⟩
          · rw [show timeoutProcess c now = .ok (r', c') from hs, Pub.ok_bind] at hx
            have gr := step_grows h.inv.core (by trivial) hn hs
            obtain ⟨calls, m, k1, k2, k3, n', k4, k5⟩ := ih (h.snoc hs) (gr.1.trans hn) hx
            refine ⟨.timeout now :: calls, m, by rw [List.append_assoc] at k1; exact k1, ?_, k3, n', List.mem_cons_of_mem _ k4, k5⟩
            intro op ho
            rcases List.mem_cons.1 ho with rfl | ho
            · trivial
            · exact k2 op ho
          · rw [show timeoutProcess c now = .error .oob from hs] at hx
            have : Fault.oob = g := by cases hx; rfl
            exact ⟨[], c, by rw [List.append_nil]; exact h, by simp, this.symm, now, List.mem_cons_self .., hs⟩
    obtain ⟨calls, m, k1, k2, k3, k4⟩ := key r.nows h hn hs
    exact ⟨calls, m, k1, k2, .inl ⟨k3, k4⟩⟩
  | ok y =>
    obtain ⟨b, d⟩ := y
    rw [hs, Pub.ok_bind] at hx
    obtain ⟨k1, a1, a2, a3, a4⟩ := serve_calls _ h hn hs
    cases b with
    | false => dsimp only at hx; cases hx
    | true =>
      cases he : r.evs with
      | none => rw [he] at hx; cases hx
      | some evs =>
        rw [he] at hx
        dsimp only at hx
        obtain ⟨ho, ws, hw, rfl⟩ := hr d hs evs he
        cases hp : processEvents d (ws.map (·.2)) with
        | ok d' => rw [hp] at hx; cases hx
        | error g =>
          rw [hp] at hx
          have : g = f := by cases hx; rfl
          subst this
          obtain ⟨pre, ds, e, post, m, q1, q2, q3, q4, q5⟩ := C87_sub_faults a1 ho hw hp
          obtain ⟨k2, b1, b2, b3⟩ := onEvents_calls _ a1 (a3.1.trans hn) q2
          refine ⟨k1 ++ k2, m, by rw [← List.append_assoc]; exact b1, ?_, .inr ⟨_, _, _, q4, q5⟩⟩
          intro op ho
          rcases List.mem_append.1 ho with ho | ho
          · exact a2 op ho
          · exact b2 op ho

/-- C89: at the end of the program there is no connection and no multicast socket. -/
theorem C89_finish {ops : List Op} {c c' : SubCtx} (h : Reaches ops c) (hn : c.readyCb = none) {evss : List (List Event)} (hx : finish c evss = .ok c') :
    (∃ calls, Reaches (ops ++ calls ++ [.deactivate]) c' ∧ ∀ op ∈ calls, loopCall op) ∧ c'.mcast = none ∧ ∀ j, ¬ Live c' j := by
  have key : ∀ (evss : List (List Event)) {ops : List Op} {c d : SubCtx}, Reaches ops c → c.readyCb = none → flush c evss = .ok d →
      ∃ calls, Reaches (ops ++ calls) d ∧ ∀ op ∈ calls, loopCall op := by
    intro evss
    induction evss with
    | nil => intro ops c d h _ hx; cases hx; exact ⟨[], by rw [List.append_nil]; exact h, by simp⟩
    | cons evs evss ih =>
      intro ops c d h hn hx
      rw [flush.eq_2] at hx
      obtain ⟨e, h1, hx⟩ := bind_ok hx
      obtain ⟨k1, a1, a2, a3⟩ := onEvents_calls _ h hn h1
      obtain ⟨k2, b1, b2⟩ := ih a1 (a3.1.trans hn) hx
      refine ⟨k1 ++ k2, by rw [← List.append_assoc]; exact b1, ?_⟩
      intro op ho
      rcases List.mem_append.1 ho with ho | ho
      · exact a2 op ho
      · exact b2 op ho
  unfold finish at hx
  obtain ⟨d, h1, hx⟩ := bind_ok hx
  obtain ⟨⟨r, d'⟩, h2, hx⟩ := bind_ok hx
  cases hx
  obtain ⟨k, a1, a2⟩ := key evss h hn h1
  have h3 := a1.snoc h2
  obtain ⟨g1, g2⟩ := deactivate_closed a1.inv.core a1.inv.mem h2
  refine ⟨⟨k, h3, a2⟩, g2, ?_⟩
  intro j hj
  obtain ⟨L, hL⟩ := h3.inv.core.v
  have := g1 j
  rw [ConnVec.findByIndex_spec hL, if_pos ((live_iff hL j).1 hj)] at this
  cases this

/-! ## Examples -/

/-- The publisher is announced and connected to; the first packet comes in, and its acknowledgement is served. -/
def exRounds : List Round :=
  [⟨10, [], some [{ idx := MULTICAST_INDEX, rd := true, wr := false, rs := [exDg 4 0 [] 1] }]⟩,
   ⟨20, [], some [{ idx := 0, rd := false, wr := true, so := .ok 0, nd := none }]⟩,
   ⟨30, [], some [{ idx := MULTICAST_INDEX, rd := true, wr := false, rs := [exDg 4 1 ((Selftest.sig 1 4 1).enc ++ (Selftest.sig 1 4 2).enc) 1000] }]⟩,
   ⟨60000, [60001], none⟩]

/-- ... and the last packet. -/
def exEnd : List Round :=
  exRounds ++ [⟨70000, [], some [{ idx := 0, rd := false, wr := true, wv := .ok 17 },
    { idx := MULTICAST_INDEX, rd := true, wr := false, rs := [exDg 4 2 ((Selftest.sig 1 4 3).enc ++ (Selftest.sig 1 4 4).enc) 70000] }]⟩]

def exMain (rs : List Round) : M (Selftest.Res × SubCtx) := main (fun _ => ⟨0, .none, none, 0, CircBuf.init (fun _ => 0) 1, CircBuf.init (fun _ => 0) 1, .closed, 0, 0⟩) 9 [false, true] (.ok 3) rs

def mainCheck (rs : List Round) (P : Selftest.Res → SubCtx → Bool) : Bool :=
  match exMain rs with
  | .ok (res, c) => P res c
  | .error _ => false

/-- The test ends successfully, with the last packet not marked dispatched (C89_verdict, C89_success, C89_one_publisher). -/
example : mainCheck exEnd (fun res c => (match res with | .last _ => true | _ => false) && decide (Up c 0 ∧ (readied c.log).map (·.pid) = [1, 2] ∧
    c.ready.map (·.pid) = [2] ∧ (∀ p ∈ readied c.log, 20 ∣ p.payload.data.length) ∧ c.log.count (.complete 0) = 1)) = true := by decide +kernel

/-- Before that it goes on, and the packet has been acknowledged (C89_verdict). -/
example : mainCheck exRounds (fun res c => (match res with | .more _ => true | _ => false) &&
    decide ((readied c.log).map (·.pid) = [1] ∧ c.ready = [] ∧ ackedAt 0 c.log = [(1, 1)] )) = true := by decide +kernel

/-- A test with one signal, with the publisher of `Sys.exE`. -/
def exR : List Round :=
  [⟨10, [], some [{ idx := MULTICAST_INDEX, rd := true, wr := false, rs := [Sys.exMc 0 [] 1] }]⟩,
   ⟨20, [], some [{ idx := 0, rd := false, wr := true }]⟩,
   ⟨30, [], some [{ idx := MULTICAST_INDEX, rd := true, wr := false, rs := [Sys.exMc 1 (Selftest.sig 1 1 1).enc 1000] }]⟩]

/-- The system in which the subscriber has made its first round and then goes through the calls of the others. -/
def exSys : Option Sys :=
  match PubCtx.run PubCtx.exC0 Sys.exP, exMain (exR.take 1) with
  | .ok p, .ok q => Sys.run Sys.exE ⟨p.2, q.2, none, [], [], false⟩ Selftest.exSelf
  | _, _ => none

theorem exSys_sub : exSys.map (·.sub) = (exMain exR).toOption.map (·.2) := by with_unfolding_all rfl

def startCheck : Bool :=
  match PubCtx.run PubCtx.exC0 Sys.exP, exMain (exR.take 1) with
  | .ok p, .ok q => decide (p.2.nodeId < U32 ∧ p.2.listenIp < U32 ∧ p.2.listenPort < 65536 ∧ p.2.listenPort ≠ 0 ∧
      0 < q.2.cv.size ∧ (q.2.cv.conns 0).mode = .connecting ∧ (q.2.cv.conns 0).addr = Sys.addr Sys.exE p.2 ∧
      (q.2.cv.conns 0).port = p.2.listenPort)
  | _, _ => false

/-- The program as part of a system: C89_end_to_end applies to a test that ends successfully. -/
example : ∃ s es, Sys.Reached Sys.exE s ∧ exMain exR = .ok (.last es, s.sub) ∧ Up s.sub 0 ∧ s.sub.log.count (.complete 0) = 1 ∧
    (∀ j, SEv.complete j ∈ s.sub.log → j = 0) ∧ (PLog.queuedPkts s.pub.pub.log).map (·.2.data) = Selftest.payloads 1 1 1 := by
  have hs := exSys_sub
  have h1 : startCheck = true := by decide +kernel
  have h2 : mainCheck exR (fun res c => (match res with | .last _ => true | _ => false) && decide (Up c 0 ∧ c.log.count (.complete 0) = 1 ∧
    c.log.all (fun e => match e with | .complete j => decide (j = 0) | _ => true) = true)) = true := by decide +kernel
  have h3 : (match exSys with | some s => decide ((PLog.queuedPkts s.pub.pub.log).map (·.2.data) = Selftest.payloads 1 1 1) | none => false) = true := by
    decide +kernel
  cases hm : exMain exR with
  | error f => unfold mainCheck at h2; rw [hm] at h2; cases h2
  | ok y =>
    obtain ⟨res, c⟩ := y
    unfold mainCheck at h2
    rw [hm] at h2 hs
    cases he : exSys with
    | none => rw [he] at hs; cases hs
    | some s =>
      rw [he] at hs h3
      have e : s.sub = c := Option.some.inj hs
      dsimp only at h2 h3
      rw [Bool.and_eq_true, decide_eq_true_eq] at h2
      obtain ⟨g1, g2, g3, g4⟩ := h2
      have : ∃ es, res = .last es := by
        cases res with
        | last es => exact ⟨es, rfl⟩
        | _ => cases g1
      obtain ⟨es, rfl⟩ := this
      refine ⟨s, es, ?_, by rw [e], by rw [e]; exact g2, by rw [e]; exact g3, ?_, of_decide_eq_true h3⟩
      · unfold exSys at he
        unfold startCheck at h1
        cases hp : PubCtx.run PubCtx.exC0 Sys.exP with
        | error f => rw [hp] at he; cases he
        | ok p =>
          cases hq : exMain (exR.take 1) with
          | error f => rw [hp, hq] at he; cases he
          | ok q =>
            rw [hp, hq] at he h1
            obtain ⟨k1, k2, k3, k4, k5, k6, k7, k8⟩ := of_decide_eq_true h1
            obtain ⟨res0, q0⟩ := q
            obtain ⟨calls, r1, _⟩ := main_spec hq
            refine ⟨2, _, Selftest.exSelf, ?_, by decide, he⟩
            exact ⟨⟨Sys.exP, ⟨_, 2, 7, 1, 2, p.1, by decide, by simp [Sys.exP, PubCtx.Op.sane], by decide, hp⟩,
              by simp [Sys.exP, Sys.callOk], by decide⟩, ⟨k1, k2, k3, k4⟩, ⟨_, r1⟩, ⟨k5, k6⟩, ⟨k7, k8⟩, rfl, rfl, rfl, rfl⟩
      · intro j hj
        rw [e] at hj
        have := List.all_eq_true.1 g4 _ hj
        exact of_decide_eq_true this

/-- A round in which the second packet comes in. -/
def exMissed : Round := ⟨30, [], some [{ idx := MULTICAST_INDEX, rd := true, wr := false, rs := [Sys.exMc 2 (Selftest.sig 1 2 2).enc 1000] }]⟩

/-- C89_alarm applies: the first packet is missed. -/
example : (match exMain (exR.take 2 ++ [exMissed]) with | .error .exit255 => true | _ => false) = true := by decide +kernel

end TestSub

/-! ## C88 -/

/-- C88: epoll_wait() is told to wait for at least one millisecond, longer than until the next timeout, and by at most one millisecond longer; without limit
exactly if there is no timeout. -/
theorem C88_wait (t now : Int) :
    (waitMs t now = -1 ↔ t = -1) ∧
    (t ≠ -1 → 1 ≤ waitMs t now ∧ t < now + 1000 * waitMs t now ∧ (now ≤ t → now + 1000 * waitMs t now ≤ t + 1000) ∧ (t ≤ now → waitMs t now = 1)) := by
  unfold waitMs
  dsimp only
  by_cases h : t = -1
  · subst h; simp
  · rw [if_pos h]
    have e : (if t - now < 0 then 0 else t - now : Int) ≠ -1 := by split <;> omega
    rw [if_neg e]
    split <;> refine ⟨⟨fun x => ?_, fun x => absurd x h⟩, fun _ => ⟨?_, ?_, fun _ => ?_, fun _ => ?_⟩⟩ <;> omega

namespace SubCtx
open SubPub

/-- C88, the subscriber: the next timeout is at most 50 milliseconds ahead, if no packet came in in the future, so that epoll_wait() is told to wait for at
most 51 milliseconds: the time fits in an `int`. -/
theorem C88_subscriber {ops : List Op} {c : SubCtx} (h : Reaches ops c) {t now : Int} (ht : timeoutGetNext c = .ok t) (h0 : 0 ≤ now)
    (hc : ∀ i, Up c i → ∀ a ∈ arrivedAt i c.log, a.2.2 ≤ now) : t ≤ now + 50000 ∧ waitMs t now ≤ 51 := by
  have key : t ≤ now + 50000 := by
    rcases C40_returns h with ⟨_, h1⟩ | ⟨i, is, s, _, h2, h1⟩
    · rw [h1] at ht; cases ht; omega
    · rw [h1, h.ackTimeout] at ht
      have ht := Except.ok.inj ht
      by_cases hu : Up c i
      · cases hs : s.intervals with
        | nil => rw [hs] at ht; dsimp only at ht; omega
        | cons iv rest =>
          rw [hs] at ht
          dsimp only at ht
          have hsub : s = (Hist.init.run (sess i c.log).ops).s := by
            have := (h.rec hu).1; rw [h2] at this; exact Option.some.inj this
          obtain ⟨a, ha, e⟩ := iv_ts (sess i c.log).ops iv (by rw [← hsub, hs]; simp)
          rw [sess_arrivals] at ha
          have := hc i hu a ha
          omega
      · rw [(h.inv.core.idle i s h2 hu).2] at ht
        dsimp only at ht
        omega
  refine ⟨key, ?_⟩
  unfold waitMs
  dsimp only
  split <;> split <;> (try split) <;> omega

/-- C88, the subscriber: when the time is over the timeout is served: epoll_wait() called at `now`, with the next timeout `t`, has returned at `cur` after the
time it was told to wait; then the loop calls rmc_sub_timeout_process. -/
theorem C88_served {c : SubCtx} {t now cur : Int} (ht : timeoutGetNext c = .ok t) (hn : t ≠ -1) (hc : now + 1000 * waitMs t now ≤ cur) (n : Int)
    (ns : List Int) : serve cur (n :: ns) c = (step c (.timeout n)).bind fun r => serve cur ns r.2 := by
  have := ((C88_wait t now).2 hn).2.1
  rw [serve.eq_2, ht, Pub.ok_bind, if_neg (by omega)]
  rfl

end SubCtx

namespace PubCtx

/-- C88, the publisher: if nothing was sent and no announcement made or set up in the future, and announce intervals have 32 bits as in the API, the next timeout
is at most 4294.967296 seconds ahead, and the time for epoll_wait() fits in an `int`. -/
theorem C88_publisher {ops : List Op} {c : PubCtx} (h : Reaches ops c) (hm : Monotone ops) (hk : ∀ op ∈ ops, clockOk op)
    (hn : ∀ t ∈ ops.flatMap opTimes, 0 ≤ t) {t now : Int} (ht : timeoutGetNext c = .ok t) (h0 : 0 ≤ now) (h1 : ∀ t ∈ ops.flatMap opTimes, t ≤ now)
    (h2 : ∀ ts n, CEv.setAnnounce ts n ∈ c.log → ts ≤ now ∧ n < 4294967296) (h3 : ∀ ts b, CEv.announce ts b ∈ c.log → ts ≤ now) :
    t ≤ now + 4294967296 ∧ waitMs t now ≤ 2147483647 := by
  have ann : ∀ (l : List CEv), (∀ e ∈ l, e ∈ c.log) → ∀ (st : Nat × Option Int), (st.1 < 4294967296 ∧ ∀ d, st.2 = some d → d ≤ now + 4294967296) →
      ((l.foldl annStep st).1 < 4294967296 ∧ ∀ d, (l.foldl annStep st).2 = some d → d ≤ now + 4294967296) := by
    intro l
    induction l with
    | nil => intro _ st hst; exact hst
    | cons e l ih =>
      intro hl st hst
      rw [List.foldl_cons]
      refine ih (fun x hx => hl x (List.mem_cons_of_mem _ hx)) _ ?_
      have he := hl e (List.mem_cons_self ..)
      obtain ⟨a, b⟩ := st
      cases e with
      | setAnnounce ts n =>
        obtain ⟨k1, k2⟩ := h2 _ _ he
        dsimp only [annStep]
        split
        · exact ⟨by decide, fun d hd => by cases hd⟩
        · refine ⟨k2, fun d hd => ?_⟩
          have hd := Option.some.inj hd
          cases b with
          | none => simp only [Option.getD_none] at hd; omega
          | some x => simp only [Option.getD_some] at hd; rw [← hd]; exact hst.2 x rfl
      | announce ts b' =>
        have k := h3 _ _ he
        dsimp only [annStep]
        refine ⟨hst.1, fun d hd => ?_⟩
        have hd := Option.some.inj hd
        have := hst.1
        dsimp only at this
        omega
      | _ => exact hst
  have key : t ≤ now + 4294967296 := by
    obtain ⟨t', e, hd⟩ := C27_next h hm hk hn (by rw [resendTimeout_const h]; decide)
    rw [ht] at e
    have e := Except.ok.inj e
    subst e
    rcases hd with ⟨hd, _⟩ | ⟨hd, _⟩
    · omega
    · rcases hd with ⟨k, x, _, hx, hd⟩ | hd
      · rw [resendTimeout_const h] at hd
        obtain ⟨pops, L, g, _, _, hsub⟩ := h.good
        have := h1 _ (((owed_ts g.p k).trans hsub).subset (List.mem_map.mpr ⟨x, hx, rfl⟩))
        omega
      · exact (ann c.log (fun _ h => h) (0, none) ⟨by decide, fun d hd => by cases hd⟩).2 t hd
  refine ⟨key, ?_⟩
  unfold waitMs
  dsimp only
  split <;> split <;> (try split) <;> omega

end PubCtx

/-- C88: if the next timeout is less than 2147483647 milliseconds ahead the time fits in an `int`. -/
theorem C88_int {t now : Int} (h : t - now < 2147483647000) : waitMs t now ≤ 2147483647 := by
  unfold waitMs
  dsimp only
  split <;> split <;> (try split) <;> omega

/-- C88_wait on concrete times: 50 ms ahead, 0.5 ms ahead, now, and past. -/
example : waitMs 51000 1000 = 51 ∧ waitMs 1500 1000 = 1 ∧ waitMs 1000 1000 = 1 ∧ waitMs 500 1000 = 1 ∧ waitMs (-1) 1000 = -1 := by decide

/-- C88_subscriber and C88_served apply to a concrete history. -/
example : ∃ c rs, SubCtx.Reaches (SubCtx.exUp ++ [.readMcast [SubCtx.exDg 4 5 [50] 1000]]) c ∧
    SubCtx.run SubCtx.exS0 (SubCtx.exUp ++ [.readMcast [SubCtx.exDg 4 5 [50] 1000]]) = .ok (rs, c) ∧
    decide (SubCtx.nextOf c = 51000 ∧ waitMs 51000 2000 = 50 ∧ (SubCtx.arrivedAt 0 c.log).map (·.2.2) = [1000]) = true :=
  SubCtx.reaches_of (P := fun rs c => decide _) (by decide +kernel)

/-- C88_publisher applies to a concrete history. -/
example : ∃ c, PubCtx.Reaches PubCtx.exLate c ∧ PubCtx.Monotone PubCtx.exLate ∧ PubCtx.timeoutGetNext c = .ok 100010 ∧ waitMs 100010 50 = 100 := by
  obtain ⟨c, h1, h2, h3, _⟩ := PubCtx.C80_false
  exact ⟨c, h1, h2, h3, by decide⟩

end Rmc
