import Verif.Props.NetIdle
import Verif.Props.SelfMany

/-! # The self-test does not fall asleep before its end (C97) -/

set_option linter.unusedVariables false

namespace Rmc
namespace Net
open PLog CircBuf

/-- Specification: the two programs of connection `l` have nothing to wake up for (`Sys.Asleep`), the connection has not reported a protocol error, the system hands out no descriptor that is still open,
and the clock is not negative. -/
structure Resting (E : NetEnv) (s : Net) (l : Link) : Prop where
  asleep : Sys.Asleep (env E l) (view s l)
  err : l.err = false
  fds : OsOk (s.pubs l.p).cv.fds ∧ OsOk (s.subs l.q).cv.fds
  clock : (∀ j, PubCtx.Connected (s.pubs l.p) j → ∀ x ∈ (s.pubs l.p).pub.owedPkts j, 0 ≤ x.2.2) ∧
    ∀ i, SubCtx.Up (s.subs l.q) i → ∀ a ∈ SubCtx.arrivedAt i (s.subs l.q).log, 0 ≤ a.2.2

/-- Specification: and the publisher's context has been used in order and had nothing left to be sent when it was activated. With `Resting` these are the hypotheses of C96. -/
structure Sleeping (E : NetEnv) (s : Net) (l : Link) : Prop extends Resting E s l where
  hist : ∃ (mem : Nat → Conn) (N nid ip port : Nat) (pops : List PubCtx.Op) (rs : List Nat), N ≤ LISTEN_INDEX ∧
    PubCtx.run (PubCtx.init mem N nid ip port) pops = .ok (rs, s.pubs l.p) ∧ (∀ op ∈ pops, Sys.callOk op = true) ∧ pops.length + 1 < U64 ∧
    PubCtx.Orderly pops ∧ PubCtx.activeBy pops = true ∧ PubCtx.CleanStarts (PubCtx.init mem N nid ip port) pops

/-- If everything sent has been delivered from the first packet on, and the first packet arrived first, all that was queued has been delivered. -/
theorem all_delivered {E : Env} {t : Sys} {k : Nat} (hreach : Sys.Reached E t) (hu : SubCtx.Up t.sub E.slot)
    (hc : ∀ b, ((SubCtx.arrivedAt E.slot t.sub.log).map (·.1.pid)).head? = some b → b ∈ PubCtx.sentTo k t.pub.pub.log →
      ∀ pid ∈ PubCtx.sentTo k t.pub.pub.log, b ≤ pid → pid ∈ (SubCtx.deliveredAt E.slot t.sub.log).map (·.pid))
    (hall : ∀ x ∈ queuedPkts t.pub.pub.log, x.1 ∈ PubCtx.sentTo k t.pub.pub.log)
    (h1 : queuedPkts t.pub.pub.log ≠ [] → ((SubCtx.arrivedAt E.slot t.sub.log).map (·.1.pid)).head? = some 1) :
    (SubCtx.deliveredAt E.slot t.sub.log).map (·.payload.data) = (queuedPkts t.pub.pub.log).map (·.2.data) := by
  obtain ⟨b, d1, d2⟩ := Sys.C49_end_to_end hreach hu
  obtain ⟨m, hi, _⟩ := hreach.inv
  obtain ⟨ops, g1, _, _⟩ := hi.pub
  have hid := Sys.queued_ids g1
  rw [hid] at d2
  obtain ⟨N, hN⟩ : ∃ N, N = (queuedPkts t.pub.pub.log).length := ⟨_, rfl⟩
  rw [← hN] at d2 hid
  have hsent : ∀ i, 1 ≤ i → i ≤ N → i ∈ PubCtx.sentTo k t.pub.pub.log := by
    intro i a1 a2
    have : i ∈ (queuedPkts t.pub.pub.log).map (·.1) := by rw [hid]; exact List.mem_range'_1.2 ⟨a1, by omega⟩
    obtain ⟨x, hx, rfl⟩ := List.mem_map.1 this
    exact hall x hx
  have hd : ∀ i, 1 ≤ i → i ≤ N → i ∈ (SubCtx.deliveredAt E.slot t.sub.log).map (·.pid) := by
    intro i a1 a2
    have hne : queuedPkts t.pub.pub.log ≠ [] := by
      intro e
      rw [e] at hN
      have : N = 0 := hN
      omega
    exact hc 1 (h1 hne) (hsent 1 (Nat.le_refl _) (by omega)) i (hsent i a1 a2) a1
  rcases Sys.piece_all d2 hd with e | ⟨e1, e2⟩
  · have e' : queuedPkts t.pub.pub.log = [] := List.length_eq_zero_iff.1 (hN.symm.trans e)
    rw [d1, e']
    simp
  · rw [d1, e1, List.drop_zero]
    exact List.take_of_length_le (by rw [List.length_map]; omega)

/-- Specification: the connections of test subscriber `q`, all asleep: it has set up one for each slot, each to a publisher of another node, which has queued the packets of its self-test; all of them were multicast while the
subscriber was connected, and the first to arrive was the first one. -/
structure Waiting (E : NetEnv) (s : Net) (q : Nat) (node count : Nat → Nat) : Prop where
  range : ∀ i, SEv.complete i ∈ (s.subs q).log → node i < 4294967296 ∧ 0 < count i ∧ count i < 2147483647
  nodes : ∀ i j, SEv.complete i ∈ (s.subs q).log → SEv.complete j ∈ (s.subs q).log → node i = node j → i = j
  once : ∀ i, (s.subs q).log.count (.complete i) ≤ 1
  link : ∀ i, SEv.complete i ∈ (s.subs q).log → ∃ l ∈ s.links, l.q = q ∧ l.slot = i ∧ Sleeping E s l ∧
    (queued s l.p).map (·.2.data) = Selftest.payloads (node i) (count i) 1 ∧
    (∀ k, l.acc = some k → ∀ x ∈ queued s l.p, x.1 ∈ PubCtx.sentTo k (s.pubs l.p).pub.log) ∧ (arrived s l).head? = some 1

/-- C97: the self-test does not fall asleep before its end. If all packets of the self-test were multicast while the subscriber was connected and of each publisher the first one arrived first, then in a state in
which neither the subscriber's nor its publishers' programs have anything to wake up for, the subscriber has been given exactly the packets of its publishers, of each one all, in order; its checks run over
them end the test successfully; so does its program, as soon as it has looked at them. -/
theorem C97_self_test {E : NetEnv} {n : Nat} {s0 s : Net} {ops : List NetOp} (hs : Start E n s0) (hr : run E s0 ops = some s) (hn : n + calls ops + 1 < U64)
    {q : Nat} {node count : Nat → Nat} (hq : Waiting E s q node count)
    {map : List Bool} (hmap : ∀ j, map[j]? = some true ↔ ∃ i, SEv.complete i ∈ (s.subs q).log ∧ node i = j) (hex : ∃ i, SEv.complete i ∈ (s.subs q).log) :
    (∀ i, SEv.complete i ∈ (s.subs q).log → Selftest.part i (given (s.subs q)) = Selftest.payloads (node i) (count i) 1) ∧
    (∃ es d, Selftest.run (Selftest.start map) ((SubCtx.readied (s.subs q).log).map (·.payload.data)) = .ok (.last es, d)) ∧
    ∀ (mem : Nat → Conn) (nid : Nat) (x : SubCtx.ActRes) (rs : List TestSub.Round) (res : Selftest.Res), TestSub.main mem nid map x rs = .ok (res, s.subs q) → ∃ es, res = .last es := by
  have hinv := (NInv.start hs).run ops (by omega) hr
  obtain ⟨sops, hsub⟩ := hinv.sub q
  have hall : ∀ i, SEv.complete i ∈ (s.subs q).log → Selftest.part i (given (s.subs q)) = Selftest.payloads (node i) (count i) 1 := by
    intro i hi
    obtain ⟨l, hl, e1, e2, hsl, hqd, hto, h1⟩ := hq.link i hi
    obtain ⟨mem, N, nid, ip, port, pops, rs, g1, g2, g3, g4, g5, g6, g7⟩ := hsl.hist
    obtain ⟨hu, -, -, -, -, -, -, -, k, hk, -, hdel⟩ := asleep_any hs hr hn hl hsl.asleep hsl.err g1 g2 g3 g4 g5 g6 g7 hsl.fds.1 hsl.fds.2 hsl.clock.1 hsl.clock.2
    obtain ⟨n', s0', pre', b1, b2, b3⟩ := hinv.link l hl
    have := all_delivered (E := env E l) (t := view s l) (k := k) ⟨n', s0', pre', b1, by omega, b3⟩ hu hdel (hto k hk) (fun _ => h1)
    rw [part_given hsub (hq.once i), ← hqd]
    refine Eq.trans ?_ this
    show _ = (SubCtx.deliveredAt l.slot (s.subs l.q).log).map _
    rw [e1, e2]
  have hmix : Selftest.Mixed (fun i => SEv.complete i ∈ (s.subs q).log) node count (given (s.subs q)) :=
    ⟨fun x hx => by obtain ⟨p, hp, rfl⟩ := List.mem_map.1 hx; exact (hsub.oneOK p.slot).rdy p hp, hq.nodes, hq.range,
      fun i hi => by rw [hall i hi]⟩
  have hlast := ((Selftest.C94_verdict hmix (map := map) (fun i hi => (hmap _).2 ⟨i, hi, rfl⟩)).2 (fun j hj => (hmap j).1 hj) hex).2 hall
  rw [given_contents] at hlast
  refine ⟨hall, hlast, ?_⟩
  intro mem nid x rs res hres
  obtain ⟨-, d, b1, -, -⟩ := TestSub.C89_verdict hres
  obtain ⟨es, d', b2⟩ := hlast
  rw [b1] at b2; cases b2; exact ⟨es, rfl⟩

/-! ## Example: the packet of publisher 0 is lost in multicast; the subscriber's acknowledgement of the other one makes publisher 1 forget it; publisher 0 sends its packet again -/

/-- What the main loop of the test subscriber sees, to the end. -/
def exIdleR : List TestSub.Round := exManyR.take 3 ++
  [⟨100000, [100001], some [{ idx := 1, rd := false, wr := true, wv := .ok 17 }]⟩,
   ⟨100100, [], some [{ idx := 0, rd := true, wr := false, rv := some (exManyFrame 0), ts := 200200 }]⟩]
/-- The network until everybody is asleep. -/
def exIdleOps : List NetOp := exMany ++ [.sub 0 (.timeout 100000), .sub 0 (.write 1 (.ok 0) none (.ok 17)), .pubRead 0 1 17,
  .pub 0 (.timeout 200000 none 0), .pub 0 (.write 0 (.ok 41)), .subRead 0 0 41 200200, .sub 0 (.dispatched 1)]

/-- The network starts when the test subscriber has made its first round. -/
def idleAfter (P : Net → Net → Bool) : Bool :=
  match PubCtx.run (exNPub 0) Sys.exP, PubCtx.run (exNPub 1) Sys.exP, exManyMain (exManyR.take 1) with
  | .ok p, .ok p', .ok q =>
    decide (p.2.nodeId = 7 ∧ p.2.listenIp = 1 ∧ p.2.listenPort = 2 ∧ p'.2.nodeId = 8 ∧ p'.2.listenIp = 1 ∧ p'.2.listenPort = 3) &&
    (match run exN ⟨fun i => if i = 0 then p.2 else p'.2, fun _ => q.2, []⟩ exIdleOps with
     | some s => P ⟨fun i => if i = 0 then p.2 else p'.2, fun _ => q.2, []⟩ s
     | none => false)
  | _, _, _ => false

/-- The subscriber at the end. -/
def idleSub : Option SubCtx :=
  match PubCtx.run (exNPub 0) Sys.exP, PubCtx.run (exNPub 1) Sys.exP, exManyMain (exManyR.take 1) with
  | .ok p, .ok p', .ok q => (run exN ⟨fun i => if i = 0 then p.2 else p'.2, fun _ => q.2, []⟩ exIdleOps).map fun t => t.subs 0
  | _, _, _ => none

theorem idleSub_main : idleSub = (exManyMain exIdleR).toOption.map (·.2) := by
  run_tac do
    let g ← Lean.Elab.Tactic.getMainGoal
    let some (_, l, _) := (← g.getType).eq? | throwError "no equation"
    g.assign (← Lean.Meta.mkEqRefl l)

/-- What is checked of the connection of slot `i`, but for the history of its publisher. -/
def idleSlot (s0 s : Net) (i : Nat) : Bool :=
  s.links.any fun l => l.acc.toList.any fun k =>
    PubCtx.orderlyAll false (Sys.exP ++ pubCalls exN l.p s0 exIdleOps) && PubCtx.activeBy (Sys.exP ++ pubCalls exN l.p s0 exIdleOps) &&
    PubCtx.cleanAll (exNPub l.p) (Sys.exP ++ pubCalls exN l.p s0 exIdleOps) && osOk (s.pubs l.p).cv.fds && osOk (s.subs l.q).cv.fds && Sys.asleepB (view s l) &&
    decide (l.q = 0 ∧ l.slot = i ∧ l.p = i ∧ l.err = false ∧ (s.pubs l.p).cv.size = 2 ∧
      (∀ j ∈ List.range 2, ∀ x ∈ (s.pubs l.p).pub.owedPkts j, 0 ≤ x.2.2) ∧ (∀ j ∈ List.range (s.subs l.q).cv.size, ∀ a ∈ SubCtx.arrivedAt j (s.subs l.q).log, 0 ≤ a.2.2) ∧
      (queued s l.p).map (·.2.data) = Selftest.payloads (7 + i) 1 1 ∧ (∀ x ∈ queued s l.p, x.1 ∈ PubCtx.sentTo k (s.pubs l.p).pub.log) ∧ (arrived s l).head? = some 1)

theorem idleSlot_ok {s0 s : Net} (hr : run exN s0 exIdleOps = some s) {i : Nat} (hp : i < 2) (h0 : ∀ p, p < 2 → ∃ rs, PubCtx.run (exNPub p) Sys.exP = .ok (rs, s0.pubs p)) (h : idleSlot s0 s i = true) :
    ∃ l ∈ s.links, l.q = 0 ∧ l.slot = i ∧ Sleeping exN s l ∧ (queued s l.p).map (·.2.data) = Selftest.payloads (7 + i) 1 1 ∧
      (∀ k, l.acc = some k → ∀ x ∈ queued s l.p, x.1 ∈ PubCtx.sentTo k (s.pubs l.p).pub.log) ∧ (arrived s l).head? = some 1 := by
  unfold idleSlot at h
  obtain ⟨l, hl, h⟩ := List.any_eq_true.1 h
  obtain ⟨k, hk, h⟩ := List.any_eq_true.1 h
  simp only [Bool.and_eq_true, decide_eq_true_eq] at h
  obtain ⟨⟨⟨⟨⟨⟨b1, b2⟩, b3⟩, b4⟩, b5⟩, b6⟩, a1, a2, a0, a3, a6, a8, a9, a10, a11, a12⟩ := h
  have hk' : l.acc = some k := Option.mem_toList.1 hk
  obtain ⟨rs, hrs⟩ := h0 l.p (by omega)
  refine ⟨l, hl, a1, a2, ⟨⟨Sys.asleepB_ok b6, a3, ⟨osOk_ok b4, osOk_ok b5⟩, ?_, ?_⟩, ?_⟩, a10, ?_, a12⟩
  · exact fun j hj x hx => a8 j (List.mem_range.2 (by rw [← a6]; exact hj.1)) x hx
  · exact fun j hj a ha => a9 j (List.mem_range.2 hj.1) a ha
  · obtain ⟨c1, c2, qs, c3⟩ := run_pubCalls l.p exIdleOps hr
    refine ⟨_, 2, 7 + l.p, 1, 2 + l.p, Sys.exP ++ pubCalls exN l.p s0 exIdleOps, _, by decide, Sys.pub_run_append _ _ hrs c3, fun op hop => ?_, ?_,
      PubCtx.orderlyAll_ok b1, b2, PubCtx.cleanAll_ok _ b3⟩
    · rcases List.mem_append.1 hop with h | h
      · rcases List.mem_cons.1 h with rfl | h
        · rfl
        · rw [List.mem_singleton.1 h]; rfl
      · exact c1 op h
    · have : calls exIdleOps ≤ 100 := by decide
      rw [List.length_append]
      have : Sys.exP.length ≤ 100 := by decide
      unfold U64; omega
  · intro k' hk2; rw [hk'] at hk2; cases hk2; exact a11

/-- The hypotheses of C97 are met, by the program: its main loop is in the state reached. -/
example : ∃ s0 s res, Start exN 2 s0 ∧ run exN s0 exIdleOps = some s ∧ 2 + calls exIdleOps + 1 < U64 ∧ Waiting exN s 0 (fun i => 7 + i) (fun _ => 1) ∧
    (∀ j, exManyMap[j]? = some true ↔ ∃ i, SEv.complete i ∈ (s.subs 0).log ∧ 7 + i = j) ∧ (∃ i, SEv.complete i ∈ (s.subs 0).log) ∧
    exManyMain exIdleR = .ok (res, s.subs 0) := by
  have hsub := idleSub_main
  have h : idleAfter (fun s0 s => manyOnce (s.subs 0) && idleSlot s0 s 0 && idleSlot s0 s 1) = true := by decide +kernel
  unfold idleAfter at h
  unfold idleSub at hsub
  cases hp : PubCtx.run (exNPub 0) Sys.exP with
  | error f => rw [hp] at h; cases h
  | ok p =>
    cases hp' : PubCtx.run (exNPub 1) Sys.exP with
    | error f => rw [hp, hp'] at h; cases h
    | ok p' =>
      cases hq : exManyMain (exManyR.take 1) with
      | error f => rw [hp, hp', hq] at h; cases h
      | ok q =>
        rw [hp, hp', hq] at h hsub
        obtain ⟨res0, q⟩ := q
        dsimp only at h hsub
        rw [Bool.and_eq_true, decide_eq_true_eq] at h
        obtain ⟨⟨h1, h2, h3, h4, h5, h6⟩, h⟩ := h
        cases hr : run exN ⟨fun i => if i = 0 then p.2 else p'.2, fun _ => q, []⟩ exIdleOps with
        | none => rw [hr] at h; cases h
        | some s =>
          rw [hr] at h hsub
          dsimp only at h
          obtain ⟨calls0, r1, _⟩ := TestSub.main_spec hq
          have hstart : Start exN 2 ⟨fun i => if i = 0 then p.2 else p'.2, fun _ => q, []⟩ := by
            have two : ∀ i, i < exN.np → i = 0 ∨ i = 1 := fun i hi => by have : i < 2 := hi; omega
            refine ⟨?_, ?_, ?_, fun _ => ⟨_, r1⟩, rfl⟩
            · intro i hi
              rcases two i hi with rfl | rfl
              · exact ⟨Sys.exP, ⟨_, 2, 7, 1, 2, p.1, by decide, by simp [Sys.exP, PubCtx.Op.sane], by decide, hp⟩,
                  by simp [Sys.exP, Sys.callOk], by decide⟩
              · exact ⟨Sys.exP, ⟨_, 2, 8, 1, 3, p'.1, by decide, by simp [Sys.exP, PubCtx.Op.sane], by decide, hp'⟩,
                  by simp [Sys.exP, Sys.callOk], by decide⟩
            · intro i hi
              rcases two i hi with rfl | rfl
              · dsimp only; rw [if_pos rfl, h1, h2, h3]; decide
              · dsimp only; rw [if_neg (by decide), h4, h5, h6]; decide
            · intro i j hi hj e
              unfold address at e
              rcases two i hi with rfl | rfl <;> rcases two j hj with rfl | rfl
              · rfl
              · have e2 : p.2.listenPort = p'.2.listenPort := congrArg Prod.snd e
                rw [h3, h6] at e2; exact absurd e2 (by decide)
              · have e2 : p'.2.listenPort = p.2.listenPort := congrArg Prod.snd e
                rw [h3, h6] at e2; exact absurd e2 (by decide)
              · rfl
          have hpubs : ∀ i, i < 2 → ∃ rs, PubCtx.run (exNPub i) Sys.exP = .ok (rs, (if i = 0 then p.2 else p'.2)) := by
            intro i hi
            rcases (show i = 0 ∨ i = 1 by omega) with rfl | rfl
            · exact ⟨p.1, hp⟩
            · exact ⟨p'.1, hp'⟩
          rw [Bool.and_eq_true, Bool.and_eq_true] at h
          obtain ⟨⟨g1, g2⟩, g3⟩ := h
          obtain ⟨o1, o2⟩ := manyOnce_ok g1
          have hres : ∃ res, exManyMain exIdleR = .ok (res, s.subs 0) := by
            cases hm : exManyMain exIdleR with
            | error f => rw [hm] at hsub; cases hsub
            | ok y =>
              rw [hm] at hsub
              obtain ⟨res, c⟩ := y
              exact ⟨res, by rw [show c = s.subs 0 from (Option.some.inj hsub).symm]⟩
          obtain ⟨res, hres⟩ := hres
          refine ⟨_, s, res, hstart, hr, by decide +kernel, ⟨?_, ?_, o2, ?_⟩, ?_, ⟨0, (o1 0).2 (.inl rfl)⟩, hres⟩
          · intro i hi
            have := (o1 i).1 hi
            omega
          · intro i j _ _ e
            omega
          · intro i hi
            rcases (o1 i).1 hi with rfl | rfl
            · exact idleSlot_ok hr (by decide) hpubs g2
            · exact idleSlot_ok hr (by decide) hpubs g3
          · intro j
            constructor
            · intro hj
              have hlt : j < 9 := (List.getElem?_eq_some_iff.1 hj).1
              have : j = 7 ∨ j = 8 := by
                revert hj
                revert j
                decide
              rcases this with rfl | rfl
              · exact ⟨0, (o1 0).2 (.inl rfl), rfl⟩
              · exact ⟨1, (o1 1).2 (.inr rfl), rfl⟩
            · rintro ⟨i, hi, rfl⟩
              rcases (o1 i).1 hi with rfl | rfl <;> rfl

end Net
end Rmc
