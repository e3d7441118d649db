import Verif.Props.SysAgain

/-! # What a subscriber that connects again has missed (C102) -/

set_option linter.unusedSimpArgs false
set_option linter.unusedVariables false

namespace Rmc
open PLog

namespace PubCtx

/-- What has been multicast are the first packets queued: their ids are 1, 2, …, up to their number. -/
theorem sent_ids_range {ops : List Op} {c : PubCtx} (h : Reaches ops c) :
    (sentPkts c.pub.log).map (·.1) = List.range' 1 (sentPkts c.pub.log).length := by
  obtain ⟨pops, L, g, _⟩ := h.good
  have hr := g.p.reached
  have e1 := hr.linv.qp
  have e2 := hr.linv.pids
  rw [← hr.log] at e1
  rw [← hr.log, e1, List.map_append] at e2
  have h1 := congrArg (List.take (sentPkts c.pub.log).length) e2
  rw [List.take_left' (by rw [List.length_map])] at h1
  have hl : (sentPkts c.pub.log).length ≤ (spec pops).nextPid - 1 := by
    have := congrArg List.length e2
    rw [List.length_append, List.length_map, List.length_range'] at this
    omega
  rw [h1]
  obtain ⟨m, hm⟩ : ∃ m, (spec pops).nextPid - 1 = (sentPkts c.pub.log).length + m := ⟨_, (Nat.add_sub_cancel' hl).symm⟩
  rw [hm, ← List.range'_append_1, List.take_left' List.length_range']

theorem mem_sent_ids {ops : List Op} {c : PubCtx} (h : Reaches ops c) {q : Nat} :
    q ∈ (sentPkts c.pub.log).map (·.1) ↔ 1 ≤ q ∧ q ≤ (sentPkts c.pub.log).length := by
  rw [sent_ids_range h, List.mem_range'_1]; omega

end PubCtx

namespace SubCtx

/-- What a connection has delivered has no gap. -/
theorem delivered_between {ops : List Op} {c : SubCtx} {i : Nat} (h : Reaches ops c) (hu : Up c i)
    (hv : ValidPids i c.log) {x y p : Nat} (hx : x ∈ (deliveredAt i c.log).map (·.pid))
    (hy : y ∈ (deliveredAt i c.log).map (·.pid)) (h1 : x ≤ p) (h2 : p ≤ y) : p ∈ (deliveredAt i c.log).map (·.pid) := by
  obtain ⟨z, hz, rfl⟩ := List.mem_map.1 hx
  obtain ⟨bef, mc, ts, aft, e1, _⟩ := C34_api h hu hv hz
  cases ha : (arrivedAt i c.log).head? with
  | none => rw [List.head?_eq_none_iff.1 ha] at e1; simp at e1
  | some a =>
    have hb' : ((arrivedAt i c.log).map (·.1.pid)).head? = some a.1.pid := by rw [List.head?_map, ha]; rfl
    have hx' := (C36_api_partial h hu hv hb' z.pid).1 hx
    have hy' := (C36_api_partial h hu hv hb' y).1 hy
    exact (C36_api_partial h hu hv hb' p).2 ⟨by omega, fun q q1 q2 => hy'.2 q q1 (by omega)⟩

end SubCtx

namespace Cut
open Sys

/-- C102: two connections to the same publisher, one after the other, with no late datagrams. There is no gap in what the application has got
over the two - every packet between one of the first and one of the second has been delivered - if and only if the last packet multicast before
the second connection was begun was delivered over the first and the next one over the second. -/
theorem C102_exact {E1 E : Env} {N n : Nat} {t : Cut} {op : SubCtx.Op} {r : Nat} {c : SubCtx} {more : List PubCtx.Op} {rs : List Nat}
    {s0 s : Sys} {ops : List SysOp} (h : BrokenN E1 N t) (hu1 : SubCtx.Up t.sub E1.slot) (ho : SubCtx.ends E1.slot op)
    (hx : SubCtx.step t.sub op = .ok (r, c)) (hmo : ∀ o ∈ more, callOk o = true) (hN : N + more.length + 2 < U64)
    (hgo : PubCtx.run t.pub more = .ok (rs, s0.pub)) (hs : Start E n s0) (hb : n + calls ops + 1 < U64) (hr : Sys.run E s0 ops = some s)
    (hu : SubCtx.Up s.sub E.slot)
    (hT : Timely (addr E s0.pub) s0.pub.listenPort ((sentPkts s0.pub.pub.log).map (·.1)) ops)
    (h1 : SubCtx.deliveredAt E1.slot c.log ≠ []) (h2 : SubCtx.deliveredAt E.slot s.sub.log ≠ []) :
    (∀ x ∈ SubCtx.deliveredAt E1.slot c.log, ∀ y ∈ SubCtx.deliveredAt E.slot s.sub.log, ∀ p, x.pid ≤ p → p ≤ y.pid →
      p ∈ (SubCtx.deliveredAt E1.slot c.log).map (·.pid) ∨ p ∈ (SubCtx.deliveredAt E.slot s.sub.log).map (·.pid)) ↔
    (sentPkts s0.pub.pub.log).length ∈ (SubCtx.deliveredAt E1.slot c.log).map (·.pid) ∧
    (sentPkts s0.pub.pub.log).length + 1 ∈ (SubCtx.deliveredAt E.slot s.sub.log).map (·.pid) := by
  have hi2 := (Inv.start hs).run ops hb hr
  obtain ⟨sops2, hsr2⟩ := hi2.sub
  have hv2 := hi2.valid hu
  obtain ⟨n1, hn1, hi⟩ := h.inv (by omega)
  obtain ⟨sops, hsr⟩ := hi.sub
  have hv := hi.valid hu1
  obtain ⟨pops, g1, g2, g3⟩ := hi.pub
  obtain ⟨ops0, p1, _⟩ := hs.pub
  have hd : SubCtx.deliveredAt E1.slot c.log = SubCtx.deliveredAt E1.slot t.sub.log := SubCtx.ends_delivered ho hx
  obtain ⟨es, e⟩ := PubCtx.run_ext more g1 (fun o ho => PubCtx.callOk_sane (hmo o ho)) (by omega) hgo
  have hold : ∀ x ∈ SubCtx.deliveredAt E1.slot c.log, 1 ≤ x.pid ∧ x.pid ≤ (sentPkts s0.pub.pub.log).length := by
    intro x hx1
    rw [hd] at hx1
    obtain ⟨bef, mc, ts, aft, e1, _⟩ := SubCtx.C34_api hsr hu1 hv hx1
    obtain ⟨p, q1, _⟩ := hi.arr hu1 (x, mc, ts) (by rw [e1]; simp)
    refine (PubCtx.mem_sent_ids p1).1 ?_
    rw [e, sentPkts_append, List.map_append]
    exact List.mem_append_left _ (List.mem_map.2 ⟨_, q1, rfl⟩)
  obtain ⟨x0, hx0⟩ := List.exists_mem_of_ne_nil _ h1
  obtain ⟨y0, hy0⟩ := List.exists_mem_of_ne_nil _ h2
  have hL : (sentPkts s0.pub.pub.log).length ∈ (sentPkts s0.pub.pub.log).map (·.1) :=
    (PubCtx.mem_sent_ids p1).2 ⟨by have := hold x0 hx0; omega, Nat.le_refl _⟩
  have hnew : ∀ y ∈ SubCtx.deliveredAt E.slot s.sub.log, (sentPkts s0.pub.pub.log).length < y.pid :=
    fun y hy => C101_timely_partial hs hb hr hu hT y hy _ hL
  constructor
  · intro hg
    have a := hold x0 hx0
    have b := hnew y0 hy0
    constructor
    · rcases hg x0 hx0 y0 hy0 _ a.2 (by omega) with w | w
      · exact w
      · obtain ⟨z, hz, ez⟩ := List.mem_map.1 w
        have := hnew z hz; omega
    · rcases hg x0 hx0 y0 hy0 ((sentPkts s0.pub.pub.log).length + 1) (by omega) (by omega) with w | w
      · obtain ⟨z, hz, ez⟩ := List.mem_map.1 w
        have := hold z hz; omega
      · exact w
  · rintro ⟨w1, w2⟩ x hx1 y hy p k1 k2
    by_cases hp : p ≤ (sentPkts s0.pub.pub.log).length
    · left
      rw [hd] at w1 hx1 ⊢
      exact SubCtx.delivered_between hsr hu1 hv (List.mem_map.2 ⟨x, hx1, rfl⟩) w1 k1 hp
    · right
      exact SubCtx.delivered_between hsr2 hu hv2 w2 (List.mem_map.2 ⟨y, hy, rfl⟩) (by omega) k2

/-- Packets 1 and 2 are multicast and delivered, then the publisher closes the connection; the subscriber connects again, and packet 3 is
multicast and delivered. -/
def exNoGap : Story :=
  ⟨[.sub (.write 0 (.ok 0) none (.ok 0)), .accept 0 (.ok 5 1) none, .pub (.queue (PubCtx.exPay 1) false),
    .pub (.queue (PubCtx.exPay 2) false), .pub (.writeMcast [⟨.ok 10, []⟩, ⟨.ok 20, []⟩]),
    .sub (.readMcast [exMc 1 [1, 0] 1000, exMc 2 [2, 0] 1000])], 0, [.pub (.close 0)], .read 0 none 3000, [],
   [.readMcast [exMc 0 [] 3002]], [.sub (.write 0 (.ok 0) none (.ok 0)), .accept 0 (.ok 6 1) none,
    .pub (.queue (PubCtx.exPay 3) false), .pub (.writeMcast [⟨.ok 4000, []⟩]), .sub (.readMcast [exMc 3 [3, 0] 4001])]⟩

/-- Non-vacuity: the hypotheses of C102_exact, with the right side true. -/
example : ∃ (t : Cut) (r : Nat) (c : SubCtx) (rs : List Nat) (s0 s : Sys) (N n : Nat), BrokenN exE N t ∧ SubCtx.Up t.sub 0 ∧
    SubCtx.step t.sub (.read 0 none 3000) = .ok (r, c) ∧ N + 0 + 2 < U64 ∧ PubCtx.run t.pub [] = .ok (rs, s0.pub) ∧ Start exE n s0 ∧
    n + calls exNoGap.ops + 1 < U64 ∧ Sys.run exE s0 exNoGap.ops = some s ∧ SubCtx.Up s.sub 0 ∧
    Timely (addr exE s0.pub) s0.pub.listenPort ((sentPkts s0.pub.pub.log).map (·.1)) exNoGap.ops ∧ (sentPkts s0.pub.pub.log).length = 2 ∧
    (SubCtx.deliveredAt 0 c.log).map (·.pid) = [1, 2] ∧ (SubCtx.deliveredAt 0 s.sub.log).map (·.pid) = [3] := by
  obtain ⟨t, r, c, rs, s0, s, N, n, h1, h2, h3, h4, h5, h6, h7, h8, h9, rs2, h10⟩ :=
    story_of (y := exNoGap) (P := fun d s0 s => timelyCheck ((sentPkts s0.pub.pub.log).map (·.1)) exNoGap.ops &&
      decide (SubCtx.Up s.sub 0 ∧ (sentPkts s0.pub.pub.log).length = 2 ∧ d.map (·.pid) = [1, 2] ∧
        (SubCtx.deliveredAt 0 s.sub.log).map (·.pid) = [3])) ⟨rfl, .inl rfl⟩ (by decide) (by decide) (by decide +kernel)
  rw [Bool.and_eq_true, decide_eq_true_eq] at h9
  exact ⟨t, r, c, rs, s0, s, N, n, h1, h2, h3, h4, h5, h6, h7, h8, h9.2.1, timely_of_check h9.1, h9.2.2.1, h9.2.2.2.1, h9.2.2.2.2⟩

/-- C102 is false, though no datagram is late and none is lost after the second connection is begun: packets 2, 3 and 4, multicast while the
subscriber was not connected or never delivered over the first connection, are not delivered at all. -/
theorem C102_false : ∃ (E : Env) (N n : Nat) (t : Cut) (op : SubCtx.Op) (r : Nat) (c : SubCtx) (more : List PubCtx.Op) (rs : List Nat) (s0 s : Sys)
    (sops : List SubCtx.Op) (rs2 : List Nat) (ops : List SysOp), BrokenN E N t ∧ SubCtx.Up t.sub E.slot ∧ SubCtx.ends E.slot op ∧ SubCtx.step t.sub op = .ok (r, c) ∧
      (∀ o ∈ more, callOk o = true) ∧ N + more.length + 2 < U64 ∧ PubCtx.run t.pub more = .ok (rs, s0.pub) ∧
      SubCtx.run c sops = .ok (rs2, s0.sub) ∧ Start E n s0 ∧ n + calls ops + 1 < U64 ∧ Sys.run E s0 ops = some s ∧ SubCtx.Up s.sub E.slot ∧
      Timely (addr E s0.pub) s0.pub.listenPort ((sentPkts s0.pub.pub.log).map (·.1)) ops ∧
      (sentPkts s0.pub.pub.log).map (·.1) = [1, 2, 3, 4] ∧
      (SubCtx.deliveredAt E.slot c.log).map (·.pid) = [1] ∧ (SubCtx.deliveredAt E.slot s.sub.log).map (·.pid) = [5] := by
  obtain ⟨t, r, c, rs, s0, s, N, n, h1, h2, h3, h4, h5, h6, h7, h8, h9, rs2, h10⟩ :=
    story_of (y := exAgain exOnly) (P := fun d s0 s => timelyCheck ((sentPkts s0.pub.pub.log).map (·.1)) (exAgain exOnly).ops &&
      decide (SubCtx.Up s.sub 0 ∧ (sentPkts s0.pub.pub.log).map (·.1) = [1, 2, 3, 4] ∧ d.map (·.pid) = [1] ∧ (SubCtx.deliveredAt 0 s.sub.log).map (·.pid) = [5]))
      ⟨rfl, .inl rfl⟩ (by decide) (by decide) (by decide +kernel)
  rw [Bool.and_eq_true, decide_eq_true_eq] at h9
  exact ⟨exE, N, n, t, .read 0 none 3000, r, c, _, rs, s0, s, _, rs2, _, h1, h2, ⟨rfl, .inl rfl⟩, h3, by decide, h4, h5, h10, h6, h7, h8,
    h9.2.1, timely_of_check h9.1, h9.2.2.1, h9.2.2.2.1, h9.2.2.2.2⟩

end Cut
end Rmc
