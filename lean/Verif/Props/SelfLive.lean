import Verif.Props.SysFair
import Verif.Props.TestPub

/-! # The self-test succeeds in every fair schedule (C91) -/

set_option linter.unusedVariables false

namespace Rmc
namespace Sys
open PLog CircBuf

/-- A piece of the ids `1 … N` that has all of them is all of them. -/
theorem piece_all {N b L : Nat} {xs : List Nat} (h : xs = ((List.range' 1 N).drop b).take L) (ha : ∀ i, 1 ≤ i → i ≤ N → i ∈ xs) :
    N = 0 ∨ b = 0 ∧ N ≤ L := by
  by_cases h0 : N = 0
  · exact .inl h0
  right
  rw [List.drop_range'] at h
  have hb : b = 0 := by
    have := ha 1 (Nat.le_refl _) (by omega)
    rw [h] at this
    have := List.mem_range'_1.1 (List.mem_of_mem_take this)
    omega
  subst hb
  refine ⟨rfl, ?_⟩
  have := ha N (by omega) (Nat.le_refl _)
  rw [h] at this
  obtain ⟨j, hj, e⟩ := List.mem_iff_getElem.1 this
  rw [List.getElem_take, List.getElem_range'] at e
  rw [List.length_take] at hj
  omega

/-- C91: under the conditions of C82, if all that was queued was multicast while the subscriber was connected and the first packet to arrive was the first one queued, then exactly
the payloads queued have been delivered, each once, in order. -/
theorem C91_all_delivered {E : Env} {n : Nat} {s0 s t : Sys} {pre : List SysOp} {k : Nat} {T : Int} {segs : List (List SysOp)} (hs : Start E n s0)
    (hr : run E s0 pre = some s) (ht : Turns E T s segs t) (hn : n + calls pre + calls segs.flatten + 1 < U64)
    (hlen : s.work ≤ segs.length) (hT : ∀ j, ∀ x ∈ s.pub.pub.owedPkts j, x.2.2 + 100000 ≤ T)
    (hq : sentPkts t.pub.pub.log = sentPkts s.pub.pub.log)
    (hk : t.acc = some k) (he : t.err = false) (hu : SubCtx.Up t.sub E.slot)
    (hall : ∀ x ∈ queuedPkts t.pub.pub.log, x.1 ∈ PubCtx.sentTo k t.pub.pub.log)
    (h1 : queuedPkts t.pub.pub.log ≠ [] → ((SubCtx.arrivedAt E.slot t.sub.log).map (·.1.pid)).head? = some 1) :
    (SubCtx.deliveredAt E.slot t.sub.log).map (·.payload.data) = (queuedPkts t.pub.pub.log).map (·.2.data) := by
  have hreach : Reached E t := by
    refine ⟨n, s0, pre ++ segs.flatten, hs, by rw [calls_append]; omega, ?_⟩
    rw [run_append, hr]; exact Turns.run segs ht
  obtain ⟨_, _, _, _, c5⟩ := C82_fair hs hr ht hn hlen hT hq hk he hu
  obtain ⟨b, d1, d2⟩ := C49_end_to_end hreach hu
  obtain ⟨m, hi, _⟩ := hreach.inv
  obtain ⟨ops, g1, _, _⟩ := hi.pub
  have hid := queued_ids g1
  rw [hid] at d2
  obtain ⟨N, hN⟩ : ∃ N, N = (queuedPkts t.pub.pub.log).length := ⟨_, rfl⟩
  rw [← hN] at d2 hid
  have hsent : ∀ i, 1 ≤ i → i ≤ N → i ∈ PubCtx.sentTo k t.pub.pub.log := by
    intro i a1 a2
    have : i ∈ (queuedPkts t.pub.pub.log).map (·.1) := by rw [hid]; exact List.mem_range'_1.2 ⟨a1, by omega⟩
    obtain ⟨x, hx, rfl⟩ := List.mem_map.1 this
    exact hall x hx
  have hd : ∀ i, 1 ≤ i → i ≤ N → i ∈ (SubCtx.deliveredAt E.slot t.sub.log).map (·.pid) := by
    intro i a1 a2
    have hne : queuedPkts t.pub.pub.log ≠ [] := by
      intro e
      rw [e] at hN
      have : N = 0 := hN
      omega
    exact c5 1 (h1 hne) (hsent 1 (Nat.le_refl _) (by omega)) i (hsent i a1 a2) a1
  rcases piece_all d2 hd with e | ⟨e1, e2⟩
  · have e' : queuedPkts t.pub.pub.log = [] := List.length_eq_zero_iff.1 (hN.symm.trans e)
    rw [d1, e']
    simp
  · rw [d1, e1, List.drop_zero]
    exact List.take_of_length_le (by rw [List.length_map]; omega)

end Sys

namespace TestPub
open PLog CircBuf PubCtx

/-- C91: the packets of the self-test have been queued (as the test publisher has done when it waits for the subscribers to leave, C90_queued); all of them were multicast while the
subscriber was connected (once, to this publisher only), the first packet to arrive was the first one; and since then the event loops have made `work` rounds in which anything
else may have happened. Then the packets handed over for processing are those of the self-test, which makes the test end successfully, and when the test subscriber has looked at
them (that is, is back in its loop) its test has ended successfully. -/
theorem C91_self_test {E : Env} {n : Nat} {s0 s t : Sys} {pre : List SysOp} {j : Nat} {T : Int} {segs : List (List SysOp)} (hs : Sys.Start E n s0)
    (hr : Sys.run E s0 pre = some s) (ht : Sys.Turns E T s segs t) (hn : n + Sys.calls pre + Sys.calls segs.flatten + 1 < U64)
    (hlen : s.work ≤ segs.length) (hT : ∀ i, ∀ x ∈ s.pub.pub.owedPkts i, x.2.2 + 100000 ≤ T)
    (hq : sentPkts t.pub.pub.log = sentPkts s.pub.pub.log)
    (hk : t.acc = some j) (he : t.err = false) (hu : SubCtx.Up t.sub E.slot)
    (hall : ∀ x ∈ queuedPkts t.pub.pub.log, x.1 ∈ PubCtx.sentTo j t.pub.pub.log)
    (h1 : ((SubCtx.arrivedAt E.slot t.sub.log).map (·.1.pid)).head? = some 1)
    (h2 : ∀ i, SEv.complete i ∈ t.sub.log → i = E.slot) (h3 : t.sub.log.count (.complete E.slot) ≤ 1)
    {node count : Nat} (hnode : node < 4294967296) (hc : 0 < count) (hm : count < 2147483647) {map : List Bool} (hmap : map[node]? = some true)
    (hone : ∀ n, map[n]? = some true → n = node) (hp : contents t.pub = Selftest.payloads node count 1) :
    (SubCtx.readied t.sub.log).map (·.payload.data) = Selftest.payloads node count 1 ∧
    (∃ es d, Selftest.run (Selftest.start map) ((SubCtx.readied t.sub.log).map (·.payload.data)) = .ok (.last es, d)) ∧
    ∀ (mem' : Nat → Conn) (nid : Nat) (x : SubCtx.ActRes) (rs : List TestSub.Round) (res : Selftest.Res), TestSub.main mem' nid map x rs = .ok (res, t.sub) → ∃ es, res = .last es := by
  have hreach : Sys.Reached E t := by
    refine ⟨n, s0, pre ++ segs.flatten, hs, by rw [Sys.calls_append]; omega, ?_⟩
    rw [Sys.run_append, hr]; exact Sys.Turns.run segs ht
  have hd := Sys.C91_all_delivered hs hr ht hn hlen hT hq hk he hu hall (fun _ => h1)
  have hrd : SubCtx.readied t.sub.log = SubCtx.deliveredAt E.slot t.sub.log := by
    obtain ⟨_, hi, _⟩ := hreach.inv
    obtain ⟨ops, hr⟩ := hi.sub
    exact TestSub.C89_one_publisher hr h2 h3
  have hcont : (queuedPkts t.pub.pub.log).map (·.2.data) = Selftest.payloads node count 1 := hp
  have hpre : (queuedPkts t.pub.pub.log).map (·.2.data) <+: Selftest.payloads node count 1 := by rw [hcont]
  have hfin : (SubCtx.readied t.sub.log).map (·.payload.data) = Selftest.payloads node count 1 := by rw [hrd, hd, hcont]
  refine ⟨hfin, ?_, ?_⟩
  · exact ((Selftest.C86_end_to_end hreach hu hnode hc hm hpre hmap (ps := (SubCtx.readied t.sub.log).map (·.payload.data)) (by rw [hrd])).2.2 hone).2 hfin
  · intro mem' nid x rs res hres
    exact (((TestSub.C89_end_to_end hreach hu h2 h3 hnode hc hm hpre hmap (mem := mem') (nid := nid) (x := x) (rs := rs)).1 res hres).2 hone).2 hfin

/-! ## Example: the only packet of the self-test is lost in multicast -/

/-- The programs until the packet has been multicast. -/
def exLostOps : List SysOp := exBothOps.take 7
/-- The first round: the packet is sent again over TCP and read. -/
def exLostTurn : List SysOp := [.pub (.timeout 500002 none 0), .pub (.write 0 (.ok 41)), .subRead 41 500100]

/-- The state before the first round has `P`, and the state after it has `Q`. -/
def lostCheck (P : Sys → Sys → Bool) : Bool :=
  match PubCtx.run exStartP exBefore, TestSub.exMain (TestSub.exR.take 1) with
  | .ok p, .ok q =>
    match Sys.run Sys.exE ⟨p.2, q.2, none, [], [], false⟩ exLostOps with
    | some s => match Sys.run Sys.exE s exLostTurn with
      | some t => P s t
      | none => false
    | none => false
  | _, _ => false

theorem lostCheck_ok {P : Sys → Sys → Bool} (h : lostCheck P = true) : ∃ s0 s t, Sys.Start Sys.exE 3 s0 ∧ Sys.run Sys.exE s0 exLostOps = some s ∧
    Sys.run Sys.exE s exLostTurn = some t ∧ P s t = true := by
  have h1 : bothCheck = true := by decide +kernel
  unfold bothCheck at h1
  unfold lostCheck at h
  cases hp : PubCtx.run exStartP exBefore with
  | error f => rw [hp] at h; cases h
  | ok p =>
    cases hq : TestSub.exMain (TestSub.exR.take 1) with
    | error f => rw [hp, hq] at h; cases h
    | ok q =>
      rw [hp, hq] at h h1
      obtain ⟨k1, k2, k3, k4, k5, k6, k7, k8⟩ := of_decide_eq_true h1
      obtain ⟨res0, q0⟩ := q
      obtain ⟨calls, r1, _⟩ := TestSub.main_spec hq
      dsimp only at h
      split at h
      case h_2 => cases h
      rename_i s hs
      split at h
      case h_2 => cases h
      rename_i t ht
      refine ⟨_, s, t, ?_, hs, ht, h⟩
      exact ⟨⟨exBefore, ⟨_, MAX_CONNECTIONS, 7, 1, 2, p.1, by decide, by simp [exBefore, PubCtx.Op.sane], by decide, hp⟩,
        by simp [exBefore, Sys.callOk], by decide⟩, ⟨k1, k2, k3, k4⟩, ⟨_, r1⟩, ⟨k5, k6⟩, ⟨k7, k8⟩, rfl, rfl, rfl, rfl⟩

/-- After that there is nothing to do. -/
theorem idle_turns {E : Env} {T : Int} {t : Sys} (h1 : ∀ j, PubCtx.Connected t.pub j → t.pub.pub.outstanding j = [])
    (h2 : ∀ j, PubCtx.Connected t.pub j → bytes (t.pub.cv.conns j).writeBuf = []) (h3 : t.down = []) : ∀ m, Sys.Turns E T t (List.replicate m []) t
  | 0 => rfl
  | m + 1 => ⟨t, ⟨rfl, .inr h1, fun j hj => .inr (h2 j hj), .inr h3⟩, idle_turns h1 h2 h3 m⟩

/-- The hypotheses of C91 are met, with 123 rounds. -/
example : ∃ s0 s t segs, Sys.Start Sys.exE 3 s0 ∧ Sys.run Sys.exE s0 exLostOps = some s ∧ Sys.Turns Sys.exE 500000 s segs t ∧
    3 + Sys.calls exLostOps + Sys.calls segs.flatten + 1 < U64 ∧ s.work = 123 ∧ segs.length = 123 ∧ (∀ i, ∀ x ∈ s.pub.pub.owedPkts i, x.2.2 + 100000 ≤ 500000) ∧
    sentPkts t.pub.pub.log = sentPkts s.pub.pub.log ∧ t.acc = some 0 ∧ t.err = false ∧ SubCtx.Up t.sub 0 ∧
    (∀ x ∈ queuedPkts t.pub.pub.log, x.1 ∈ PubCtx.sentTo 0 t.pub.pub.log) ∧ ((SubCtx.arrivedAt 0 t.sub.log).map (·.1.pid)).head? = some 1 ∧
    (∀ i, SEv.complete i ∈ t.sub.log → i = 0) ∧ t.sub.log.count (.complete 0) = 1 ∧ contents t.pub = Selftest.payloads 1 1 1 := by
  obtain ⟨s0, s, t, h1, h2, h3, h4⟩ := lostCheck_ok (P := fun s t => decide (s.work = 123 ∧ s.pub.cv.size = 16 ∧
    (∀ j ∈ List.range 16, ∀ x ∈ s.pub.pub.owedPkts j, x.2.2 + 100000 ≤ 500000) ∧ sentPkts t.pub.pub.log = sentPkts s.pub.pub.log ∧
    t.acc = some 0 ∧ t.err = false ∧ SubCtx.Up t.sub 0 ∧ (∀ x ∈ queuedPkts t.pub.pub.log, x.1 ∈ PubCtx.sentTo 0 t.pub.pub.log) ∧
    ((SubCtx.arrivedAt 0 t.sub.log).map (·.1.pid)).head? = some 1 ∧ t.sub.log.count (.complete 0) = 1 ∧
    t.sub.log.all (fun e => match e with | .complete j => decide (j = 0) | _ => true) = true ∧
    contents t.pub = Selftest.payloads 1 1 1 ∧ s.pub.annInterval = 0 ∧ t.pub.cv.size = 16 ∧
    (∀ j ∈ List.range 16, PubCtx.Connected s.pub j → j = 0) ∧ (∀ j ∈ List.range 16, PubCtx.Connected t.pub j → j = 0) ∧
    t.pub.pub.outstanding 0 = [] ∧ bytes (t.pub.cv.conns 0).writeBuf = [] ∧ t.down = [])) (by decide +kernel)
  obtain ⟨a1, a2, a3, a4, a5, a6, a7, a8, a9, a10, a11, a12, a13, a14, a15, a16, a17, a18, a19⟩ := of_decide_eq_true h4
  have hi : Sys.Inv Sys.exE _ s := (Sys.Inv.start h1).run exLostOps (by decide) h2
  have one : ∀ j, PubCtx.Connected s.pub j → j = 0 := fun j hj => a15 j (List.mem_range.2 (a2 ▸ hj.1)) hj
  have one' : ∀ j, PubCtx.Connected t.pub j → j = 0 := fun j hj => a16 j (List.mem_range.2 (a14 ▸ hj.1)) hj
  have hfirst : Sys.Turn Sys.exE 500000 s exLostTurn t := by
    refine ⟨h3, .inl ⟨[], 500002, none, 0, _, s, rfl, by decide, rfl, fun h => h.1 a13⟩, ?_, .inr a19⟩
    intro j hj
    rw [one j hj]
    exact .inl ⟨41, by decide, by simp [exLostTurn]⟩
  refine ⟨s0, s, t, exLostTurn :: List.replicate 122 [], h1, h2, ⟨t, hfirst, idle_turns (fun j hj => by rw [one' j hj]; exact a17) (fun j hj => by rw [one' j hj]; exact a18) a19 122⟩,
    by decide +kernel, a1, by decide, ?_, a4, a5, a6, a7, a8, a9, ?_, a10, a12⟩
  · intro j x hx
    by_cases hj : j < 16
    · exact a3 j (List.mem_range.2 hj) x hx
    · exfalso
      obtain ⟨pp, p1, p2, p3⟩ := hi.pub
      obtain ⟨pops, L, g, _⟩ := p1.good
      rw [← Sys.owing_eq g j] at hx
      unfold PubCtx.owing at hx
      rw [if_neg (fun hc : PubCtx.Connected s.pub j => hj (a2 ▸ hc.1))] at hx
      cases hx
  · intro i hi
    exact of_decide_eq_true (List.all_eq_true.1 a11 _ hi)

end TestPub
end Rmc
