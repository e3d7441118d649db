import Verif.Props.NetFair

/-! # The self-test with several publishers (C94) -/

set_option linter.unusedVariables false

namespace Rmc
namespace SubCtx

/-- A slot whose connection was set up once: what was made ready for it is what was delivered to it. -/
theorem Reaches.onceOK {ops : List Op} {c : SubCtx} (h : Reaches ops c) (i : Nat) :
    c.log.count (.complete i) ≤ 1 → (readied c.log).filter (fun p => decide (p.slot = i)) = deliveredAt i c.log := by
  have key : ∀ {tm : Nat} {c c' : SubCtx}, Micro tm c c' → Core c → OneOK i c →
      (c.log.count (.complete i) ≤ 1 → (readied c.log).filter (fun p => decide (p.slot = i)) = deliveredAt i c.log) →
      (c'.log.count (.complete i) ≤ 1 → (readied c'.log).filter (fun p => decide (p.slot = i)) = deliveredAt i c'.log) := by
    intro tm c c' m hc h ih hle
    obtain ⟨es, h1, h2⟩ := m.logged hc
    rw [h1, List.count_append] at hle
    have step : SEv.complete i ∉ es → (readied c'.log).filter (fun p => decide (p.slot = i)) = deliveredAt i c'.log := by
      intro g
      rw [h1, readied_append, List.filter_append, delivered_append g, ih (by omega)]
    rcases h2 with ⟨_, g2⟩ | ⟨k, _, _, g3⟩ | ⟨j, g1⟩
    · exact step (g2 i)
    · exact step (g3 i)
    · by_cases hj : j = i
      · subst hj
        subst g1
        rw [List.count_singleton] at hle
        simp only [beq_self_eq_true, if_true] at hle
        have h0 : c.log.count (.complete j) = 0 := by omega
        rw [List.count_eq_zero] at h0
        rw [h1, readied_append, show readied [SEv.complete j] = [] from rfl, List.append_nil]
        unfold deliveredAt
        rw [since_snoc, if_pos rfl]
        show _ = []
        rw [List.filter_eq_nil_iff]
        intro p hp
        have := h.rdy p hp
        rw [decide_eq_true_eq]
        rintro rfl
        exact h0 this
      · subst g1
        exact step (by simp; exact fun e => hj e.symm)
  have steps : ∀ {tm : Nat} {c c' : SubCtx}, Steps tm c c' → Core c → OneOK i c →
      (c.log.count (.complete i) ≤ 1 → (readied c.log).filter (fun p => decide (p.slot = i)) = deliveredAt i c.log) →
      (c'.log.count (.complete i) ≤ 1 → (readied c'.log).filter (fun p => decide (p.slot = i)) = deliveredAt i c'.log) := by
    intro tm c c' st
    induction st with
    | nil => exact fun _ _ h => h
    | cons m _ ih => exact fun hc h1 h2 => ih (hc.micro m) (h1.micro m hc) (key m hc h1 h2)
  refine Reaches.induct (P := fun _ c => c.log.count (.complete i) ≤ 1 → (readied c.log).filter (fun p => decide (p.slot = i)) = deliveredAt i c.log) ?_ ?_ h
  · intro mem n nid hn _; rfl
  · intro ops c op r c' hr ih hs
    have h1 := hr.oneOK i
    rcases step_cases hr.inv.core hr.inv.mem hs with st | ⟨_, st⟩
    · exact steps st hr.inv.core h1 ih
    · exact steps st hr.inv.core.forget ⟨h1.up, h1.rdy, h1.one⟩ ih

end SubCtx

namespace Selftest

/-- The payloads that come from `i`, of payloads that come from here and there. -/
def part {α : Type} (i : Nat) (xs : List (Nat × α)) : List α := (xs.filter fun x => decide (x.1 = i)).map (·.2)

theorem of_part {node : Nat → Nat} {i : Nat} : ∀ (xs : List (Nat × List UInt8)), (∀ x ∈ xs, ∀ s ∈ signalsIn x.2, s.node = node x.1) →
    (∀ x ∈ xs, node x.1 = node i → x.1 = i) → of (node i) ((xs.map (·.2)).flatMap signalsIn) = (part i xs).flatMap signalsIn := by
  intro xs
  induction xs with
  | nil => intro _ _; rfl
  | cons x xs ih =>
    intro h1 h2
    have e := ih (fun y hy => h1 y (List.mem_cons_of_mem _ hy)) (fun y hy => h2 y (List.mem_cons_of_mem _ hy))
    rw [List.map_cons, List.flatMap_cons]
    unfold of at e ⊢
    rw [List.filter_append, e]
    have hx := of_all (h1 x (by simp)) (node i)
    unfold of at hx
    rw [hx]
    unfold part
    rw [List.filter_cons]
    by_cases hi : x.1 = i
    · rw [hi, if_pos rfl, decide_eq_true rfl]
      simp
    · rw [if_neg (fun e => hi (h2 x (by simp) e.symm)), decide_eq_false hi]
      simp

theorem of_none {n : Nat} {xs : List Signal} (h : ∀ s ∈ xs, s.node ≠ n) : of n xs = [] := by
  unfold of
  rw [List.filter_eq_nil_iff]
  intro s hs
  simpa using h s hs

/-- Specification: `xs` is a mixture of what the publishers of the slots in `K` have sent: of the packets of the self-test of `node i`, with `count i` signals, slot `i` has been given the first ones, in order. -/
structure Mixed (K : Nat → Prop) (node count : Nat → Nat) (xs : List (Nat × List UInt8)) : Prop where
  slots : ∀ x ∈ xs, K x.1
  nodes : ∀ i j, K i → K j → node i = node j → i = j
  range : ∀ i, K i → node i < 4294967296 ∧ 0 < count i ∧ count i < 2147483647
  first : ∀ i, K i → part i xs <+: payloads (node i) (count i) 1

/-- C94: the self-test with several publishers. If the subscriber has been given, of the packets of each publisher, the first ones, in order - the publishers' packets mixed in any way - it gives no alarm. And if it
expects these publishers and no others, and there is one, the test ends, and ends successfully, exactly when it has been given all packets of all of them. -/
theorem C94_verdict {K : Nat → Prop} {node count : Nat → Nat} {xs : List (Nat × List UInt8)} (h : Mixed K node count xs)
    {map : List Bool} (hmap : ∀ i, K i → map[node i]? = some true) :
    (∃ es d, run (start map) (xs.map (·.2)) = .ok (.more es, d) ∨ run (start map) (xs.map (·.2)) = .ok (.last es, d)) ∧
    ((∀ n, map[n]? = some true → ∃ i, K i ∧ node i = n) → (∃ i, K i) →
      ((∃ es d, run (start map) (xs.map (·.2)) = .ok (.last es, d)) ↔ ∀ i, K i → part i xs = payloads (node i) (count i) 1)) := by
  have hin : ∀ x ∈ xs, x.2 ∈ payloads (node x.1) (count x.1) 1 := by
    intro x hx
    refine (h.first x.1 (h.slots x hx)).subset ?_
    exact List.mem_map.2 ⟨x, List.mem_filter.2 ⟨hx, decide_eq_true rfl⟩, rfl⟩
  have hpk : ∀ i, K i → _ := fun i hi => C86_packets (node := node i) (count := count i) (h.range i hi).1 (by have := (h.range i hi).2.2; omega)
  have hsig : ∀ i, K i → ∀ p ∈ payloads (node i) (count i) 1, ∀ s ∈ signalsIn p, s.node = node i ∧ s.max = count i := by
    intro i hi p hp s hs
    have : s ∈ (payloads (node i) (count i) 1).flatMap signalsIn := List.mem_flatMap.2 ⟨p, hp, hs⟩
    rw [(hpk i hi).1] at this
    obtain ⟨k, _, rfl⟩ := List.mem_map.1 this
    exact ⟨rfl, rfl⟩
  have hmem : ∀ s ∈ (xs.map (·.2)).flatMap signalsIn, ∃ i, K i ∧ s.node = node i ∧ s.max = count i := by
    intro s hs
    obtain ⟨p, hp, hs⟩ := List.mem_flatMap.1 hs
    obtain ⟨x, hx, rfl⟩ := List.mem_map.1 hp
    exact ⟨x.1, h.slots x hx, hsig _ (h.slots x hx) _ (hin x hx) s hs⟩
  have hpart : ∀ i, K i → of (node i) ((xs.map (·.2)).flatMap signalsIn) = (part i xs).flatMap signalsIn := by
    intro i hi
    refine of_part xs (fun x hx s hs => (hsig _ (h.slots x hx) _ (hin x hx) s hs).1) (fun x hx e => h.nodes _ _ (h.slots x hx) hi e)
  have hfol : ∀ i, K i → ∃ ys, (part i xs).flatMap signalsIn ++ ys = (List.range' 1 (count i)).map (sig (node i) (count i)) := by
    intro i hi
    obtain ⟨tl, ht⟩ := h.first i hi
    refine ⟨tl.flatMap signalsIn, ?_⟩
    rw [← List.flatMap_append, ht]
    exact (hpk i hi).1
  have hlegal : Legal map ((xs.map (·.2)).flatMap signalsIn) := by
    refine ⟨fun s hs => ?_, fun n => ?_⟩
    · obtain ⟨i, hi, e, _⟩ := hmem s hs
      rw [e]; exact hmap i hi
    · by_cases hn : ∃ i, K i ∧ node i = n
      · obtain ⟨i, hi, rfl⟩ := hn
        rw [hpart i hi]
        obtain ⟨ys, hy⟩ := hfol i hi
        have := (legal_all (map := map) (node := node i) (count := count i) (hmap i hi)).2 (node i)
        rw [of_all (node := node i) (by intro s hs; obtain ⟨k, _, rfl⟩ := List.mem_map.1 hs; rfl), if_pos rfl, ← hy] at this
        exact this.prefix
      · rw [of_none]
        · exact ⟨rfl, 0, by simp, .inl rfl⟩
        · intro s hs e
          obtain ⟨i, hi, e', _⟩ := hmem s hs
          exact hn ⟨i, hi, e'.symm.trans e⟩
  obtain ⟨v1, v2, -, -⟩ := C85_verdict (map := map) (ps := xs.map (·.2))
    (fun p hp => by obtain ⟨x, hx, rfl⟩ := List.mem_map.1 hp; exact ((hpk _ (h.slots x hx)).2.1 _ (hin x hx)).1)
    (fun s hs => by obtain ⟨i, hi, _, e⟩ := hmem s hs; rw [e]; exact (h.range i hi).2.2)
  refine ⟨?_, fun honly hex => ?_⟩
  · by_cases hk : ∃ k, 0 < k ∧ k ≤ ((xs.map (·.2)).flatMap signalsIn).length ∧ Done map (((xs.map (·.2)).flatMap signalsIn).take k)
    · obtain ⟨k, k1, k2, k3⟩ := hk
      obtain ⟨es, d, e⟩ := v2.2 ⟨k, k1, k2, Legal.take (k := ((xs.map (·.2)).flatMap signalsIn).length) (by rw [List.take_length]; exact hlegal) k2, k3⟩
      exact ⟨es, d, .inr e⟩
    · obtain ⟨es, d, e⟩ := v1.2 ⟨hlegal, fun j j1 j2 hd => hk ⟨j, j1, j2, hd⟩⟩
      exact ⟨es, d, .inl e⟩
  · rw [v2]
    constructor
    · rintro ⟨k, k1, k2, k3, k4⟩ i hi
      obtain ⟨d1, d2⟩ := k4 (node i) (hmap i hi)
      obtain ⟨s, hs⟩ := List.exists_mem_of_ne_nil _ d1
      have hle : (of (node i) (((xs.map (·.2)).flatMap signalsIn).take k)).length ≤ (of (node i) ((xs.map (·.2)).flatMap signalsIn)).length :=
        ((List.take_sublist _ _).filter _).length_le
      have hm := d2 s hs
      have hs' : s ∈ ((xs.map (·.2)).flatMap signalsIn) ∧ s.node = node i := by
        unfold of at hs
        rw [List.mem_filter, decide_eq_true_eq] at hs
        exact ⟨List.mem_of_mem_take hs.1, hs.2⟩
      obtain ⟨j, hj, e1, e2⟩ := hmem s hs'.1
      have : j = i := h.nodes j i hj hi (by rw [← e1, hs'.2])
      subst this
      rw [hpart j hj, ← hm, e2] at hle
      obtain ⟨tl, ht⟩ := h.first j hj
      have htot := congrArg List.length (hpk j hj).1
      rw [← ht, List.flatMap_append, List.length_append, List.length_map, List.length_range'] at htot
      have : tl = [] := by
        cases tl with
        | nil => rfl
        | cons p tl =>
          exfalso
          have hp : p ∈ payloads (node j) (count j) 1 := by rw [← ht]; simp
          have := List.length_pos_iff.2 (signalsIn_ne ((hpk j hj).2.1 p hp).2.1)
          rw [List.flatMap_cons, List.length_append] at htot
          omega
      rw [← ht, this, List.append_nil]
    · intro hall
      obtain ⟨i0, hi0⟩ := hex
      have hwhole : ∀ i, K i → of (node i) ((xs.map (·.2)).flatMap signalsIn) = (List.range' 1 (count i)).map (sig (node i) (count i)) := by
        intro i hi
        rw [hpart i hi, hall i hi]; exact (hpk i hi).1
      refine ⟨((xs.map (·.2)).flatMap signalsIn).length, ?_, Nat.le_refl _, by rw [List.take_length]; exact hlegal, ?_⟩
      · have := congrArg List.length (hwhole i0 hi0)
        rw [List.length_map, List.length_range'] at this
        have h0 := (h.range i0 hi0).2.1
        have : (of (node i0) ((xs.map (·.2)).flatMap signalsIn)).length ≤ ((xs.map (·.2)).flatMap signalsIn).length := List.length_filter_le ..
        omega
      · rw [List.take_length]
        intro n hn
        obtain ⟨i, hi, rfl⟩ := honly n hn
        rw [hwhole i hi]
        refine ⟨fun e => ?_, fun x hx => ?_⟩
        · have := congrArg List.length e
          have h0 := (h.range i hi).2.1
          rw [List.length_map, List.length_range', List.length_nil] at this; omega
        · obtain ⟨k, _, rfl⟩ := List.mem_map.1 hx
          simp [sig]

end Selftest
end Rmc

namespace Rmc
namespace Net
open PLog CircBuf

/-- What the subscriber has made ready: for each packet the slot of the connection to its publisher, and the contents. -/
def given (c : SubCtx) : List (Nat × List UInt8) := (SubCtx.readied c.log).map fun p => (p.slot, p.payload.data)

theorem given_contents (c : SubCtx) : (given c).map (·.2) = (SubCtx.readied c.log).map (·.payload.data) := by
  unfold given; rw [List.map_map]; rfl

theorem part_given {ops : List SubCtx.Op} {c : SubCtx} (h : SubCtx.Reaches ops c) {i : Nat} (h1 : c.log.count (.complete i) ≤ 1) :
    Selftest.part i (given c) = (SubCtx.deliveredAt i c.log).map (·.payload.data) := by
  rw [← h.onceOK i h1]
  unfold Selftest.part given
  rw [List.filter_map, List.map_map]
  rfl

/-- A piece, not empty, of the ids `1 … N` that begins with 1 begins at the beginning. -/
theorem piece_first {N b L : Nat} {xs : List Nat} (h : xs = ((List.range' 1 N).drop b).take L) (h1 : xs.head?.all (fun x => decide (x = 1)) = true) : xs = [] ∨ b = 0 := by
  cases xs with
  | nil => exact .inl rfl
  | cons x xs =>
    right
    rw [List.drop_range'] at h
    have hx : x = 1 := by simpa using h1
    have h0 := congrArg List.head? h
    rw [List.head?_take] at h0
    split at h0
    · cases h0
    · rw [List.head?_range'] at h0
      split at h0
      · cases h0
      · have := Option.some.inj h0
        omega

/-- Specification: every connection that subscriber `q` has set up is up, was set up once, and leads to a publisher that queues the packets of the self-test: those of node `node i`, `count i` signals, for the connection of slot
`i`; and the first packet delivered is the first one queued. -/
structure Tested (s : Net) (q : Nat) (node count : Nat → Nat) : Prop where
  range : ∀ i, SEv.complete i ∈ (s.subs q).log → node i < 4294967296 ∧ 0 < count i ∧ count i < 2147483647
  nodes : ∀ i j, SEv.complete i ∈ (s.subs q).log → SEv.complete j ∈ (s.subs q).log → node i = node j → i = j
  once : ∀ i, (s.subs q).log.count (.complete i) ≤ 1
  link : ∀ i, SEv.complete i ∈ (s.subs q).log → ∃ l ∈ s.links, l.q = q ∧ l.slot = i ∧ SubCtx.Up (s.subs q) i ∧
    (queued s l.p).map (·.2.data) <+: Selftest.payloads (node i) (count i) 1 ∧ (delivered s l).head?.all (fun x => decide (x.pid = 1)) = true

theorem Tested.mixed {E : NetEnv} {s : Net} (h : Reached E s) {q : Nat} {node count : Nat → Nat} (ht : Tested s q node count) :
    Selftest.Mixed (fun i => SEv.complete i ∈ (s.subs q).log) node count (given (s.subs q)) := by
  obtain ⟨n0, s0, nops, k1, k2, k3⟩ := id h
  obtain ⟨ops, hr⟩ := ((NInv.start k1).run nops k2 k3).sub q
  refine ⟨?_, ht.nodes, ht.range, ?_⟩
  · intro x hx
    obtain ⟨p, hp, rfl⟩ := List.mem_map.1 hx
    exact (hr.oneOK p.slot).rdy p hp
  · intro i hi
    rw [part_given hr (ht.once i)]
    obtain ⟨l, hl, rfl, rfl, hu, hq, h1⟩ := ht.link i hi
    obtain ⟨b, d1, d2⟩ := C70_delivery h hl hu
    obtain ⟨_, hv, _⟩ := (h.link hl).inv
    obtain ⟨pops, g1, _, _⟩ := hv.pub
    have hid : (queued s l.p).map (·.1) = List.range' 1 (queued s l.p).length := Sys.queued_ids g1
    rw [hid] at d2
    show (delivered s l).map (·.payload.data) <+: _
    rcases piece_first d2 (by
      rw [List.head?_map, Option.all_map]
      exact h1) with e | e
    · rw [List.map_eq_nil_iff.1 e]; exact List.nil_prefix
    · rw [d1, e, List.drop_zero]
      exact (List.take_prefix _ _).trans hq

/-- C94: the test subscriber with any number of publishers, each connected once, that queue the packets of the self-test, whatever is lost in multicast and however the packets of the publishers mix: a test
that has ended has ended successfully - it cannot have found corrupt data -, and, if the nodes expected are those of the connections, exactly when all packets of all of them were delivered; and it gives no alarm. -/
theorem C94_no_alarm {E : NetEnv} {s : Net} (h : Reached E s) {q : Nat} {node count : Nat → Nat} (ht : Tested s q node count)
    {map : List Bool} (hmap : ∀ i, SEv.complete i ∈ (s.subs q).log → map[node i]? = some true) {mem : Nat → Conn} {nid : Nat} {x : SubCtx.ActRes} {rs : List TestSub.Round} :
    (∀ res, TestSub.main mem nid map x rs = .ok (res, s.subs q) → res ≠ .corrupt ∧
      ((∀ n, map[n]? = some true → ∃ i, SEv.complete i ∈ (s.subs q).log ∧ node i = n) → (∃ i, SEv.complete i ∈ (s.subs q).log) →
        ((∃ es, res = .last es) ↔ ∀ l ∈ s.links, l.q = q → SEv.complete l.slot ∈ (s.subs q).log →
          (delivered s l).map (·.payload.data) = Selftest.payloads (node l.slot) (count l.slot) 1))) ∧
    (∀ c es r, TestSub.main mem nid map x rs = .ok (.more es, c) → TestSub.events c r = .ok (true, s.subs q) → ∃ y, TestSub.round es c r = .ok y) := by
  obtain ⟨n0, s0, nops, k1, k2, k3⟩ := id h
  have hinv := (NInv.start k1).run nops k2 k3
  obtain ⟨ops, hr⟩ := hinv.sub q
  obtain ⟨a1, a2⟩ := Selftest.C94_verdict (ht.mixed h) hmap
  rw [given_contents] at a1 a2
  refine ⟨?_, ?_⟩
  · intro res hx
    obtain ⟨-, d, b1, -, -⟩ := TestSub.C89_verdict hx
    refine ⟨?_, fun ho hex => ?_⟩
    · rintro rfl
      obtain ⟨es, d', k | k⟩ := a1 <;> (rw [b1] at k; cases k)
    · have e : (∃ es, res = .last es) ↔ ∃ es d, Selftest.run (Selftest.start map) ((SubCtx.readied (s.subs q).log).map (·.payload.data)) = .ok (.last es, d) := by
        constructor
        · rintro ⟨es, rfl⟩; exact ⟨es, d, b1⟩
        · rintro ⟨es, d', k⟩; rw [b1] at k; cases k; exact ⟨es, rfl⟩
      rw [e, a2 ho hex]
      constructor
      · intro g l hl hq hc
        have := g l.slot hc
        rw [part_given hr (ht.once _)] at this
        unfold delivered; rw [hq]; exact this
      · intro g i hi
        obtain ⟨l, hl, e1, e2, _⟩ := ht.link i hi
        rw [part_given hr (ht.once i)]
        have := g l hl e1 (by rw [e2]; exact hi)
        unfold delivered at this
        rw [e1, e2] at this; exact this
  · intro c es r hx he
    obtain ⟨calls, g1, g2, hn0, g3⟩ := TestSub.main_spec hx
    cases hy : TestSub.round es c r with
    | ok y => exact ⟨y, rfl⟩
    | error f =>
      exfalso
      rcases (TestSub.round_spec (map := map) g1 hn0 g3).2 hy with k | ⟨d, k1, k2⟩
      · rw [he] at k; cases k
      · rw [he] at k1
        have e : s.subs q = d := congrArg Prod.snd (Except.ok.inj k1)
        rw [← e] at k2
        obtain ⟨es', d', k3 | k3⟩ := a1 <;>
          (rw [show TestSub.contents (SubCtx.readied (s.subs q).log) = (SubCtx.readied (s.subs q).log).map (·.payload.data) from rfl, k3] at k2; cases k2)

/-- Specification: subscriber `q` is connected, all along the rounds, once, to publishers that have queued the packets of the self-test, multicast all of them while it was connected, and multicast nothing more; the first packet
to arrive was the first one queued; and the rounds are as many as needed. -/
structure Served (E : NetEnv) (T : Int) (s : Net) (segs : List (List NetOp)) (t : Net) (q : Nat) (node count : Nat → Nat) : Prop where
  range : ∀ i, SEv.complete i ∈ (t.subs q).log → node i < 4294967296 ∧ 0 < count i ∧ count i < 2147483647
  nodes : ∀ i j, SEv.complete i ∈ (t.subs q).log → SEv.complete j ∈ (t.subs q).log → node i = node j → i = j
  once : ∀ i, (t.subs q).log.count (.complete i) ≤ 1
  link : ∀ i, SEv.complete i ∈ (t.subs q).log → ∃ l ∈ s.links, ∃ m ∈ t.links, ∃ k, l.q = q ∧ l.slot = i ∧ m.q = q ∧ m.slot = i ∧ There E q i s segs.flatten ∧
    m.acc = some k ∧ m.err = false ∧ SubCtx.Up (t.subs q) i ∧
    work s l ≤ segs.length ∧ (∀ j, ∀ x ∈ (s.pubs l.p).pub.owedPkts j, x.2.2 + 100000 ≤ T) ∧ sentPkts (t.pubs l.p).pub.log = sentPkts (s.pubs l.p).pub.log ∧
    (queued t l.p).map (·.2.data) = Selftest.payloads (node i) (count i) 1 ∧ (∀ x ∈ queued t l.p, x.1 ∈ PubCtx.sentTo k (t.pubs l.p).pub.log) ∧ (arrived t m).head? = some 1

/-- C94: in every fair schedule the self-test with any number of publishers and subscribers ends successfully: the subscriber has been given exactly the packets of its publishers, of each one all, in order; its checks run over
them end the test successfully; so does its program, as soon as it has looked at them. -/
theorem C94_self_test {E : NetEnv} {n : Nat} {s0 s t : Net} {pre : List NetOp} {T : Int} {segs : List (List NetOp)} (hs : Start E n s0) (hr : run E s0 pre = some s)
    (hrd : Rounds E T s segs t) (hn : n + calls pre + calls segs.flatten + 1 < U64) {q : Nat} {node count : Nat → Nat} (hq : Served E T s segs t q node count)
    {map : List Bool} (hmap : ∀ j, map[j]? = some true ↔ ∃ i, SEv.complete i ∈ (t.subs q).log ∧ node i = j) (hex : ∃ i, SEv.complete i ∈ (t.subs q).log) :
    (∀ i, SEv.complete i ∈ (t.subs q).log → Selftest.part i (given (t.subs q)) = Selftest.payloads (node i) (count i) 1) ∧
    (∃ es d, Selftest.run (Selftest.start map) ((SubCtx.readied (t.subs q).log).map (·.payload.data)) = .ok (.last es, d)) ∧
    ∀ (mem : Nat → Conn) (nid : Nat) (x : SubCtx.ActRes) (rs : List TestSub.Round) (res : Selftest.Res), TestSub.main mem nid map x rs = .ok (res, t.subs q) → ∃ es, res = .last es := by
  have hrt : run E s0 (pre ++ segs.flatten) = some t := by rw [run_append, hr]; exact Rounds.run segs hrd
  obtain ⟨ops, hsub⟩ := ((NInv.start hs).run _ (by rw [calls_append]; omega) hrt).sub q
  have hall : ∀ i, SEv.complete i ∈ (t.subs q).log → Selftest.part i (given (t.subs q)) = Selftest.payloads (node i) (count i) 1 := by
    intro i hi
    obtain ⟨l, hl, m, hm, k, e1, e2, e3, e4, hth, hk, he, hu, hw, hT, hsent, hqd, hto, h1⟩ := hq.link i hi
    have := C93_the_same hs hr hrd hn hl hm (e3.trans e1.symm) (e4.trans e2.symm) (by rw [e1, e2]; exact hth) hw hT hsent hk he (by rw [e3, e4]; exact hu) hto (fun _ => h1)
    rw [part_given hsub (hq.once i), ← hqd, ← this]
    unfold delivered; rw [e3, e4]
  have hmix : Selftest.Mixed (fun i => SEv.complete i ∈ (t.subs q).log) node count (given (t.subs q)) :=
    ⟨fun x hx => by obtain ⟨p, hp, rfl⟩ := List.mem_map.1 hx; exact (hsub.oneOK p.slot).rdy p hp, hq.nodes, hq.range,
      fun i hi => by rw [hall i hi]⟩
  have hlast := ((Selftest.C94_verdict hmix (map := map) (fun i hi => (hmap _).2 ⟨i, hi, rfl⟩)).2 (fun j hj => (hmap j).1 hj) hex).2 hall
  rw [given_contents] at hlast
  refine ⟨hall, hlast, ?_⟩
  intro mem nid x rs res hres
  obtain ⟨-, d, b1, -, -⟩ := TestSub.C89_verdict hres
  obtain ⟨es, d', b2⟩ := hlast
  rw [b1] at b2; cases b2; exact ⟨es, rfl⟩

/-! ## Example: subscriber 0 is connected to both publishers; the packet of publisher 0 is lost in multicast, and that of publisher 1 comes twice -/

/-- The packet of publisher `p`, which is node `7 + p`. -/
def exManyPay (p : Nat) : Payload := ⟨1, (Selftest.sig (7 + p) 1 1).enc, false⟩
/-- The packet on a connection. -/
def exManyFrame (p : Nat) : List UInt8 := 1 :: ((PacketHeader.mk 1 (7 + p) 20 1 (2 + p)).enc ++ (Selftest.sig (7 + p) 1 1).enc)
/-- What the main loop of the test subscriber sees. -/
def exManyR : List TestSub.Round :=
  [⟨10, [], some [{ idx := MULTICAST_INDEX, rd := true, wr := false, rs := [exND 0 0 [] 1, exND 1 0 [] 1] }]⟩,
   ⟨20, [], some [{ idx := 1, rd := false, wr := true }, { idx := 0, rd := false, wr := true }]⟩,
   ⟨30, [], some [{ idx := MULTICAST_INDEX, rd := true, wr := false, rs := [exND 1 1 (Selftest.sig 8 1 1).enc 1000] }]⟩,
   ⟨40, [], some [{ idx := 1, rd := true, wr := false, rv := some (exManyFrame 1), ts := 1100 }, { idx := 0, rd := true, wr := false, rv := some (exManyFrame 0), ts := 1100 }]⟩]
/-- Nodes 7 and 8 are expected. -/
def exManyMap : List Bool := [false, false, false, false, false, false, false, true, true]
def exManyMain (rs : List TestSub.Round) : M (Selftest.Res × SubCtx) :=
  TestSub.main (fun _ => ⟨0, .none, none, 0, CircBuf.init (fun _ => 0) 1, CircBuf.init (fun _ => 0) 1, .closed, 0, 0⟩) 9 exManyMap (.ok 3) rs
/-- The network until both publishers have multicast their packets. -/
def exMany : List NetOp :=
  [.link 0 0 0, .link 1 0 1, .sub 0 (.write 0 (.ok 0) none (.ok 0)), .sub 0 (.write 1 (.ok 0) none (.ok 0)),
   .accept 0 0 0 (.ok 5 1) none, .accept 0 1 0 (.ok 6 1) none,
   .pub 0 (.queue (exManyPay 0) false), .pub 1 (.queue (exManyPay 1) false), .pub 0 (.writeMcast [⟨.ok 40, []⟩]), .pub 1 (.writeMcast [⟨.ok 40, []⟩]),
   .sub 0 (.readMcast [exND 1 1 (Selftest.sig 8 1 1).enc 1000]), .sub 0 (.dispatched 1)]
/-- One round of everybody. -/
def exManyRound : List NetOp :=
  [.pub 0 (.timeout 200000 none 0), .pub 0 (.write 0 (.ok 41)), .pub 1 (.timeout 200000 none 0), .pub 1 (.write 0 (.ok 41)), .subRead 0 0 41 1100, .subRead 0 1 41 1100]

/-- The network starts when the test subscriber has made its first round. -/
def manyAfter (P : Net → Net → Bool) : Bool :=
  match PubCtx.run (exNPub 0) Sys.exP, PubCtx.run (exNPub 1) Sys.exP, exManyMain (exManyR.take 1) with
  | .ok p, .ok p', .ok q =>
    decide (p.2.nodeId = 7 ∧ p.2.listenIp = 1 ∧ p.2.listenPort = 2 ∧ p'.2.nodeId = 8 ∧ p'.2.listenIp = 1 ∧ p'.2.listenPort = 3) &&
    (match run exN ⟨fun i => if i = 0 then p.2 else p'.2, fun _ => q.2, []⟩ exMany with
     | some s => match run exN s exManyRound with
       | some t => P s t
       | none => false
     | none => false)
  | _, _, _ => false

/-- The subscriber at the end of the round. -/
def manySub : Option SubCtx :=
  match PubCtx.run (exNPub 0) Sys.exP, PubCtx.run (exNPub 1) Sys.exP, exManyMain (exManyR.take 1) with
  | .ok p, .ok p', .ok q => (run exN ⟨fun i => if i = 0 then p.2 else p'.2, fun _ => q.2, []⟩ (exMany ++ exManyRound)).map fun t => t.subs 0
  | _, _, _ => none

theorem manySub_main : manySub = (exManyMain exManyR).toOption.map (·.2) := by
  run_tac do
    let g ← Lean.Elab.Tactic.getMainGoal
    let some (_, l, _) := (← g.getType).eq? | throwError "no equation"
    g.assign (← Lean.Meta.mkEqRefl l)

/-- The connection of slot `i` meets the hypotheses, but for those on the rounds. -/
def manyLink (s t : Net) (i : Nat) : Bool :=
  s.links.any fun l => t.links.any fun m => m.acc.toList.any fun k =>
    decide (l.q = 0 ∧ l.slot = i ∧ m.q = 0 ∧ m.slot = i ∧ m.err = false ∧ SubCtx.Up (t.subs 0) i ∧ work s l ≤ 123 ∧ l.p = i ∧
      sentPkts (t.pubs l.p).pub.log = sentPkts (s.pubs l.p).pub.log ∧ (queued t l.p).map (·.2.data) = Selftest.payloads (7 + i) 1 1 ∧
      (∀ x ∈ queued t l.p, x.1 ∈ PubCtx.sentTo k (t.pubs l.p).pub.log) ∧ (arrived t m).head? = some 1) && thereB exN 0 i s exManyRound

theorem manyLink_ok {s t : Net} {i : Nat} (h : manyLink s t i = true) : ∃ l ∈ s.links, ∃ m ∈ t.links, ∃ k, m.acc = some k ∧
    (l.q = 0 ∧ l.slot = i ∧ m.q = 0 ∧ m.slot = i ∧ m.err = false ∧ SubCtx.Up (t.subs 0) i ∧ work s l ≤ 123 ∧ l.p = i ∧
      sentPkts (t.pubs l.p).pub.log = sentPkts (s.pubs l.p).pub.log ∧ (queued t l.p).map (·.2.data) = Selftest.payloads (7 + i) 1 1 ∧
      (∀ x ∈ queued t l.p, x.1 ∈ PubCtx.sentTo k (t.pubs l.p).pub.log) ∧ (arrived t m).head? = some 1) ∧ There exN 0 i s exManyRound := by
  unfold manyLink at h
  obtain ⟨l, hl, h⟩ := List.any_eq_true.1 h
  obtain ⟨m, hm, h⟩ := List.any_eq_true.1 h
  obtain ⟨k, hk, h⟩ := List.any_eq_true.1 h
  rw [Bool.and_eq_true] at h
  exact ⟨l, hl, m, hm, k, Option.mem_toList.1 hk, of_decide_eq_true h.1, thereB_ok _ _ h.2⟩

/-- The connections the subscriber has set up are those of slots 0 and 1, once. -/
def manyOnce (c : SubCtx) : Bool :=
  decide (c.log.count (.complete 0) = 1 ∧ c.log.count (.complete 1) = 1) && c.log.all (fun e => match e with | .complete j => decide (j = 0 ∨ j = 1) | _ => true)

theorem manyOnce_ok {c : SubCtx} (h : manyOnce c = true) : (∀ i, SEv.complete i ∈ c.log ↔ i = 0 ∨ i = 1) ∧ ∀ i, c.log.count (.complete i) ≤ 1 := by
  unfold manyOnce at h
  rw [Bool.and_eq_true, decide_eq_true_eq] at h
  obtain ⟨⟨h0, h1⟩, h2⟩ := h
  have key : ∀ i, SEv.complete i ∈ c.log → i = 0 ∨ i = 1 := fun i hi => of_decide_eq_true (List.all_eq_true.1 h2 _ hi)
  refine ⟨fun i => ⟨key i, ?_⟩, fun i => ?_⟩
  · rintro (rfl | rfl)
    · exact List.count_pos_iff.1 (by omega)
    · exact List.count_pos_iff.1 (by omega)
  · by_cases hi : SEv.complete i ∈ c.log
    · rcases key i hi with rfl | rfl <;> omega
    · rw [List.count_eq_zero.2 hi]; omega

def manyCheck (s t : Net) : Bool :=
  manyOnce (t.subs 0) && manyLink s t 0 && manyLink s t 1 && idle t &&
  decide (∀ p ∈ ([0, 1] : List Nat), (s.pubs p).cv.size = 2 ∧ (t.pubs p).cv.size = 2 ∧
    (∀ j ∈ List.range 2, PubCtx.Connected (s.pubs p) j → PubCtx.Connected (t.pubs p) j) ∧ ∀ j ∈ List.range 2, ∀ x ∈ (s.pubs p).pub.owedPkts j, x.2.2 + 100000 ≤ 200000)

/-- The hypotheses of C94_self_test are met, by the program: its main loop is in the state of the end. -/
example : ∃ s0 s t res, Start exN 2 s0 ∧ run exN s0 exMany = some s ∧ Rounds exN 200000 s (exManyRound :: List.replicate 122 []) t ∧
    2 + calls exMany + calls (exManyRound :: List.replicate 122 []).flatten + 1 < U64 ∧
    Served exN 200000 s (exManyRound :: List.replicate 122 []) t 0 (fun i => 7 + i) (fun _ => 1) ∧
    (∀ j, exManyMap[j]? = some true ↔ ∃ i, SEv.complete i ∈ (t.subs 0).log ∧ 7 + i = j) ∧ (∃ i, SEv.complete i ∈ (t.subs 0).log) ∧
    exManyMain exManyR = .ok (res, t.subs 0) := by
  have hsub := manySub_main
  have h : manyAfter manyCheck = true := by decide +kernel
  unfold manyAfter at h
  unfold manySub at hsub
  cases hp : PubCtx.run (exNPub 0) Sys.exP with
  | error f => rw [hp] at h; cases h
  | ok p =>
    cases hp' : PubCtx.run (exNPub 1) Sys.exP with
    | error f => rw [hp, hp'] at h; cases h
    | ok p' =>
      cases hq : exManyMain (exManyR.take 1) with
      | error f => rw [hp, hp', hq] at h; cases h
      | ok q =>
        rw [hp, hp', hq] at h hsub
        obtain ⟨res0, q⟩ := q
        dsimp only at h hsub
        rw [Bool.and_eq_true, decide_eq_true_eq] at h
        obtain ⟨⟨h1, h2, h3, h4, h5, h6⟩, h⟩ := h
        cases hr : run exN ⟨fun i => if i = 0 then p.2 else p'.2, fun _ => q, []⟩ exMany with
        | none => rw [hr] at h; cases h
        | some s =>
          rw [hr] at h
          dsimp only at h
          cases ht : run exN s exManyRound with
          | none => rw [ht] at h; cases h
          | some t =>
            rw [ht] at h
            dsimp only at h
            rw [run_append, hr] at hsub
            rw [show (some s).bind (fun v => run exN v exManyRound) = some t from ht] at hsub
            obtain ⟨calls0, r1, _⟩ := TestSub.main_spec hq
            have hstart : Start exN 2 ⟨fun i => if i = 0 then p.2 else p'.2, fun _ => q, []⟩ := by
              have two : ∀ i, i < exN.np → i = 0 ∨ i = 1 := fun i hi => by have : i < 2 := hi; omega
              refine ⟨?_, ?_, ?_, fun _ => ⟨_, r1⟩, rfl⟩
              · intro i hi
                rcases two i hi with rfl | rfl
                · exact ⟨Sys.exP, ⟨_, 2, 7, 1, 2, p.1, by decide, by simp [Sys.exP, PubCtx.Op.sane], by decide, hp⟩,
                    by simp [Sys.exP, Sys.callOk], by decide⟩
                · exact ⟨Sys.exP, ⟨_, 2, 8, 1, 3, p'.1, by decide, by simp [Sys.exP, PubCtx.Op.sane], by decide, hp'⟩,
                    by simp [Sys.exP, Sys.callOk], by decide⟩
              · intro i hi
                rcases two i hi with rfl | rfl
                · dsimp only; rw [if_pos rfl, h1, h2, h3]; decide
                · dsimp only; rw [if_neg (by decide), h4, h5, h6]; decide
              · intro i j hi hj e
                unfold address at e
                rcases two i hi with rfl | rfl <;> rcases two j hj with rfl | rfl
                · rfl
                · have e2 : p.2.listenPort = p'.2.listenPort := congrArg Prod.snd e
                  rw [h3, h6] at e2; exact absurd e2 (by decide)
                · have e2 : p'.2.listenPort = p.2.listenPort := congrArg Prod.snd e
                  rw [h3, h6] at e2; exact absurd e2 (by decide)
                · rfl
            unfold manyCheck at h
            rw [Bool.and_eq_true, Bool.and_eq_true, Bool.and_eq_true, Bool.and_eq_true, decide_eq_true_eq] at h
            obtain ⟨⟨⟨⟨g1, g2⟩, g3⟩, g4⟩, g5⟩ := h
            obtain ⟨o1, o2⟩ := manyOnce_ok g1
            have hinv := (NInv.start hstart).run exMany (by decide) hr
            have two : ∀ i, i < 2 → i ∈ [0, 1] := by
              intro i hi
              rcases (show i = 0 ∨ i = 1 by omega) with rfl | rfl <;> decide
            have hc : ∀ p, p < 2 → ∀ j, PubCtx.Connected (s.pubs p) j → PubCtx.Connected (t.pubs p) j := by
              intro p hp j hj
              obtain ⟨c1, _, c3, _⟩ := g5 p (two p hp)
              exact c3 j (List.mem_range.2 (by have := hj.1; omega)) hj
            have howed : ∀ p, p < 2 → ∀ j, ∀ x ∈ (s.pubs p).pub.owedPkts j, x.2.2 + 100000 ≤ 200000 := by
              intro p hp j x hx
              obtain ⟨c1, _, _, c4⟩ := g5 p (two p hp)
              by_cases hj : j < 2
              · exact c4 j (List.mem_range.2 hj) x hx
              · exfalso
                obtain ⟨ops, q1, _, _⟩ := hinv.pub p hp
                obtain ⟨pops, L, g, _⟩ := q1.good
                rw [← Sys.owing_eq g j] at hx
                unfold PubCtx.owing at hx
                rw [if_neg (fun hc : PubCtx.Connected (s.pubs p) j => hj (c1 ▸ hc.1))] at hx
                cases hx
            have hflat : (exManyRound :: List.replicate 122 ([] : List NetOp)).flatten = exManyRound := by rfl
            have hlink : ∀ i, manyLink s t i = true → i < 2 → ∃ l ∈ s.links, ∃ m ∈ t.links, ∃ k, l.q = 0 ∧ l.slot = i ∧ m.q = 0 ∧ m.slot = i ∧
                There exN 0 i s (exManyRound :: List.replicate 122 []).flatten ∧ m.acc = some k ∧ m.err = false ∧ SubCtx.Up (t.subs 0) i ∧
                work s l ≤ (exManyRound :: List.replicate 122 ([] : List NetOp)).length ∧ (∀ j, ∀ x ∈ (s.pubs l.p).pub.owedPkts j, x.2.2 + 100000 ≤ 200000) ∧
                sentPkts (t.pubs l.p).pub.log = sentPkts (s.pubs l.p).pub.log ∧ (queued t l.p).map (·.2.data) = Selftest.payloads (7 + i) 1 1 ∧
                (∀ x ∈ queued t l.p, x.1 ∈ PubCtx.sentTo k (t.pubs l.p).pub.log) ∧ (arrived t m).head? = some 1 := by
              intro i hi hlt
              obtain ⟨l, hl, m, hm, k, hk, ⟨e1, e2, e3, e4, e5, e6, e7, e8, e9, e10, e11, e12⟩, e13⟩ := manyLink_ok hi
              exact ⟨l, hl, m, hm, k, e1, e2, e3, e4, by rw [hflat]; exact e13, hk, e5, e6, by simpa using e7, howed l.p (by omega), e9, e10, e11, e12⟩
            have hres : ∃ res, exManyMain exManyR = .ok (res, t.subs 0) := by
              cases hm : exManyMain exManyR with
              | error f => rw [hm] at hsub; cases hsub
              | ok y =>
                rw [hm] at hsub
                obtain ⟨res, c⟩ := y
                exact ⟨res, by rw [show c = t.subs 0 from (Option.some.inj hsub).symm]⟩
            obtain ⟨res, hres⟩ := hres
            refine ⟨_, s, t, res, hstart, hr, ⟨t, idle_round (fun p hp => (g5 p (two p hp)).1) hc g4 ht, idle_rounds (fun p hp => (g5 p (two p hp)).2.1) g4 122⟩, by decide +kernel,
              ⟨?_, ?_, o2, ?_⟩, ?_, ⟨0, (o1 0).2 (.inl rfl)⟩, hres⟩
            · intro i hi
              have := (o1 i).1 hi
              omega
            · intro i j _ _ e
              omega
            · intro i hi
              rcases (o1 i).1 hi with rfl | rfl
              · exact hlink 0 g2 (by decide)
              · exact hlink 1 g3 (by decide)
            · intro j
              constructor
              · intro hj
                have hlt : j < 9 := (List.getElem?_eq_some_iff.1 hj).1
                have : j = 7 ∨ j = 8 := by
                  revert hj
                  revert j
                  decide
                rcases this with rfl | rfl
                · exact ⟨0, (o1 0).2 (.inl rfl), rfl⟩
                · exact ⟨1, (o1 1).2 (.inr rfl), rfl⟩
              · rintro ⟨i, hi, rfl⟩
                rcases (o1 i).1 hi with rfl | rfl <;> rfl

/-- The hypotheses of C94_no_alarm are met before the round: the subscriber has been given the packet of publisher 1 only, so its test goes on. -/
example : ∃ s, Reached exN s ∧ Tested s 0 (fun i => 7 + i) (fun _ => 1) ∧ (∀ i, SEv.complete i ∈ (s.subs 0).log → exManyMap[7 + i]? = some true) ∧
    given (s.subs 0) = [(1, (Selftest.sig 8 1 1).enc)] ∧ ∃ es d, Selftest.run (Selftest.start exManyMap) ((given (s.subs 0)).map (·.2)) = .ok (.more es, d) := by
  obtain ⟨s, h1, h2⟩ := net_reached (ops := exMany) (P := fun s => manyOnce (s.subs 0) &&
    (List.range 2).all (fun i => s.links.any fun l => decide (l.q = 0 ∧ l.slot = i ∧ SubCtx.Up (s.subs 0) i ∧ (queued s l.p).map (·.2.data) = Selftest.payloads (7 + i) 1 1) &&
      (delivered s l).head?.all fun (x : SPkt) => decide (x.pid = 1)) && decide (given (s.subs 0) = [(1, (Selftest.sig 8 1 1).enc)])) (by decide) (by decide +kernel)
  rw [Bool.and_eq_true, Bool.and_eq_true, decide_eq_true_eq] at h2
  obtain ⟨⟨g1, g2⟩, g3⟩ := h2
  obtain ⟨o1, o2⟩ := manyOnce_ok g1
  refine ⟨s, h1, ⟨?_, ?_, o2, ?_⟩, ?_, g3, ?_⟩
  · intro i hi
    have := (o1 i).1 hi
    omega
  · intro i j _ _ e
    omega
  · intro i hi
    have hlt : i < 2 := by have := (o1 i).1 hi; omega
    obtain ⟨l, hl, e⟩ := List.any_eq_true.1 (List.all_eq_true.1 g2 i (List.mem_range.2 hlt))
    rw [Bool.and_eq_true, decide_eq_true_eq] at e
    obtain ⟨⟨e1, e2, e3, e4⟩, e5⟩ := e
    exact ⟨l, hl, e1, e2, e3, by rw [e4], e5⟩
  · intro i hi
    rcases (o1 i).1 hi with rfl | rfl <;> rfl
  · rw [g3]
    have : (match Selftest.run (Selftest.start exManyMap) [(Selftest.sig 8 1 1).enc] with | .ok (.more _, _) => true | _ => false) = true := by decide +kernel
    split at this
    · rename_i es d e; exact ⟨es, d, e⟩
    · cases this

end Net
end Rmc
