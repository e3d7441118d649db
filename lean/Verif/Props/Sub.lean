import Verif.SubLemmas

/-!
# Properties C33–C37 (and the core of C38): packets received from one publisher (sub.c)

The theorems quantify over every history (`List Op`) of arrivals — by multicast or as resends over TCP, in any
order, with any repetition and any loss — interleaved in any way with intervals being taken off for
acknowledgement. `arrivals ops` is the list of packets that arrived; `Hist.out` is everything handed to the
application's ready queue, in order; `Hist.acked` everything acknowledged.

Hypothesis: packet ids are those a publisher of this library assigns (C16): at least 1, and less than 2^64-1.
-/

set_option linter.unusedVariables false

namespace Rmc
namespace SubPub

/-- All packets arriving in a history carry ids a publisher can assign. -/
def Valid (ops : List Op) : Prop := ∀ a ∈ arrivals ops, 0 < a.1.pid ∧ a.1.pid + 1 < U64

instance (ops : List Op) : Decidable (Valid ops) := by unfold Valid; infer_instance

/-- The packet ids that have arrived. -/
def arrivedPids (ops : List Op) : List Nat := (arrivals ops).map (·.1.pid)

theorem hist {ops : List Op} (hv : Valid ops) {b : Nat} (hb : (arrivedPids ops).head? = some b) :
    HInv b (arrivals ops) (Hist.init.run ops) ∧ 0 < b := by
  have := HInv_run ops hv
  unfold arrivedPids at hb
  cases ha : arrivals ops with
  | nil => rw [ha] at hb; simp at hb
  | cons a as =>
    rw [ha] at this hb
    simp only [List.map_cons, List.head?_cons, Option.some.injEq] at hb
    subst hb
    exact ⟨this, (hv a (by rw [ha]; simp)).1⟩

theorem hist_nil {ops : List Op} (hv : Valid ops) (hb : arrivedPids ops = []) : Hist.init.run ops = Hist.init := by
  have := HInv_run ops hv
  unfold arrivedPids at hb
  have ha : arrivals ops = [] := by simpa using hb
  rw [ha] at this; exact this

/-- C33: what is handed to the application are consecutive packet ids, no gap, no repetition. -/
theorem C33_in_order {ops : List Op} (hv : Valid ops) :
    ∃ b n, (Hist.init.run ops).out.map (·.pid) = List.range' b n := by
  cases hb : (arrivedPids ops).head? with
  | none =>
    have : arrivedPids ops = [] := by simpa using hb
    rw [hist_nil hv this]
    exact ⟨0, 0, rfl⟩
  | some b =>
    obtain ⟨hi, _⟩ := hist hv hb
    obtain ⟨n, h1, _⟩ := hi.seq
    exact ⟨b, n, h1⟩

/-- C33: delivery is final: what has been handed over is never taken back or reordered by what happens later. -/
theorem C33_prefix (h : Hist) (ops : List Op) : h.out <+: (h.run ops).out := by
  induction ops generalizing h with
  | nil => exact List.prefix_refl _
  | cons op ops ih =>
    refine List.IsPrefix.trans ?_ (ih (h.step op))
    cases op with
    | arrive p m ts => exact List.prefix_append _ _
    | popIv =>
      simp only [Hist.step]
      split <;> exact List.prefix_refl _

/-- C34: a packet handed over is the first arrival with that id: same payload, same everything. -/
theorem C34_payload {ops : List Op} (hv : Valid ops) {x : SPkt} (hx : x ∈ (Hist.init.run ops).out) :
    ∃ before m ts after, arrivals ops = before ++ (x, m, ts) :: after ∧ ∀ a ∈ before, a.1.pid ≠ x.pid := by
  cases hb : (arrivedPids ops).head? with
  | none =>
    have : arrivedPids ops = [] := by simpa using hb
    rw [hist_nil hv this] at hx
    simp [Hist.init] at hx
  | some b =>
    obtain ⟨hi, _⟩ := hist hv hb
    have := hi.outFirst x hx
    cases hf : first x.pid (arrivals ops) with
    | none => rw [hf] at this; simp at this
    | some a =>
      rw [hf] at this
      simp only [Option.map_some, Option.some.injEq] at this
      obtain ⟨a1, m, ts⟩ := a
      simp only at this; subst this
      unfold first at hf
      rw [List.find?_eq_some_iff_append] at hf
      obtain ⟨_, as, bs, h1, h2⟩ := hf
      exact ⟨as, m, ts, bs, h1, fun y hy => by simpa using h2 y hy⟩

/-- C35: a packet that has arrived before changes nothing, wherever its first copy is now (waiting for a gap to be
filled, ready, dispatched, acknowledged), and hands over nothing. -/
theorem C35_duplicate {ops : List Op} (hv : Valid ops) {p : SPkt} (hp : p.pid ∈ arrivedPids ops) (m : Bool) (ts : Int) :
    (Hist.init.run ops).step (.arrive p m ts) = Hist.init.run ops ∧
    arrive (Hist.init.run ops).s p m ts = ((Hist.init.run ops).s, []) := by
  cases hb : (arrivedPids ops).head? with
  | none =>
    have : arrivedPids ops = [] := by simpa using hb
    rw [this] at hp; simp at hp
  | some b =>
    obtain ⟨hi, h0⟩ := hist hv hb
    have hd : isDuplicate (Hist.init.run ops).s p.pid = true := by
      rw [hi.dup h0]
      right
      intro hn
      rw [first_none] at hn
      obtain ⟨a, ha, he⟩ := List.mem_map.mp hp
      exact hn a ha he
    constructor
    · simp [Hist.step, arrive, hd]
    · simp [arrive, hd]

/-- C36: once all packets from the first one that arrived up to `p` have arrived, in whatever order, `p` has been
handed over; and nothing after a gap is.
Missing for the full property: packets older than the first one to arrive, see `C36_false`. -/
theorem C36_delivered_partial {ops : List Op} (hv : Valid ops) {b : Nat} (hb : (arrivedPids ops).head? = some b) (p : Nat) :
    p ∈ (Hist.init.run ops).out.map (·.pid) ↔ b ≤ p ∧ ∀ q, b ≤ q → q ≤ p → q ∈ arrivedPids ops := by
  obtain ⟨hi, h0⟩ := hist hv hb
  obtain ⟨n, h1, h2, h3⟩ := hi.seq
  have harr : ∀ q, q ∈ arrivedPids ops ↔ first q (arrivals ops) ≠ none := by
    intro q
    rw [ne_eq, first_none]
    unfold arrivedPids
    simp only [List.mem_map]
    grind
  rw [h1, List.mem_range'_1]
  constructor
  · rintro ⟨g1, g2⟩
    refine ⟨g1, fun q q1 q2 => ?_⟩
    have : q ∈ (Hist.init.run ops).out.map (·.pid) := by rw [h1, List.mem_range'_1]; omega
    obtain ⟨x, hx, rfl⟩ := List.mem_map.mp this
    rw [harr]
    intro hn
    have := hi.outFirst x hx
    rw [hn] at this; simp at this
  · rintro ⟨g1, g2⟩
    refine ⟨g1, ?_⟩
    by_cases hlt : p < b + n
    · exact hlt
    · exfalso
      have := (harr _).mp (g2 (b + n) (by omega) (by omega))
      cases hf : first (b + n) (arrivals ops) with
      | none => exact this hf
      | some a =>
        have hm := hi.wait (b + n) (by omega) a.1 (by rw [hf]; rfl)
        have := hi.gap a.1 hm
        rw [(first_some hf).1] at this
        omega

/-- C36 fails: a packet older than the first one to arrive is never handed over, whatever arrives. -/
theorem C36_older_dropped {ops : List Op} (hv : Valid ops) {b : Nat} (hb : (arrivedPids ops).head? = some b) {p : Nat}
    (hp : p < b) : p ∉ (Hist.init.run ops).out.map (·.pid) := by
  intro hc
  have := ((C36_delivered_partial hv hb p).mp hc).1
  omega

/-- A packet for the examples. -/
def exPkt (n : Nat) : SPkt := ⟨n, n, ⟨n, [UInt8.ofNat n], false⟩, 0⟩

/-- C36, witness: packets 1 and 2 are sent while subscribed and overtake each other on the network; both arrive, 1 is
never handed over. -/
theorem C36_false : ∃ ops, Valid ops ∧ arrivedPids ops = [2, 1] ∧ (Hist.init.run ops).out.map (·.pid) = [2] :=
  ⟨[.arrive (exPkt 2) true 5, .arrive (exPkt 1) true 6], by decide +kernel, by decide +kernel, by decide +kernel⟩

/-- C37: the intervals are sorted, disjoint and not adjacent; and the packets covered by the intervals still listed
together with those taken off are exactly the packets accepted by multicast (first copy by multicast, not older than
the first arrival), with no packet in both. -/
theorem C37_intervals {ops : List Op} (hv : Valid ops) {b : Nat} (hb : (arrivedPids ops).head? = some b) :
    (Hist.init.run ops).s.intervals.Pairwise (fun i j => i.last + 1 < j.first) ∧
    (∀ i ∈ (Hist.init.run ops).s.intervals, i.first ≤ i.last) ∧
    (∀ q, (covers (Hist.init.run ops).s.intervals q ∨ covers (Hist.init.run ops).acked q) ↔
      b ≤ q ∧ ∃ x ts, first q (arrivals ops) = some (x, true, ts)) ∧
    (∀ q, ¬ (covers (Hist.init.run ops).s.intervals q ∧ covers (Hist.init.run ops).acked q)) := by
  obtain ⟨hi, h0⟩ := hist hv hb
  exact ⟨hi.iv.1, fun i h => (hi.iv.2 i h).2.1, hi.ivEq, fun q h => hi.ivDisj q h.1 h.2⟩

/-- C37: each interval's timestamp is the earliest reception time of the packets it covers, if the clock does not go
backwards. -/
theorem C37_timestamps {ops : List Op} (hv : Valid ops) (hm : ((arrivals ops).map (·.2.2)).Pairwise (· ≤ ·)) :
    ∀ i ∈ (Hist.init.run ops).s.intervals,
      (∀ q, i.first ≤ q → q ≤ i.last → i.ts ≤ recvTs (arrivals ops) q) ∧
      ∃ q, i.first ≤ q ∧ q ≤ i.last ∧ recvTs (arrivals ops) q = i.ts := by
  suffices H : ∀ r : List Op, Valid r.reverse → ((arrivals r.reverse).map (·.2.2)).Pairwise (· ≤ ·) →
      IvTs (recvTs (arrivals r.reverse)) (Hist.init.run r.reverse).s.intervals by
    have := H ops.reverse
    rw [List.reverse_reverse] at this
    exact this hv hm
  intro r
  induction r with
  | nil => intro _ _ i hi; simp [Hist.init, Hist.run, SubPub.init] at hi
  | cons op r ih =>
    intro hv hm
    rw [List.reverse_cons] at hv hm ⊢
    have har : arrivals (r.reverse ++ [op]) = arrivals r.reverse ++ arrivals [op] := by
      unfold arrivals; rw [List.filterMap_append]
    have hrun : Hist.init.run (r.reverse ++ [op]) = (Hist.init.run r.reverse).step op := by
      unfold Hist.run; rw [List.foldl_append]; rfl
    unfold Valid at hv
    rw [har] at hv hm ⊢
    rw [hrun]
    have hv0 : Valid r.reverse := fun a ha => hv a (by simp [ha])
    rw [List.map_append, List.pairwise_append] at hm
    have ih' := ih hv0 hm.1
    cases op with
    | popIv =>
      have : arrivals [Op.popIv] = [] := rfl
      rw [this, List.append_nil]
      exact HTs_pop ih'
    | arrive p m ts =>
      have : arrivals [Op.arrive p m ts] = [(p, m, ts)] := rfl
      rw [this] at hv hm ⊢
      cases hb : (arrivedPids r.reverse).head? with
      | none =>
        have hn : arrivedPids r.reverse = [] := by simpa using hb
        rw [hist_nil hv0 hn]
        have ha : arrivals r.reverse = [] := by unfold arrivedPids at hn; simpa using hn
        rw [ha, List.nil_append]
        have hvp := hv (p, m, ts) (by simp)
        have hi := HInv_first (p := p) (m := m) (ts := ts) hvp
        have hint : (Hist.init.step (.arrive p m ts)).s.intervals = if m then [⟨p.pid, p.pid, ts⟩] else [] := by
          have e : isDuplicate Hist.init.s p.pid = false := rfl
          simp only [Hist.step, arrive, e, Bool.false_eq_true, if_false]
          rw [process_intervals]
          cases m <;> rfl
        rw [hint]
        cases m
        · intro i hi; simp at hi
        · intro i hi
          simp only [if_true, List.mem_singleton] at hi
          subst hi
          have hr : recvTs [(p, true, ts)] p.pid = ts := by unfold recvTs first; simp
          refine ⟨fun q h1 h2 => ?_, p.pid, Nat.le_refl _, Nat.le_refl _, hr⟩
          have : q = p.pid := by simp only at h1 h2; omega
          subst this; rw [hr]; exact Int.le_refl _
      | some b =>
        obtain ⟨hi, h0⟩ := hist hv0 hb
        refine HTs_arrive h0 hi ih' (hv (p, m, ts) (by simp)) ?_
        intro a ha
        exact hm.2.2 a.2.2 (List.mem_map.mpr ⟨a, ha, rfl⟩) ts (by simp)

/-- C38 for the record of one publisher: what is taken off to be acknowledged has been received by multicast. -/
theorem C38_core {ops : List Op} (hv : Valid ops) {q : Nat} (h : covers (Hist.init.run ops).acked q) :
    ∃ a ∈ arrivals ops, a.1.pid = q ∧ a.2.1 = true := by
  cases hb : (arrivedPids ops).head? with
  | none =>
    have : arrivedPids ops = [] := by simpa using hb
    rw [hist_nil hv this] at h
    exact absurd h (by unfold covers; simp [Hist.init])
  | some b =>
    obtain ⟨hi, _⟩ := hist hv hb
    obtain ⟨_, x, ts, hf⟩ := (hi.ivEq q).mp (Or.inr h)
    have := first_some hf
    exact ⟨_, this.2, this.1, rfl⟩

/-! ## Non-vacuity -/

/-- A history with loss, reordering, duplication and a resend: packets 5, 7, 8 by multicast, an acknowledgement,
5 again, 6 over TCP, then 7 again and 10. -/
def exOps : List Op :=
  [.arrive (exPkt 5) true 1, .arrive (exPkt 7) true 2, .arrive (exPkt 8) true 3, .popIv, .arrive (exPkt 5) true 4,
   .arrive (exPkt 6) false 5, .arrive (exPkt 7) false 6, .arrive (exPkt 10) true 7]

/-- The hypotheses of C33–C38 hold of it: 5–8 are delivered in order, 10 waits, 5 has been acknowledged, 7–8 and 10
are listed. -/
example : Valid exOps ∧ (arrivedPids exOps).head? = some 5 ∧ ((arrivals exOps).map (·.2.2)).Pairwise (· ≤ ·) ∧
    (Hist.init.run exOps).out.map (·.pid) = [5, 6, 7, 8] ∧
    (Hist.init.run exOps).s.received.map (·.pid) = [10] ∧
    (Hist.init.run exOps).s.intervals = [⟨7, 8, 2⟩, ⟨10, 10, 7⟩] ∧ (Hist.init.run exOps).acked = [⟨5, 5, 1⟩] ∧
    7 ∈ arrivedPids exOps := by decide +kernel

/-- The restriction on packet ids is needed: a peer that resends packet 0 over TCP has it delivered every time, and
packets after a gap delivered too. -/
theorem C33_pid_zero_false :
    (Hist.init.run [.arrive (exPkt 0) false 1, .arrive (exPkt 0) false 2, .arrive (exPkt 5) true 3,
      .arrive (exPkt 0) false 4]).out.map (·.pid) = [0, 0, 5] := by decide +kernel

end SubPub
end Rmc
