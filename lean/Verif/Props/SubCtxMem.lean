import Verif.Props.SubCtxDeliver

/-!
# C41, C42: payload memory and dispatch bookkeeping of the subscriber

`born log` are the packets payload memory was allocated for, `released log` the addresses given back or handed to the
user by the keep-payload call, in order.
-/

namespace Rmc
namespace SubCtx
open SubPub CircBuf ConnVec

/-! ## C41: each payload is released at most once, and none is lost -/

/-- C41: no payload address is allocated twice, none is freed or handed over (or both) twice, and only what was allocated is. -/
theorem C41_once_partial {ops : List Op} {c : SubCtx} (h : Reaches ops c) :
    ((born c.log).map (·.payload.ptr)).Nodup ∧ (released c.log).Nodup ∧
    ∀ a ∈ released c.log, a ∈ (born c.log).map (·.payload.ptr) := by
  have hm := h.inv.mem
  have e : (born c.log).map (·.payload.ptr) = (born c.log).map (·.addr) :=
    List.map_congr_left fun p hp => hm.ptr p hp
  rw [e, hm.addrs]
  exact ⟨List.nodup_range', hm.relND, by rw [← hm.addrs]; exact hm.rel⟩

/-- C41: a packet the user can still get at (in the ready list) has not been released. -/
theorem C41_ready_live {ops : List Op} {c : SubCtx} (h : Reaches ops c) :
    ∀ p ∈ c.ready, p ∈ born c.log ∧ p.payload.ptr ∉ released c.log := by
  intro p hp
  have := h.inv.mem.rdy p hp
  exact ⟨this.1, by rw [h.inv.mem.ptr p this.1]; exact this.2⟩

/-- Every deactivation in the history finds the ready list empty. -/
def Drained : SubCtx → List Op → Prop
  | _, [] => True
  | c, op :: ops => (op = .deactivate → c.ready = []) ∧ ∀ r c', step c op = .ok (r, c') → Drained c' ops

theorem NoLeak.step {c c' : SubCtx} {op : Op} {r : Nat} (hi : Inv c) (hn : NoLeak c) (hd : op = .deactivate → c.ready = [])
    (hs : SubCtx.step c op = .ok (r, c')) : NoLeak c' := by
  have go : ∀ {a b : SubCtx} {tm : Nat}, Steps tm a b → Inv a → NoLeak a → NoLeak b := fun st ia na =>
    (Steps.both (P := fun c => Core c ∧ MemOK c) (Q := NoLeak) (fun _ _ m h => ⟨h.1.micro m, h.2.micro m h.1⟩)
      (fun _ _ m h1 h2 => h2.micro m h1.1 h1.2) st ⟨ia.core, ia.mem⟩ na).2
  rcases step_cases hi.core hi.mem hs with st | ⟨e, st⟩
  · exact go st hi hn
  · refine go st hi.forget ?_
    intro p hp
    rcases hn p hp with h | h | h
    · exact .inl h
    · rw [hd e] at h; cases h
    · exact .inr (.inr h)

/-- C41: if every deactivation in the history finds the ready list empty, no payload is lost: each one allocated has been
released, is in the ready list or waits for a missing packet. -/
theorem C41_none_lost_partial {mem : Nat → Conn} {n nid : Nat} (hn : n ≤ LISTEN_INDEX) {ops : List Op} {rs : List Nat} {c : SubCtx}
    (hr : run (init mem n nid) ops = .ok (rs, c)) (hd : Drained (init mem n nid) ops) :
    ∀ p ∈ born c.log, p.payload.ptr ∈ released c.log ∨ p ∈ c.ready ∨ Waiting c p := by
  have key : ∀ (ops : List Op) (c0 : SubCtx) (rs : List Nat), Inv c0 → NoLeak c0 → run c0 ops = .ok (rs, c) → Drained c0 ops →
      Inv c ∧ NoLeak c := by
    intro ops
    induction ops with
    | nil => intro c0 rs hi hl h _; cases h; exact ⟨hi, hl⟩
    | cons op ops ih =>
      intro c0 rs hi hl h hd
      rw [run_cons] at h
      obtain ⟨⟨r, c1⟩, h1, h⟩ := bind_ok h
      obtain ⟨⟨x, c2⟩, h2, h⟩ := bind_ok h
      cases h
      exact ih c1 x (hi.step h1) (hl.step hi hd.1 h1) h2 (hd.2 r c1 h1)
  obtain ⟨hi, hl⟩ := key ops _ rs (Inv_init mem n nid hn) (by intro p hp; cases hp) hr hd
  intro p hp
  rw [hi.mem.ptr p hp]
  exact hl p hp

theorem deactivate_ready {c c' : SubCtx} {r : Nat} (hm : MemOK c) (h : deactivate c = .ok (r, c')) : c'.ready = [] := by
  unfold deactivate at h
  dsimp only at h
  rw [popReady_eq _ _ hm.rdyAddr] at h
  obtain ⟨c1, h1, h⟩ := bind_ok h
  cases h
  have key : ∀ (l : List Nat) {a b : SubCtx}, closeAll a l = .ok b → b.ready = a.ready := by
    intro l
    induction l with
    | nil => intro a b h; cases h; rfl
    | cons i is ih =>
      intro a b h
      unfold closeAll at h
      split at h
      · exact ih h
      · obtain ⟨⟨r, a1⟩, h1, h⟩ := bind_ok h
        rw [ih h]
        unfold closeConnection at h1
        dsimp only at h1
        split at h1
        · cases h1
        · obtain ⟨s, hs, h1⟩ := bind_ok h1
          cases h1; rfl
  exact key _ h1

/-- C41: after a deactivation that finds the ready list empty, in a history in which all do, no payload is left: each one
allocated has been released. -/
theorem C41_deactivated_partial {mem : Nat → Conn} {n nid : Nat} (hn : n ≤ LISTEN_INDEX) {ops : List Op} {rs : List Nat} {c c' : SubCtx}
    {r : Nat} (hr : run (init mem n nid) ops = .ok (rs, c)) (hd : Drained (init mem n nid) ops) (hready : c.ready = [])
    (hs : step c .deactivate = .ok (r, c')) : ∀ p ∈ born c'.log, p.payload.ptr ∈ released c'.log := by
  have h : Reaches ops c := ⟨rs, mem, n, nid, hn, hr⟩
  have hl : NoLeak c := by
    intro p hp
    rw [← h.inv.mem.ptr p hp]; exact C41_none_lost_partial hn hr hd p hp
  have hi' := h.inv.step hs
  have hl' : NoLeak c' := hl.step h.inv (fun _ => hready) hs
  have hcl := (deactivate_closed h.inv.core h.inv.mem hs).1
  have hrd : c'.ready = [] := deactivate_ready h.inv.mem hs
  intro p hp
  rw [hi'.mem.ptr p hp]
  rcases hl' p hp with h1 | h1 | ⟨i, s, h1, h2⟩
  · exact h1
  · rw [hrd] at h1; cases h1
  · rw [(hi'.core.idle i s h1 (notUp_of_find hcl i)).1] at h2; cases h2

/-- A history that meets the hypotheses of the theorems above: packets 5 and 7 come in, 5 is dispatched, then deactivation
frees 7, which waits for 6. -/
example : ∃ c rs, Reaches (exUp ++ [.readMcast [exDg 4 5 [50] 1000, exDg 4 7 [70] 1100], .dispatched 1]) c ∧
    run exS0 (exUp ++ [.readMcast [exDg 4 5 [50] 1000, exDg 4 7 [70] 1100], .dispatched 1]) = .ok (rs, c) ∧
    decide (rs = [0, 0, 0, 0, 0] ∧ c.ready = [] ∧ (born c.log).map (·.pid) = [5, 7] ∧ released c.log = [1] ∧
      afterStep c .deactivate (fun r c' => decide (r = 0 ∧ released c'.log = [1, 2])) = true) = true :=
  reaches_of (P := fun rs c => decide _) (by decide +kernel)

example (c : SubCtx) (ops : List Op) (h : .deactivate ∉ ops) : Drained c ops := by
  induction ops generalizing c with
  | nil => trivial
  | cons op ops ih =>
    rw [List.mem_cons, not_or] at h
    exact ⟨fun e => absurd e.symm h.1, fun _ c' _ => ih c' h.2⟩

/-- C41, what is missing: packet 5 comes in and the context is deactivated: its payload is never released, and the user cannot
get at it any more. -/
theorem C41_false : ∃ ops c, Reaches ops c ∧ (∃ p ∈ born c.log, p.pid = 5 ∧ p.payload.ptr ∉ released c.log) ∧ c.ready = [] ∧
    (∀ p, ¬ Waiting c p) ∧ c.mcast = none := by
  obtain ⟨c, rs, h1, h2, h3⟩ := reaches_of (ops := exUp ++ [.readMcast [exDg 4 5 [50] 1000], Op.deactivate])
    (P := fun rs c => decide ((born c.log).map (·.pid) = [5] ∧ released c.log = [] ∧ c.ready = [] ∧ c.mcast = none ∧ c.cv.size = 2 ∧
      ((c.publishers 0).map (·.received)).getD [] = [] ∧ ((c.publishers 1).map (·.received)).getD [] = [])) (by decide +kernel)
  obtain ⟨g1, g2, g3, g4, g5, g6, g7⟩ := of_decide_eq_true h3
  refine ⟨_, c, h1, ?_, g3, ?_, g4⟩
  · have : 5 ∈ (born c.log).map (·.pid) := by rw [g1]; simp
    obtain ⟨p, hp, e⟩ := List.mem_map.1 this
    exact ⟨p, hp, e, by rw [g2]; simp⟩
  · rintro p ⟨i, s, hs, hp⟩
    have hi := h1.inv.core.recLt i s hs
    rw [g5] at hi
    have : i = 0 ∨ i = 1 := by omega
    rcases this with rfl | rfl
    · rw [hs] at g6; have g6 : s.received = [] := g6; rw [g6] at hp; cases hp
    · rw [hs] at g7; have g7 : s.received = [] := g7; rw [g7] at hp; cases hp

/-! ## C42: marking packets dispatched -/

/-- C42: marking a packet of the ready list dispatched removes exactly that packet from the list and frees its payload, nothing
else changes; with the keep-payload call the payload is handed over instead. -/
theorem C42_dispatched {ops : List Op} {c : SubCtx} (h : Reaches ops c) {p : SPkt} (hp : p ∈ c.ready) :
    step c (.dispatched p.addr) = .ok (0, { c with ready := c.ready.erase p, log := c.log ++ [.free p.payload.ptr p.payload.data.length .ctx] }) ∧
    step c (.keep p.addr) = .ok (0, { c with ready := c.ready.erase p, log := c.log ++ [.keep p.payload.ptr] }) ∧
    p ∉ c.ready.erase p := by
  have hm := h.inv.mem
  cases ht : takeReady p.addr c.ready with
  | none => exact absurd rfl (takeReady_none.1 ht p hp)
  | some r =>
    obtain ⟨q, ps⟩ := r
    obtain ⟨h1, xs, ys, h2, h3, h4⟩ := takeReady_spec ht
    have hq : q = p := hm.inj (hm.rdy q (by rw [h2]; simp)).1 (hm.rdy p hp).1 h1
    subst hq
    have he : ps = c.ready.erase q := by
      have : q ∉ xs := fun hx => h4 q hx rfl
      rw [h2, h3, List.erase_append_right _ this, List.erase_cons_head]
    refine ⟨?_, ?_, ?_⟩
    · show Except.ok (dispatched c q.addr) = _
      unfold dispatched; rw [ht]; dsimp only; rw [he]; rfl
    · show Except.ok (dispatchedKeep c q.addr) = _
      unfold dispatchedKeep; rw [ht]; dsimp only; rw [he]; rfl
    · rw [List.Nodup.mem_erase_iff hm.rdyND]; exact fun e => e.1 rfl

/-- C42: for a packet not in the list the calls return ENOENT and change nothing. -/
theorem C42_unknown (c : SubCtx) {a : Nat} (ha : ∀ p ∈ c.ready, p.addr ≠ a) :
    step c (.dispatched a) = .ok (ENOENT, c) ∧ step c (.keep a) = .ok (ENOENT, c) := by
  have := takeReady_none.2 ha
  constructor
  · show Except.ok (dispatched c a) = _
    unfold dispatched; rw [this]
  · show Except.ok (dispatchedKeep c a) = _
    unfold dispatchedKeep; rw [this]

/-- C42: marking a packet twice: the second call returns ENOENT and changes nothing. -/
theorem C42_once {ops : List Op} {c c' : SubCtx} (h : Reaches ops c) {a : Nat} {op op' : Op}
    (ho : op = .dispatched a ∨ op = .keep a) (ho' : op' = .dispatched a ∨ op' = .keep a) (hs : step c op = .ok (0, c')) :
    step c' op' = .ok (ENOENT, c') := by
  have hm := h.inv.mem
  have hne : ∀ p ∈ c'.ready, p.addr ≠ a := by
    by_cases hp : ∃ p ∈ c.ready, p.addr = a
    · obtain ⟨p, hp, rfl⟩ := hp
      obtain ⟨g1, g2, g3⟩ := C42_dispatched h hp
      have hr : c'.ready = c.ready.erase p := by
        rcases ho with rfl | rfl
        · rw [g1] at hs; cases hs; rfl
        · rw [g2] at hs; cases hs; rfl
      intro q hq e
      rw [hr, List.Nodup.mem_erase_iff hm.rdyND] at hq
      exact hq.1 (hm.inj (hm.rdy q hq.2).1 (hm.rdy p hp).1 e)
    · have := C42_unknown c (a := a) (fun p h1 h2 => hp ⟨p, h1, h2⟩)
      rcases ho with rfl | rfl
      · rw [this.1] at hs; cases hs
      · rw [this.2] at hs; cases hs
  have := C42_unknown c' hne
  rcases ho' with rfl | rfl
  · exact this.1
  · exact this.2

/-- C42: the ready count is the number of packets made ready and not yet marked dispatched, and the next one handed out is the
first of them (without deactivation, which forgets them). -/
theorem C42_count {ops : List Op} {c : SubCtx} (h : Reaches ops c) (hd : .deactivate ∉ ops) :
    readyCount c = ((readied c.log).filter fun p => decide (p.payload.ptr ∉ released c.log)).length ∧
    nextReady c = (readied c.log).find? fun p => decide (p.payload.ptr ∉ released c.log) := by
  have hr := h.rdyOK hd
  have e : (readied c.log).filter (fun p => decide (p.payload.ptr ∉ released c.log)) =
      (readied c.log).filter (fun p => decide (p.addr ∉ released c.log)) :=
    List.filter_congr fun p hp => by rw [h.inv.mem.ptr p (hr.born p hp)]
  unfold readyCount nextReady
  refine ⟨by rw [e, ← hr.eq], ?_⟩
  rw [← List.head?_filter, e, ← hr.eq]

/-- After `exHist` four packets are ready; the second can be marked, once. -/
example : ∃ c rs, Reaches exHist c ∧ run exS0 exHist = .ok (rs, c) ∧
    decide (readyCount c = 4 ∧ (nextReady c).map (·.pid) = some 5 ∧ c.ready.map (·.addr) = [1, 4, 2, 3] ∧
      afterStep c (.dispatched 4) (fun r c' => decide (r = 0 ∧ c'.ready.map (·.pid) = [5, 7, 8] ∧
        afterStep c' (.keep 4) (fun r _ => decide (r = ENOENT)) = true)) = true) = true :=
  reaches_of (P := fun rs c => decide _) (by decide +kernel)

end SubCtx
end Rmc
