import Verif.SubCtxSteps

/-! What holds after any history of calls on a subscriber context. -/

set_option linter.unusedSimpArgs false
set_option linter.unusedVariables false

namespace Rmc
namespace SubCtx
variable {tm : Nat}
open SubPub CircBuf ConnVec

/-- Specification: `c` is the subscriber context after the API calls `ops`, none of which was undefined behaviour, on a
newly initialised context with at most `LISTEN_INDEX` connection slots. `rs` are the return codes. -/
def ReachesR (ops : List Op) (rs : List Nat) (c : SubCtx) : Prop :=
  ∃ mem n nid, n ≤ LISTEN_INDEX ∧ run (init mem n nid) ops = .ok (rs, c)

/-- The same without the return codes. -/
def Reaches (ops : List Op) (c : SubCtx) : Prop := ∃ rs, ReachesR ops rs c

theorem run_cons (c : SubCtx) (op : Op) (ops : List Op) :
    run c (op :: ops) = step c op >>= fun r => run r.2 ops >>= fun x => .ok (r.1 :: x.1, x.2) := rfl

theorem run_snoc {c c1 c2 : SubCtx} {ops : List Op} {rs : List Nat} {op : Op} {r : Nat}
    (h : run c ops = .ok (rs, c1)) (h1 : step c1 op = .ok (r, c2)) : run c (ops ++ [op]) = .ok (rs ++ [r], c2) := by
  induction ops generalizing c rs with
  | nil =>
    cases h
    rw [List.nil_append, run_cons, h1]; rfl
  | cons o ops ih =>
    rw [run_cons] at h
    obtain ⟨⟨r0, c0⟩, h2, h⟩ := bind_ok h
    obtain ⟨⟨rs', c1'⟩, h3, h⟩ := bind_ok h
    cases h
    rw [List.cons_append, run_cons, h2]
    show (run c0 (ops ++ [op]) >>= _) = _
    rw [ih h3]; rfl

theorem run_snoc_inv {c c2 : SubCtx} {ops : List Op} {rs : List Nat} {op : Op}
    (h : run c (ops ++ [op]) = .ok (rs, c2)) :
    ∃ rs' r c1, run c ops = .ok (rs', c1) ∧ step c1 op = .ok (r, c2) ∧ rs = rs' ++ [r] := by
  induction ops generalizing c rs with
  | nil =>
    rw [List.nil_append, run_cons] at h
    obtain ⟨⟨r, c1⟩, h1, h⟩ := bind_ok h
    cases h
    exact ⟨[], r, c, rfl, h1, rfl⟩
  | cons o ops ih =>
    rw [List.cons_append, run_cons] at h
    obtain ⟨⟨r0, c0⟩, h2, h⟩ := bind_ok h
    obtain ⟨⟨rs', c1'⟩, h3, h⟩ := bind_ok h
    have hh := Prod.mk.inj (Except.ok.inj h)
    obtain ⟨e1, e2⟩ := hh
    dsimp only at e1 e2 h3
    rw [e2] at h3
    obtain ⟨rs'', r, c1, q1, q2, q3⟩ := ih h3
    rw [← e1]
    refine ⟨r0 :: rs'', r, c1, ?_, q2, by simp [q3]⟩
    rw [run_cons, h2]
    show (run c0 ops >>= _) = _
    rw [q1]; rfl

theorem Reaches.snoc {ops : List Op} {op : Op} {c c' : SubCtx} {r : Nat} (h : Reaches ops c)
    (h1 : step c op = .ok (r, c')) : Reaches (ops ++ [op]) c' := by
  obtain ⟨rs, mem, n, nid, hn, h⟩ := h
  exact ⟨_, mem, n, nid, hn, run_snoc h h1⟩

/-- Induction over histories. -/
theorem Reaches.induct {P : List Op → SubCtx → Prop} (h0 : ∀ mem n nid, n ≤ LISTEN_INDEX → P [] (init mem n nid))
    (h1 : ∀ ops c op r c', Reaches ops c → P ops c → step c op = .ok (r, c') → P (ops ++ [op]) c')
    {ops : List Op} {c : SubCtx} (h : Reaches ops c) : P ops c := by
  obtain ⟨rs, mem, n, nid, hn, h⟩ := h
  obtain ⟨k, hk⟩ : ∃ k, ops.length = k := ⟨_, rfl⟩
  induction k generalizing ops c rs with
  | zero => rw [List.length_eq_zero_iff.1 hk] at h ⊢; cases h; exact h0 _ _ _ hn
  | succ k ih =>
    rcases List.eq_nil_or_concat ops with rfl | ⟨ops', op, rfl⟩
    · simp at hk
    · simp only [List.concat_eq_append] at *
      obtain ⟨rs', r, c1, q1, q2, q3⟩ := run_snoc_inv h
      exact h1 _ _ _ _ _ ⟨rs', mem, n, nid, hn, q1⟩ (ih rs' q1 (by simp at hk; omega)) q2

/-! ## The invariants -/

theorem HistOK_init (mem : Nat → Conn) (n nid : Nat) : HistOK (init mem n nid) := by
  intro i hu; exact absurd hu.2 (by simp [init, ConnVec.init, resetConn])

theorem StrmOK_init (mem : Nat → Conn) (n nid : Nat) : StrmOK (init mem n nid) := by
  intro i hu; exact absurd hu.2 (by simp [init, ConnVec.init, resetConn])

theorem Steps.both {P Q : SubCtx → Prop} (hP : ∀ a b, Micro tm a b → P a → P b)
    (hQ : ∀ a b, Micro tm a b → P a → Q a → Q b) {a b : SubCtx} (h : Steps tm a b) (hp : P a) (hq : Q a) : P b ∧ Q b :=
  Steps.inv (P := fun c => P c ∧ Q c) (fun a b m h => ⟨hP a b m h.1, hQ a b m h.1 h.2⟩) h ⟨hp, hq⟩

/-- The invariants that hold between calls whatever the history. -/
structure Inv (c : SubCtx) : Prop where
  core : Core c
  hist : HistOK c
  strm : StrmOK c
  mem : MemOK c

theorem Inv.micro {c c' : SubCtx} (m : Micro tm c c') (h : Inv c) : Inv c' :=
  ⟨h.core.micro m, h.hist.micro m h.core, h.strm.micro m h.core, h.mem.micro m h.core⟩

theorem Inv.steps {c c' : SubCtx} (m : Steps tm c c') (h : Inv c) : Inv c' := Steps.inv (fun _ _ m h => Inv.micro m h) m h

theorem Inv.forget {c : SubCtx} (h : Inv c) : Inv (SubCtx.forget c) := by
  refine ⟨h.core.forget, h.hist, h.strm, ?_⟩
  obtain ⟨h1, h2, h3, h4, h5, h6, h7, h8, h9⟩ := h.mem
  refine ⟨h1, h2, h3, List.nodup_nil, ?_, h6, ?_, h8, h9⟩
  · intro p hp; cases hp
  · intro p hp
    obtain ⟨q1, q2, q3⟩ := h7 p hp
    exact ⟨q1, (by intro h; cases h), q3⟩

theorem Inv_init (mem : Nat → Conn) (n nid : Nat) (hn : n ≤ LISTEN_INDEX) : Inv (init mem n nid) :=
  ⟨Core_init mem n nid hn, HistOK_init mem n nid, StrmOK_init mem n nid, MemOK_init mem n nid⟩

theorem Inv.step {c c' : SubCtx} {op : Op} {r : Nat} (hi : Inv c) (h : step c op = .ok (r, c')) : Inv c' := by
  rcases step_cases hi.core hi.mem h with h | ⟨_, h⟩
  · exact hi.steps h
  · exact hi.forget.steps h

theorem Reaches.inv {ops : List Op} {c : SubCtx} (h : Reaches ops c) : Inv c :=
  Reaches.induct (P := fun _ c => Inv c) (fun mem n nid hn => Inv_init mem n nid hn)
    (fun _ _ _ _ _ _ hi hs => hi.step hs) h

/-! ## After deactivation no connection is left -/

theorem closedAt_find {c : SubCtx} (hc : Core c) {i j : Nat} {s : SubPub} (h : j = i ∨ findByIndex c.cv j = none) :
    findByIndex (closedAt c i s).cv j = none := by
  obtain ⟨L, hL⟩ := hc.v
  show findByIndex (ConnVec.close c.cv i).2 j = none
  by_cases hi : i ∈ L
  · obtain ⟨-, q2, -⟩ := (close_spec hL i).1 hi
    rw [findByIndex_spec q2]
    rw [findByIndex_spec hL] at h
    rw [if_neg]
    intro hj
    rw [List.Nodup.mem_erase_iff hL.nodup] at hj
    rcases h with h | h
    · exact hj.1 h
    · rw [if_pos hj.2] at h; cases h
  · rw [((close_spec hL i).2 hi).2]
    rcases h with rfl | h
    · rw [findByIndex_spec hL, if_neg hi]
    · exact h

theorem closeAll_none : ∀ (l : List Nat) {c c' : SubCtx}, Core c → closeAll c l = .ok c' →
    ∀ j, j ∈ l ∨ findByIndex c.cv j = none → findByIndex c'.cv j = none := by
  intro l
  induction l with
  | nil => intro c c' hc h j hj; cases h; exact hj.resolve_left (by simp)
  | cons i is ih =>
    intro c c' hc h j hj
    unfold closeAll at h
    split at h
    · rename_i hn
      refine ih hc h j ?_
      rcases hj with hj | hj
      · rcases List.mem_cons.1 hj with rfl | hj
        · exact .inr hn
        · exact .inl hj
      · exact .inr hj
    · obtain ⟨⟨r, c1⟩, h1, h⟩ := bind_ok h
      obtain ⟨_, s, hs, hlt, e⟩ := closeConnection_micro hc h1
      subst e
      refine ih (hc.micro (Micro.close (tm := 0) hlt hs (by omega))) h j ?_
      rcases hj with hj | hj
      · rcases List.mem_cons.1 hj with rfl | hj
        · exact .inr (closedAt_find hc (.inl rfl))
        · exact .inl hj
      · exact .inr (closedAt_find hc (.inr hj))

theorem deactivate_closed {c c' : SubCtx} {r : Nat} (hc : Core c) (hm : MemOK c) (h : deactivate c = .ok (r, c')) :
    (∀ j, findByIndex c'.cv j = none) ∧ c'.mcast = none := by
  have hcopy := h
  unfold deactivate at h
  dsimp only at h
  rw [popReady_eq _ _ hm.rdyAddr] at h
  obtain ⟨c1, h1, h⟩ := bind_ok h
  cases h
  have m : Micro 0 (forget c) { forget c with
      mcast := none, cv := ((forget c).cv.fdAll [.closed c.mcast]).poll (.remove MULTICAST_INDEX c.mcast) } :=
    .unsock (c := forget c)
  constructor
  · intro j
    refine closeAll_none _ (hc.forget.micro m) h1 j ?_
    obtain ⟨L, hL⟩ := hc.v
    by_cases hj : j ∈ L
    · left
      have := (hL.maxLe j hj).1
      show j ∈ List.range (c.cv.maxInd + 1)
      rw [List.mem_range]; omega
    · right
      have : findByIndex c.cv j = none := by rw [findByIndex_spec hL, if_neg hj]
      exact this
  · have : ∀ (l : List Nat) {a b : SubCtx}, closeAll a l = .ok b → b.mcast = a.mcast := by
      intro l
      induction l with
      | nil => intro a b h; cases h; rfl
      | cons i is ih =>
        intro a b h
        unfold closeAll at h
        split at h
        · exact ih h
        · obtain ⟨⟨r, a1⟩, h1, h⟩ := bind_ok h
          rw [ih h]
          unfold closeConnection at h1
          dsimp only at h1
          split at h1
          · cases h1
          · obtain ⟨s, hs, h1⟩ := bind_ok h1
            cases h1; rfl
    exact this _ h1

/-- No connection is set up. -/
theorem notUp_of_find {c : SubCtx} (h : ∀ j, findByIndex c.cv j = none) (i : Nat) : ¬ Up c i := by
  intro hu
  have := h i
  unfold findByIndex at this
  rw [if_neg (by have := hu.1; omega), if_neg (by rw [hu.2]; decide)] at this
  cases this

theorem Reaches.ackCov {ops : List Op} {c : SubCtx} (h : Reaches ops c) : AckCov c := by
  refine Reaches.induct (P := fun _ c => AckCov c) ?_ ?_ h
  · intro mem n nid hn i s hs; cases hs
  · intro ops c op r c' hr ha hs
    have hi := hr.inv
    by_cases hop : op = .deactivate
    · subst hop
      have hd := (deactivate_closed hi.core hi.mem hs).1
      have hi' := hi.step hs
      intro i s h1 h2
      exact absurd (hi'.core.idle i s h1 (notUp_of_find hd i)).2 h2
    · exact (Steps.both (P := Core) (Q := AckCov) (fun _ _ m h => h.micro m) (fun _ _ m h1 h2 => h2.micro m h1)
        (step_steps hi.core hi.mem hop hs) hi.core ha).2

theorem Reaches.noLeak {ops : List Op} {c : SubCtx} (h : Reaches ops c) (hd : .deactivate ∉ ops) : NoLeak c := by
  refine Reaches.induct (P := fun ops c => Op.deactivate ∉ ops → NoLeak c) ?_ ?_ h hd
  · intro mem n nid hn _ p hp; cases hp
  · intro ops c op r c' hr ha hs hd
    have hi := hr.inv
    rw [List.mem_append, not_or] at hd
    have hop : op ≠ .deactivate := by rintro rfl; exact hd.2 (by simp)
    exact (Steps.both (P := fun c => Core c ∧ MemOK c) (Q := NoLeak) (fun _ _ m h => ⟨h.1.micro m, h.2.micro m h.1⟩)
      (fun _ _ m h1 h2 => h2.micro m h1.1 h1.2) (step_steps hi.core hi.mem hop hs) ⟨hi.core, hi.mem⟩ (ha hd.1)).2

end SubCtx
end Rmc
