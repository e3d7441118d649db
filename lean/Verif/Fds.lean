import Verif.Conn

/-!
# Descriptors

The descriptors obtained from socket() and accept() and those given to close(), counted: what was obtained and not given back is
what the connections hold, plus what the context holds beside (`k`).
-/

namespace Rmc

/-- How often descriptor `d` was obtained. -/
def opens (fs : List FdEv) (d : Nat) : Nat := fs.count (.opened d)

/-- How often descriptor `d` was closed. -/
def closes (fs : List FdEv) (d : Nat) : Nat := fs.count (.closed (some d))

/-- 1 if the optional descriptor is `d`. -/
def one (x : Option Nat) (d : Nat) : Nat := if x = some d then 1 else 0

/-- At no time was a descriptor closed more often than it had been obtained. -/
def NoneTwice (fs : List FdEv) : Prop := ∀ pre, pre <+: fs → ∀ d, closes pre d ≤ opens pre d

theorem opens_append (fs gs : List FdEv) (d : Nat) : opens (fs ++ gs) d = opens fs d + opens gs d := List.count_append
theorem closes_append (fs gs : List FdEv) (d : Nat) : closes (fs ++ gs) d = closes fs d + closes gs d := List.count_append

theorem opens_opened (x d : Nat) : opens [.opened x] d = one (some x) d := by
  unfold opens one; grind
theorem opens_closed (x : Option Nat) (d : Nat) : opens [.closed x] d = 0 := by
  unfold opens; grind
theorem closes_opened (x d : Nat) : closes [.opened x] d = 0 := by
  unfold closes; grind
theorem closes_closed (x : Option Nat) (d : Nat) : closes [.closed x] d = one x d := by
  unfold closes one; grind

theorem prefix_snoc {α : Type} {pre fs : List α} {e : α} (h : pre <+: fs ++ [e]) : pre <+: fs ∨ pre = fs ++ [e] := by
  rcases List.prefix_concat_iff.1 h with h | h
  · exact .inr h
  · exact .inl h

theorem NoneTwice.snoc {fs : List FdEv} (h : NoneTwice fs) {e : FdEv}
    (he : ∀ d, closes (fs ++ [e]) d ≤ opens (fs ++ [e]) d) : NoneTwice (fs ++ [e]) := by
  intro pre hp d
  rcases prefix_snoc hp with hp | hp
  · exact h pre hp d
  · rw [hp]; exact he d

/-- Appending to the record: every close gives back what is held. -/
theorem NoneTwice.opened {fs : List FdEv} (h : NoneTwice fs) (x : Nat) : NoneTwice (fs ++ [.opened x]) := by
  refine h.snoc fun d => ?_
  rw [closes_append, opens_append, closes_opened]
  have := h fs List.prefix_rfl d
  omega

theorem NoneTwice.closed {fs : List FdEv} (h : NoneTwice fs) (x : Option Nat)
    (hx : ∀ d, x = some d → closes fs d < opens fs d) : NoneTwice (fs ++ [.closed x]) := by
  refine h.snoc fun d => ?_
  rw [closes_append, opens_append, closes_closed, opens_closed]
  have h1 := h fs List.prefix_rfl d
  unfold one
  by_cases hd : x = some d
  · rw [if_pos hd]; have := hx d hd; omega
  · rw [if_neg hd]; omega

namespace ConnVec

/-- How many slots hold descriptor `d`. -/
def holds (v : ConnVec) (d : Nat) : Nat := (List.range v.size).countP fun i => decide ((v.conns i).desc = some d)

/-- The books balance, `k d` holders of `d` being outside the vector. -/
structure Ledger (v : ConnVec) (k : Nat → Nat) : Prop where
  ok : NoneTwice v.fds
  bal : ∀ d, opens v.fds d = closes v.fds d + holds v d + k d

theorem holds_congr {v w : ConnVec} (h1 : w.size = v.size) (h2 : ∀ i, i < v.size → (w.conns i).desc = (v.conns i).desc) (d : Nat) :
    holds w d = holds v d := by
  unfold holds
  rw [h1]
  refine List.countP_congr fun i hi => ?_
  rw [h2 i (List.mem_range.1 hi)]

theorem Ledger.congr {v w : ConnVec} {k : Nat → Nat} (h : Ledger v k) (h1 : w.size = v.size)
    (h2 : ∀ i, i < v.size → (w.conns i).desc = (v.conns i).desc) (h3 : w.fds = v.fds) : Ledger w k :=
  ⟨by rw [h3]; exact h.ok, fun d => by rw [h3, holds_congr h1 h2]; exact h.bal d⟩

theorem countP_set (f : Nat → Option Nat) (n i : Nat) (x : Option Nat) (d : Nat) (hi : i < n) :
    (List.range n).countP (fun j => decide ((if j = i then x else f j) = some d)) + one (f i) d =
      (List.range n).countP (fun j => decide (f j = some d)) + one x d := by
  induction n with
  | zero => omega
  | succ n ih =>
    rw [List.range_succ, List.countP_append, List.countP_append]
    by_cases hn : i < n
    · have := ih hn
      have hne : n ≠ i := by omega
      simp only [List.countP_singleton, if_neg hne]
      omega
    · have hne : i = n := by omega
      subst hne
      have e : (List.range i).countP (fun j => decide ((if j = i then x else f j) = some d)) =
          (List.range i).countP (fun j => decide (f j = some d)) := by
        refine List.countP_congr fun j hj => ?_
        have : j ≠ i := by have := List.mem_range.1 hj; omega
        rw [if_neg this]
      rw [e]
      simp only [List.countP_singleton, if_pos, decide_eq_true_eq]
      unfold one
      omega

theorem holds_set (v : ConnVec) {i : Nat} (hi : i < v.size) (x : Conn) (d : Nat) :
    holds (set v i x) d + one (v.conns i).desc d = holds v d + one x.desc d := by
  have := countP_set (fun j => (v.conns j).desc) v.size i x.desc d hi
  unfold holds
  rw [← this]
  congr 2
  funext j
  unfold set
  by_cases hj : j = i
  · simp [hj]
  · simp [hj]

theorem holds_pos {v : ConnVec} {i d : Nat} (hi : i < v.size) (hd : (v.conns i).desc = some d) : 0 < holds v d :=
  List.countP_pos_iff.2 ⟨i, List.mem_range.2 hi, by simp [hd]⟩

/-- What is changed without opening or closing. -/
theorem Ledger.set {v : ConnVec} {k : Nat → Nat} (h : Ledger v k) {i : Nat} {x : Conn}
    (hd : x.desc = (v.conns i).desc) : Ledger (set v i x) k :=
  h.congr rfl (fun j _ => by unfold ConnVec.set; by_cases hj : j = i <;> simp [hj, hd]) rfl

theorem Ledger.poll {v : ConnVec} {k : Nat → Nat} (h : Ledger v k) (e : PollEv) : Ledger (poll v e) k :=
  h.congr rfl (fun _ _ => rfl) rfl

theorem Ledger.resetMax {v : ConnVec} {k : Nat → Nat} (h : Ledger v k) : Ledger (resetMax v) k := by
  unfold ConnVec.resetMax
  split <;> exact h.congr rfl (fun _ _ => rfl) rfl

/-- A descriptor is obtained and put in a free slot. -/
theorem Ledger.opened {v : ConnVec} {k : Nat → Nat} (h : Ledger v k) {i d : Nat} (hi : i < v.size)
    (hf : (v.conns i).desc = none) {x : Conn} (hx : x.desc = some d) : Ledger (ConnVec.set (fd v (.opened d)) i x) k := by
  refine ⟨h.ok.opened d, fun e => ?_⟩
  show opens (v.fds ++ [.opened d]) e = closes (v.fds ++ [.opened d]) e + _ + _
  rw [opens_append, closes_append, opens_opened, closes_opened]
  have h1 := holds_set (fd v (.opened d)) (i := i) hi x e
  have h2 : holds (fd v (.opened d)) e = holds v e := rfl
  have h3 : one ((fd v (.opened d)).conns i).desc e = 0 := by
    show one (v.conns i).desc e = 0
    rw [hf]; rfl
  rw [hx] at h1
  have := h.bal e
  omega

/-- A slot gives back what it holds. -/
theorem Ledger.closed {v : ConnVec} {k : Nat → Nat} (h : Ledger v k) {i : Nat} (hi : i < v.size) {x : Conn}
    (hx : x.desc = none) : Ledger (ConnVec.set (fd v (.closed (v.conns i).desc)) i x) k := by
  refine ⟨h.ok.closed _ fun d hd => ?_, fun e => ?_⟩
  · have := holds_pos hi hd
    have := h.bal d
    omega
  · show opens (v.fds ++ [.closed (v.conns i).desc]) e = closes (v.fds ++ [.closed (v.conns i).desc]) e + _ + _
    rw [opens_append, closes_append, opens_closed, closes_closed]
    have h1 := holds_set (fd v (.closed (v.conns i).desc)) (i := i) hi x e
    have h2 : holds (fd v (.closed (v.conns i).desc)) e = holds v e := rfl
    have h3 : ((fd v (.closed (v.conns i).desc)).conns i).desc = (v.conns i).desc := rfl
    rw [h3, hx] at h1
    have h4 : one none e = 0 := rfl
    have := h.bal e
    omega

/-- Closing a connection keeps the books. -/
theorem Ledger.close {v : ConnVec} {k : Nat → Nat} (h : Ledger v k) (i : Nat) : Ledger (close v i).2 k := by
  unfold ConnVec.close
  split
  · exact h
  · rename_i hi
    split
    · exact h
    · dsimp only
      have h1 : Ledger (ConnVec.set (fd (ConnVec.poll v (.remove i (v.conns i).desc)) (.closed (v.conns i).desc)) i
          (resetConn v.bufSize (v.conns i) i)) k :=
        (h.poll (.remove i (v.conns i).desc)).closed (x := resetConn v.bufSize (v.conns i) i) (by show i < v.size; omega) rfl
      split
      · exact h1.resetMax.congr rfl (fun _ _ => rfl) rfl
      · exact h1.congr rfl (fun _ _ => rfl) rfl

theorem free_spec {v : ConnVec} {i : Nat} {w : ConnVec} (h : getFreeSlot v = (some i, w)) :
    i < v.size ∧ (v.conns i).desc = none ∧ w.size = v.size ∧ w.conns = v.conns ∧ w.fds = v.fds := by
  unfold getFreeSlot at h
  split at h
  · rename_i j hj
    have h1 := List.find?_some hj
    have h2 := List.mem_of_find?_eq_some hj
    obtain ⟨e1, e2⟩ := Prod.mk.inj h
    cases e1
    refine ⟨List.mem_range.1 h2, by simpa using h1, ?_⟩
    rw [← e2]
    split <;> exact ⟨rfl, rfl, rfl⟩
  · cases h

theorem free_none {v : ConnVec} {w : ConnVec} (h : getFreeSlot v = (none, w)) : w = v := by
  unfold getFreeSlot at h
  split at h
  · cases h
  · exact (Prod.mk.inj h).2.symm

/-- accept() keeps the books, whatever it answers. -/
theorem Ledger.accept {v : ConnVec} {k : Nat → Nat} (h : Ledger v k) (ld : Option Nat) (ar : AccRes) :
    Ledger (accept v ld ar).2.2 k := by
  unfold ConnVec.accept
  split
  · rename_i w hw
    rw [free_none hw]; exact h
  · rename_i i w hw
    obtain ⟨h1, h2, h3, h4, h5⟩ := free_spec hw
    have hl : Ledger w k := h.congr h3 (fun _ _ => by rw [h4]) h5
    cases ar with
    | failed e => exact hl
    | noDelayFailed d e =>
      exact (hl.opened (d := d) (i := i) (by omega) (by rw [h4]; exact h2) (x := { w.conns i with desc := some d }) rfl).close _
    | ok d a =>
      refine Ledger.congr (v := ConnVec.set (fd w (.opened d)) i
        { w.conns i with desc := some d, mode := .connected, addr := a, action := .R }) ?_ rfl (fun _ _ => rfl) rfl
      exact hl.opened (by omega) (by rw [h4]; exact h2) rfl

theorem set_set (v : ConnVec) (i : Nat) (x y : Conn) : set (set v i x) i y = set v i y := by
  unfold set
  congr 1
  funext j
  by_cases hj : j = i <;> simp [hj]

/-- connect() keeps the books, whatever it answers. -/
theorem Ledger.connect {v : ConnVec} {k : Nat → Nat} (h : Ledger v k) (addr port nid : Nat) (sk : Except Nat Nat) (cr : ConnRes) :
    Ledger (connect v addr port nid sk cr).2.2 k := by
  unfold ConnVec.connect
  split
  · rename_i w hw
    rw [free_none hw]; exact h
  · rename_i i w hw
    obtain ⟨h1, h2, h3, h4, h5⟩ := free_spec hw
    have hl : Ledger w k := h.congr h3 (fun _ _ => by rw [h4]) h5
    cases sk with
    | error e => exact hl
    | ok d =>
      dsimp only
      have ho := hl.opened (d := d) (i := i) (by omega) (by rw [h4]; exact h2)
        (x := { w.conns i with desc := some d, addr := addr, nodeId := nid }) rfl
      have ho' := hl.opened (d := d) (i := i) (by omega) (by rw [h4]; exact h2)
        (x := { w.conns i with desc := some d, addr := addr, nodeId := nid, port := port, mode := .connecting, action := .W }) rfl
      cases cr with
      | failed e =>
        refine Ledger.resetMax ?_
        have h6 := ho.closed (i := i) (by show i < w.size; omega)
          (x := { w.conns i with desc := none, addr := addr, nodeId := nid }) rfl
        refine h6.congr rfl (fun j _ => ?_) ?_
        · show ((if j = i then _ else _ : Conn)).desc = (if j = i then _ else if j = i then _ else _ : Conn).desc
          by_cases hj : j = i
          · rw [if_pos hj, if_pos hj]
          · rw [if_neg hj, if_neg hj, if_neg hj]; rfl
        · show w.fds ++ [.opened d] ++ [.closed (some d)] = w.fds ++ [.opened d] ++ [.closed (if i = i then _ else _ : Conn).desc]
          rw [if_pos rfl]
      | now e => exact ho'.congr rfl (fun _ _ => rfl) rfl
      | inProgress => exact ho'.congr rfl (fun _ _ => rfl) rfl

/-- Completing a connection keeps the books. -/
theorem Ledger.complete {v : ConnVec} {k : Nat → Nat} (h : Ledger v k) (i : Nat) (so : Except Nat Nat) (nd : Option Nat) :
    Ledger (complete v i so nd).2 k := by
  unfold ConnVec.complete
  cases so with
  | error e => exact h.close i
  | ok e =>
    dsimp only
    split
    · exact (h.poll _).close i
    · cases nd with
      | some e => exact (h.poll _).close i
      | none =>
        exact (h.set (i := i) (x := { v.conns i with mode := .connected, action := .R }) rfl).poll _

/-- The context obtains a descriptor. -/
theorem close_fds (v : ConnVec) (i : Nat) : v.fds <+: (close v i).2.fds := by
  unfold close
  split
  · exact List.prefix_rfl
  · split
    · exact List.prefix_rfl
    · dsimp only
      have key : ∀ w : ConnVec, w.fds = v.fds ++ [.closed (v.conns i).desc] → v.fds <+: w.fds := fun w h => ⟨_, h.symm⟩
      apply key
      show (if _ then _ else _ : ConnVec).fds = _
      split
      · unfold ConnVec.resetMax; split <;> rfl
      · rfl

theorem complete_fds (v : ConnVec) (i : Nat) (so : Except Nat Nat) (nd : Option Nat) : v.fds <+: (complete v i so nd).2.fds := by
  unfold complete
  split
  · exact close_fds v i
  · split
    · exact close_fds (ConnVec.poll v _) i
    · split
      · exact close_fds (ConnVec.poll v _) i
      · exact List.prefix_rfl

theorem getFreeSlot_fds (v : ConnVec) : (getFreeSlot v).2.fds = v.fds := by
  unfold getFreeSlot
  split
  · dsimp only; split <;> rfl
  · rfl

theorem connect_fds (v : ConnVec) (addr port nid : Nat) (sk : Except Nat Nat) (cr : ConnRes) :
    v.fds <+: (connect v addr port nid sk cr).2.2.fds := by
  unfold connect
  have h := getFreeSlot_fds v
  generalize getFreeSlot v = x at h
  obtain ⟨o, w⟩ := x
  dsimp only at h
  cases o with
  | none => dsimp only; rw [h]; exact List.prefix_rfl
  | some i =>
    dsimp only
    cases sk with
    | error e => dsimp only; rw [h]; exact List.prefix_rfl
    | ok d =>
      dsimp only
      rw [← h]
      split
      · refine ⟨[.opened d, .closed (some d)], ?_⟩
        unfold ConnVec.resetMax
        split <;> simp [ConnVec.set, fd]
      · exact ⟨[.opened d], rfl⟩

theorem accept_fds (v : ConnVec) (ld : Option Nat) (ar : AccRes) : v.fds <+: (accept v ld ar).2.2.fds := by
  unfold accept
  have h := getFreeSlot_fds v
  generalize getFreeSlot v = x at h
  obtain ⟨o, w⟩ := x
  dsimp only at h
  cases o with
  | none => dsimp only; rw [h]; exact List.prefix_rfl
  | some i =>
    dsimp only
    rw [← h]
    cases ar with
    | failed e => exact List.prefix_rfl
    | noDelayFailed d e =>
      dsimp only
      refine List.IsPrefix.trans ?_ (close_fds _ _)
      exact ⟨[.opened d], rfl⟩
    | ok d a => exact ⟨[.opened d], rfl⟩

theorem Ledger.fdOpened {v : ConnVec} {k : Nat → Nat} (h : Ledger v k) (x : Nat) :
    Ledger (fd v (.opened x)) (fun d => k d + one (some x) d) := by
  refine ⟨h.ok.opened x, fun e => ?_⟩
  show opens (v.fds ++ [.opened x]) e = closes (v.fds ++ [.opened x]) e + holds v e + _
  rw [opens_append, closes_append, opens_opened, closes_opened]
  have := h.bal e
  omega

/-- The context gives a descriptor back. -/
theorem Ledger.fdClosed {v : ConnVec} {k k' : Nat → Nat} (h : Ledger v k) (x : Option Nat) (hk : ∀ d, k d = k' d + one x d) :
    Ledger (fd v (.closed x)) k' := by
  refine ⟨h.ok.closed x fun d hd => ?_, fun e => ?_⟩
  · have h1 := h.bal d
    have h2 := hk d
    have h3 : one x d = 1 := by unfold one; rw [if_pos hd]
    omega
  · show opens (v.fds ++ [.closed x]) e = closes (v.fds ++ [.closed x]) e + holds v e + _
    rw [opens_append, closes_append, opens_closed, closes_closed]
    have h1 := h.bal e
    have h2 := hk e
    omega

theorem Ledger.weak {v : ConnVec} {k k' : Nat → Nat} (h : Ledger v k) (hk : ∀ d, k d = k' d) : Ledger v k' :=
  ⟨h.ok, fun d => by rw [h.bal d, hk d]⟩

theorem fdAll_cons (v : ConnVec) (e : FdEv) (es : List FdEv) : fdAll v (e :: es) = fdAll (fd v e) es := by
  unfold fdAll fd; simp

theorem accept_opens {v v' : ConnVec} {ld : Option Nat} {d a i : Nat} (h : accept v ld (.ok d a) = (0, some i, v')) :
    v'.fds = v.fds ++ [.opened d] := by
  unfold accept at h
  have h0 := getFreeSlot_fds v
  generalize getFreeSlot v = x at h h0
  obtain ⟨o, w⟩ := x
  dsimp only at h0
  cases o with
  | none => cases h
  | some k =>
    dsimp only at h
    rw [← h0]
    cases h
    rfl

theorem fdAll_fds (v : ConnVec) (fs : List FdEv) : (fdAll v fs).fds = v.fds ++ fs := rfl

theorem fdAll_nil (v : ConnVec) : fdAll v [] = v := by
  unfold fdAll; simp

theorem holds_none {v : ConnVec} (h : ∀ i, i < v.size → (v.conns i).desc = none) (d : Nat) : holds v d = 0 :=
  List.countP_eq_zero.2 fun i hi => by simp [h i (List.mem_range.1 hi)]

theorem Ledger.init (mem : Nat → Conn) (n b : Nat) : Ledger (init mem n b) (fun _ => 0) :=
  ⟨fun pre hp d => by rw [List.prefix_nil.1 hp]; exact Nat.le_refl _,
   fun d => by rw [holds_none (fun _ _ => rfl)]; rfl⟩

end ConnVec
end Rmc
