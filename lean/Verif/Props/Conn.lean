import Verif.ConnLemmas
import Verif.Props.CircBuf

/-!
# Properties C45, C46, C47: the connection vector

A history is any sequence of connect/accept/complete/close calls with any results of the socket calls, with any
traffic in between. The observer of the API sees which slots were handed out and closed; `live` computes from
that the slots in use, `keys` the address, port and node id each was opened with.
-/

namespace Rmc
namespace ConnVec

/-! ## Specification -/

/-- The slots in use according to what the API reported. -/
def live (evs : List Ev) : List Nat :=
  evs.foldl (fun L e => match e with
    | .opened i => i :: L
    | .closed i => L.erase i
    | .err _ => L) []

/-- The calls for which the library behaves; excluded is only `setsockopt(TCP_NODELAY)` failing on a connection just
accepted (see `C45_false`). -/
def Op.sane : Op → Prop
  | .accept _ (.noDelayFailed _ _) => False
  | _ => True

instance : (op : Op) → Decidable op.sane
  | .accept _ (.noDelayFailed _ _) => isFalse fun h => h
  | .accept _ (.failed _) => isTrue trivial
  | .accept _ (.ok _ _) => isTrue trivial
  | .connect _ _ _ _ _ => isTrue trivial
  | .complete _ _ _ => isTrue trivial
  | .close _ => isTrue trivial
  | .io _ _ _ _ => isTrue trivial

/-- What a connection was opened with. Accepted connections have no known port and no node id. -/
structure Key where
  addr : Nat
  port : Nat
  nid : Option Nat
  deriving DecidableEq, Repr

def Op.key : Op → Key
  | .connect a p n _ _ => ⟨a, p, some n⟩
  | .accept _ (.ok _ a) => ⟨a, 0, none⟩
  | _ => ⟨0, 0, none⟩

/-- The key of each slot in use, according to the calls made and what the API reported. -/
def keys : (Nat → Option Key) → List Op → List Ev → Nat → Option Key
  | K, op :: ops, .opened i :: evs => keys (fun j => if j = i then some op.key else K j) ops evs
  | K, _ :: ops, .closed i :: evs => keys (fun j => if j = i then none else K j) ops evs
  | K, _ :: ops, .err _ :: evs => keys K ops evs
  | K, _, _ => K

/-! ## Invariant -/

/-- The connection in a slot carries the key it was opened with. -/
structure KInv (v : ConnVec) (L : List Nat) (K : Nat → Option Key) : Prop where
  dom : ∀ i, (K i ≠ none ↔ i ∈ L)
  key : ∀ i k, K i = some k → (v.conns i).addr = k.addr ∧ (v.conns i).port = k.port ∧
    ∀ n, k.nid = some n → (v.conns i).nodeId = n

def liveStep (L : List Nat) : Ev → List Nat
  | .opened i => i :: L
  | .closed i => L.erase i
  | .err _ => L

def keyStep (K : Nat → Option Key) (op : Op) : Ev → Nat → Option Key
  | .opened i => fun j => if j = i then some op.key else K j
  | .closed i => fun j => if j = i then none else K j
  | .err _ => K

theorem KInv_closed {v v' : ConnVec} {L : List Nat} {K : Nat → Option Key} (h : VInv v L) (k : KInv v L K) (i : Nat)
    (hc : ∀ j, j ≠ i → v'.conns j = v.conns j) :
    KInv v' (L.erase i) (fun j => if j = i then none else K j) := by
  constructor
  · intro j
    rw [List.Nodup.mem_erase_iff h.nodup]
    by_cases e : j = i
    · simp [e]
    · simp only [e, if_false, ne_eq, not_false_iff, true_and]; exact k.dom j
  · intro j q hq
    by_cases e : j = i
    · simp [e] at hq
    · simp only [e, if_false] at hq
      rw [hc j e]; exact k.key j q hq

theorem KInv_opened {v v' : ConnVec} {L : List Nat} {K : Nat → Option Key} (k : KInv v L K) (i : Nat) (q : Key)
    (hc : ∀ j, j ≠ i → v'.conns j = v.conns j)
    (hi : (v'.conns i).addr = q.addr ∧ (v'.conns i).port = q.port ∧ ∀ n, q.nid = some n → (v'.conns i).nodeId = n) :
    KInv v' (i :: L) (fun j => if j = i then some q else K j) := by
  constructor
  · intro j
    rw [List.mem_cons]
    by_cases e : j = i
    · simp [e]
    · simp only [e, if_false, false_or]; exact k.dom j
  · intro j q' hq
    by_cases e : j = i
    · simp only [e, if_true, Option.some.injEq] at hq
      subst hq; rw [e]; exact hi
    · simp only [e, if_false] at hq
      rw [hc j e]; exact k.key j q' hq

/-- One call. -/
theorem step_inv {v : ConnVec} {L : List Nat} {K : Nat → Option Key} (h : VInv v L) (k : KInv v L K) (op : Op)
    (hs : op.sane) :
    VInv (step v op).2 (liveStep L (step v op).1) ∧ KInv (step v op).2 (liveStep L (step v op).1)
      (keyStep K op (step v op).1) ∧ (step v op).2.size = v.size ∧ (step v op).2.bufSize = v.bufSize := by
  cases op with
  | connect a p n sk cr =>
    by_cases hf : (∃ e, sk = .error e) ∨ (∃ e, cr = .failed e)
    · obtain ⟨r, v', he, h1, h2, h3, -, h5, -⟩ := connect_failed h a p n sk cr hf
      simp only [step, he, liveStep, keyStep]
      refine ⟨h1, ⟨k.dom, ?_⟩, h2, h3⟩
      intro i q hq
      rw [h5 i ((k.dom i).1 (by simp [hq]))]; exact k.key i q hq
    · simp only [not_or, not_exists] at hf
      obtain ⟨d, rfl⟩ : ∃ d, sk = .ok d := by
        cases sk with
        | error e => exact absurd rfl (hf.1 e)
        | ok d => exact ⟨d, rfl⟩
      rcases connect_ok h a p n d cr hf.2 with ⟨-, he⟩ | ⟨-, r, i, v', he, h1, h2, h3, h4, h5, h6, h7, h8⟩
      · simp only [step, he, liveStep, keyStep]
        exact ⟨h, k, trivial, trivial⟩
      · simp only [step, he, liveStep, keyStep]
        refine ⟨h3, KInv_opened k i _ h6 ?_, h4, h5⟩
        rw [h7]
        simp [Op.key]
  | accept ld ar =>
    cases ar with
    | noDelayFailed d e => exact absurd hs (fun h => h)
    | failed e =>
      obtain ⟨r, m, he, h1, -⟩ := accept_failed h ld e
      simp only [step, he, liveStep, keyStep]
      exact ⟨h1, ⟨k.dom, k.key⟩, trivial, trivial⟩
    | ok d a =>
      rcases accept_ok h ld d a with ⟨-, he⟩ | ⟨-, i, v', he, h1, h2, h3, h4, h5, h6, h7, h8⟩
      · simp only [step, he, liveStep, keyStep]
        exact ⟨h, k, trivial, trivial⟩
      · simp only [step, he, liveStep, keyStep]
        refine ⟨h3, KInv_opened k i _ h6 ?_, h4, h5⟩
        rw [h7]
        have := (h.clean i h1 h2).2.2.1
        simp [Op.key, this]
  | complete i so nd =>
    simp only [step, findByIndex_spec h]
    by_cases hi : i ∈ L
    · simp only [hi, if_true]
      rcases complete_spec h hi so nd with ⟨-, -, he, h1⟩ | ⟨-, h1, h2, h3, h4, h5⟩
      · have hne : findByIndex (complete v i so nd).2 i ≠ none := by
          rw [findByIndex_spec h1]; simp [hi]
        simp only [hne, if_false, liveStep, keyStep, reduceCtorEq]
        refine ⟨h1, ⟨k.dom, ?_⟩, ?_, ?_⟩
        · intro j q hq
          have := k.key j q hq
          rw [he]
          by_cases e : j = i
          · subst e; simpa [set, poll] using this
          · simpa [set, poll, e] using this
        · rw [he]; rfl
        · rw [he]; rfl
      · have hne : findByIndex (complete v i so nd).2 i = none := by
          rw [findByIndex_spec h1]; simp [List.Nodup.mem_erase_iff h.nodup]
        simp only [hne, if_true, liveStep, keyStep, reduceCtorEq, if_false]
        exact ⟨h1, KInv_closed h k i h4, h2, h3⟩
    · simp only [hi, if_false, if_true, liveStep, keyStep]
      exact ⟨h, k, trivial, trivial⟩
  | close i =>
    simp only [step]
    by_cases hi : i ∈ L
    · obtain ⟨h1, h2, h3, h4, h5, -⟩ := (close_spec h i).1 hi
      simp only [h1, if_true, liveStep, keyStep]
      exact ⟨h2, KInv_closed h k i h5, h3, h4⟩
    · obtain ⟨h1, h2⟩ := (close_spec h i).2 hi
      simp only [h1, if_false, liveStep, keyStep, h2]
      exact ⟨h, k, trivial, trivial⟩
  | io i a rb wb =>
    simp only [step, findByIndex_spec h]
    by_cases hi : i ∈ L
    · simp only [hi, if_true, reduceCtorEq, if_false, liveStep, keyStep]
      refine ⟨?_, ⟨k.dom, ?_⟩, rfl, rfl⟩
      · exact VInv_set h hi { v.conns i with action := a, readBuf := rb, writeBuf := wb }
          ((h.desc i (h.lt i hi)).2 hi) ((h.mode i (h.lt i hi)).2 hi) (h.idx i) _
      · intro j q hq
        have := k.key j q hq
        by_cases e : j = i
        · subst e; simpa [set] using this
        · simpa [set, e] using this
    · simp only [hi, if_false, if_true, liveStep, keyStep]
      exact ⟨h, k, trivial, trivial⟩

theorem run_inv (ops : List Op) : ∀ {v : ConnVec} {L : List Nat} {K : Nat → Option Key}, VInv v L → KInv v L K →
    (∀ op ∈ ops, op.sane) →
    VInv (run v ops).2 ((run v ops).1.foldl liveStep L) ∧
    KInv (run v ops).2 ((run v ops).1.foldl liveStep L) (keys K ops (run v ops).1) ∧
    (run v ops).2.size = v.size ∧ (run v ops).2.bufSize = v.bufSize := by
  induction ops with
  | nil => intro v L K h k _; exact ⟨h, k, rfl, rfl⟩
  | cons op ops ih =>
    intro v L K h k hs
    obtain ⟨h1, h2, h3, h4⟩ := step_inv h k op (hs op (by simp))
    obtain ⟨i1, i2, i3, i4⟩ := ih h1 h2 (fun o ho => hs o (by simp [ho]))
    simp only [run, List.foldl_cons]
    refine ⟨i1, ?_, by rw [i3, h3], by rw [i4, h4]⟩
    generalize step v op = r at *
    obtain ⟨e, w⟩ := r
    cases e <;> exact i2

theorem live_eq (evs : List Ev) : live evs = evs.foldl liveStep [] := rfl

/-- The invariant after any history. -/
theorem reach_inv (mem : Nat → Conn) (size bufSize : Nat) (hsz : size ≤ LISTEN_INDEX) (ops : List Op)
    (hs : ∀ op ∈ ops, op.sane) :
    VInv (run (init mem size bufSize) ops).2 (live (run (init mem size bufSize) ops).1) ∧
    KInv (run (init mem size bufSize) ops).2 (live (run (init mem size bufSize) ops).1)
      (keys (fun _ => none) ops (run (init mem size bufSize) ops).1) ∧
    (run (init mem size bufSize) ops).2.size = size ∧ (run (init mem size bufSize) ops).2.bufSize = bufSize :=
  run_inv ops (VInv_init mem size bufSize hsz) ⟨by simp, by simp⟩ hs

/-! ## C45 -/

/-- C45: after every history the slots the API has handed out and not closed are exactly the ones that can be looked up;
the count of active connections is their number; the highest-index bound covers them all and is below the size of the
array. The slot handed out by a call was free before it (`live` has no duplicates at any point of the history). -/
theorem C45_slots_partial (mem : Nat → Conn) (size bufSize : Nat) (hsz : size ≤ LISTEN_INDEX) (ops : List Op)
    (hs : ∀ op ∈ ops, op.sane) (evs : List Ev) (v : ConnVec) (hr : run (init mem size bufSize) ops = (evs, v)) :
    (∀ i, findByIndex v i = some i ↔ i ∈ live evs) ∧
    (live evs).Nodup ∧ (∀ i ∈ live evs, i < size) ∧
    v.active = (live evs).length ∧
    (∀ i ∈ live evs, i ≤ v.maxInd ∧ v.maxInd ≠ NIL_INDEX) ∧
    (v.maxInd = NIL_INDEX ∨ v.maxInd < size) := by
  obtain ⟨h, -, h3, -⟩ := reach_inv mem size bufSize hsz ops hs
  rw [hr] at h h3
  dsimp only at h h3
  refine ⟨?_, h.nodup, fun i hi => h3 ▸ h.lt i hi, h.active, h.maxLe, h3 ▸ h.max⟩
  intro i
  rw [findByIndex_spec h]
  by_cases hi : i ∈ live evs <;> simp [hi]

/-- C45: a further connection is refused with `ENOMEM`, with nothing changed, exactly when as many slots are in use as the vector
has; otherwise it gets a slot that is not in use. -/
theorem C45_enomem_partial (mem : Nat → Conn) (size bufSize : Nat) (hsz : size ≤ LISTEN_INDEX) (ops : List Op)
    (hs : ∀ op ∈ ops, op.sane) (evs : List Ev) (v : ConnVec) (hr : run (init mem size bufSize) ops = (evs, v))
    (d a p n : Nat) (ld : Option Nat) :
    ((live evs).length = size →
      accept v ld (.ok d a) = (ENOMEM, none, v) ∧ connect v a p n (.ok d) .inProgress = (ENOMEM, none, v)) ∧
    ((live evs).length ≠ size →
      (∃ i v', accept v ld (.ok d a) = (0, some i, v') ∧ i < size ∧ i ∉ live evs) ∧
      (∃ i v', connect v a p n (.ok d) .inProgress = (0, some i, v') ∧ i < size ∧ i ∉ live evs)) := by
  obtain ⟨h, -, h3, -⟩ := reach_inv mem size bufSize hsz ops hs
  rw [hr] at h h3
  dsimp only at h h3
  have ha := accept_ok h ld d a
  have hc := connect_ok h a p n d .inProgress (by simp)
  constructor
  · intro e
    constructor
    · rcases ha with ha | ha
      · exact ha.2
      · omega
    · rcases hc with hc | hc
      · exact hc.2
      · omega
  · intro e
    constructor
    · rcases ha with ha | ⟨-, i, v', x, y, z, -⟩
      · omega
      · exact ⟨i, v', x, h3 ▸ y, z⟩
    · rcases hc with hc | ⟨-, r, i, v', x, y, z, -, -, -, -, -, -, w⟩
      · omega
      · rw [w rfl] at x
        exact ⟨i, v', x, h3 ▸ y, z⟩

/-- An uninitialised array of connections, for the examples. -/
def exMem : Nat → Conn := fun _ => ⟨77, .W, some 9, 5, ⟨1, 0, 0, fun _ => 1⟩, ⟨1, 0, 0, fun _ => 1⟩, .connected, 3, 4⟩

/-- A history of a vector of 2 slots: two connections, one refused, one closed, the slot reused, a failed one. -/
def exConnOps : List Op :=
  [.connect 10 80 1 (.ok 5) .inProgress, .complete 0 (.ok 0) none, .connect 11 80 2 (.ok 6) .inProgress,
   .connect 12 80 3 (.ok 7) .inProgress, .close 0, .connect 13 81 4 (.ok 7) (.failed 111),
   .connect 14 82 5 (.ok 8) (.now 0), .complete 1 (.ok 111) none]

example : (∀ op ∈ exConnOps, op.sane) ∧
    (run (init exMem 2 16) exConnOps).1 =
      [.opened 0, .err 0, .opened 1, .err ENOMEM, .closed 0, .err 0, .opened 0, .closed 1] ∧
    live (run (init exMem 2 16) exConnOps).1 = [0] := by decide +kernel

theorem close_maxInd (v : ConnVec) {i : Nat} (hi : i < v.size) (hm : (v.conns i).mode ≠ .closed) :
    ∃ w : ConnVec, w.maxInd = v.maxInd ∧ w.size = v.size ∧ (w.conns i).desc = none ∧ (∀ j, j ≠ i → w.conns j = v.conns j) ∧
      (close v i).2.maxInd = (if i = w.maxInd then resetMax w else w).maxInd := by
  unfold close
  rw [if_neg (by omega), if_neg hm]
  refine ⟨set (fd (poll v (.remove i (v.conns i).desc)) (.closed (v.conns i).desc)) i (resetConn v.bufSize (v.conns i) i), rfl, rfl, ?_, ?_, rfl⟩
  · simp [set, resetConn]
  · intro j hj; simp [set, hj, fd, poll]

/-- C45: closing the connection with the highest index makes the highest index in use exactly that of the open connections (or "none");
closing another one leaves it alone. -/
theorem C45_max_close (v : ConnVec) {i : Nat} (hi : i < v.size) (hm : (v.conns i).mode ≠ .closed) :
    (i ≠ v.maxInd → (close v i).2.maxInd = v.maxInd) ∧
    (i = v.maxInd →
      ((close v i).2.maxInd = NIL_INDEX ∧ ∀ j, j < v.size → j ≠ i → (v.conns j).desc = none) ∨
      ((close v i).2.maxInd < v.size ∧ (close v i).2.maxInd ≠ i ∧ (v.conns (close v i).2.maxInd).desc ≠ none ∧
        ∀ j, j < v.size → j ≠ i → (v.conns j).desc ≠ none → j ≤ (close v i).2.maxInd)) := by
  obtain ⟨w, hwm, hws, hwi, hwj, e⟩ := close_maxInd v hi hm
  rw [e]
  constructor
  · intro hne
    rw [if_neg (by rw [hwm]; exact hne), hwm]
  · intro he
    rw [if_pos (by rw [hwm]; exact he)]
    obtain ⟨m, hm, hs⟩ := resetMax_spec w
    have e2 : (resetMax w).maxInd = m := by rw [hm]
    rw [e2]
    rcases hs with ⟨h1, h2⟩ | ⟨h1, h2, h3⟩
    · left
      refine ⟨h1, fun j hj hne => ?_⟩
      rw [← hwj j hne]; exact h2 j (by rw [hws]; exact hj)
    · right
      have hmi : m ≠ i := by intro e; rw [e] at h2; exact h2 hwi
      refine ⟨by rw [← hws]; exact h1, hmi, ?_, fun j hj hne hd => ?_⟩
      · rw [← hwj m hmi]; exact h2
      · exact h3 j (by rw [hws]; exact hj) (by rw [hwj j hne]; exact hd)

/-- Non-vacuity: of the slots 0 and 1 the last is closed. -/
example : let v := (run (init exMem 3 16) [.accept (some 3) (.ok 5 9), .accept (some 3) (.ok 6 9)]).2
    1 < v.size ∧ (v.conns 1).mode ≠ .closed ∧ v.maxInd = 1 ∧ (close v 1).2.maxInd = 0 := by decide +kernel

/-- C45 is false in general: if `setsockopt(TCP_NODELAY)` fails on a connection just accepted, the code closes the slot whose *index*
is the new descriptor. The slot of the failed connection is lost for ever, and another connection is closed instead. -/
theorem C45_false :
    ∃ ops : List Op, let r := run (init exMem 2 16) ops
      -- slot 0 was handed out and never closed by a call, yet it is gone
      live r.1 = [0] ∧ findByIndex r.2 0 = none ∧ r.2.active = 0 ∧
      -- one slot of the two is lost: a second connection is refused although at most one slot is in use
      (accept (accept r.2 (some 3) (.ok 8 9)).2.2 (some 3) (.ok 9 9)).1 = ENOMEM := by
  refine ⟨[.accept (some 3) (.ok 5 9), .accept (some 3) (.noDelayFailed 0 22)], ?_⟩
  decide +kernel

/-! ## C46 -/

/-- C46: looking up an address and port finds a connection opened with them and not closed since, if there is one. Missing
(here and in `C46_index_partial`): histories in which `setsockopt` fails on an accepted connection, see `C45_false`.
On the subscriber side, which never accepts, nothing is missing. -/
theorem C46_address_partial (mem : Nat → Conn) (size bufSize : Nat) (hsz : size ≤ LISTEN_INDEX) (ops : List Op)
    (hs : ∀ op ∈ ops, op.sane) (evs : List Ev) (v : ConnVec) (hr : run (init mem size bufSize) ops = (evs, v))
    (a p : Nat) :
    match findByAddress v a p with
    | some i => ∃ n, keys (fun _ => none) ops evs i = some ⟨a, p, n⟩
    | none => ∀ i n, keys (fun _ => none) ops evs i ≠ some ⟨a, p, n⟩ := by
  obtain ⟨h, k, h3, -⟩ := reach_inv mem size bufSize hsz ops hs
  rw [hr] at h h3 k
  dsimp only at h h3 k
  have hin : ∀ i q, keys (fun _ => none) ops evs i = some q → i ∈ live evs := fun i q hq =>
    (k.dom i).1 (by simp [hq])
  unfold findByAddress
  by_cases hm : v.maxInd = NIL_INDEX
  · simp only [hm, if_true]
    intro i n hq
    exact (h.maxLe i (hin i _ hq)).2 hm
  · simp only [hm, if_false]
    split
    · rename_i i hf
      have hp := List.find?_some hf
      have hlt := List.mem_range.1 (List.mem_of_find?_eq_some hf)
      simp only [decide_eq_true_eq] at hp
      have hms : v.maxInd < v.size := h.max.resolve_left hm
      have hl := (h.desc i (by omega)).1 hp.1
      have hd := (k.dom i).2 hl
      cases hk : keys (fun _ => none) ops evs i with
      | none => exact absurd hk hd
      | some q =>
        have := k.key i q hk
        obtain ⟨qa, qp, qn⟩ := q
        exact ⟨qn, by simp at this; rw [hp.2.1, hp.2.2, this.1, this.2.1]⟩
    · rename_i hf
      intro i n hq
      have hl := hin i _ hq
      have := k.key i _ hq
      rw [List.find?_eq_none] at hf
      have hx := hf i (List.mem_range.2 (by have := (h.maxLe i hl).1; omega))
      simp only [decide_eq_true_eq] at hx
      exact hx ⟨(h.desc i (h.lt i hl)).2 hl, this.1.symm, this.2.1.symm⟩

/-- C46: on the subscriber side (which only connects) looking up a node id finds a connection opened for it and not
closed since, if there is one. -/
theorem C46_node_id (mem : Nat → Conn) (size bufSize : Nat) (hsz : size ≤ LISTEN_INDEX) (ops : List Op)
    (hc : ∀ op ∈ ops, ∀ ld ar, op ≠ .accept ld ar) (evs : List Ev) (v : ConnVec)
    (hr : run (init mem size bufSize) ops = (evs, v)) (n : Nat) :
    match findByNodeId v n with
    | some i => ∃ a p, keys (fun _ => none) ops evs i = some ⟨a, p, some n⟩
    | none => ∀ i a p, keys (fun _ => none) ops evs i ≠ some ⟨a, p, some n⟩ := by
  have hs : ∀ op ∈ ops, op.sane := by
    intro op ho
    cases op with
    | accept ld ar => exact absurd rfl (hc _ ho ld ar)
    | _ => trivial
  obtain ⟨h, k, h3, -⟩ := reach_inv mem size bufSize hsz ops hs
  have hsome : ∀ (ops : List Op) (v : ConnVec) (K : Nat → Option Key),
      (∀ op ∈ ops, ∀ ld ar, op ≠ .accept ld ar) → (∀ i q, K i = some q → q.nid ≠ none) →
      ∀ i q, keys K ops (run v ops).1 i = some q → q.nid ≠ none := by
    intro ops
    induction ops with
    | nil => intro v K _ hK i q hq; exact hK i q hq
    | cons op ops ih =>
      intro v K hc hK i q hq
      have hc' : ∀ o ∈ ops, ∀ ld ar, o ≠ .accept ld ar := fun o ho => hc o (by simp [ho])
      simp only [run] at hq
      generalize hst : step v op = r at hq
      obtain ⟨e, w⟩ := r
      cases e with
      | opened j =>
        refine ih w _ hc' ?_ i q hq
        intro i' q' hq'
        by_cases e' : i' = j
        · simp only [e', if_true, Option.some.injEq] at hq'
          subst hq'
          cases op with
          | accept ld ar => exact absurd rfl (hc _ (by simp) ld ar)
          | connect a p n sk cr => simp [Op.key]
          | complete i so nd =>
            simp only [step] at hst
            split at hst
            · cases hst
            · simp only [Prod.mk.injEq] at hst
              have := hst.1
              split at this <;> cases this
          | close i =>
            simp only [step, Prod.mk.injEq] at hst
            have := hst.1
            split at this <;> cases this
          | io i a rb wb =>
            simp only [step] at hst
            split at hst <;> cases hst
        · simp only [e', if_false] at hq'; exact hK i' q' hq'
      | closed j =>
        refine ih w _ hc' ?_ i q hq
        intro i' q' hq'
        by_cases e' : i' = j
        · simp [e'] at hq'
        · simp only [e', if_false] at hq'; exact hK i' q' hq'
      | err e => exact ih w _ hc' hK i q hq
  have hns := hsome ops (init mem size bufSize) (fun _ => none) hc (by simp)
  rw [hr] at h h3 k hns
  dsimp only at h h3 k hns
  have hin : ∀ i q, keys (fun _ => none) ops evs i = some q → i ∈ live evs := fun i q hq =>
    (k.dom i).1 (by simp [hq])
  unfold findByNodeId
  by_cases hm : v.maxInd = NIL_INDEX
  · simp only [hm, if_true]
    intro i a p hq
    exact (h.maxLe i (hin i _ hq)).2 hm
  · simp only [hm, if_false]
    split
    · rename_i i hf
      have hp := List.find?_some hf
      have hlt := List.mem_range.1 (List.mem_of_find?_eq_some hf)
      simp only [decide_eq_true_eq] at hp
      have hms : v.maxInd < v.size := h.max.resolve_left hm
      have hl := (h.desc i (by omega)).1 hp.1
      have hd := (k.dom i).2 hl
      cases hk : keys (fun _ => none) ops evs i with
      | none => exact absurd hk hd
      | some q =>
        have h1 := k.key i q hk
        have h2 := hns i q hk
        obtain ⟨qa, qp, qn⟩ := q
        cases qn with
        | none => exact absurd rfl h2
        | some m =>
          have := h1.2.2 m rfl
          exact ⟨qa, qp, by rw [← hp.2, this]⟩
    · rename_i hf
      intro i a p hq
      have hl := hin i _ hq
      have := k.key i _ hq
      rw [List.find?_eq_none] at hf
      have hx := hf i (List.mem_range.2 (by have := (h.maxLe i hl).1; omega))
      simp only [decide_eq_true_eq] at hx
      exact hx ⟨(h.desc i (h.lt i hl)).2 hl, this.2.2 n rfl⟩

/-- C46 is false in general: after `setsockopt(TCP_NODELAY)` failed on a second accepted connection, the first one, which no call has
closed, is found neither by its index nor by its address. -/
theorem C46_false :
    ∃ ops : List Op, let r := run (init exMem 2 16) ops
      keys (fun _ => none) ops r.1 0 = some ⟨9, 0, none⟩ ∧ findByIndex r.2 0 = none ∧ findByAddress r.2 9 0 = none := by
  refine ⟨[.accept (some 3) (.ok 5 9), .accept (some 3) (.noDelayFailed 0 22)], ?_⟩
  decide +kernel

/-- C46: looking up an index finds the connection iff the slot is in use. -/
theorem C46_index_partial (mem : Nat → Conn) (size bufSize : Nat) (hsz : size ≤ LISTEN_INDEX) (ops : List Op)
    (hs : ∀ op ∈ ops, op.sane) (evs : List Ev) (v : ConnVec) (hr : run (init mem size bufSize) ops = (evs, v))
    (i : Nat) :
    findByIndex v i = if (keys (fun _ => none) ops evs i).isSome then some i else none := by
  obtain ⟨h, k, h3, -⟩ := reach_inv mem size bufSize hsz ops hs
  rw [hr] at h h3 k
  dsimp only at h h3 k
  rw [findByIndex_spec h]
  have := k.dom i
  by_cases hi : i ∈ live evs
  · have h2 := this.2 hi
    cases hk : keys (fun _ => none) ops evs i with
    | none => exact absurd hk h2
    | some q => simp [hi]
  · cases hk : keys (fun _ => none) ops evs i with
    | none => simp [hi]
    | some q => exact absurd (this.1 (by simp [hk])) hi

example : let r := run (init exMem 2 16) exConnOps
    keys (fun _ => none) exConnOps r.1 0 = some ⟨14, 82, some 5⟩ ∧ findByAddress r.2 14 82 = some 0 ∧
    findByNodeId r.2 5 = some 0 ∧ findByAddress r.2 11 80 = none ∧ findByNodeId r.2 2 = none := by
  decide +kernel

/-! ## C47 -/

/-- Slots that are not open have empty buffers. -/
structure JInv (v : ConnVec) (n : Nat) : Prop where
  buf : v.bufSize = n
  closed : ∀ i, (v.conns i).desc = none → (v.conns i).mode = .closed
  fresh : ∀ i, (v.conns i).mode = .closed → Fresh (v.conns i).readBuf n ∧ Fresh (v.conns i).writeBuf n

theorem JInv_getFree {v : ConnVec} {n : Nat} (h : JInv v n) {i : Nat} {w : ConnVec} (e : getFreeSlot v = (some i, w)) :
    JInv w n ∧ (w.conns i).desc = none := by
  unfold getFreeSlot at e
  split at e
  · rename_i j hf
    have hd := List.find?_some hf
    simp only [decide_eq_true_eq] at hd
    simp only [Prod.mk.injEq, Option.some.injEq] at e
    obtain ⟨rfl, rfl⟩ := e
    split
    · exact ⟨⟨h.buf, h.closed, h.fresh⟩, hd⟩
    · exact ⟨h, hd⟩
  · cases e

theorem JInv_none {v : ConnVec} {n : Nat} (h : JInv v n) {w : ConnVec} (e : getFreeSlot v = (none, w)) : JInv w n := by
  unfold getFreeSlot at e
  split at e
  · cases e
  · simp only [Prod.mk.injEq, true_and] at e; exact e ▸ h

theorem JInv_max {v : ConnVec} {n : Nat} (h : JInv v n) : JInv (resetMax v) n := by
  obtain ⟨m, hm, -⟩ := resetMax_spec v
  rw [hm]; exact ⟨h.buf, h.closed, h.fresh⟩

theorem JInv_set {v : ConnVec} {n : Nat} (h : JInv v n) (i : Nat) (c : Conn) (h1 : c.desc = none → c.mode = .closed)
    (h2 : c.mode = .closed → Fresh c.readBuf n ∧ Fresh c.writeBuf n) : JInv (set v i c) n := by
  refine ⟨h.buf, ?_, ?_⟩
  · intro j
    by_cases e : j = i
    · simp only [set, e, if_true]; exact h1
    · simp only [set, e, if_false]; exact h.closed j
  · intro j
    by_cases e : j = i
    · simp only [set, e, if_true]; exact h2
    · simp only [set, e, if_false]; exact h.fresh j

theorem JInv_poll {v : ConnVec} {n : Nat} (h : JInv v n) (e : PollEv) : JInv (poll v e) n :=
  ⟨h.buf, h.closed, h.fresh⟩

theorem JInv_fd {v : ConnVec} {n : Nat} (h : JInv v n) (e : FdEv) : JInv (fd v e) n := ⟨h.buf, h.closed, h.fresh⟩

theorem JInv_active {v : ConnVec} {n : Nat} (h : JInv v n) (a : Nat) : JInv { v with active := a } n :=
  ⟨h.buf, h.closed, h.fresh⟩

theorem JInv_close {v : ConnVec} {n : Nat} (h : JInv v n) (i : Nat) : JInv (close v i).2 n := by
  unfold close
  split
  · exact h
  · split
    · exact h
    · have h1 : JInv (set (fd (poll v (.remove i (v.conns i).desc)) (.closed (v.conns i).desc)) i
          (resetConn v.bufSize (v.conns i) i)) n := by
        refine JInv_set (JInv_fd (JInv_poll h _) _) i _ (by simp [resetConn]) ?_
        intro _
        have := h.buf
        simp [resetConn, Fresh, CircBuf.init, this]
      dsimp only
      split
      · exact JInv_active (JInv_max h1) _
      · exact JInv_active h1 _

/-- Every operation keeps the buffers of closed slots empty, and a slot handed out has empty buffers. -/
theorem JInv_step {v : ConnVec} {n : Nat} (h : JInv v n) (op : Op) :
    JInv (step v op).2 n ∧
    ∀ i, (step v op).1 = .opened i → Fresh ((step v op).2.conns i).readBuf n ∧ Fresh ((step v op).2.conns i).writeBuf n := by
  cases op with
  | connect a p nid sk cr =>
    simp only [step, connect]
    generalize hg : getFreeSlot v = g
    obtain ⟨_ | j, w⟩ := g
    · exact ⟨JInv_none h hg, by simp⟩
    · obtain ⟨h1, h2⟩ := JInv_getFree h hg
      have hf := h1.fresh j (h1.closed j h2)
      have hcl := h1.closed j h2
      cases sk with
      | error e => exact ⟨h1, by simp⟩
      | ok d =>
        cases cr with
        | failed e =>
          refine ⟨JInv_max (JInv_set (JInv_fd (JInv_fd h1 (.opened d)) (.closed (some d))) j _ (fun _ => hcl) (fun _ => hf)), by simp⟩
        | now e =>
          refine ⟨JInv_active (JInv_poll (JInv_set (JInv_fd h1 (.opened d)) j _ (by simp) (by simp)) _) _, ?_⟩
          intro i hi
          simp only [Ev.opened.injEq] at hi
          subst hi
          simpa [set, poll, fd] using hf
        | inProgress =>
          refine ⟨JInv_active (JInv_poll (JInv_set (JInv_fd h1 (.opened d)) j _ (by simp) (by simp)) _) _, ?_⟩
          intro i hi
          simp only [Ev.opened.injEq] at hi
          subst hi
          simpa [set, poll, fd] using hf
  | accept ld ar =>
    simp only [step, accept]
    generalize hg : getFreeSlot v = g
    obtain ⟨_ | j, w⟩ := g
    · exact ⟨JInv_none h hg, by simp⟩
    · obtain ⟨h1, h2⟩ := JInv_getFree h hg
      have hf := h1.fresh j (h1.closed j h2)
      cases ar with
      | failed e => exact ⟨h1, by simp⟩
      | noDelayFailed d e =>
        exact ⟨JInv_close (JInv_set (JInv_fd h1 (.opened d)) j { w.conns j with desc := some d } (by simp) (fun _ => hf)) _, by simp⟩
      | ok d a =>
        refine ⟨JInv_active (JInv_poll (JInv_poll (JInv_set (JInv_fd h1 (.opened d)) j _ (by simp) (by simp)) _) _) _, ?_⟩
        intro i hi
        simp only [Ev.opened.injEq] at hi
        subst hi
        simpa [set, poll, fd] using hf
  | complete i so nd =>
    have hno : ∀ k, (step v (.complete i so nd)).1 ≠ .opened k := by
      intro k
      simp only [step]
      split
      · simp
      · split <;> simp
    refine ⟨?_, fun k hk => absurd hk (hno k)⟩
    simp only [step]
    split
    · exact h
    · rename_i hi
      dsimp only
      unfold complete
      cases so with
      | error e => exact JInv_close h i
      | ok e =>
        dsimp only
        split
        · exact JInv_close (JInv_poll h _) i
        · cases nd with
          | some e => exact JInv_close (JInv_poll h _) i
          | none =>
            refine JInv_poll (JInv_set h i _ ?_ (by simp)) _
            intro hd
            have := h.closed i hd
            unfold findByIndex at hi
            split at hi
            · simp at hi
            · simp [this] at hi
  | close i =>
    have hno : ∀ k, (step v (.close i)).1 ≠ .opened k := by
      intro k
      simp only [step]
      split <;> simp
    exact ⟨JInv_close h i, fun k hk => absurd hk (hno k)⟩
  | io i a rb wb =>
    have hno : ∀ k, (step v (.io i a rb wb)).1 ≠ .opened k := by
      intro k
      simp only [step]
      split <;> simp
    refine ⟨?_, fun k hk => absurd hk (hno k)⟩
    simp only [step]
    split
    · exact h
    · rename_i hi
      have hne : (v.conns i).mode ≠ .closed := by
        unfold findByIndex at hi
        split at hi
        · simp at hi
        · split at hi
          · simp at hi
          · assumption
      exact JInv_set h i _ (fun hd => absurd (h.closed i hd) hne) (fun hd => absurd hd hne)

theorem JInv_run (ops : List Op) : ∀ {v : ConnVec} {n : Nat}, JInv v n → JInv (run v ops).2 n := by
  induction ops with
  | nil => intro v n h; exact h
  | cons op ops ih => intro v n h; exact ih (JInv_step h op).1

/-- C47: whatever was read, written or left in the buffers of earlier connections, a connection that has just been given a
slot has empty buffers of full size. (Any history, any results of the socket calls.) -/
theorem C47_clean (mem : Nat → Conn) (size bufSize : Nat) (ops : List Op) (op : Op) (i : Nat) (v' : ConnVec)
    (he : step (run (init mem size bufSize) ops).2 op = (.opened i, v')) :
    CircBuf.bytes (v'.conns i).readBuf = [] ∧ CircBuf.bytes (v'.conns i).writeBuf = [] ∧
    (v'.conns i).readBuf.size = bufSize ∧ (v'.conns i).writeBuf.size = bufSize ∧
    (v'.conns i).readBuf.start = 0 ∧ (v'.conns i).writeBuf.start = 0 := by
  have h0 : JInv (init mem size bufSize) bufSize := by
    constructor <;> simp [init, resetConn, Fresh, CircBuf.init]
  have h := (JInv_step (JInv_run ops h0) op).2 i (by rw [he])
  rw [he] at h
  have hbytes : ∀ b : CircBuf, Fresh b bufSize → CircBuf.bytes b = [] := by
    intro b hb
    have : CircBuf.inUse b = 0 := by
      unfold CircBuf.inUse
      rw [hb.2.1, hb.2.2]; simp [sub32]
    simp [CircBuf.bytes, this]
  exact ⟨hbytes _ h.1, hbytes _ h.2, h.1.1, h.2.1, h.1.2.1, h.2.2.1⟩

/-- The hypotheses of `C47_clean` are met by a slot reused after its previous occupant left bytes in both buffers. -/
example : let ops : List Op := [.accept (some 3) (.ok 5 9), .io 0 .R ⟨16, 3, 7, fun _ => 1⟩ ⟨16, 9, 2, fun _ => 2⟩, .close 0]
    (step (run (init exMem 2 16) ops).2 (.accept (some 3) (.ok 6 9))).1 = .opened 0 := by
  decide +kernel

end ConnVec
end Rmc
