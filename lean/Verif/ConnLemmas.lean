import Verif.Conn
import Verif.CircBufLemmas

/-! # Lemmas about the connection vector -/

set_option linter.unusedSimpArgs false
set_option linter.unusedVariables false

namespace Rmc
namespace ConnVec

/-- A buffer as `circ_buf_init` leaves it. -/
def Fresh (b : CircBuf) (n : Nat) : Prop := b.size = n ∧ b.start = 0 ∧ b.stop = 0

/-- The slots in `L`, and only they, are in use. -/
structure VInv (v : ConnVec) (L : List Nat) : Prop where
  nodup : L.Nodup
  lt : ∀ i ∈ L, i < v.size
  desc : ∀ i, i < v.size → ((v.conns i).desc ≠ none ↔ i ∈ L)
  mode : ∀ i, i < v.size → ((v.conns i).mode ≠ .closed ↔ i ∈ L)
  active : v.active = L.length
  max : v.maxInd = NIL_INDEX ∨ v.maxInd < v.size
  maxLe : ∀ i ∈ L, i ≤ v.maxInd ∧ v.maxInd ≠ NIL_INDEX
  clean : ∀ i, i < v.size → i ∉ L → Fresh (v.conns i).readBuf v.bufSize ∧
    Fresh (v.conns i).writeBuf v.bufSize ∧ (v.conns i).port = 0 ∧ (v.conns i).action = .none
  idx : ∀ i, (v.conns i).index = i
  sz : v.size ≤ LISTEN_INDEX

theorem VInv.length_le {v : ConnVec} {L : List Nat} (h : VInv v L) : L.length ≤ v.size := by
  have := List.Nodup.length_le_of_subset h.nodup (l₂ := List.range v.size)
    (fun i hi => List.mem_range.2 (h.lt i hi))
  simpa using this

theorem VInv.full {v : ConnVec} {L : List Nat} (h : VInv v L) :
    L.length = v.size ↔ ∀ i, i < v.size → i ∈ L := by
  constructor
  · intro e i hi
    by_cases hm : i ∈ L
    · exact hm
    · have hn : (i :: L).Nodup := List.nodup_cons.2 ⟨hm, h.nodup⟩
      have := List.Nodup.length_le_of_subset hn (l₂ := List.range v.size) (by
        intro j hj
        rcases List.mem_cons.1 hj with rfl | hj
        · exact List.mem_range.2 hi
        · exact List.mem_range.2 (h.lt j hj))
      simp at this; omega
  · intro e
    have := List.Nodup.length_le_of_subset (List.nodup_range (n := v.size)) (l₂ := L)
      (fun i hi => e i (List.mem_range.1 hi))
    have h2 := h.length_le
    simp at this; omega

theorem VInv_init (mem : Nat → Conn) (size bufSize : Nat) (h : size ≤ LISTEN_INDEX) :
    VInv (init mem size bufSize) [] := by
  constructor <;> simp [init, resetConn, Fresh, CircBuf.init]
  exact h

/-- `_get_free_slot`. -/
theorem getFreeSlot_spec {v : ConnVec} {L : List Nat} (h : VInv v L) :
    match getFreeSlot v with
    | (none, v') => v' = v ∧ L.length = v.size
    | (some i, v') => i < v.size ∧ i ∉ L ∧ VInv v' L ∧ v'.conns = v.conns ∧ v'.size = v.size ∧
        v'.bufSize = v.bufSize ∧ v'.polls = v.polls ∧ i ≤ v'.maxInd ∧ v'.maxInd ≠ NIL_INDEX ∧
        v'.active = v.active ∧ L.length < v.size := by
  unfold getFreeSlot
  split
  · rename_i r v' hr
    split at hr
    · cases hr
    · rename_i hf
      simp only [Prod.mk.injEq] at hr
      refine ⟨hr.2.symm, h.full.2 ?_⟩
      intro i hi
      rw [List.find?_eq_none] at hf
      have := hf i (List.mem_range.2 hi)
      simp at this
      exact (h.desc i hi).1 this
  · rename_i r v' i hr
    split at hr
    · rename_i j hf
      have hs := List.find?_some hf
      have hm := List.mem_range.1 (List.mem_of_find?_eq_some hf)
      simp at hs
      simp only [Prod.mk.injEq, Option.some.injEq] at hr
      obtain ⟨rfl, hv⟩ := hr
      have hn : j ∉ L := fun hj => (h.desc j hm).2 hj hs
      have hNIL : NIL_INDEX = 32767 := rfl
      have hLI : LISTEN_INDEX = 32765 := rfl
      have hlen : L.length < v.size := by
        rcases Nat.lt_or_ge L.length v.size with h' | h'
        · exact h'
        · have := h.full.1 (by have := h.length_le; omega) j hm
          exact absurd this hn
      have hsz := h.sz
      split at hv
      · rename_i hc
        subst hv
        refine ⟨hm, hn, ⟨h.nodup, h.lt, h.desc, h.mode, h.active, .inr hm, ?_, h.clean, h.idx, h.sz⟩,
          rfl, rfl, rfl, rfl, Nat.le_refl _, ?_, rfl, hlen⟩
        · intro i hi
          have := h.maxLe i hi
          have hne : j ≠ NIL_INDEX := by omega
          refine ⟨?_, hne⟩
          simp only
          rcases hc with hc | hc
          · omega
          · exact absurd hc this.2
        · simp only; omega
      · rename_i hc
        subst hv
        refine ⟨hm, hn, h, rfl, rfl, rfl, rfl, by omega, by omega, rfl, hlen⟩
    · cases hr

/-- Opening a free slot. -/
theorem VInv_open {v : ConnVec} {L : List Nat} (h : VInv v L) {i : Nat} (hi : i < v.size) (hn : i ∉ L)
    (hm : i ≤ v.maxInd) (hm' : v.maxInd ≠ NIL_INDEX) (c : Conn) (hd : c.desc ≠ none) (hmo : c.mode ≠ .closed)
    (hix : c.index = i) (es : List PollEv) :
    VInv { set v i c with polls := es, active := (v.active + 1) % 65536 } (i :: L) := by
  have hlen : L.length < v.size := by
    have h1 := h.length_le
    have h2 := h.full
    rcases Nat.lt_or_ge L.length v.size with h' | h'
    · exact h'
    · exact absurd (h2.1 (by omega) i hi) hn
  have hsz := h.sz
  have hLI : LISTEN_INDEX = 32765 := rfl
  constructor
  · exact List.nodup_cons.2 ⟨hn, h.nodup⟩
  · intro j hj
    rcases List.mem_cons.1 hj with rfl | hj
    · exact hi
    · exact h.lt j hj
  · intro j hj
    simp only [set, List.mem_cons]
    by_cases e : j = i
    · simp [e, hd]
    · simp only [e, if_false, false_or]; exact h.desc j hj
  · intro j hj
    simp only [set, List.mem_cons]
    by_cases e : j = i
    · simp [e, hmo]
    · simp only [e, if_false, false_or]; exact h.mode j hj
  · simp only [List.length_cons, h.active]; omega
  · exact h.max
  · intro j hj
    rcases List.mem_cons.1 hj with rfl | hj
    · exact ⟨hm, hm'⟩
    · exact h.maxLe j hj
  · intro j hj hjn
    simp only [set, List.mem_cons, not_or] at *
    simp only [hjn.1, if_false]
    exact h.clean j hj hjn.2
  · intro j
    simp only [set]
    by_cases e : j = i
    · simp [e, hix]
    · simp only [e, if_false]; exact h.idx j
  · exact h.sz

/-- Changing a slot in use without opening or closing it. -/
theorem VInv_set {v : ConnVec} {L : List Nat} (h : VInv v L) {i : Nat} (hi : i ∈ L) (c : Conn) (hd : c.desc ≠ none)
    (hmo : c.mode ≠ .closed) (hix : c.index = i) (es : List PollEv) :
    VInv { set v i c with polls := es } L := by
  constructor
  · exact h.nodup
  · exact h.lt
  · intro j hj
    simp only [set]
    by_cases e : j = i
    · simp [e, hd, hi]
    · simp only [e, if_false]; exact h.desc j hj
  · intro j hj
    simp only [set]
    by_cases e : j = i
    · simp [e, hmo, hi]
    · simp only [e, if_false]; exact h.mode j hj
  · exact h.active
  · exact h.max
  · exact h.maxLe
  · intro j hj hjn
    have hji : j ≠ i := fun e => hjn (e ▸ hi)
    simp only [set, hji, if_false]
    exact h.clean j hj hjn
  · intro j
    simp only [set]
    by_cases e : j = i
    · simp [e, hix]
    · simp only [e, if_false]; exact h.idx j
  · exact h.sz

theorem VInv_polls {v : ConnVec} {L : List Nat} (h : VInv v L) (es : List PollEv) : VInv { v with polls := es } L :=
  ⟨h.nodup, h.lt, h.desc, h.mode, h.active, h.max, h.maxLe, h.clean, h.idx, h.sz⟩

theorem VInv_poll {v : ConnVec} {L : List Nat} (h : VInv v L) (e : PollEv) : VInv (poll v e) L :=
  VInv_polls h _

/-- `_reset_max_connection_ind`: only the bound changes, and it becomes exact. -/
theorem resetMax_spec (v : ConnVec) :
    ∃ m, resetMax v = { v with maxInd := m } ∧
      ((m = NIL_INDEX ∧ ∀ i, i < v.size → (v.conns i).desc = none) ∨
       (m < v.size ∧ (v.conns m).desc ≠ none ∧ ∀ i, i < v.size → (v.conns i).desc ≠ none → i ≤ m)) := by
  unfold resetMax
  split
  · rename_i m hf
    refine ⟨m, rfl, .inr ?_⟩
    have hs := List.find?_some hf
    have hm := List.mem_range.1 (List.mem_reverse.1 (List.mem_of_find?_eq_some hf))
    simp only [decide_eq_true_eq] at hs
    refine ⟨hm, hs, ?_⟩
    intro i hi hd
    rcases Nat.lt_or_ge m i with hlt | hge
    · exfalso
      obtain ⟨hp, as, bs, hl, hno⟩ := List.find?_eq_some_iff_append.1 hf
      have hl' : List.range v.size = bs.reverse ++ m :: as.reverse := by
        have := congrArg List.reverse hl
        simpa using this
      have hmem : i ∈ as := by
        have h1 : i ∈ List.range v.size := List.mem_range.2 hi
        rw [hl'] at h1
        have hp : (List.range v.size).Pairwise (· < ·) := List.pairwise_lt_range
        rw [hl', List.pairwise_append] at hp
        rcases List.mem_append.1 h1 with h1 | h1
        · have := hp.2.2 i h1 m (List.mem_cons_self)
          omega
        · rcases List.mem_cons.1 h1 with h1 | h1
          · omega
          · simpa using h1
      have := hno i hmem
      simp at this
      exact hd this
    · exact hge
  · rename_i hf
    refine ⟨NIL_INDEX, rfl, .inl ⟨rfl, ?_⟩⟩
    intro i hi
    rw [List.find?_eq_none] at hf
    have := hf i (List.mem_reverse.2 (List.mem_range.2 hi))
    simpa using this

theorem resetMax_active (w : ConnVec) (a : Nat) :
    resetMax { w with active := a } = { resetMax w with active := a } := by
  unfold resetMax
  generalize hf : (List.range w.size).reverse.find? (fun i => decide ((w.conns i).desc ≠ none)) = r
  dsimp only
  cases r <;> rfl

/-- After `_reset_max_connection_ind` any vector with the other invariants has them all. -/
theorem VInv_resetMax {v : ConnVec} {L : List Nat}
    (h : VInv { v with maxInd := NIL_INDEX } L ∨ VInv v L ∨
      (L.Nodup ∧ (∀ i ∈ L, i < v.size) ∧ (∀ i, i < v.size → ((v.conns i).desc ≠ none ↔ i ∈ L)) ∧
       (∀ i, i < v.size → ((v.conns i).mode ≠ .closed ↔ i ∈ L)) ∧ v.active = L.length ∧
       (∀ i, i < v.size → i ∉ L → Fresh (v.conns i).readBuf v.bufSize ∧
          Fresh (v.conns i).writeBuf v.bufSize ∧ (v.conns i).port = 0 ∧ (v.conns i).action = .none) ∧
       (∀ i, (v.conns i).index = i) ∧ v.size ≤ LISTEN_INDEX)) :
    VInv (resetMax v) L := by
  have hh : (L.Nodup ∧ (∀ i ∈ L, i < v.size) ∧ (∀ i, i < v.size → ((v.conns i).desc ≠ none ↔ i ∈ L)) ∧
       (∀ i, i < v.size → ((v.conns i).mode ≠ .closed ↔ i ∈ L)) ∧ v.active = L.length ∧
       (∀ i, i < v.size → i ∉ L → Fresh (v.conns i).readBuf v.bufSize ∧
          Fresh (v.conns i).writeBuf v.bufSize ∧ (v.conns i).port = 0 ∧ (v.conns i).action = .none) ∧
       (∀ i, (v.conns i).index = i) ∧ v.size ≤ LISTEN_INDEX) := by
    rcases h with h | h | h
    · exact ⟨h.nodup, h.lt, h.desc, h.mode, h.active, h.clean, h.idx, h.sz⟩
    · exact ⟨h.nodup, h.lt, h.desc, h.mode, h.active, h.clean, h.idx, h.sz⟩
    · exact h
  obtain ⟨h1, h2, h3, h4, h5, h6, h7, h8⟩ := hh
  obtain ⟨m, hm, hs⟩ := resetMax_spec v
  rw [hm]
  have hNIL : NIL_INDEX = 32767 := rfl
  have hLI : LISTEN_INDEX = 32765 := rfl
  refine ⟨h1, h2, h3, h4, h5, ?_, ?_, h6, h7, h8⟩
  · rcases hs with hs | hs
    · exact .inl hs.1
    · exact .inr hs.1
  · intro i hi
    have hd := (h3 i (h2 i hi)).2 hi
    rcases hs with ⟨rfl, hs⟩ | hs
    · exact absurd (hs i (h2 i hi)) hd
    · refine ⟨hs.2.2 i (h2 i hi) hd, ?_⟩
      have := hs.1
      simp only; omega

theorem VInv_fd {v : ConnVec} {L : List Nat} (h : VInv v L) (e : FdEv) : VInv (fd v e) L :=
  ⟨h.nodup, h.lt, h.desc, h.mode, h.active, h.max, h.maxLe, h.clean, h.idx, h.sz⟩

theorem VInv_fdAll {v : ConnVec} {L : List Nat} (h : VInv v L) (es : List FdEv) : VInv (fdAll v es) L :=
  ⟨h.nodup, h.lt, h.desc, h.mode, h.active, h.max, h.maxLe, h.clean, h.idx, h.sz⟩

/-- `rmc_conn_close_connection`. -/
theorem close_spec {v : ConnVec} {L : List Nat} (h : VInv v L) (i : Nat) :
    (i ∈ L → (close v i).1 = 0 ∧ VInv (close v i).2 (L.erase i) ∧ (close v i).2.size = v.size ∧
      (close v i).2.bufSize = v.bufSize ∧ (∀ j, j ≠ i → (close v i).2.conns j = v.conns j) ∧
      (close v i).2.conns i = resetConn v.bufSize (v.conns i) i ∧
      (close v i).2.polls = v.polls ++ [.remove i (v.conns i).desc]) ∧
    (i ∉ L → (close v i).1 ≠ 0 ∧ (close v i).2 = v) := by
  constructor
  · intro hi
    have hlt := h.lt i hi
    have hmo := (h.mode i hlt).2 hi
    have hsz := h.sz
    have hLI : LISTEN_INDEX = 32765 := rfl
    have hlen := h.length_le
    have hpos : 0 < L.length := List.length_pos_of_mem hi
    have hel : (L.erase i).length = L.length - 1 := by
      rw [List.length_erase]; simp [hi]
    unfold close
    rw [if_neg (by omega), if_neg hmo]
    have hbase : ∀ w : ConnVec, w.conns = (set v i (resetConn v.bufSize (v.conns i) i)).conns → w.size = v.size →
        w.bufSize = v.bufSize → w.active = v.active →
        ((L.erase i).Nodup ∧ (∀ j ∈ L.erase i, j < w.size) ∧
        (∀ j, j < w.size → ((w.conns j).desc ≠ none ↔ j ∈ L.erase i)) ∧
        (∀ j, j < w.size → ((w.conns j).mode ≠ .closed ↔ j ∈ L.erase i)) ∧
        (w.active + 65535) % 65536 = (L.erase i).length ∧
        (∀ j, j < w.size → j ∉ L.erase i → Fresh (w.conns j).readBuf w.bufSize ∧
          Fresh (w.conns j).writeBuf w.bufSize ∧ (w.conns j).port = 0 ∧ (w.conns j).action = .none) ∧
        (∀ j, (w.conns j).index = j) ∧ w.size ≤ LISTEN_INDEX) := by
      intro w hw1 hw2 hw3 hw4
      have hmem : ∀ j, j ∈ L.erase i ↔ j ≠ i ∧ j ∈ L := fun j => List.Nodup.mem_erase_iff h.nodup
      refine ⟨h.nodup.erase i, ?_, ?_, ?_, ?_, ?_, ?_, ?_⟩
      · intro j hj; rw [hw2]; exact h.lt j ((hmem j).1 hj).2
      · intro j hj
        rw [hw1, hmem]; rw [hw2] at hj
        by_cases e : j = i
        · simp [set, e, resetConn]
        · simp only [set, e, if_false, ne_eq, not_false_iff, true_and]; exact h.desc j hj
      · intro j hj
        rw [hw1, hmem]; rw [hw2] at hj
        by_cases e : j = i
        · simp [set, e, resetConn]
        · simp only [set, e, if_false, ne_eq, not_false_iff, true_and]; exact h.mode j hj
      · rw [hw4, h.active, hel]; omega
      · intro j hj hjn
        rw [hw1, hw3]; rw [hw2] at hj; rw [hmem] at hjn
        by_cases e : j = i
        · simp [set, e, resetConn, Fresh, CircBuf.init]
        · simp only [set, e, if_false]
          exact h.clean j hj (fun hh => hjn ⟨e, hh⟩)
      · intro j
        rw [hw1]
        by_cases e : j = i
        · simp [set, e, resetConn]
        · simp only [set, e, if_false]; exact h.idx j
      · rw [hw2]; exact h.sz
    dsimp only
    split
    · rename_i hc
      have hr := resetMax_spec (set (fd (poll v (.remove i (v.conns i).desc)) (.closed (v.conns i).desc)) i
        (resetConn v.bufSize (v.conns i) i))
      obtain ⟨m, hm, hs⟩ := hr
      have hv := VInv_resetMax (L := L.erase i) (v := { set (fd (poll v (.remove i (v.conns i).desc)) (.closed (v.conns i).desc)) i
        (resetConn v.bufSize (v.conns i) i) with active := (v.active + 65535) % 65536 })
        (.inr (.inr (by
          have := hbase (set (fd (poll v (.remove i (v.conns i).desc)) (.closed (v.conns i).desc)) i
            (resetConn v.bufSize (v.conns i) i)) rfl rfl rfl rfl
          exact this)))
      have he : resetMax { set (fd (poll v (.remove i (v.conns i).desc)) (.closed (v.conns i).desc)) i
          (resetConn v.bufSize (v.conns i) i) with active := (v.active + 65535) % 65536 } =
          { resetMax (set (fd (poll v (.remove i (v.conns i).desc)) (.closed (v.conns i).desc)) i
          (resetConn v.bufSize (v.conns i) i)) with active := (v.active + 65535) % 65536 } := by
        exact resetMax_active _ _
      rw [he] at hv
      refine ⟨rfl, ?_, ?_, ?_, ?_, ?_, ?_⟩
      · simp only [poll, fd] at hv hm ⊢
        rw [hm] at hv ⊢
        exact hv
      all_goals simp only [poll, fd] at hm ⊢; rw [hm]; simp [set, poll, fd]
      intro j hj; simp [hj]
    · rename_i hc
      refine ⟨rfl, ?_, rfl, rfl, ?_, ?_, rfl⟩
      · obtain ⟨b1, b2, b3, b4, b5, b6, b7, b8⟩ := hbase (set (fd (poll v (.remove i (v.conns i).desc)) (.closed (v.conns i).desc)) i
            (resetConn v.bufSize (v.conns i) i)) rfl rfl rfl rfl
        refine ⟨b1, b2, b3, b4, b5, h.max, ?_, b6, b7, b8⟩
        intro j hj
        exact h.maxLe j ((List.Nodup.mem_erase_iff h.nodup).1 hj).2
      · intro j hj; simp [set, poll, fd, hj]
      · simp [set, poll, fd]
  · intro hi
    unfold close
    by_cases hs : i ≥ v.size
    · simp [hs, EINVAL]
    · rw [if_neg hs]
      have hmo : (v.conns i).mode = .closed := by
        by_cases hm : (v.conns i).mode = .closed
        · exact hm
        · exact absurd ((h.mode i (by omega)).1 hm) hi
      simp [hmo, ENOTCONN]

theorem findByIndex_spec {v : ConnVec} {L : List Nat} (h : VInv v L) (i : Nat) :
    findByIndex v i = if i ∈ L then some i else none := by
  unfold findByIndex
  by_cases hs : i ≥ v.size
  · have : i ∉ L := fun hi => by have := h.lt i hi; omega
    simp [hs, this]
  · rw [if_neg hs]
    have := h.mode i (by omega)
    by_cases hm : i ∈ L
    · simp [hm, this.2 hm]
    · have hc : (v.conns i).mode = .closed := by
        by_cases hx : (v.conns i).mode = .closed
        · exact hx
        · exact absurd (this.1 hx) hm
      simp [hm, hc]

/-- `rmc_conn_process_accept` when the kernel hands out a connection and `setsockopt` succeeds. -/
theorem accept_ok {v : ConnVec} {L : List Nat} (h : VInv v L) (ld : Option Nat) (d a : Nat) :
    (L.length = v.size ∧ accept v ld (.ok d a) = (ENOMEM, none, v)) ∨
    (L.length < v.size ∧ ∃ i v', accept v ld (.ok d a) = (0, some i, v') ∧ i < v.size ∧ i ∉ L ∧ VInv v' (i :: L) ∧
      v'.size = v.size ∧ v'.bufSize = v.bufSize ∧ (∀ j, j ≠ i → v'.conns j = v.conns j) ∧
      v'.conns i = { v.conns i with desc := some d, mode := .connected, addr := a, action := .R } ∧
      v'.polls = v.polls ++ [.add i (some d) .R, .modify LISTEN_INDEX ld .R .R]) := by
  have hg := getFreeSlot_spec h
  unfold accept
  generalize getFreeSlot v = g at hg
  obtain ⟨_ | i, w⟩ := g
  · left
    obtain ⟨rfl, hl⟩ := hg
    exact ⟨hl, rfl⟩
  · right
    obtain ⟨h1, h2, h3, h4, h5, h6, h7, h8, h9, h10, h11⟩ := hg
    refine ⟨h11, i, _, rfl, h1, h2, ?_, ?_⟩
    · refine VInv_open (VInv_fd h3 (.opened d)) (h5 ▸ h1) h2 h8 h9 _ ?_ ?_ ?_ _
      · simp
      · simp
      · simp [h3.idx]
    · refine ⟨h5, h6, ?_, ?_, ?_⟩
      · intro j hj; simp [set, poll, fd, hj, h4]
      · simp [set, poll, fd, h4]
      · simp [set, poll, fd, h7]

/-- `rmc_conn_process_accept` when `accept()` fails: only the bound may have been raised. -/
theorem accept_failed {v : ConnVec} {L : List Nat} (h : VInv v L) (ld : Option Nat) (e : Nat) :
    ∃ r m, accept v ld (.failed e) = (r, none, { v with maxInd := m }) ∧ VInv { v with maxInd := m } L ∧
      (r = ENOMEM ∨ r = e) := by
  have hg := getFreeSlot_spec h
  unfold accept getFreeSlot at *
  split at hg
  · rename_i w hw
    split at hw
    · cases hw
    · exact ⟨ENOMEM, v.maxInd, rfl, h, .inl rfl⟩
  · rename_i _ i w hw
    split at hw
    · obtain ⟨h1, h2, h3, h4, h5, h6, h7, h8, h9, h10, h11⟩ := hg
      cases hw
      by_cases hc : v.maxInd < i ∨ v.maxInd = NIL_INDEX
      · rw [if_pos hc] at h3 ⊢
        exact ⟨e, i, rfl, h3, .inr rfl⟩
      · rw [if_neg hc] at h3 ⊢
        exact ⟨e, v.maxInd, rfl, h3, .inr rfl⟩
    · cases hw

/-- `rmc_conn_connect_tcp_by_address` that gets a connection going. -/
theorem connect_ok {v : ConnVec} {L : List Nat} (h : VInv v L) (a p n d : Nat) (cr : ConnRes)
    (hcr : ∀ e, cr ≠ .failed e) :
    (L.length = v.size ∧ connect v a p n (.ok d) cr = (ENOMEM, none, v)) ∨
    (L.length < v.size ∧ ∃ r i v', connect v a p n (.ok d) cr = (r, some i, v') ∧ i < v.size ∧ i ∉ L ∧ VInv v' (i :: L) ∧
      v'.size = v.size ∧ v'.bufSize = v.bufSize ∧ (∀ j, j ≠ i → v'.conns j = v.conns j) ∧
      v'.conns i = { v.conns i with desc := some d, addr := a, nodeId := n, port := p, mode := .connecting,
                                    action := .W } ∧
      v'.polls = v.polls ++ [.add i (some d) .W] ∧ (cr = .inProgress → r = 0)) := by
  have hg := getFreeSlot_spec h
  unfold connect
  generalize getFreeSlot v = g at hg
  obtain ⟨_ | i, w⟩ := g
  · left
    obtain ⟨rfl, hl⟩ := hg
    exact ⟨hl, rfl⟩
  · right
    obtain ⟨h1, h2, h3, h4, h5, h6, h7, h8, h9, h10, h11⟩ := hg
    refine ⟨h11, ?_⟩
    cases cr with
    | failed e => exact absurd rfl (hcr e)
    | now e =>
      refine ⟨e, i, _, rfl, h1, h2, ?_, h5, h6, ?_, ?_, ?_, by simp⟩
      · refine VInv_open (VInv_fd h3 (.opened d)) (h5 ▸ h1) h2 h8 h9 _ ?_ ?_ ?_ _
        · simp
        · simp
        · exact h3.idx i
      · intro j hj; simp [set, poll, fd, hj, h4]
      · simp [set, poll, fd, h4]
      · simp [set, poll, fd, h7]
    | inProgress =>
      refine ⟨0, i, _, rfl, h1, h2, ?_, h5, h6, ?_, ?_, ?_, by simp⟩
      · refine VInv_open (VInv_fd h3 (.opened d)) (h5 ▸ h1) h2 h8 h9 _ ?_ ?_ ?_ _
        · simp
        · simp
        · exact h3.idx i
      · intro j hj; simp [set, poll, fd, hj, h4]
      · simp [set, poll, fd, h4]
      · simp [set, poll, fd, h7]

/-- `rmc_conn_connect_tcp_by_address` when `socket()` or `connect()` fails: the slot stays free (but the address and node id of a
free slot may change). -/
theorem connect_failed {v : ConnVec} {L : List Nat} (h : VInv v L) (a p n : Nat) (sk : Except Nat Nat) (cr : ConnRes)
    (hf : (∃ e, sk = .error e) ∨ (∃ e, cr = .failed e)) :
    ∃ r v', connect v a p n sk cr = (r, none, v') ∧ VInv v' L ∧ v'.size = v.size ∧ v'.bufSize = v.bufSize ∧
      v'.polls = v.polls ∧ (∀ j ∈ L, v'.conns j = v.conns j) ∧ v'.active = v.active := by
  have hg := getFreeSlot_spec h
  unfold connect
  generalize getFreeSlot v = g at hg
  obtain ⟨_ | i, w⟩ := g
  · obtain ⟨rfl, hl⟩ := hg
    exact ⟨_, _, rfl, h, rfl, rfl, rfl, fun _ _ => rfl, rfl⟩
  · obtain ⟨h1, h2, h3, h4, h5, h6, h7, h8, h9, h10, h11⟩ := hg
    dsimp only
    cases sk with
    | error e => exact ⟨_, _, rfl, h3, h5, h6, h7, fun j _ => by rw [h4], h10⟩
    | ok d =>
      rcases hf with ⟨e, hf⟩ | ⟨e, rfl⟩
      · cases hf
      · dsimp only
        refine ⟨0, _, rfl, ?_, ?_⟩
        · apply VInv_resetMax
          refine .inr (.inr ⟨h3.nodup, h3.lt, ?_, ?_, h3.active, ?_, ?_, h3.sz⟩)
          · intro j hj
            by_cases e : j = i
            · simp [set, e, h2]
            · simp only [set, e, if_false]; exact h3.desc j hj
          · intro j hj
            by_cases e : j = i
            · subst e; simp only [set, if_true]; exact h3.mode j hj
            · simp only [set, e, if_false]; exact h3.mode j hj
          · intro j hj hjn
            by_cases e : j = i
            · subst e; simp only [set, if_true]; exact h3.clean j hj hjn
            · simp only [set, e, if_false]; exact h3.clean j hj hjn
          · intro j
            by_cases e : j = i
            · subst e; simp only [set, if_true]; exact h3.idx j
            · simp only [set, e, if_false]; exact h3.idx j
        · obtain ⟨m, hm, -⟩ := resetMax_spec (set (fd (fd w (.opened d)) (.closed (some d))) i { (fd w (.opened d)).conns i with desc := none, addr := a, nodeId := n })
          rw [hm]
          refine ⟨h5, h6, h7, ?_, h10⟩
          intro j hj
          have : j ≠ i := fun e => h2 (e ▸ hj)
          simp [set, fd, this, h4]

/-- `rmc_conn_complete_connection` on a connection in use. -/
theorem complete_spec {v : ConnVec} {L : List Nat} (h : VInv v L) {i : Nat} (hi : i ∈ L) (so : Except Nat Nat)
    (nd : Option Nat) :
    (so = .ok 0 ∧ nd = none ∧
      complete v i so nd = (0, poll (set v i { v.conns i with mode := .connected, action := .R })
        (.modify i (v.conns i).desc (v.conns i).action .R)) ∧ VInv (complete v i so nd).2 L) ∨
    (¬ (so = .ok 0 ∧ nd = none) ∧ VInv (complete v i so nd).2 (L.erase i) ∧ (complete v i so nd).2.size = v.size ∧
      (complete v i so nd).2.bufSize = v.bufSize ∧ (∀ j, j ≠ i → (complete v i so nd).2.conns j = v.conns j) ∧
      (complete v i so nd).2.conns i = resetConn v.bufSize (v.conns i) i ∧
      ∃ es, es ≠ [] ∧ (∀ e ∈ es, e = PollEv.remove i (v.conns i).desc) ∧ (complete v i so nd).2.polls = v.polls ++ es) := by
  have hp := VInv_poll h (.remove i (v.conns i).desc)
  have c1 := (close_spec h i).1 hi
  have c2 := (close_spec hp i).1 hi
  have hd := (h.desc i (h.lt i hi)).2 hi
  cases so with
  | error e =>
    right
    exact ⟨by simp, c1.2.1, c1.2.2.1, c1.2.2.2.1, c1.2.2.2.2.1, c1.2.2.2.2.2.1, _, by simp,
      by intro e he; exact List.mem_singleton.1 he, c1.2.2.2.2.2.2⟩
  | ok e =>
    by_cases he : e = 0
    · subst he
      cases nd with
      | some e =>
        right
        exact ⟨by simp, c2.2.1, c2.2.2.1, c2.2.2.2.1, c2.2.2.2.2.1, c2.2.2.2.2.2.1,
          [.remove i (v.conns i).desc, .remove i (v.conns i).desc], by simp, by simp,
          c2.2.2.2.2.2.2.trans (by simp [poll])⟩
      | none =>
        left
        refine ⟨rfl, rfl, rfl, ?_⟩
        exact VInv_set h hi { v.conns i with mode := .connected, action := .R } hd (by simp) (h.idx i) _
    · right
      unfold complete
      simp only [ne_eq, he, not_false_iff, if_true]
      exact ⟨by simp [he], c2.2.1, c2.2.2.1, c2.2.2.2.1, c2.2.2.2.2.1, c2.2.2.2.2.2.1,
          [.remove i (v.conns i).desc, .remove i (v.conns i).desc], by simp, by simp,
          c2.2.2.2.2.2.2.trans (by simp [poll])⟩

end ConnVec
end Rmc
