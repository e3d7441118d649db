import Verif.CircBuf

/-! # Lemmas about the circular buffer model (not property statements) -/

namespace Rmc
namespace CircBuf

theorem inUse_eq {b : CircBuf} (h : WF b) :
    inUse b = if b.start ≤ b.stop then b.stop - b.start else b.size - b.start + b.stop := by
  obtain ⟨h1, h2, h3, h4, h5⟩ := h
  unfold inUse sub32 add32
  simp only [U32]
  somega

theorem inUse_congr {b c : CircBuf} (h1 : c.size = b.size) (h2 : c.start = b.start)
    (h3 : c.stop = b.stop) : inUse c = inUse b := by
  unfold inUse; rw [h1, h2, h3]

theorem WF_congr {b c : CircBuf} (h : WF b) (h1 : c.size = b.size) (h2 : c.start = b.start)
    (h3 : c.stop = b.stop) : WF c := by
  obtain ⟨w1, w2, w3, w4, w5⟩ := h
  rw [← h1] at w1 w2 w3 w4 w5
  rw [← h2] at w3 w5
  rw [← h3] at w4 w5
  exact ⟨w1, w2, w3, w4, w5⟩

theorem inUse_lt {b : CircBuf} (h : WF b) : inUse b < b.size := by
  rw [inUse_eq h]
  obtain ⟨h1, h2, h3, h4, h5⟩ := h
  somega

theorem available_eq {b : CircBuf} (h : WF b) : available b = b.size - inUse b - 1 := by
  have hl := inUse_lt h
  obtain ⟨h1, h2, h3, h4, h5⟩ := h
  unfold available sub32
  simp only [U32]
  omega

theorem length_bytes (b : CircBuf) : (bytes b).length = inUse b := by simp [bytes]

theorem getElem_bytes (b : CircBuf) (i : Nat) (hi : i < (bytes b).length) :
    (bytes b)[i] = b.data ((b.start + i) % b.size) := by
  simp [bytes]

theorem loadN_eq (b : CircBuf) (off n : Nat) (h : off + n ≤ b.size) :
    loadN b off n = .ok ((List.range n).map fun i => b.data (off + i)) := by
  induction n generalizing off with
  | zero => rfl
  | succ n ih =>
    have h1 : off < b.size := by omega
    simp only [loadN, load, h1, if_true]
    rw [ih (off + 1) (by omega)]
    simp only [bind, Except.bind, pure, Except.pure, List.range_succ_eq_map, List.map_cons,
      List.map_map, Nat.add_zero]
    congr 2
    apply List.map_congr_left
    intro i _
    simp only [Function.comp]
    congr 1
    omega

theorem storeN_eq (b : CircBuf) (off : Nat) (xs : List UInt8) (h : off + xs.length ≤ b.size) :
    storeN b off xs = .ok { b with data := fun j =>
      if off ≤ j ∧ j < off + xs.length then xs.getD (j - off) 0 else b.data j } := by
  induction xs generalizing off b with
  | nil =>
    simp only [storeN]
    congr 1
    have : (fun j => if off ≤ j ∧ j < off + ([] : List UInt8).length then
        ([] : List UInt8).getD (j - off) 0 else b.data j) = b.data := by
      funext j
      rw [if_neg (by simp only [List.length_nil]; omega)]
    rw [this]
  | cons x xs ih =>
    simp only [List.length_cons] at h
    have h1 : off < b.size := by omega
    simp only [storeN, store, h1, if_true, bind, Except.bind]
    rw [ih _ (off + 1) (by simp; omega)]
    congr 1
    simp only [CircBuf.mk.injEq, true_and]
    funext j
    simp only [List.length_cons]
    by_cases hj : j = off
    · subst hj
      have h2 : ¬ (j + 1 ≤ j ∧ j < j + 1 + xs.length) := by omega
      have h3 : (j ≤ j ∧ j < j + (xs.length + 1)) := by omega
      simp [h2]
    · by_cases h2 : off + 1 ≤ j ∧ j < off + 1 + xs.length
      · have h3 : off ≤ j ∧ j < off + (xs.length + 1) := by omega
        simp only [h2, h3, and_self, if_true]
        have : j - off = (j - (off + 1)) + 1 := by omega
        rw [this]
        simp
      · have h3 : ¬ (off ≤ j ∧ j < off + (xs.length + 1)) := by omega
        simp only [h2, h3, if_false, hj]

/-! ## alloc -/

theorem alloc_enomem {b : CircBuf} {n : Nat} (h : available b < n) :
    alloc b n = (ENOMEM, ⟨0, 0⟩, ⟨0, 0⟩, b) := by
  unfold alloc; simp [h]

/-- Closed form of a successful allocation. -/
theorem alloc_ok {b : CircBuf} (h : WF b) {n : Nat} (hn : n ≤ available b) :
    alloc b n =
      if n ≤ b.size - b.stop then (0, ⟨b.stop, n⟩, ⟨0, 0⟩, { b with stop := b.stop + n })
      else (0, ⟨b.stop, b.size - b.stop⟩, ⟨0, n - (b.size - b.stop)⟩,
            { b with stop := n - (b.size - b.stop) }) := by
  have hav := available_eq h
  have hiu := inUse_eq h
  obtain ⟨h1, h2, h3, h4, h5⟩ := h
  have e1 : sub32 b.size b.stop = b.size - b.stop := sub32_eq h4 (by simp only [U32]; omega)
  have hn' : ¬ available b < n := by omega
  unfold alloc
  simp only [hn', if_false, e1, ge_iff_le]
  by_cases hc : n ≤ b.size - b.stop
  · simp only [hc, if_true]
    rw [add32_eq (by simp only [U32]; omega)]
  · simp only [hc, if_false]
    have e2 : sub32 n (b.size - b.stop) = n - (b.size - b.stop) :=
      sub32_eq (by omega) (by simp only [U32]; split at hiu <;> omega)
    rw [e2]

theorem alloc_WF {b : CircBuf} (h : WF b) (n : Nat) : WF (alloc b n).2.2.2 := by
  by_cases hn : available b < n
  · rw [alloc_enomem hn]; exact h
  · have hn : n ≤ available b := by omega
    rw [alloc_ok h hn]
    have hav := available_eq h
    have hiu := inUse_eq h
    obtain ⟨h1, h2, h3, h4, h5⟩ := h
    split
    · refine ⟨h1, h2, h3, ?_, ?_⟩ <;> simp only <;> split at hiu <;> omega
    · refine ⟨h1, h2, h3, ?_, ?_⟩ <;> simp only <;> split at hiu <;> omega

theorem alloc_inUse {b : CircBuf} (h : WF b) {n : Nat} (hn : n ≤ available b) :
    inUse (alloc b n).2.2.2 = inUse b + n := by
  rw [inUse_eq (alloc_WF h n), alloc_ok h hn]
  have hav := available_eq h
  have hiu := inUse_eq h
  obtain ⟨h1, h2, h3, h4, h5⟩ := h
  split
  · simp only; split at hiu <;> somega
  · simp only; split at hiu <;> somega

theorem alloc_size (b : CircBuf) (n : Nat) : (alloc b n).2.2.2.size = b.size := by
  unfold alloc; split
  · rfl
  · split <;> rfl

theorem alloc_start (b : CircBuf) (n : Nat) : (alloc b n).2.2.2.start = b.start := by
  unfold alloc; split
  · rfl
  · split <;> rfl

theorem alloc_data (b : CircBuf) (n : Nat) : (alloc b n).2.2.2.data = b.data := by
  unfold alloc; split
  · rfl
  · split <;> rfl

/-- The position in the backing array of the `i`-th newly allocated byte. -/
theorem mod_of_WF {b : CircBuf} {i : Nat} (h : WF b) (hi : i < b.size) :
    (b.start + i) % b.size = if b.start + i < b.size then b.start + i else b.start + i - b.size := by
  obtain ⟨h1, h2, h3, h4, h5⟩ := h
  split
  · rename_i hlt; exact Nat.mod_eq_of_lt hlt
  · rw [Nat.mod_eq_sub_mod (by omega), Nat.mod_eq_of_lt (by omega)]

/-- The array contents after `scatter`. -/
def scatData (b : CircBuf) (s1 s2 : Region) (xs : List UInt8) (j : Nat) : UInt8 :=
  if s2.off ≤ j ∧ j < s2.off + min s2.len (xs.length - s1.len) then
    (xs.drop s1.len).getD (j - s2.off) 0
  else if s1.off ≤ j ∧ j < s1.off + min s1.len xs.length then xs.getD (j - s1.off) 0
  else b.data j

theorem scatter_eq {b : CircBuf} {s1 s2 : Region} {xs : List UInt8}
    (h1 : s1.off + s1.len ≤ b.size) (h2 : s2.off + s2.len ≤ b.size) :
    scatter b s1 s2 xs = .ok { b with data := scatData b s1 s2 xs } := by
  unfold scatter scatData
  rw [storeN_eq b s1.off _ (by simp; omega)]
  simp only [bind, Except.bind]
  rw [storeN_eq _ s2.off _ (by simp; omega)]
  congr 1
  simp only [CircBuf.mk.injEq, true_and, List.length_take, List.length_drop]
  funext j
  by_cases hc : s2.off ≤ j ∧ j < s2.off + min s2.len (xs.length - s1.len)
  · simp only [hc, and_self, if_true]
    rw [List.getD_eq_getElem?_getD, List.getD_eq_getElem?_getD, List.getElem?_take]
    simp only [show j - s2.off < s2.len by omega, if_true]
  · simp only [hc, if_false]
    by_cases hd : s1.off ≤ j ∧ j < s1.off + min s1.len xs.length
    · simp only [hd, and_self, if_true]
      rw [List.getD_eq_getElem?_getD, List.getD_eq_getElem?_getD, List.getElem?_take]
      simp only [show j - s1.off < s1.len by omega, if_true]
    · simp only [hd, if_false]

/-- Allocating `n` bytes and filling the first `xs.length ≤ n` of them queues `xs` followed by
`n - xs.length` bytes of whatever was in the array. -/
theorem alloc_scatter {b c : CircBuf} {e : Nat} {s1 s2 : Region} (h : WF b) {n : Nat}
    (hn : n ≤ available b) (hA : alloc b n = (e, s1, s2, c))
    {xs : List UInt8} (hx : xs.length ≤ n) :
    ∃ b', scatter c s1 s2 xs = .ok b' ∧
      WF b' ∧ b'.size = b.size ∧ b'.start = b.start ∧ b'.stop = c.stop ∧
      inUse b' = inUse b + n ∧
      ((bytes b').take (inUse b + xs.length)) = bytes b ++ xs := by
  have hwf : WF c := by have := alloc_WF h n; rw [hA] at this; exact this
  have hiu' : inUse c = inUse b + n := by have := alloc_inUse h hn; rw [hA] at this; exact this
  have hsz : c.size = b.size := by have := alloc_size b n; rw [hA] at this; exact this
  have hst : c.start = b.start := by have := alloc_start b n; rw [hA] at this; exact this
  have hda : c.data = b.data := by have := alloc_data b n; rw [hA] at this; exact this
  have hok := alloc_ok h hn
  rw [hA] at hok
  have hav := available_eq h
  have hiul := inUse_lt h
  have hiu := inUse_eq h
  have hwb := h
  obtain ⟨h1, h2, h3, h4, h5⟩ := h
  -- the two shapes of the answer
  have hcase : (n ≤ b.size - b.stop ∧ s1 = ⟨b.stop, n⟩ ∧ s2 = ⟨0, 0⟩) ∨
      (¬ n ≤ b.size - b.stop ∧ s1 = ⟨b.stop, b.size - b.stop⟩ ∧
        s2 = ⟨0, n - (b.size - b.stop)⟩) := by
    split at hok
    · rename_i hc
      simp only [Prod.mk.injEq] at hok
      exact Or.inl ⟨hc, hok.2.1, hok.2.2.1⟩
    · rename_i hc
      simp only [Prod.mk.injEq] at hok
      exact Or.inr ⟨hc, hok.2.1, hok.2.2.1⟩
  have hr : s1.off + s1.len ≤ b.size ∧ s2.off + s2.len ≤ b.size := by
    rcases hcase with ⟨hc, e1, e2⟩ | ⟨hc, e1, e2⟩
    · subst e1; subst e2; constructor <;> simp only <;> omega
    · subst e1; subst e2; constructor <;> simp only <;> split at hiu <;> omega
  have hs := scatter_eq (b := c) (s1 := s1) (s2 := s2) (xs := xs)
    (by rw [hsz]; exact hr.1) (by rw [hsz]; exact hr.2)
  refine ⟨_, hs, WF_congr hwf rfl rfl rfl, hsz, hst, rfl, ?_, ?_⟩
  · rw [← hiu']; exact inUse_congr rfl rfl rfl
  · apply List.ext_getElem
    · simp only [List.length_take, length_bytes, List.length_append]
      rw [show inUse ⟨c.size, c.start, c.stop, scatData c s1 s2 xs⟩ = inUse c from
        inUse_congr rfl rfl rfl, hiu']
      omega
    · intro i hi1 hi2
      simp only [List.length_append, length_bytes] at hi2
      rw [List.getElem_take, getElem_bytes]
      simp only [hsz, hst]
      unfold scatData
      rw [hda]
      rw [mod_of_WF hwb (by omega)]
      rcases hcase with ⟨hc, e1, e2⟩ | ⟨hc, e1, e2⟩
      · subst e1; subst e2
        simp only
        rw [if_neg (by omega)]
        by_cases hib : i < inUse b
        · rw [List.getElem_append_left (by rw [length_bytes]; exact hib), getElem_bytes,
            mod_of_WF hwb (by omega)]
          rw [if_neg]
          split at hiu <;> somega
        · rw [List.getElem_append_right (by rw [length_bytes]; omega)]
          simp only [length_bytes]
          have hidx : (if b.start + i < b.size then b.start + i else b.start + i - b.size)
              = b.stop + (i - inUse b) := by
            split at hiu <;> somega
          rw [hidx, if_pos (by omega)]
          rw [List.getD_eq_getElem?_getD, List.getElem?_eq_getElem (by omega)]
          simp only [Option.getD_some]
          congr 1; omega
      · subst e1; subst e2
        simp only
        by_cases hib : i < inUse b
        · rw [List.getElem_append_left (by rw [length_bytes]; exact hib), getElem_bytes,
            mod_of_WF hwb (by omega)]
          have hidx : ¬ (0 ≤ (if b.start + i < b.size then b.start + i else b.start + i - b.size) ∧
              (if b.start + i < b.size then b.start + i else b.start + i - b.size) <
                0 + min (n - (b.size - b.stop)) (xs.length - (b.size - b.stop))) := by
            split at hiu <;> somega
          rw [if_neg hidx, if_neg]
          split at hiu <;> somega
        · rw [List.getElem_append_right (by rw [length_bytes]; omega)]
          simp only [length_bytes]
          have hstop : b.start ≤ b.stop := by
            split at hiu <;> omega
          rw [if_pos hstop] at hiu
          by_cases hi3 : b.start + i < b.size
          · simp only [if_pos hi3]
            rw [if_neg (by omega), if_pos (by omega)]
            rw [List.getD_eq_getElem?_getD, List.getElem?_eq_getElem (by omega)]
            simp only [Option.getD_some]
            congr 1; omega
          · simp only [if_neg hi3]
            rw [if_pos (by omega)]
            rw [List.getD_eq_getElem?_getD, List.getElem?_drop, List.getElem?_eq_getElem (by omega)]
            simp only [Option.getD_some]
            congr 1; omega

theorem put_enomem {b : CircBuf} {xs : List UInt8} (h : available b < xs.length) :
    put b xs = .ok (ENOMEM, b) := by
  unfold put
  simp only [alloc_enomem h]
  rw [if_neg (by decide)]

theorem put_ok {b : CircBuf} (h : WF b) {xs : List UInt8} (hx : xs.length ≤ available b) :
    ∃ b', put b xs = .ok (0, b') ∧ WF b' ∧ b'.size = b.size ∧ b'.start = b.start ∧
      bytes b' = bytes b ++ xs := by
  generalize hA : alloc b xs.length = r
  obtain ⟨e, s1, s2, c⟩ := r
  have he : e = 0 := by
    have := alloc_ok h hx
    rw [hA] at this
    split at this <;> simp only [Prod.mk.injEq] at this <;> exact this.1
  have hA' := hA
  rw [he] at hA'
  have hh := alloc_scatter h hx hA (Nat.le_refl _)
  obtain ⟨b', h1, h2, h3, h4, _, h5, h6⟩ := hh
  refine ⟨b', ?_, h2, h3, h4, ?_⟩
  · have hp : put b xs = if (alloc b xs.length).1 = 0 then do
        let b'' ← scatter (alloc b xs.length).2.2.2 (alloc b xs.length).2.1 (alloc b xs.length).2.2.1 xs
        return (0, b'')
      else .ok ((alloc b xs.length).1, (alloc b xs.length).2.2.2) := by unfold put; rfl
    rw [hp, hA']
    show (do let b'' ← scatter c s1 s2 xs; return (0, b'')) = _
    rw [h1]; rfl
  · rw [List.take_of_length_le (by rw [length_bytes]; omega)] at h6
    exact h6

/-! ## trim -/

theorem trim_spec {b : CircBuf} (h : WF b) {t : Nat} (ht : TrimSafe b t) :
    WF (trim b t) ∧ (trim b t).size = b.size ∧ (trim b t).start = b.start ∧
    inUse (trim b t) = min t (inUse b) ∧ (trim b t).data = b.data := by
  have hiu := inUse_eq h
  have hlt := inUse_lt h
  unfold TrimSafe at ht
  by_cases h1 : inUse b ≤ t
  · have : trim b t = b := by unfold trim; simp [h1]
    rw [this]
    exact ⟨h, rfl, rfl, by omega, rfl⟩
  · have e : ∃ st, trim b t = { b with stop := st } ∧ st ≤ b.size ∧ (st = b.size → 0 < b.start) ∧
        (if b.start ≤ st then st - b.start else b.size - b.start + st) = t := by
      obtain ⟨w1, w2, w3, w4, w5⟩ := h
      unfold trim
      simp only [h1, if_false]
      by_cases h2 : b.stop > t
      · simp only [h2, if_true]
        refine ⟨_, rfl, ?_⟩
        rw [sub32_eq (a := inUse b) (b := t) (by omega) (by simp only [U32]; omega)]
        rw [sub32_eq (by split at hiu <;> omega) (by simp only [U32]; omega)]
        split at hiu
        · refine ⟨by omega, by omega, ?_⟩
          somega
        · refine ⟨by omega, by omega, ?_⟩
          somega
      · simp only [h2, if_false]
        refine ⟨_, rfl, ?_⟩
        rw [add32_eq (by simp only [U32]; omega)]
        have hm : (b.start + t) % b.size =
            if b.start + t < b.size then b.start + t else b.start + t - b.size :=
          mod_of_WF ⟨w1, w2, w3, w4, w5⟩ (by omega)
        rw [hm]
        split at hiu
        · refine ⟨by somega, by somega, ?_⟩
          somega
        · refine ⟨by somega, by somega, ?_⟩
          somega
    obtain ⟨st, e1, e2, e3, e4⟩ := e
    have hwf : WF (trim b t) := by
      rw [e1]; obtain ⟨w1, w2, w3, w4, w5⟩ := h; exact ⟨w1, w2, w3, e2, e3⟩
    refine ⟨hwf, by rw [e1], by rw [e1], ?_, by rw [e1]⟩
    rw [inUse_eq hwf, e1]
    simp only
    rw [e4]; omega

theorem bytes_of_prefix {b c : CircBuf} (hs : c.size = b.size) (hst : c.start = b.start)
    (hd : c.data = b.data) (hiu : inUse c ≤ inUse b) : bytes c = (bytes b).take (inUse c) := by
  apply List.ext_getElem
  · simp only [length_bytes, List.length_take]; omega
  · intro i h1 h2
    rw [List.getElem_take, getElem_bytes, getElem_bytes, hs, hst, hd]

theorem trim_bytes {b : CircBuf} (h : WF b) {t : Nat} (ht : TrimSafe b t) :
    bytes (trim b t) = (bytes b).take t := by
  obtain ⟨_, h2, h3, h4, h5⟩ := trim_spec h ht
  rw [bytes_of_prefix h2 h3 h5 (by omega), h4]
  by_cases hc : t ≤ inUse b
  · rw [Nat.min_eq_left hc]
  · rw [Nat.min_eq_right (by omega), List.take_of_length_le (by rw [length_bytes]; omega),
      List.take_of_length_le (by rw [length_bytes]; omega)]

/-- Outside the safe class, `trim` leaves an index far outside the buffer. -/
theorem trim_unsafe {b : CircBuf} (h : WF b) {t : Nat} (ht : ¬ TrimSafe b t) :
    (trim b t).stop = U32 + b.start + t - b.size ∧ b.size < (trim b t).stop := by
  have hiu := inUse_eq h
  unfold TrimSafe at ht
  obtain ⟨w1, w2, w3, w4, w5⟩ := h
  have ht' : b.stop < b.start ∧ t < b.stop ∧ b.start + t < b.size := by
    exact Classical.not_not.mp ht
  obtain ⟨a1, a2, a3⟩ := ht'
  rw [if_neg (by omega)] at hiu
  have h1 : ¬ inUse b ≤ t := by omega
  have e : (trim b t).stop = sub32 b.stop (sub32 (inUse b) t) := by
    unfold trim
    simp only [h1, if_false]
    rw [if_pos (by omega)]
  rw [e, sub32_eq (a := inUse b) (by omega) (by simp only [U32]; omega)]
  unfold sub32
  simp only [U32]
  omega

/-! ## free -/

theorem free_spec {b : CircBuf} (h : WF b) (n : Nat) :
    WF (free b n).1 ∧ (free b n).1.size = b.size ∧ bytes (free b n).1 = (bytes b).drop n ∧
    (free b n).2 = inUse b - n := by
  have hiu := inUse_eq h
  have hlt := inUse_lt h
  by_cases h0 : n = 0
  · subst h0
    unfold free
    simp [h]
  · unfold free
    simp only [h0, if_false]
    by_cases h1 : n ≥ inUse b
    · simp only [h1, if_true]
      refine ⟨?_, trivial, ?_, by omega⟩
      · obtain ⟨w1, w2, w3, w4, w5⟩ := h
        exact ⟨w1, w2, w1, Nat.zero_le _, by simp only; omega⟩
      · rw [List.drop_of_length_le (by rw [length_bytes]; omega)]
        apply List.eq_nil_of_length_eq_zero
        rw [length_bytes]
        unfold inUse
        rw [if_pos (Nat.le_refl _)]
        exact sub32_eq (Nat.le_refl _) (by simp only [U32]; omega)
    · simp only [h1, if_false]
      have hw := h
      obtain ⟨w1, w2, w3, w4, w5⟩ := h
      rw [add32_eq (by simp only [U32]; omega), sub32_eq (by omega) (by simp only [U32]; omega)]
      rw [mod_of_WF hw (by omega)]
      have hwf : WF { b with start := if b.start + n < b.size then b.start + n else b.start + n - b.size } := by
        refine ⟨w1, w2, ?_, w4, ?_⟩ <;> simp only
        · somega
        · split at hiu <;> somega
      have hiu2 : inUse { b with start := if b.start + n < b.size then b.start + n else b.start + n - b.size }
          = inUse b - n := by
        rw [inUse_eq hwf]
        simp only
        split at hiu <;> somega
      refine ⟨hwf, trivial, ?_, rfl⟩
      apply List.ext_getElem
      · rw [length_bytes, hiu2, List.length_drop, length_bytes]
      · intro i hi1 hi2
        rw [length_bytes, hiu2] at hi1
        rw [List.getElem_drop, getElem_bytes, getElem_bytes]
        rw [mod_of_WF hwf (by simp only; omega), mod_of_WF hw (by omega)]
        simp only
        congr 1
        somega

/-! ## read -/

theorem loadN_eq_bytes {b : CircBuf} (_h : WF b) {off i n : Nat}
    (hoff : off + n ≤ b.size) (hi : i + n ≤ inUse b)
    (hpos : ∀ k, k < n → (b.start + (i + k)) % b.size = off + k) :
    loadN b off n = .ok (((bytes b).drop i).take n) := by
  rw [loadN_eq b off n hoff]
  congr 1
  apply List.ext_getElem
  · simp only [List.length_map, List.length_range, List.length_take, List.length_drop, length_bytes]
    omega
  · intro k hk1 hk2
    simp only [List.length_map, List.length_range] at hk1
    simp only [List.getElem_map, List.getElem_range, List.getElem_take, List.getElem_drop]
    rw [getElem_bytes, hpos k hk1]

theorem readOffset_einval {b : CircBuf} {o n : Nat} (ho : inUse b < o) :
    readOffset b o n = .ok (EINVAL, []) := by
  unfold readOffset; simp [ho]

theorem readOffset_ok {b : CircBuf} (h : WF b) {o n : Nat} (ho : o ≤ inUse b)
    (hs : OffsetSafe b o n) :
    readOffset b o n = .ok (0, ((bytes b).drop o).take n) := by
  have hiu := inUse_eq h
  have hlt := inUse_lt h
  have hw := h
  obtain ⟨w1, w2, w3, w4, w5⟩ := h
  have htake : ((bytes b).drop o).take n = ((bytes b).drop o).take (min n (inUse b - o)) := by
    rw [show inUse b - o = ((bytes b).drop o).length by rw [List.length_drop, length_bytes]]
    rw [List.take_eq_take_min]
  rw [htake]
  have hno : ¬ o > inUse b := by omega
  unfold readOffset
  simp only [hno, if_false]
  rw [sub32_eq ho (by simp only [U32]; omega), add32_eq (by simp only [U32]; omega)]
  rw [mod_of_WF hw (by omega)]
  generalize hL : min n (inUse b - o) = L
  unfold OffsetSafe at hs
  rw [hL] at hs
  have hLle : L ≤ inUse b - o := by omega
  by_cases hc : b.start + o < b.size
  · simp only [hc, if_true]
    by_cases hst : b.stop ≥ b.start + o
    · simp only [hst, if_true]
      rw [loadN_eq_bytes hw (i := o) (by split at hiu <;> omega) (by omega)]
      · rfl
      · intro k hk
        rw [mod_of_WF hw (by omega), if_pos (by split at hiu <;> omega)]
        omega
    · simp only [hst, if_false]
      rw [sub32_eq (by omega) (by simp only [U32]; omega)]
      by_cases hseg : b.size - (b.start + o) ≥ L
      · rw [Nat.min_eq_right hseg]
        rw [loadN_eq_bytes hw (i := o) (by omega) (by omega)]
        · simp [bind, Except.bind, pure, Except.pure]
        · intro k hk
          rw [mod_of_WF hw (by omega), if_pos (by omega)]
          omega
      · rw [Nat.min_eq_left (by omega)]
        have hstst : b.stop < b.start := by split at hiu <;> omega
        rw [if_neg (by omega)] at hiu
        have hoff : ¬ b.size - (b.start + o) < o := by
          intro hbad; exact hs ⟨hstst, hc, by omega, hbad⟩
        rw [loadN_eq_bytes hw (i := o) (by omega) (by omega)]
        · simp only [bind, Except.bind, pure, Except.pure]
          rw [if_neg (by omega)]
          rw [if_neg (by omega)]
          rw [sub32_eq (by omega) (by simp only [U32]; omega)]
          rw [Nat.min_eq_left (by omega)]
          rw [loadN_eq_bytes hw (i := o + (b.size - (b.start + o))) (by omega) (by omega)]
          · simp only
            congr 2
            rw [← List.drop_drop, ← List.take_add]
            congr 1; omega
          · intro k hk
            rw [mod_of_WF hw (by omega), if_neg (by omega)]
            omega
        · intro k hk
          rw [mod_of_WF hw (by omega), if_pos (by omega)]
          omega
  · simp only [hc, if_false]
    have hst : b.stop ≥ b.start + o - b.size := by split at hiu <;> omega
    simp only [hst, if_true]
    rw [loadN_eq_bytes hw (i := o) (by split at hiu <;> omega) (by omega)]
    · rfl
    · intro k hk
      rw [mod_of_WF hw (by omega), if_neg (by omega)]
      omega

theorem offsetSafe_zero {b : CircBuf} {n : Nat} : OffsetSafe b 0 n := by
  unfold OffsetSafe; omega

theorem offsetSafe_one {b : CircBuf} {n : Nat} : OffsetSafe b 1 n := by
  unfold OffsetSafe; omega

/-- Reading one byte at any offset is right: a single byte never wraps. -/
theorem offsetSafe_single {b : CircBuf} {o : Nat} : OffsetSafe b o 1 := by
  unfold OffsetSafe; omega

/-- `readOffset` never faults on a well-formed buffer, whether or not it returns the right
bytes. -/
theorem readOffset_no_fault {b : CircBuf} (h : WF b) (o n : Nat) :
    ∃ r, readOffset b o n = .ok r := by
  by_cases ho : o ≤ inUse b
  · by_cases hs : OffsetSafe b o n
    · exact ⟨_, readOffset_ok h ho hs⟩
    · have hiu := inUse_eq h
      have hlt := inUse_lt h
      have hw := h
      obtain ⟨w1, w2, w3, w4, w5⟩ := h
      obtain ⟨a1, a2, a3, a4⟩ := Classical.not_not.mp hs
      have hno : ¬ o > inUse b := by omega
      rw [if_neg (by omega)] at hiu
      unfold readOffset
      simp only [hno, if_false]
      rw [sub32_eq ho (by simp only [U32]; omega), add32_eq (by simp only [U32]; omega)]
      rw [Nat.mod_eq_of_lt a2]
      rw [if_neg (by omega)]
      rw [sub32_eq (by omega) (by simp only [U32]; omega)]
      rw [Nat.min_eq_left (by omega)]
      rw [loadN_eq _ _ _ (by omega)]
      simp only [bind, Except.bind, pure, Except.pure]
      rw [if_neg (by omega), if_pos (by omega)]
      rw [sub32_eq (by omega) (by simp only [U32]; omega)]
      rw [sub32_eq (by omega) (by simp only [U32]; omega)]
      rw [loadN_eq _ _ _ (by omega)]
      exact ⟨_, rfl⟩
  · exact ⟨_, readOffset_einval (by omega)⟩

/-! ## read_segment -/

theorem readSegment_spec {b : CircBuf} (h : WF b) (n : Nat) :
    let r := readSegment b n
    r.1 = 0 ∧ r.2.1.off + r.2.1.len ≤ b.size ∧ r.2.2.off + r.2.2.len ≤ b.size ∧
    r.2.1.len + r.2.2.len = min n (inUse b) ∧
    gather b r.2.1 r.2.2 = .ok ((bytes b).take n) := by
  have hiu := inUse_eq h
  have hlt := inUse_lt h
  have hw := h
  obtain ⟨w1, w2, w3, w4, w5⟩ := h
  have htake : (bytes b).take n = (bytes b).take (min (inUse b) n) := by
    rw [show inUse b = (bytes b).length by rw [length_bytes]]
    rw [Nat.min_comm, ← List.take_eq_take_min]
  intro r
  by_cases h0 : b.stop = b.start
  · have : inUse b = 0 := by rw [if_pos (by omega)] at hiu; omega
    have hr : r = (0, ⟨0, 0⟩, ⟨0, 0⟩) := by
      show readSegment b n = _
      unfold readSegment; simp [h0]
    rw [hr]
    refine ⟨rfl, by simp, by simp, by simp only; omega, ?_⟩
    have : bytes b = [] := by
      apply List.eq_nil_of_length_eq_zero; rw [length_bytes]; assumption
    rw [this]; simp [gather, loadN, bind, Except.bind, pure, Except.pure]
  · by_cases h1 : min (inUse b) n ≤ b.size - b.start
    · have hr : r = (0, ⟨b.start, min (inUse b) n⟩, ⟨0, 0⟩) := by
        show readSegment b n = _
        unfold readSegment
        simp only [h0, if_false]
        rw [sub32_eq (by omega) (by simp only [U32]; omega), if_pos h1, Nat.min_eq_left h1]
      rw [hr]
      refine ⟨rfl, by simp only; omega, by simp, by simp only; omega, ?_⟩
      rw [htake]
      unfold gather
      rw [loadN_eq_bytes hw (i := 0) (by simp only; omega) (by simp only; omega)]
      · simp [loadN, bind, Except.bind, pure, Except.pure]
      · intro k hk
        simp only at hk
        rw [mod_of_WF hw (by omega), if_pos (by omega)]
        simp only; omega
    · have hr : r = (0, ⟨b.start, b.size - b.start⟩, ⟨0, min (inUse b) n - (b.size - b.start)⟩) := by
        show readSegment b n = _
        unfold readSegment
        simp only [h0, if_false]
        rw [sub32_eq (by omega) (by simp only [U32]; omega), if_neg h1, Nat.min_eq_right (by omega)]
        rw [sub32_eq (by omega) (by simp only [U32]; omega)]
      rw [hr]
      have hstst : b.stop < b.start := by split at hiu <;> omega
      rw [if_neg (by omega)] at hiu
      refine ⟨rfl, by simp only; omega, by simp only; omega, by simp only; omega, ?_⟩
      rw [htake]
      unfold gather
      rw [loadN_eq_bytes hw (i := 0) (by simp only; omega) (by simp only; omega)]
      · rw [loadN_eq_bytes hw (i := b.size - b.start) (by simp only; omega) (by simp only; omega)]
        · simp only [bind, Except.bind, pure, Except.pure, List.drop_zero]
          congr 1
          rw [← List.take_add]
          congr 1; omega
        · intro k hk
          simp only at hk
          rw [mod_of_WF hw (by omega), if_neg (by omega)]
          simp only; omega
      · intro k hk
        simp only at hk
        rw [mod_of_WF hw (by omega), if_pos (by omega)]
        simp only; omega

end CircBuf
end Rmc
