import Verif.UnitTests
import Verif.CircBufLemmas
import Verif.Props.CircBuf
import Lean.Elab.Tactic

/-! # The unit tests that the test program runs first (C95) -/

namespace Rmc
namespace UnitTest

/-- Close an equation between two computations by letting the kernel compute them. -/
macro "kernel_refl" : tactic => `(tactic| run_tac do
    let g ← Lean.Elab.Tactic.getMainGoal
    let some (_, l, _) := (← Lean.instantiateMVars (← g.getType)).eq? | throwError "no equation"
    g.assign (← Lean.Meta.mkEqRefl l))

/-! ## They pass -/

/-- **C95** (the list). Whatever the list header contained, `run_list_tests` returns. -/
theorem C95_lists (hdr : Nat → Hdr) : (listTests hdr).isOk = true := by kernel_refl

/-- **C95** (the intervals). Whatever the clock shows, `test_packet_interval` returns. -/
theorem C95_intervals (clk : Nat → Int) : (intervalTest clk).isOk = true := by kernel_refl

/-- **C95** (the buffer). Whatever the arrays contained, `test_circular_buffer` returns. -/
theorem C95_buffer (mem1 mem2 : Nat → UInt8) : circTest mem1 mem2 = .ok () := by kernel_refl

/-- **C95** (the publisher). Whatever the clock shows, `test_pub` returns; nothing is left in flight for any of the
three subscribers. -/
theorem C95_publisher (clk : Nat → Int) : (pubTest clk).map
    (fun s => (s.queued, s.inflight, s.sinfl 1, s.sinfl 2, s.sinfl 3)) = .ok ([], [], [], [], []) := by kernel_refl

/-- **C95** (the subscriber). Whatever the clock shows, `test_sub` returns. The list says how many packets each call of
`test_sequence` looked at: the checks 2.2, 2.4 and 2.6, that packets received out of order are dispatched in order,
look at none. -/
theorem C95_subscriber (clk : Nat → Int) : subTest clk = .ok [5, 5, 4, 3, 2, 1, 4, 0, 4, 0, 4, 0] := by kernel_refl

/-- **C95.** Whatever the uninitialised memory contains and the clock shows, all the unit tests that `rmc_test` runs
before anything else pass: no check fails, nothing faults, everything terminates. -/
theorem C95_unit_tests (hdr : Nat → Hdr) (mem1 mem2 : Nat → UInt8) (clk1 clk2 clk3 : Nat → Int) :
    unitTests hdr mem1 mem2 clk1 clk2 clk3 = .ok () := by kernel_refl

/-! ## What their helpers check -/

theorem want_true : want true = .ok () := rfl

theorem want_ok {b : Bool} : want b = .ok () ↔ b = true := by
  cases b <;> simp [want]

/-- Counting from `ind` to the stop index. -/
theorem countLoop_eq {b : CircBuf} (hp : 0 < b.size) (hs : b.stop < b.size) : ∀ (fuel ind count : Nat), ind < b.size →
    (if ind ≤ b.stop then b.stop - ind else b.size - ind + b.stop) ≤ fuel →
    countLoop b fuel ind count =
      .ok (count + if ind ≤ b.stop then b.stop - ind else b.size - ind + b.stop) := by
  intro fuel
  induction fuel with
  | zero =>
    intro ind count hi hf
    have : ind = b.stop := by
      split at hf <;> omega
    simp only [countLoop, if_pos this]
    rw [if_pos (by omega)]
    congr 1; omega
  | succ fuel ih =>
    intro ind count hi hf
    simp only [countLoop]
    by_cases he : ind = b.stop
    · rw [if_pos he, if_pos (by omega)]
      congr 1; omega
    · rw [if_neg he]
      by_cases hw : ind + 1 = b.size
      · rw [if_pos hw, ih 0 (count + 1) hp (by split <;> split at hf <;> omega)]
        congr 1
        split <;> split <;> omega
      · rw [if_neg hw, ih (ind + 1) (count + 1) (by omega) (by split <;> split at hf <;> omega)]
        congr 1
        split <;> split <;> omega

/-- Counting never reaches a stop index that equals the size. -/
theorem countLoop_hangs {b : CircBuf} (hs : b.stop = b.size) (hp : 0 < b.size) : ∀ (fuel ind count : Nat),
    ind < b.size → countLoop b fuel ind count = .error .diverge := by
  intro fuel
  induction fuel with
  | zero =>
    intro ind count hi
    simp only [countLoop]
    rw [if_neg (by omega)]
  | succ fuel ih =>
    intro ind count hi
    simp only [countLoop]
    rw [if_neg (by omega)]
    split
    · exact ih _ _ hp
    · exact ih _ _ (by omega)

theorem want_bind {b : Bool} {α : Type} {f : Unit → M α} : (want b >>= f) = if b then f () else .error .exit255 := by
  cases b <;> rfl

theorem want_step {b : Bool} {α : Type} {f : Unit → M α} {r : M α} (hb : b = true) (h : f () = r) :
    (want b >>= f) = r := by rw [hb]; exact h

theorem ok_step {α β : Type} {m : M α} {x : α} {f : α → M β} {r : M β} (hm : m = .ok x) (h : f x = r) :
    (m >>= f) = r := by rw [hm]; exact h

/-- **C95** (`check_integrity`). On every well-formed buffer whose stop index is not its size, the check passes exactly
for the true numbers of used and free bytes (one byte is never used). -/
theorem C95_check_integrity {b : CircBuf} (h : CircBuf.WF b) (hs : b.stop ≠ b.size) (fuel : Nat) (hf : b.size ≤ fuel)
    (a u : Nat) : checkIntegrity fuel b a u = .ok () ↔ u = (CircBuf.bytes b).length ∧ a + u + 1 = b.size := by
  have hl := CircBuf.inUse_lt h
  have hav := CircBuf.available_eq h
  have hiu := CircBuf.inUse_eq h
  have hlen := CircBuf.length_bytes b
  obtain ⟨h1, h2, h3, h4, h5⟩ := h
  have hc := countLoop_eq h1 (by omega) fuel b.start 0 h3 (by split <;> omega)
  have hc' : countLoop b fuel b.start 0 = .ok b.inUse := by
    rw [hc]; congr 1; rw [hiu]; split <;> omega
  unfold checkIntegrity
  rw [want_bind, want_bind, hc']
  simp only [bind, Except.bind]
  constructor
  · intro hh
    split at hh
    · rename_i ha
      split at hh
      · rename_i hu
        have := eq_of_beq ha
        have := eq_of_beq hu
        omega
      · cases hh
    · cases hh
  · intro ⟨hu, ha⟩
    rw [if_pos (by rw [beq_iff_eq]; omega), if_pos (by rw [beq_iff_eq]; omega)]
    exact want_ok.2 (by rw [beq_iff_eq])

/-- **C95** (`check_integrity`). On a well-formed buffer whose stop index is its size, which an allocation up to the
last byte of the array leaves, the check with the right numbers never returns. -/
theorem C95_check_hangs {b : CircBuf} (h : CircBuf.WF b) (hs : b.stop = b.size) (fuel : Nat) :
    checkIntegrity fuel b b.available b.inUse = .error .diverge := by
  obtain ⟨h1, h2, h3, h4, h5⟩ := h
  unfold checkIntegrity
  rw [want_bind, want_bind, countLoop_hangs hs h1 fuel b.start 0 h3, if_pos (by simp), if_pos (by simp)]
  rfl

/-- A buffer whose stop index is its size: the unit test's, had it written one byte after reading "ABC". -/
def atEnd : CircBuf :=
  let b := (((CircBuf.init (fun _ => 0) 5).alloc 4).2.2.2.free 3).1
  (b.alloc 1).2.2.2

example : CircBuf.WF atEnd ∧ atEnd.stop = atEnd.size ∧ atEnd.inUse = 2 ∧
    checkIntegrity 1000 atEnd 2 2 = .error .diverge := by decide +kernel

example : CircBuf.WF (CircBuf.init (fun _ => 0) 5) ∧ checkIntegrity 5 (CircBuf.init (fun _ => 0) 5) 4 0 = .ok () := by
  decide +kernel

/-- **C95** (`write_data`). On every well-formed buffer with room, the helper passes for the right length of the first
segment, whatever length is given for the second one; what it leaves is the old contents followed by the data. -/
theorem C95_write_data {b : CircBuf} (h : CircBuf.WF b) (xs : List UInt8) (hx : xs.length < b.size - (CircBuf.bytes b).length)
    (k : Nat) : ∃ b', writeData b xs (min xs.length (b.size - b.stop)) k = .ok b' ∧ CircBuf.WF b' ∧
      CircBuf.bytes b' = CircBuf.bytes b ++ xs := by
  have hl := CircBuf.inUse_lt h
  have hav := CircBuf.available_eq h
  have hlen := CircBuf.length_bytes b
  have hle := h.le
  have hx' : xs.length ≤ b.available := by omega
  have hput := CircBuf.put_ok h hx'
  have hA := CircBuf.alloc_ok h hx'
  have hi' := CircBuf.alloc_inUse h hx'
  have hw' := CircBuf.alloc_WF h xs.length
  have hav' := CircBuf.available_eq hw'
  have hsz' := CircBuf.alloc_size b xs.length
  generalize hr : b.alloc xs.length = r at *
  obtain ⟨e, s1, s2, c⟩ := r
  dsimp only at *
  have he : e = 0 ∧ s1.len = min xs.length (b.size - b.stop) ∧ s2.len = xs.length - s1.len := by
    split at hA <;> simp only [Prod.mk.injEq] at hA <;> obtain ⟨e1, e2, e3, _⟩ := hA <;> subst e1 e2 e3 <;>
      dsimp only <;> omega
  obtain ⟨b', hp, hw, _, _, hb⟩ := hput
  refine ⟨b', ?_, hw, hb⟩
  have hp' : c.scatter s1 s2 xs = .ok b' := by
    unfold CircBuf.put at hp
    rw [hr] at hp
    dsimp only at hp
    rw [if_pos he.1] at hp
    cases hq : c.scatter s1 s2 xs with
    | error f => rw [hq] at hp; cases hp
    | ok b'' => rw [hq] at hp; cases hp; rfl
  unfold writeData
  rw [want_bind, if_pos (by simpa using hx'), hr]
  dsimp only
  rw [want_bind, if_pos (by simp [he.1]), want_bind, want_bind, want_bind, want_bind]
  rw [if_pos (by rw [beq_iff_eq, sub32_eq hx' (by simp only [U32]; omega)]; omega),
    if_pos (by rw [beq_iff_eq, add32_eq (by simp only [U32]; omega)]; omega),
    if_pos (by rw [beq_iff_eq]; exact he.2.1), if_pos (by rw [beq_iff_eq]; exact he.2.1)]
  unfold CircBuf.scatter at hp'
  cases hq : c.storeN s1.off (xs.take s1.len) with
  | error f => rw [hq] at hp'; cases hp'
  | ok b1 =>
    rw [hq] at hp'
    simp only [bind, Except.bind] at hp' ⊢
    by_cases h0 : s2.len = 0
    · rw [if_pos h0]
      rw [h0] at hp'
      simpa [CircBuf.storeN, pure, Except.pure] using hp'
    · rw [if_neg h0]; exact hp'

/-- The loop of `read_data` passes if every offset is one at which `circ_buf_read_offset` is right. -/
theorem offsetLoop_ok {b : CircBuf} (h : CircBuf.WF b) (xs : List UInt8) (rest : List UInt8)
    (hb : CircBuf.bytes b = xs ++ rest) (hr : rest.length ≤ 1)
    (hs : ∀ off, off ≤ xs.length → CircBuf.OffsetSafe b off (xs.length - off)) :
    ∀ n off, off + n = b.inUse → offsetLoop b xs off n = .ok () := by
  have hlen := CircBuf.length_bytes b
  have hl := CircBuf.inUse_lt h
  have hle := h.le
  rw [hb, List.length_append] at hlen
  intro n
  induction n with
  | zero => intro off _; rfl
  | succ n ih =>
    intro off hoff
    have ho : off ≤ xs.length := by omega
    have hsub : sub32 xs.length off = xs.length - off := sub32_eq ho (by simp only [U32]; omega)
    have hd : ((CircBuf.bytes b).drop off).take (xs.length - off) = xs.drop off := by
      rw [hb, List.drop_append_of_le_length ho, List.take_append_of_le_length (by rw [List.length_drop]; omega),
        List.take_of_length_le (by rw [List.length_drop]; omega)]
    simp only [offsetLoop]
    rw [hsub, CircBuf.readOffset_ok h (by omega) (hs off ho), hd]
    simp only [bind, Except.bind]
    rw [show want ((0 : Nat) == 0) = .ok () from rfl]
    dsimp only
    rw [show want ((xs.drop off).length == xs.length - off) = .ok () from want_ok.2 (by simp)]
    dsimp only
    rw [show want (xs.drop off == xs.drop off) = .ok () from want_ok.2 (by simp)]
    exact ih (off + 1) (by omega)

/-- **C95** (`read_data`). On every well-formed buffer that contains the expected data and at most one byte more, the
helper passes, unless `circ_buf_read_offset` returns wrong bytes at one of the offsets it tries; it leaves the rest. -/
theorem C95_read_data {b : CircBuf} (h : CircBuf.WF b) (xs rest : List UInt8) (hb : CircBuf.bytes b = xs ++ rest)
    (hr : rest.length ≤ 1) (hs : ∀ off, off ≤ xs.length → CircBuf.OffsetSafe b off (xs.length - off)) :
    ∃ b', readData b xs = .ok b' ∧ CircBuf.WF b' ∧ CircBuf.bytes b' = rest := by
  have hlen := CircBuf.length_bytes b
  have hl := CircBuf.inUse_lt h
  have hle := h.le
  have hav := CircBuf.available_eq h
  have hf := CircBuf.free_spec h xs.length
  have hlb := hlen
  rw [hb, List.length_append] at hlen
  obtain ⟨hw, hsz, hby, _⟩ := hf
  rw [hb, List.drop_left] at hby
  have hlen' := CircBuf.length_bytes (b.free xs.length).1
  have hav' := CircBuf.available_eq hw
  rw [hby] at hlen'
  refine ⟨(b.free xs.length).1, ?_, hw, hby⟩
  have hread : b.read xs.length = .ok (0, xs) := by
    unfold CircBuf.read
    rw [CircBuf.readOffset_ok h (Nat.zero_le _) CircBuf.offsetSafe_zero, hb, List.drop_zero, List.take_left]
  unfold readData
  refine want_step (decide_eq_true (by omega)) ?_
  refine ok_step hread ?_
  refine want_step rfl ?_
  refine want_step (beq_iff_eq.2 rfl) ?_
  refine want_step (beq_iff_eq.2 rfl) ?_
  refine ok_step (offsetLoop_ok h xs rest hb hr hs b.inUse 0 (by omega)) ?_
  refine want_step (beq_iff_eq.2 ?_) ?_
  · rw [add32_eq (by simp only [U32]; omega)]; omega
  refine want_step (beq_iff_eq.2 ?_) ?_
  · rw [sub32_eq (by omega) (by simp only [U32]; omega)]; omega
  rfl

/-- A wrapped buffer the helpers meet: the unit test's, before it reads "DABC". -/
def wrapped : CircBuf := ⟨5, 3, 2, fun i => ([66, 67, 0, 68, 65] : List UInt8).getD i 0⟩

example : CircBuf.WF wrapped ∧ CircBuf.bytes wrapped = [68, 65, 66, 67] ++ [] ∧
    ∀ off, off ≤ 4 → CircBuf.OffsetSafe wrapped off (4 - off) := by
  refine ⟨by decide +kernel, by decide +kernel, ?_⟩
  intro off h
  have : ∀ off, off < 5 → CircBuf.OffsetSafe wrapped off (4 - off) := by decide +kernel
  exact this off (by omega)

example : (writeData wrapped [] 0 7).isOk = true ∧
    (writeData ⟨5, 3, 4, fun _ => 68⟩ [65, 66, 67] 1 2).isOk = true := by decide +kernel

/-- **C95** (a gap of `read_data`). A buffer on which the helper reports wrong data although the buffer is intact: its
loop over the offsets meets one at which `circ_buf_read_offset` is wrong. -/
theorem C95_read_data_rejects : ∃ b : CircBuf, CircBuf.WF b ∧ CircBuf.bytes b = [1, 2, 3, 4, 5, 6, 7] ∧
    readData b [1, 2, 3, 4, 5, 6, 7] = .error .exit255 := by
  refine ⟨⟨8, 4, 3, fun i => ([5, 6, 7, 0, 1, 2, 3, 4] : List UInt8).getD i 0⟩, by decide +kernel, by decide +kernel, ?_⟩
  kernel_refl

end UnitTest
end Rmc
