import Verif.CircBufLemmas

/-!
# Properties C01–C07: the circular buffer

The specification of the buffer is a plain list of bytes `q` (oldest first) with a fixed
capacity. `CircBuf.bytes b` is the abstraction of a concrete buffer; `WF` is the set of
states shown below (`C01_reachable_wf`) to contain everything the API can reach.
-/

namespace Rmc
namespace CircBuf

/-! ## The specification: a bounded byte queue -/

/-- What a user does with a buffer. -/
inductive Op where
  | put (xs : List UInt8)        -- reserve `xs.length` bytes and fill them
  | discard (n : Nat)            -- circ_buf_free
  | read (n : Nat)               -- circ_buf_read
  | readAt (off n : Nat)         -- circ_buf_read_offset
  | peek (n : Nat)               -- circ_buf_read_segment, looking at the two regions
  | trim (n : Nat)               -- circ_buf_trim
  deriving Repr, DecidableEq

/-- Result of an operation: error code and bytes returned. -/
structure Out where
  err : Nat
  data : List UInt8
  deriving Repr, DecidableEq

/-- The whole specification: a queue of at most `cap` bytes. -/
def specStep (cap : Nat) (q : List UInt8) : Op → List UInt8 × Out
  | .put xs => if q.length + xs.length ≤ cap then (q ++ xs, ⟨0, []⟩) else (q, ⟨ENOMEM, []⟩)
  | .discard n => (q.drop n, ⟨0, []⟩)
  | .read n => (q, ⟨0, q.take n⟩)
  | .readAt o n => (q, if o ≤ q.length then ⟨0, (q.drop o).take n⟩ else ⟨EINVAL, []⟩)
  | .peek n => (q, ⟨0, q.take n⟩)
  | .trim n => (q.take n, ⟨0, []⟩)

/-- The same operations on the modelled C code. -/
def step (b : CircBuf) : Op → M (CircBuf × Out)
  | .put xs => do let r ← put b xs; return (r.2, ⟨r.1, []⟩)
  | .discard n => .ok ((free b n).1, ⟨0, []⟩)
  | .read n => do let r ← CircBuf.read b n; return (b, ⟨r.1, r.2⟩)
  | .readAt o n => do let r ← readOffset b o n; return (b, ⟨r.1, r.2⟩)
  | .peek n => do
      let r := readSegment b n
      let xs ← gather b r.2.1 r.2.2
      return (b, ⟨r.1, xs⟩)
  | .trim n => .ok (CircBuf.trim b n, ⟨0, []⟩)

/-- The histories on which the code is right: every trim and offset read falls in the safe
class. The exact boundary of the class is the subject of C04 and C05. -/
def opSafe (b : CircBuf) : Op → Prop
  | .trim n => TrimSafe b n
  | .readAt o n => OffsetSafe b o n
  | _ => True

/-- Run a history on the specification. -/
def specRun (cap : Nat) : List UInt8 → List Op → List UInt8 × List Out
  | q, [] => (q, [])
  | q, op :: ops =>
    let r := specStep cap q op
    let r' := specRun cap r.1 ops
    (r'.1, r.2 :: r'.2)

/-- Run a history on the code. -/
def run : CircBuf → List Op → M (CircBuf × List Out)
  | b, [] => .ok (b, [])
  | b, op :: ops => do
    let r ← step b op
    let r' ← run r.1 ops
    return (r'.1, r.2 :: r'.2)

/-- All operations of the history are in the safe class when they are executed. -/
def histSafe : CircBuf → List Op → Prop
  | _, [] => True
  | b, op :: ops => opSafe b op ∧ ∀ b' o, step b op = .ok (b', o) → histSafe b' ops

/-- States reachable through the API: any size up to 2^31, any memory contents, any
allocation, any writes into the array, any free, any trim in the safe class. -/
inductive Reach : CircBuf → Prop
  | init (mem : Nat → UInt8) (size : Nat) (h0 : 0 < size) (h1 : size ≤ 2147483648) :
      Reach (CircBuf.init mem size)
  | alloc {b} (h : Reach b) (n : Nat) : Reach (alloc b n).2.2.2
  | write {b} (h : Reach b) (mem : Nat → UInt8) : Reach { b with data := mem }
  | free {b} (h : Reach b) (n : Nat) : Reach (free b n).1
  | trim {b} (h : Reach b) (n : Nat) (hs : TrimSafe b n) : Reach (trim b n)

/-! ## C01 -/

theorem init_WF (mem : Nat → UInt8) (size : Nat) (h0 : 0 < size) (h1 : size ≤ 2147483648) :
    WF (CircBuf.init mem size) :=
  ⟨h0, h1, h0, Nat.zero_le _, fun h => by
    have : (0 : Nat) = size := h
    omega⟩

/-- Every reachable state is well-formed, so the theorems below, stated for `WF`, cover all
reachable states. -/
theorem C01_reachable_wf {b : CircBuf} (h : Reach b) : WF b := by
  induction h with
  | init mem size h0 h1 => exact init_WF mem size h0 h1
  | alloc _ n ih => exact alloc_WF ih n
  | write _ mem ih => exact WF_congr ih rfl rfl rfl
  | free _ n ih => exact (free_spec ih n).1
  | trim _ n hs ih => exact (trim_spec ih hs).1

/-- C01: in use + available + the reserved byte = size; in use is the number of queued bytes;
available is exactly the largest length alloc accepts. -/
theorem C01_accounting {b : CircBuf} (h : WF b) :
    inUse b + available b + 1 = b.size ∧
    inUse b = (bytes b).length ∧
    ∀ n, ((alloc b n).1 = 0 ↔ n ≤ available b) := by
  have h1 := inUse_lt h
  have h2 := available_eq h
  refine ⟨by omega, (length_bytes b).symm, ?_⟩
  intro n
  constructor
  · intro h3
    by_cases hc : available b < n
    · rw [alloc_enomem hc] at h3; simp [ENOMEM] at h3
    · omega
  · intro h3
    rw [alloc_ok h h3]
    split <;> rfl

/-- C01, dynamic part: how each operation changes the count. -/
theorem C01_counts {b : CircBuf} (h : WF b) :
    (∀ n, n ≤ available b → inUse (alloc b n).2.2.2 = inUse b + n) ∧
    (∀ n, inUse (free b n).1 = inUse b - n ∧ (free b n).2 = inUse b - n) := by
  refine ⟨fun n hn => alloc_inUse h hn, fun n => ?_⟩
  obtain ⟨_, _, h3, h4⟩ := free_spec h n
  refine ⟨?_, h4⟩
  rw [← length_bytes, h3, List.length_drop, length_bytes]

/-- A wrapped buffer holding data across the end of the array: size 8, start 6, stop 3. -/
def exWrapped : CircBuf := ⟨8, 6, 3, fun i => UInt8.ofNat i⟩

theorem exWrapped_reach : Reach exWrapped := by
  have h0 := Reach.init (fun i => UInt8.ofNat i) 8 (by decide) (by decide)
  have h1 := h0.alloc 7
  have h2 := h1.free 6
  have h3 := h2.alloc 4
  have e : (alloc (free (alloc (init (fun i => UInt8.ofNat i) 8) 7).2.2.2 6).1 4).2.2.2 = exWrapped := by
    have a1 : (alloc (init (fun i => UInt8.ofNat i) 8) 7).2.2.2 = ⟨8, 0, 7, fun i => UInt8.ofNat i⟩ := by
      rw [alloc_ok (init_WF _ 8 (by decide) (by decide)) (by decide +kernel)]
      rfl
    rw [a1]
    have w1 : WF ⟨8, 0, 7, fun i => UInt8.ofNat i⟩ := by decide
    have i1 : inUse ⟨8, 0, 7, fun i => UInt8.ofNat i⟩ = 7 := by rw [inUse_eq w1]; rfl
    have a2 : (free ⟨8, 0, 7, fun i => UInt8.ofNat i⟩ 6).1 = ⟨8, 6, 7, fun i => UInt8.ofNat i⟩ := by
      unfold CircBuf.free
      rw [if_neg (by decide)]
      simp only [i1]
      rw [if_neg (by decide), add32_eq (by decide)]
    rw [a2]
    rw [alloc_ok (by decide) (by decide +kernel)]
    rfl
  rw [e] at h3
  exact h3

example : Reach exWrapped ∧ WF exWrapped ∧ inUse exWrapped = 5 ∧ available exWrapped = 2 :=
  ⟨exWrapped_reach, by decide, by decide +kernel, by decide +kernel⟩

/-! ## C02 -/

/-- One step of the code agrees with the specification (safe operations). -/
theorem step_refines {b : CircBuf} (h : WF b) (op : Op) (hs : opSafe b op) :
    ∃ b', step b op = .ok (b', (specStep (b.size - 1) (bytes b) op).2) ∧
      WF b' ∧ b'.size = b.size ∧ bytes b' = (specStep (b.size - 1) (bytes b) op).1 := by
  have hlt := inUse_lt h
  have hav := available_eq h
  cases op with
  | put xs =>
    by_cases hc : xs.length ≤ available b
    · obtain ⟨b', e1, e2, e3, _, e5⟩ := put_ok h hc
      have hl : (bytes b).length + xs.length ≤ b.size - 1 := by rw [length_bytes]; omega
      refine ⟨b', ?_, e2, e3, ?_⟩
      · simp only [step, specStep, if_pos hl]
        rw [e1]; rfl
      · simp only [specStep, if_pos hl, e5]
    · have hc' : available b < xs.length := by omega
      have hl : ¬ (bytes b).length + xs.length ≤ b.size - 1 := by rw [length_bytes]; omega
      refine ⟨b, ?_, h, rfl, ?_⟩
      · simp only [step, specStep, if_neg hl]
        rw [put_enomem hc']; rfl
      · simp only [specStep, if_neg hl]
  | discard n =>
    obtain ⟨e1, e2, e3, _⟩ := free_spec h n
    exact ⟨(free b n).1, rfl, e1, e2, e3⟩
  | read n =>
    refine ⟨b, ?_, h, rfl, rfl⟩
    have := readOffset_ok h (o := 0) (n := n) (Nat.zero_le _) offsetSafe_zero
    simp [step, CircBuf.read, this, specStep, bind, Except.bind, pure, Except.pure]
  | readAt o n =>
    refine ⟨b, ?_, h, rfl, rfl⟩
    by_cases ho : o ≤ inUse b
    · have := readOffset_ok h (o := o) (n := n) ho hs
      have ho' : o ≤ (bytes b).length := by rw [length_bytes]; exact ho
      simp [step, this, specStep, ho', bind, Except.bind, pure, Except.pure]
    · have := readOffset_einval (b := b) (o := o) (n := n) (by omega)
      have ho' : ¬ o ≤ (bytes b).length := by rw [length_bytes]; exact ho
      simp [step, this, specStep, ho', bind, Except.bind, pure, Except.pure]
  | peek n =>
    refine ⟨b, ?_, h, rfl, rfl⟩
    obtain ⟨e1, _, _, _, e5⟩ := readSegment_spec h n
    simp only [step, e5, e1, specStep, bind, Except.bind, pure, Except.pure]
  | trim n =>
    obtain ⟨e1, e2, _⟩ := trim_spec h hs
    exact ⟨CircBuf.trim b n, rfl, e1, e2, trim_bytes h hs⟩

/-- Whole histories, including trims and offset reads in the safe class. -/
theorem run_refines {b : CircBuf} (h : WF b) (ops : List Op) (hs : histSafe b ops) :
    ∃ b', run b ops = .ok (b', (specRun (b.size - 1) (bytes b) ops).2) ∧
      WF b' ∧ b'.size = b.size ∧ bytes b' = (specRun (b.size - 1) (bytes b) ops).1 := by
  induction ops generalizing b with
  | nil => exact ⟨b, rfl, h, rfl, rfl⟩
  | cons op ops ih =>
    obtain ⟨b1, e1, e2, e3, e4⟩ := step_refines h op hs.1
    obtain ⟨b2, f1, f2, f3, f4⟩ := ih e2 (hs.2 b1 _ e1)
    refine ⟨b2, ?_, f2, by rw [f3, e3], ?_⟩
    · simp only [run, e1, bind, Except.bind, f1, pure, Except.pure, specRun, e3, e4]
    · rw [f4, e3, e4]; rfl

/-- The operations for which no safety condition is needed at all. -/
def opPlain : Op → Bool
  | .trim _ => false
  | .readAt o _ => o ≤ 1
  | _ => true

theorem histSafe_of_plain {b : CircBuf} (ops : List Op) (h : ∀ op ∈ ops, opPlain op = true) :
    histSafe b ops := by
  induction ops generalizing b with
  | nil => trivial
  | cons op ops ih =>
    refine ⟨?_, fun b' o _ => ih (fun op' h' => h op' (List.mem_cons_of_mem _ h'))⟩
    have h1 := h op List.mem_cons_self
    cases op with
    | readAt o n =>
      simp only [opPlain, decide_eq_true_eq] at h1
      show OffsetSafe b o n
      unfold OffsetSafe; omega
    | trim n => simp [opPlain] at h1
    | _ => trivial

/-- C02: for every history of put/discard/read/peek operations (and reads at offset 0 or 1)
starting from an initialised buffer of any size, the code never faults, and its outputs and
its final contents are those of the byte queue specification. -/
theorem C02_fifo (mem : Nat → UInt8) (size : Nat) (h0 : 0 < size) (h1 : size ≤ 2147483648)
    (ops : List Op) (hp : ∀ op ∈ ops, opPlain op = true) :
    ∃ b', run (CircBuf.init mem size) ops = .ok (b', (specRun (size - 1) [] ops).2) ∧
      bytes b' = (specRun (size - 1) [] ops).1 := by
  have hw := init_WF mem size h0 h1
  have hb : bytes (CircBuf.init mem size) = [] := by
    apply List.eq_nil_of_length_eq_zero
    rw [length_bytes, inUse_eq hw]; rfl
  obtain ⟨b', e1, _, _, e4⟩ := run_refines hw ops (histSafe_of_plain ops hp)
  rw [hb] at e1 e4
  exact ⟨b', e1, e4⟩

example : ∀ op ∈ [Op.put [1, 2, 3, 4, 5], .discard 4, .put [6, 7, 8], .read 10, .peek 2],
    opPlain op = true := by decide

/-- The specification is not trivial: on a 7-byte buffer (capacity 6) this history wraps around
the end and returns the bytes in order; the last put does not fit. -/
example : (specRun 6 [] [.put [1, 2, 3, 4, 5], .discard 4, .put [6, 7, 8], .read 10, .put [9, 9, 9]]).2
    = [⟨0, []⟩, ⟨0, []⟩, ⟨0, []⟩, ⟨0, [5, 6, 7, 8]⟩, ⟨ENOMEM, []⟩] := by decide

/-! ## C03 -/

/-- Index `j` of the array belongs to region `r`. -/
def Region.has (r : Region) (j : Nat) : Prop := r.off ≤ j ∧ j < r.off + r.len

/-- C03: allocation is refused without effect iff the request exceeds the free space; otherwise it
yields exactly `n` bytes in at most two regions inside the array, disjoint from each other and
from every queued byte, in queue order; bytes already queued are untouched. -/
theorem C03_alloc {b : CircBuf} (h : WF b) (n : Nat) :
    (available b < n ∧ alloc b n = (ENOMEM, ⟨0, 0⟩, ⟨0, 0⟩, b)) ∨
    (n ≤ available b ∧ ∃ s1 s2 c, alloc b n = (0, s1, s2, c) ∧
      s1.len + s2.len = n ∧ s1.off + s1.len ≤ b.size ∧ s2.off + s2.len ≤ b.size ∧
      (∀ j, ¬ (Region.has s1 j ∧ Region.has s2 j)) ∧
      (∀ i, i < inUse b → ¬ Region.has s1 ((b.start + i) % b.size) ∧
                          ¬ Region.has s2 ((b.start + i) % b.size)) ∧
      (∀ i, i < n → (c.start + (inUse b + i)) % c.size =
        if i < s1.len then s1.off + i else s2.off + (i - s1.len)) ∧
      inUse c = inUse b + n ∧ c.size = b.size ∧ (bytes c).take (inUse b) = bytes b) := by
  by_cases hn : available b < n
  · exact Or.inl ⟨hn, alloc_enomem hn⟩
  · right
    have hn : n ≤ available b := by omega
    refine ⟨hn, ?_⟩
    have hiu' := alloc_inUse h hn
    have hwf := alloc_WF h n
    have hd := alloc_data b n
    have hst := alloc_start b n
    have hsz := alloc_size b n
    have hok := alloc_ok h hn
    have hav := available_eq h
    have hiu := inUse_eq h
    have hlt := inUse_lt h
    generalize alloc b n = r at *
    obtain ⟨e, s1, s2, c⟩ := r
    simp only at hiu' hwf hd hst hsz
    have hbytes : (bytes c).take (inUse b) = bytes b := by
      rw [← bytes_of_prefix (b := c) (c := b) hsz.symm hst.symm hd.symm (by omega)]
    have hw := h
    obtain ⟨h1, h2, h3, h4, h5⟩ := h
    split at hok
    · rename_i hc
      simp only [Prod.mk.injEq] at hok
      obtain ⟨e1, e2, e3, _⟩ := hok
      subst e1; subst e2; subst e3
      refine ⟨_, _, _, rfl, by simp, by simp only; omega, by simp, ?_, ?_, ?_, hiu', hsz, hbytes⟩
      · intro j; simp only [Region.has]; omega
      · intro i hi
        rw [mod_of_WF hw (by omega)]
        simp only [Region.has]
        constructor
        · split at hiu <;> split <;> omega
        · omega
      · intro i hi
        rw [hst, hsz, mod_of_WF hw (by omega)]
        simp only
        rw [if_pos hi]
        split at hiu <;> somega
    · rename_i hc
      simp only [Prod.mk.injEq] at hok
      obtain ⟨e1, e2, e3, _⟩ := hok
      subst e1; subst e2; subst e3
      refine ⟨_, _, _, rfl, by simp only; omega, by simp only; omega,
        by simp only; split at hiu <;> omega, ?_, ?_, ?_, hiu', hsz, hbytes⟩
      · intro j; simp only [Region.has]; split at hiu <;> omega
      · intro i hi
        rw [mod_of_WF hw (by omega)]
        simp only [Region.has]
        constructor
        · split at hiu <;> split <;> omega
        · split at hiu <;> split <;> omega
      · intro i hi
        rw [hst, hsz, mod_of_WF hw (by omega)]
        simp only
        split at hiu <;> somega

example : WF exWrapped ∧ 2 ≤ available exWrapped ∧ available exWrapped < 3 := by
  refine ⟨by decide, by decide +kernel, by decide +kernel⟩

/-! ## C04 -/

/-- C04 (partial): an offset read is right on the safe class. Missing: the unsafe class, where the
property is false (`C04_false`). -/
theorem C04_readOffset_partial {b : CircBuf} (h : WF b) (o n : Nat) (hs : OffsetSafe b o n) :
    readOffset b o n =
      .ok (if o ≤ inUse b then (0, ((bytes b).drop o).take n) else (EINVAL, [])) := by
  by_cases ho : o ≤ inUse b
  · rw [if_pos ho]; exact readOffset_ok h ho hs
  · rw [if_neg ho]; exact readOffset_einval (by omega)

/-- All the reads the library makes at offsets 0 and 1 (command byte, header after the command
byte) are in the safe class, wherever the data wraps. -/
theorem C04_library_offsets {b : CircBuf} (h : WF b) (o n : Nat) (ho : o ≤ 1) :
    readOffset b o n =
      .ok (if o ≤ inUse b then (0, ((bytes b).drop o).take n) else (EINVAL, [])) := by
  apply C04_readOffset_partial h
  unfold OffsetSafe; omega

/-- The safe class is exact: in every state outside it the code returns wrong bytes for some
contents of the buffer (it reads the second part from the wrong place). -/
theorem C04_exact {b : CircBuf} (h : WF b) (o n : Nat) (ho : o ≤ inUse b) :
    OffsetSafe b o n ↔
    ∀ mem, readOffset { b with data := mem } o n =
      .ok (0, ((bytes { b with data := mem }).drop o).take n) := by
  constructor
  · intro hs mem
    have hiu : inUse { b with data := mem } = inUse b := inUse_congr rfl rfl rfl
    apply readOffset_ok (b := { b with data := mem }) (WF_congr h rfl rfl rfl) (by rw [hiu]; exact ho)
    unfold OffsetSafe at *
    rw [hiu]; exact hs
  · intro hall
    apply Classical.byContradiction
    intro hs
    obtain ⟨a1, a2, a3, a4⟩ := Classical.not_not.mp hs
    have hm := hall (fun j => if j = 0 then 1 else 0)
    have hiu := inUse_eq h
    have hlt := inUse_lt h
    have hc : inUse { b with data := fun j => if j = 0 then 1 else 0 } = inUse b :=
      inUse_congr rfl rfl rfl
    have hwc : WF { b with data := fun j => if j = 0 then 1 else 0 } := WF_congr h rfl rfl rfl
    have hw := h
    obtain ⟨w1, w2, w3, w4, w5⟩ := h
    rw [if_neg (by omega)] at hiu
    unfold readOffset at hm
    simp only [hc] at hm
    rw [if_neg (by omega)] at hm
    rw [sub32_eq ho (by simp only [U32]; omega), add32_eq (by simp only [U32]; omega)] at hm
    rw [Nat.mod_eq_of_lt a2] at hm
    rw [if_neg (by omega)] at hm
    rw [sub32_eq (by omega) (by simp only [U32]; omega)] at hm
    rw [Nat.min_eq_left (by omega)] at hm
    rw [loadN_eq _ _ _ (by simp only; omega)] at hm
    simp only [bind, Except.bind, pure, Except.pure] at hm
    rw [if_neg (by omega), if_pos (by omega)] at hm
    rw [sub32_eq (by omega) (by simp only [U32]; omega)] at hm
    rw [sub32_eq (by omega) (by simp only [U32]; omega)] at hm
    rw [loadN_eq _ _ _ (by simp only; omega)] at hm
    simp only [Except.ok.injEq, Prod.mk.injEq, true_and] at hm
    have hk := congrArg (fun l => l[b.size - (b.start + o)]?) hm
    rw [List.getElem?_append_right (by simp)] at hk
    simp only [List.length_map, List.length_range, Nat.sub_self] at hk
    rw [List.getElem?_take, if_pos (by omega), List.getElem?_drop] at hk
    rw [List.getElem?_eq_getElem (by rw [List.length_map, List.length_range]; omega)] at hk
    rw [List.getElem?_eq_getElem (by rw [length_bytes, hc]; omega)] at hk
    rw [getElem_bytes] at hk
    simp only [List.getElem_map, List.getElem_range, Option.some.injEq] at hk
    rw [show b.start + (o + (b.size - (b.start + o))) = b.size by omega, Nat.mod_self] at hk
    rw [if_neg (by omega)] at hk
    simp at hk

/-- C04 is false as stated: a reachable buffer, offset and length where a wrong byte is returned:
6 bytes `[4,5,6,7,1,1]`… here: size 8, start 4, stop 2, bytes 4,5,6,7,0,1; reading 2 bytes at
offset 3 must give 7,0 and gives 7,2. -/
theorem C04_false :
    ∃ b, Reach b ∧ readOffset b 3 2 ≠ .ok (0, ((bytes b).drop 3).take 2) ∧
      (bytes b).length = 6 := by
  refine ⟨⟨8, 4, 2, fun i => UInt8.ofNat i⟩, ?_, by decide +kernel, by decide +kernel⟩
  have h0 := Reach.init (fun i => UInt8.ofNat i) 8 (by decide) (by decide)
  have h3 := ((h0.alloc 7).free 4).alloc 3
  have e : (alloc (free (alloc (init (fun i => UInt8.ofNat i) 8) 7).2.2.2 4).1 3).2.2.2
      = ⟨8, 4, 2, fun i => UInt8.ofNat i⟩ := by
    have a1 : (alloc (init (fun i => UInt8.ofNat i) 8) 7).2.2.2 = ⟨8, 0, 7, fun i => UInt8.ofNat i⟩ := by
      rw [alloc_ok (init_WF _ 8 (by decide) (by decide)) (by decide +kernel)]
      rfl
    rw [a1]
    have w1 : WF ⟨8, 0, 7, fun i => UInt8.ofNat i⟩ := by decide
    have i1 : inUse ⟨8, 0, 7, fun i => UInt8.ofNat i⟩ = 7 := by rw [inUse_eq w1]; rfl
    have a2 : (free ⟨8, 0, 7, fun i => UInt8.ofNat i⟩ 4).1 = ⟨8, 4, 7, fun i => UInt8.ofNat i⟩ := by
      unfold CircBuf.free
      rw [if_neg (by decide)]
      simp only [i1]
      rw [if_neg (by decide), add32_eq (by decide)]
    rw [a2]
    rw [alloc_ok (by decide) (by decide +kernel)]
    rfl
  rw [e] at h3
  exact h3

example : OffsetSafe exWrapped 1 4 ∧ (1 ≤ inUse exWrapped) := by
  constructor <;> decide +kernel

/-! ## C05 -/

/-- C05 (partial): on the safe class trim keeps exactly the requested prefix. -/
theorem C05_trim_partial {b : CircBuf} (h : WF b) (t : Nat) (hs : TrimSafe b t) :
    WF (trim b t) ∧ bytes (trim b t) = (bytes b).take t ∧ (trim b t).size = b.size :=
  ⟨(trim_spec h hs).1, trim_bytes h hs, (trim_spec h hs).2.1⟩

/-- The safe class is exact: trim behaves iff the state and target are in it; otherwise the stop
index ends up far beyond the end of the array (uint32 underflow). -/
theorem C05_exact {b : CircBuf} (h : WF b) (t : Nat) :
    (TrimSafe b t ↔ (WF (trim b t) ∧ bytes (trim b t) = (bytes b).take t)) ∧
    (¬ TrimSafe b t → (trim b t).stop > (trim b t).size) := by
  refine ⟨⟨fun hs => ⟨(trim_spec h hs).1, trim_bytes h hs⟩, ?_⟩, ?_⟩
  · intro ⟨hw, _⟩
    apply Classical.byContradiction
    intro hs
    have h1 := (trim_unsafe h hs).2
    have h2 := hw.stop_le
    have h3 : (trim b t).size = b.size := by
      unfold trim; simp only; split
      · rfl
      · split <;> rfl
    omega
  · intro hs
    have h1 := (trim_unsafe h hs).2
    have h3 : (trim b t).size = b.size := by
      unfold trim; simp only; split
      · rfl
      · split <;> rfl
    omega

/-- A trim of an unwrapped buffer, in particular of one whose data starts at index 0, is always in
the safe class. -/
theorem C05_unwrapped_safe {b : CircBuf} (h : b.start ≤ b.stop) (t : Nat) : TrimSafe b t := by
  unfold TrimSafe; omega

/-- C05 is false as stated: trimming the reachable wrapped buffer of 5 bytes to 1 byte makes the
buffer claim 2^32 - 7 bytes in use, and the next look at its contents reads out of bounds. -/
theorem C05_false :
    ∃ b, Reach b ∧ bytes (trim b 1) ≠ (bytes b).take 1 ∧ inUse (trim b 1) = 4294967289 ∧
      gather (trim b 1) (readSegment (trim b 1) 20).2.1 (readSegment (trim b 1) 20).2.2
        = .error .oob := by
  refine ⟨exWrapped, exWrapped_reach, ?_, by decide +kernel, by decide +kernel⟩
  intro hc
  have h1 := congrArg List.length hc
  rw [length_bytes, List.length_take, length_bytes] at h1
  have : inUse (trim exWrapped 1) = 4294967289 := by decide +kernel
  omega

example : TrimSafe exWrapped 3 ∧ 3 < inUse exWrapped ∧ exWrapped.stop < exWrapped.start := by
  refine ⟨by decide, by decide +kernel, by decide⟩

/-! ## C06 -/

/-- C06: the segment view is in bounds, has total length min(n, in use), and its concatenation is
the prefix of the queue; nothing is consumed (the buffer is not even written). -/
theorem C06_readSegment {b : CircBuf} (h : WF b) (n : Nat) :
    let r := readSegment b n
    r.1 = 0 ∧ r.2.1.off + r.2.1.len ≤ b.size ∧ r.2.2.off + r.2.2.len ≤ b.size ∧
    r.2.1.len + r.2.2.len = min n (inUse b) ∧
    gather b r.2.1 r.2.2 = .ok ((bytes b).take n) :=
  readSegment_spec h n

example : (readSegment exWrapped 4).2 = (⟨6, 2⟩, ⟨0, 2⟩) ∧ WF exWrapped :=
  ⟨by decide +kernel, by decide⟩

/-! ## C07 -/

/-- C07: no operation on a well-formed buffer accesses memory outside the array, whatever its
arguments (including offset reads outside the safe class, which return wrong bytes but stay in
bounds). -/
theorem C07_in_bounds {b : CircBuf} (h : WF b) (op : Op) : ∃ r, step b op = .ok r := by
  by_cases hs : opSafe b op
  · obtain ⟨b', e, _⟩ := step_refines h op hs
    exact ⟨_, e⟩
  · cases op with
    | readAt o n =>
      obtain ⟨r, hr⟩ := readOffset_no_fault h o n
      exact ⟨(b, ⟨r.1, r.2⟩), by simp [step, hr, bind, Except.bind, pure, Except.pure]⟩
    | trim n => exact ⟨_, rfl⟩
    | _ => exact absurd trivial hs

/-- C07: filling any prefix of freshly allocated regions stays in bounds. -/
theorem C07_fill_in_bounds {b : CircBuf} (h : WF b) (n : Nat) (xs : List UInt8)
    (hx : xs.length ≤ n) :
    ∃ c, scatter (alloc b n).2.2.2 (alloc b n).2.1 (alloc b n).2.2.1
      (if (alloc b n).1 = 0 then xs else []) = .ok c := by
  by_cases hn : available b < n
  · have : scatter b ⟨0, 0⟩ ⟨0, 0⟩ ([] : List UInt8) = .ok b := rfl
    refine ⟨b, ?_⟩
    rw [alloc_enomem hn]
    exact this
  · generalize hA : alloc b n = r
    obtain ⟨e, s1, s2, c⟩ := r
    obtain ⟨b', h1, _⟩ := alloc_scatter h (by omega) hA hx
    have he : e = 0 := by
      have := alloc_ok h (n := n) (by omega)
      rw [hA] at this
      split at this <;> simp only [Prod.mk.injEq] at this <;> exact this.1
    refine ⟨b', ?_⟩
    subst he
    exact h1

/-- C07 (partial over histories): a history in which trims stay in the safe class never faults.
Missing: histories with other trims, for which it is false (`C07_false`). -/
theorem C07_history_partial {b : CircBuf} (h : WF b) (ops : List Op) (hs : histSafe b ops) :
    ∃ r, run b ops = .ok r := by
  obtain ⟨b', e, _⟩ := run_refines h ops hs
  exact ⟨_, e⟩

/-- C07 is false over all histories: fill, discard, fill again, trim to one byte, and the next look at the contents reads outside the array. -/
theorem C07_false : run (init (fun _ => 0) 8) [.put [1, 2, 3, 4, 5, 6, 7], .discard 6, .put [8, 9, 10, 11], .trim 1, .peek 20] = .error .oob := by
  have h : (match run (init (fun _ => 0) 8) [.put [1, 2, 3, 4, 5, 6, 7], .discard 6, .put [8, 9, 10, 11], .trim 1, .peek 20] with
      | .ok _ => false | .error f => decide (f = .oob)) = true := by decide +kernel
  revert h
  cases run (init (fun _ => 0) 8) _ with
  | ok x => intro h; cases h
  | error f => intro h; rw [of_decide_eq_true h]

example : histSafe exWrapped [.trim 3, .readAt 1 2, .put [1]] := by
  refine ⟨?_, fun b' o h => ⟨?_, fun b'' o' h' => ⟨trivial, fun _ _ _ => trivial⟩⟩⟩
  · show TrimSafe exWrapped 3; decide
  · show OffsetSafe b' 1 2; unfold OffsetSafe; omega

end CircBuf
end Rmc
