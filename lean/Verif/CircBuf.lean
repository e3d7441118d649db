import Verif.Basic

/-!
# Model of `/repo/circular_buffer.c`

`CircBuf` mirrors `circ_buf_t` (circular_buffer.h:12-24): `uint32_t` indices are `Nat`
with wrapping arithmetic made explicit (`sub32`, `add32`), the backing array is a
function `Nat → UInt8` of which only the indices `< size` exist: every load and store of
the model is bounds checked and yields `Fault.oob` outside.

Simplifications: pointer arguments are never null (the `EINVAL` branches for null
arguments of lines 62-65, 150-151, 198, 275-278 are not modelled); C `memcpy` of a region
is a sequence of byte stores.
-/

namespace Rmc

/-- circular_buffer.h:12-24 `circ_buf_t`; `data i` is `buffer[i]`. -/
structure CircBuf where
  size : Nat
  start : Nat
  stop : Nat
  data : Nat → UInt8

/-- A region `&buffer[off] .. &buffer[off+len]` handed out to the caller
(`segment1/segment1_len`). A null segment is `⟨0, 0⟩` with `len = 0`. -/
structure Region where
  off : Nat
  len : Nat
  deriving DecidableEq, Repr

namespace CircBuf

/-- circular_buffer.c:28-34 `circ_buf_init`. `mem` is the caller's uninitialised array. -/
def init (mem : Nat → UInt8) (size : Nat) : CircBuf :=
  { size := size, start := 0, stop := 0, data := mem }

/-- circular_buffer.c:36-44 `circ_buf_in_use`. -/
@[irreducible] def inUse (b : CircBuf) : Nat :=
  if b.stop ≥ b.start then sub32 b.stop b.start
  else add32 (sub32 b.size b.start) b.stop

/-- circular_buffer.c:46-50 `circ_buf_available`. -/
@[irreducible] def available (b : CircBuf) : Nat :=
  sub32 (sub32 b.size (inUse b)) 1

/-- circular_buffer.c:52-97 `circ_buf_alloc`: error code, two segments, new state. -/
@[irreducible] def alloc (b : CircBuf) (len : Nat) : Nat × Region × Region × CircBuf :=
  if available b < len then (ENOMEM, ⟨0, 0⟩, ⟨0, 0⟩, b)
  else if sub32 b.size b.stop ≥ len then
    (0, ⟨b.stop, len⟩, ⟨0, 0⟩, { b with stop := add32 b.stop len })
  else
    let seg1 := sub32 b.size b.stop
    let len' := sub32 len seg1
    (0, ⟨b.stop, seg1⟩, ⟨0, len'⟩, { b with stop := len' })

/-- circular_buffer.c:104-142 `circ_buf_trim`. -/
@[irreducible] def trim (b : CircBuf) (target : Nat) : CircBuf :=
  let iu := inUse b
  if iu ≤ target then b
  else if b.stop > target then { b with stop := sub32 b.stop (sub32 iu target) }
  else { b with stop := (add32 b.start target) % b.size }

/-- circular_buffer.c:146-183 `circ_buf_free`; returns the new state and `*in_use`. -/
@[irreducible] def free (b : CircBuf) (n : Nat) : CircBuf × Nat :=
  if n = 0 then (b, inUse b)
  else
    let len := inUse b
    if n ≥ len then ({ b with start := 0, stop := 0 }, 0)
    else ({ b with start := (add32 b.start n) % b.size }, sub32 len n)

/-- Bounds-checked load of `buffer[i]`. -/
def load (b : CircBuf) (i : Nat) : M UInt8 :=
  if i < b.size then .ok (b.data i) else .error .oob

/-- Bounds-checked `memcpy(target, buffer + off, len)` out of the buffer. -/
def loadN (b : CircBuf) (off : Nat) : Nat → M (List UInt8)
  | 0 => .ok []
  | n + 1 => do
    let x ← load b off
    let xs ← loadN b (off + 1) n
    return x :: xs

/-- Bounds-checked store `buffer[i] = v`. -/
def store (b : CircBuf) (i : Nat) (v : UInt8) : M CircBuf :=
  if i < b.size then .ok { b with data := fun j => if j = i then v else b.data j }
  else .error .oob

/-- Bounds-checked `memcpy(buffer + off, src, len)` into the buffer. -/
def storeN (b : CircBuf) (off : Nat) : List UInt8 → M CircBuf
  | [] => .ok b
  | x :: xs => do
    let b' ← store b off x
    storeN b' (off + 1) xs

/-- circular_buffer.c:187-254 `circ_buf_read_offset`: error code and the bytes written to
`target` (`*bytes_read` is their number). -/
@[irreducible] def readOffset (b : CircBuf) (offset size : Nat) : M (Nat × List UInt8) :=
  let iu := inUse b
  if offset > iu then .ok (EINVAL, [])
  else
    let len := min size (sub32 iu offset)
    let startInd := (add32 b.start offset) % b.size
    if b.stop ≥ startInd then do
      let xs ← loadN b startInd len
      return (0, xs)
    else do
      let segLen := min (sub32 b.size startInd) len
      let xs ← loadN b startInd segLen
      if len = segLen then return (0, xs)
      else
        let len' := sub32 len segLen
        let offset' := if offset > segLen then sub32 offset segLen else 0
        let segLen' := min len' b.stop
        let ys ← loadN b offset' segLen'
        return (0, xs ++ ys)

/-- circular_buffer.c:256-262 `circ_buf_read`. -/
def read (b : CircBuf) (size : Nat) : M (Nat × List UInt8) := readOffset b 0 size

/-- circular_buffer.c:266-307 `circ_buf_read_segment`. -/
@[irreducible] def readSegment (b : CircBuf) (size : Nat) : Nat × Region × Region :=
  let len := inUse b
  if b.stop = b.start then (0, ⟨0, 0⟩, ⟨0, 0⟩)
  else
    let len := min len size
    let seg1 : Region := ⟨b.start, min len (sub32 b.size b.start)⟩
    if len ≤ sub32 b.size b.start then (0, seg1, ⟨0, 0⟩)
    else (0, seg1, ⟨0, sub32 len (sub32 b.size b.start)⟩)

/-! ## How the library uses the regions -/

/-- Scatter `xs` over two regions, the way `readv()` (rmc_protocol.c:170-243) and the
paired `memcpy`s (rmc_pub_write.c, rmc_sub_write.c) fill `segment1` then `segment2`. -/
def scatter (b : CircBuf) (s1 s2 : Region) (xs : List UInt8) : M CircBuf := do
  let b1 ← storeN b s1.off (xs.take s1.len)
  storeN b1 s2.off ((xs.drop s1.len).take s2.len)

/-- Gather the contents of two regions, the way `writev()` (rmc_protocol.c:19-73) does. -/
def gather (b : CircBuf) (s1 s2 : Region) : M (List UInt8) := do
  let xs ← loadN b s1.off s1.len
  let ys ← loadN b s2.off s2.len
  return xs ++ ys

/-- Allocate room for `xs` and copy it in: the "alloc, then memcpy both segments" pattern
of rmc_pub_write.c (resend) and rmc_sub_write.c (acks). -/
@[irreducible] def put (b : CircBuf) (xs : List UInt8) : M (Nat × CircBuf) :=
  let r := alloc b xs.length
  if r.1 = 0 then do
    let b'' ← scatter r.2.2.2 r.2.1 r.2.2.1 xs
    return (0, b'')
  else .ok (r.1, r.2.2.2)

/-! ## Abstraction and well-formedness -/

/-- The sequence of bytes stored, oldest first. -/
def bytes (b : CircBuf) : List UInt8 :=
  (List.range (inUse b)).map fun i => b.data ((b.start + i) % b.size)

/-- Well-formed: what `init` establishes and the operations preserve.
`stop = size` is possible (alloc up to the very end), only if `start > 0`. -/
structure WF (b : CircBuf) : Prop where
  pos : 0 < b.size
  le : b.size ≤ 2147483648
  start_lt : b.start < b.size
  stop_le : b.stop ≤ b.size
  stop_eq : b.stop = b.size → 0 < b.start

instance (b : CircBuf) : Decidable (WF b) :=
  decidable_of_iff (0 < b.size ∧ b.size ≤ 2147483648 ∧ b.start < b.size ∧ b.stop ≤ b.size ∧
    (b.stop = b.size → 0 < b.start))
    ⟨fun ⟨a, b, c, d, e⟩ => ⟨a, b, c, d, e⟩, fun ⟨a, b, c, d, e⟩ => ⟨a, b, c, d, e⟩⟩

/-- The states on which `trim` behaves (see `Verif.Props.CircBuf`). -/
def TrimSafe (b : CircBuf) (target : Nat) : Prop :=
  ¬ (b.stop < b.start ∧ target < b.stop ∧ b.start + target < b.size)

instance (b : CircBuf) (t : Nat) : Decidable (TrimSafe b t) := by
  unfold TrimSafe; infer_instance

/-- The states on which `readOffset` returns the right bytes. -/
def OffsetSafe (b : CircBuf) (offset size : Nat) : Prop :=
  ¬ (b.stop < b.start ∧ b.start + offset < b.size ∧
     b.size - (b.start + offset) < min size (inUse b - offset) ∧
     b.size - (b.start + offset) < offset)

instance (b : CircBuf) (o s : Nat) : Decidable (OffsetSafe b o s) := by
  unfold OffsetSafe; infer_instance

end CircBuf
end Rmc
