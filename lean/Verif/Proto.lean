import Verif.CircBuf
import Verif.Wire

/-!
# Model of `/repo/rmc_protocol.c`: TCP reads, command dispatch, TCP writes

The dispatch table is a list of (command byte, handler) pairs; a handler gets the rest of the
library state `σ` and the read buffer of the connection. Simplifications: the result of
`readv`/`writev` is a parameter (`none` is -1, otherwise the bytes delivered by the kernel, or the
number of bytes the kernel accepts, both cut to what the call offered); `*op_res`, which only tells
the caller which kind of operation took place, is not modelled; logging is left out.
-/

namespace Rmc
namespace Proto
open CircBuf

/-- rmc_internal.h:370-373 a dispatch function: return code, new state, new read buffer. -/
abbrev Handler (σ : Type) := σ → CircBuf → M (Nat × σ × CircBuf)

/-- rmc_internal.h:370-373 a dispatch table (without the null terminator). -/
abbrev Table (σ : Type) := List (UInt8 × Handler σ)

variable {σ : Type}

/-- rmc_protocol.c:105-140: traverse the table for the command byte. -/
def lookup (t : Table σ) (c : UInt8) : Option (Handler σ) :=
  match t with
  | [] => none
  | (c', h) :: t => if c = c' then some h else lookup t c

/-- rmc_protocol.c:102-164: the `while(1)` loop of `rmc_conn_process_tcp_read`. `fuel` bounds the number
of commands. -/
def processLoop (t : Table σ) : Nat → σ → CircBuf → UInt8 → M (Nat × σ × CircBuf)
  | 0, _, _, _ => .error .diverge
  | fuel + 1, s, b, cmd =>
    match lookup t cmd with
    | none => .ok (EPROTO, s, b)
    | some h => do
      let (res, s, b) ← h s b
      if res ≠ 0 then return (res, s, b)
      else if inUse b = 0 then return (0, s, b)
      else do
        let (res, xs) ← CircBuf.read b 1
        if res ≠ 0 then return (res, s, b)
        else processLoop t fuel s b (xs.headD cmd)

/-- rmc_protocol.c:82-167 `rmc_conn_process_tcp_read`. -/
def processTcpRead (t : Table σ) (fuel : Nat) (s : σ) (b : CircBuf) : M (Nat × σ × CircBuf) := do
  let (res, xs) ← CircBuf.read b 1
  if res ≠ 0 then return (res, s, b)
  else processLoop t fuel s b (xs.headD 0)

/-- rmc_protocol.c:170-243 `rmc_conn_tcp_read`. `rv` is what `readv` yields: `none` for -1, `some []` for
0 (end of stream), otherwise the bytes read. -/
@[irreducible] def tcpRead (t : Table σ) (fuel : Nat) (s : σ) (b : CircBuf) (rv : Option (List UInt8)) :
    M (Nat × σ × CircBuf) :=
  let avail := available b
  let orig := inUse b
  if avail = 0 then .ok (ENOMEM, s, b)
  else
    let r := alloc b avail
    if r.1 ≠ 0 then .ok (r.1, s, b)
    else
      let xs := (rv.getD []).take avail
      if xs = [] then .ok (EPIPE, s, trim r.2.2.2 avail)
      else do
        let c ← scatter r.2.2.2 r.2.1 r.2.2.1 xs
        processTcpRead t fuel s (trim c (add32 xs.length orig))

/-- rmc_protocol.c:19-73 `rmc_conn_process_tcp_write`. `wv` is what `writev` yields: `.error e` for -1 with
`errno = e`, otherwise the number of bytes accepted. Result: return code, `*bytes_left`, buffer, and
the bytes that went to the socket. -/
@[irreducible] def tcpWrite (b : CircBuf) (wv : Except Nat Nat) : M (Nat × Nat × CircBuf × List UInt8) :=
  let r := readSegment b RMC_MAX_PACKET
  if r.2.1.len = 0 then .ok (ENODATA, 0, b, [])
  else match wv with
    | .error e => .ok (e, inUse b, b, [])
    | .ok n => do
      let xs ← gather b r.2.1 r.2.2
      let n := min n xs.length
      if n = 0 then return (0, inUse b, b, [])
      else return (0, (free b n).2, (free b n).1, xs.take n)

/-- The "allocate one byte, `*seg1 = command`" pattern of rmc_pub_write.c:163-176,
rmc_sub_write.c:76-90 and rmc_sub_write.c:165-178. Only `seg1` is written, whether or not the byte is in it. -/
@[irreducible] def putCmd (b : CircBuf) (c : UInt8) : M (Nat × CircBuf) :=
  let r := alloc b 1
  if r.1 ≠ 0 then .ok (r.1, b)
  else do
    let b' ← store r.2.2.2 r.2.1.off c
    return (0, b')

/-- The reads after which `circ_buf_trim` gives the right result (see C05): `n` bytes read into a buffer
that already holds some. -/
def ReadSafe (b : CircBuf) (n : Nat) : Prop :=
  ¬ (inUse b + n + 1 < b.start ∧ b.start + inUse b + n < b.size)

instance (b : CircBuf) (n : Nat) : Decidable (ReadSafe b n) := by unfold ReadSafe; infer_instance

/-- A connection reading one chunk after another; the result of the last read is kept. -/
def readAll (t : Table σ) (fuel : Nat) : Nat → σ → CircBuf → List (List UInt8) → M (Nat × σ × CircBuf)
  | r, s, b, [] => .ok (r, s, b)
  | _, s, b, x :: xs => do
    let (r, s, b) ← tcpRead t fuel s b (some x)
    readAll t fuel r s b xs

/-! ## Specification of a command language -/

/-- What the front of a byte sequence is. -/
inductive Frame where
  | more             -- a known command whose bytes have not all arrived
  | bad              -- not a command
  | cmd (n : Nat)    -- a complete command of `n` bytes
  deriving DecidableEq, Repr

/-- A command language: how commands are delimited, what each does to the state. `safe size pos xs` says
that the command at the front of `xs` can be read when it sits at index `pos` of a ring buffer of
`size` bytes (needed because of the defect C04). -/
structure Lang (σ : Type) where
  frame : List UInt8 → Frame
  eff : σ → List UInt8 → M σ
  safe : Nat → Nat → List UInt8 → Prop

namespace Lang

/-- Split a byte stream into its complete commands, the reason for stopping, and what is left. -/
def split (frame : List UInt8 → Frame) : Nat → List UInt8 → List (List UInt8) × Nat × List UInt8
  | 0, xs => ([], 0, xs)
  | fuel + 1, xs =>
    if xs = [] then ([], 0, [])
    else match frame xs with
      | .more => ([], EAGAIN, xs)
      | .bad => ([], EPROTO, xs)
      | .cmd n =>
        let r := split frame fuel (xs.drop n)
        (xs.take n :: r.1, r.2)

/-- All commands of a stream. -/
def commands (L : Lang σ) (xs : List UInt8) : List (List UInt8) := (split L.frame (xs.length + 1) xs).1
/-- Why parsing stopped: 0, `EAGAIN` (incomplete command) or `EPROTO` (unknown command). -/
def status (L : Lang σ) (xs : List UInt8) : Nat := (split L.frame (xs.length + 1) xs).2.1
/-- The bytes left over. -/
def rest (L : Lang σ) (xs : List UInt8) : List UInt8 := (split L.frame (xs.length + 1) xs).2.2

/-- Every command of the stream is at a ring position where it can be read. -/
def safeFrom (L : Lang σ) (size : Nat) : Nat → Nat → List UInt8 → Prop
  | 0, _, _ => True
  | fuel + 1, pos, xs =>
    if xs = [] then True
    else L.safe size pos xs ∧
      match L.frame xs with
      | .cmd n => safeFrom L size fuel ((pos + n) % size) (xs.drop n)
      | _ => True

/-- The language is well behaved: commands are non-empty and lie within the bytes looked at, and more
bytes do not change the verdict on what is already there. -/
structure OK (L : Lang σ) : Prop where
  pos : ∀ xs n, L.frame xs = .cmd n → 0 < n ∧ n ≤ xs.length
  cmd_append : ∀ xs ys n, L.frame xs = .cmd n → L.frame (xs ++ ys) = .cmd n
  bad_append : ∀ xs ys, xs ≠ [] → L.frame xs = .bad → L.frame (xs ++ ys) = .bad

end Lang

/-- The dispatch table implements the language. -/
def Implements (t : Table σ) (L : Lang σ) : Prop :=
  ∀ s b c cs, WF b → bytes b = c :: cs → L.safe b.size b.start (bytes b) →
    match L.frame (bytes b) with
    | .bad => lookup t c = none
    | .more => ∃ h, lookup t c = some h ∧ h s b = .ok (EAGAIN, s, b)
    | .cmd n => ∃ h, lookup t c = some h ∧
        match L.eff s ((bytes b).take n) with
        | .error f => h s b = .error f
        | .ok s' => ∃ b', h s b = .ok (0, s', b') ∧ WF b' ∧ b'.size = b.size ∧
            bytes b' = (bytes b).drop n ∧ b'.start = if bytes b' = [] then 0 else (b.start + n) % b.size

end Proto
end Rmc
