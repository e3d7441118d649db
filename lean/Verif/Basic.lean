/-!
# Shared definitions: constants, errno values, undefined-behaviour outcomes

Models the constants of `/repo/reliable_multicast.h`, `/repo/rmc_internal.h`,
`/repo/rmc_protocol.h` and the Linux `errno` values used by the library.
-/

namespace Rmc

/-- Outcomes that are undefined behaviour, a failed assertion, a process exit or
non-termination in the C program. They are first class outcomes of the model, so that
their absence is a theorem. -/
inductive Fault where
  | oob            -- load/store outside an array
  | nullDeref      -- dereference of a null pointer
  | useAfterFree   -- dereference of a freed heap cell
  | doubleFree     -- free() of a cell already freed
  | useAfterScope  -- use of a stack object whose function has returned
  | uninit         -- use of memory that was never initialised
  | assertFail     -- assert() fails (abort)
  | exit255        -- the code calls exit(255)
  | diverge        -- the loop does not terminate (fuel exhausted)
  | overflow       -- overflow of a signed integer
  deriving DecidableEq, Repr, Inhabited

/-- The result of running a piece of C: a fault or a value. -/
abbrev M := Except Fault

deriving instance DecidableEq for Except

/-- `errno` values used by the library (Linux numbering, `errno.h`). -/
def ENOENT : Nat := 2
def EAGAIN : Nat := 11
def ENOMEM : Nat := 12
def EBUSY : Nat := 16
def EEXIST : Nat := 17
def EINVAL : Nat := 22
def EPIPE : Nat := 32
def ENODATA : Nat := 61
def EPROTO : Nat := 71
def EMSGSIZE : Nat := 90
def ENOTCONN : Nat := 107

/-- `RMC_MAX_PACKET` (reliable_multicast.h): size of the TCP buffers minus one. -/
def RMC_MAX_PACKET : Nat := 0xFF78
/-- `RMC_MAX_PAYLOAD` (reliable_multicast.h): largest payload accepted. -/
def RMC_MAX_PAYLOAD : Nat := 0xFF20

/-- 2^32 and 2^64 as literals convenient for `omega`. -/
abbrev U32 : Nat := 4294967296
abbrev U64 : Nat := 18446744073709551616

/-- `uint32_t` subtraction `a - b` for `a, b < 2^32`: wraps modulo 2^32. -/
@[irreducible] def sub32 (a b : Nat) : Nat := (a + (U32 - b)) % U32
/-- `uint32_t` addition, wraps modulo 2^32. -/
@[irreducible] def add32 (a b : Nat) : Nat := (a + b) % U32

theorem sub32_eq {a b : Nat} (h : b ≤ a) (ha : a < U32) : sub32 a b = a - b := by
  unfold sub32; simp only [U32] at *; omega

theorem add32_eq {a b : Nat} (h : a + b < U32) : add32 a b = a + b := by
  unfold add32; exact Nat.mod_eq_of_lt h

/-- Split every `if` of the goal, then call `omega`. -/
macro "somega" : tactic => `(tactic| repeat' (first | omega | split))

end Rmc
