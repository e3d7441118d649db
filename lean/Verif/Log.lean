import Verif.Conn

/-!
# Model of `/repo/rmc_log.c`, `/repo/rmc_log.h` and `/repo/time.c`: logging and the clock

The global variables of rmc_log.c are a structure; an open `FILE*` is a number, 0 is `stdout`, and `tty` says which of them is a
terminal (isatty(fileno())). What is written is recorded in `out`: the file and the characters. Formatting of the message itself
(`vfprintf`) is done by the caller: a message is the list of its characters.

Simplifications: writing to the file succeeds; `int` values are `Int`; the environment variable read when the library is loaded
(rmc_log.c:26-34) is a first call of `rmc_set_log_level`.
-/

namespace Rmc
namespace Log

/-- rmc_log.h:19-25 -/
def NONE : Int := 0
def FATAL : Int := 1
def ERROR : Int := 2
def WARNING : Int := 3
def INFO : Int := 4
def COMMENT : Int := 5
def DEBUG : Int := 6

/-- The global variables, rmc_log.c:18-23, and the ghost record of everything written. -/
structure State where
  startTime : Int
  level : Int
  useColor : Int
  calculated : Bool
  file : Option Nat
  out : List (Nat × List Char)
  deriving DecidableEq, Repr

/-- Their initial values, rmc_log.c:18-23. -/
def init : State := ⟨0, NONE, -1, false, none, []⟩

/-- rmc_log.c:79-149: the escape sequences, if colors are used. -/
def esc (s : State) (x : String) : List Char := if s.useColor ≠ 0 then '\x1b' :: x.toList else []

def flashingRed (s : State) : List Char := esc s "[5;38;2;192;0;0m"
def lightRed (s : State) : List Char := esc s "[38;2;255;204;204m"
def red (s : State) : List Char := esc s "[38;2;192;0;0m"
def darkRed (s : State) : List Char := esc s "[38;2;255;0;0m"
def orange (s : State) : List Char := esc s "[38;2;255;128;0m"
def yellow (s : State) : List Char := esc s "[38;2;255;255;0m"
def lightBlue (s : State) : List Char := esc s "[38;2;0;255;255m"
def blue (s : State) : List Char := esc s "[38;2;0;128;255m"
def darkBlue (s : State) : List Char := esc s "[38;2;0;0;255m"
def lightGreen (s : State) : List Char := esc s "[38;2;153;255;153m"
def green (s : State) : List Char := esc s "[38;2;0;255;0m"
def darkGreen (s : State) : List Char := esc s "[38;2;0;204;0m"
def faint (s : State) : List Char := esc s "[2m"
def noColor (s : State) : List Char := esc s "[0m"

/-- rmc_log.c:152-188 `rmc_index_color`. -/
def indexColor (s : State) (i : Int) : List Char :=
  if i = -1 then faint s
  else if i = 0 then darkBlue s
  else if i = 1 then darkGreen s
  else if i = 2 then lightBlue s
  else if i = 3 then lightGreen s
  else if i = 4 then lightRed s
  else if i = 5 then green s
  else if i = 6 then blue s
  else if i = 7 then darkRed s
  else if i = 8 then red s
  else noColor s

/-- The decimal digits of a number, as printf("%d") writes them. -/
def digits (n : Nat) : List Char :=
  if n < 10 then [Char.ofNat (48 + n)] else digits (n / 10) ++ [Char.ofNat (48 + n % 10)]

/-- printf("%.3d"): at least three digits. -/
def digits3 (n : Nat) : List Char := List.replicate (3 - (digits n).length) '0' ++ digits n

/-- printf("%d") of a signed number. -/
def decimal (n : Int) : List Char := if n < 0 then '-' :: digits n.natAbs else digits n.natAbs

/-- rmc_log.c:193: `char index_str[32]`. -/
def INDEX_STR : Nat := 32

/-- rmc_log.c:210-222: the characters put into `index_str`. -/
def indexText (s : State) (index : Nat) : List Char :=
  if index = NIL_INDEX then "     ".toList
  else if index = MULTICAST_INDEX then orange s ++ "[UDP]".toList ++ noColor s
  else if index = LISTEN_INDEX then yellow s ++ "[CTL]".toList ++ noColor s
  else indexColor s index ++ ('[' :: digits3 index ++ [']']) ++ noColor s

/-- rmc_log.c:210-222: strcpy()/sprintf() into `index_str`, a store out of bounds if the characters and the terminating 0 do not fit. -/
def indexStr (s : State) (index : Nat) : M (List Char) :=
  if (indexText s index).length + 1 ≤ INDEX_STR then .ok (indexText s index) else .error .oob

/-- rmc_log.c:224-259: color and tag of a level. -/
def levelColor (s : State) (l : Int) : List Char :=
  if l = DEBUG then noColor s
  else if l = COMMENT then green s
  else if l = INFO then blue s
  else if l = WARNING then orange s
  else if l = ERROR then red s
  else if l = FATAL then flashingRed s
  else noColor s

def levelTag (l : Int) : List Char :=
  if l = DEBUG then "[D]".toList
  else if l = COMMENT then "[C]".toList
  else if l = INFO then "[I]".toList
  else if l = WARNING then "[W]".toList
  else if l = ERROR then "[E]".toList
  else if l = FATAL then "[F]".toList
  else "[?]".toList

/-- A message: level, source file name, line, index (`uint16_t`), characters. -/
structure Msg where
  level : Int
  file : List Char
  line : Nat
  index : Nat
  text : List Char
  deriving DecidableEq, Repr

/-- rmc_log.c:190-281 `rmc_log` at time `now`. -/
def rmcLog (tty : Nat → Bool) (s : State) (m : Msg) (now : Int) : M State := do
  let f := s.file.getD 0                                                                      -- 197-198
  let s := { s with file := some f }
  let s := if s.useColor = -1 then { s with calculated := true, useColor := if tty f then 1 else 0 } else s -- 201-208
  let ix ← indexStr s m.index
  let t := if s.startTime ≠ 0 then (now - s.startTime).tdiv 1000 else 0
  let cs := levelColor s m.level ++ levelTag m.level ++ noColor s ++ [' '] ++ decimal t ++ [' '] ++ ix ++ [' '] ++ faint s ++ m.file ++
    [':'] ++ digits m.line ++ noColor s ++ [' '] ++ m.text ++ ['\n']
  return { s with out := s.out ++ [(f, cs)] }

/-- rmc_log.h:45-57: the macros `RMC_LOG_DEBUG` ... `RMC_LOG_INDEX_FATAL`. -/
def macroLog (tty : Nat → Bool) (s : State) (m : Msg) (now : Int) : M State :=
  if s.level ≥ m.level then rmcLog tty s m now else .ok s

/-- The message of rmc_log.c:55-56: its index -1 becomes 65535 as a `uint16_t`. -/
def illegalLevel (n : Int) : Msg :=
  ⟨WARNING, "rmc_log.c".toList, 55, 65535, "Illegal log level: ".toList ++ decimal n ++ ". Legal values [0-6]".toList⟩

/-- rmc_log.c:52-63 `rmc_set_log_level`. -/
def setLevel (tty : Nat → Bool) (s : State) (n now : Int) : M (Nat × State) :=
  if n < NONE ∨ n > DEBUG then do return (1, ← rmcLog tty s (illegalLevel n) now)
  else .ok (0, { s with level := n })

/-- rmc_log.c:46-50 `rmc_log_use_color`. -/
def setColor (s : State) (n : Int) : State := { s with useColor := n, calculated := false }

/-- rmc_log.c:65-77 `rmc_log_set_file`; `fileno` of a null pointer crashes. -/
def setFile (tty : Nat → Bool) (s : State) (f : Option Nat) : M State :=
  if s.calculated = true then
    match f with
    | none => .error .nullDeref
    | some g => .ok { s with file := f, useColor := if tty g then 1 else 0 }
  else .ok { s with file := f }

/-- Calls. -/
inductive Op where
  | msg (m : Msg) (now : Int)          -- one of the macros
  | level (n now : Int)                -- rmc_set_log_level
  | color (n : Int)                    -- rmc_log_use_color
  | file (f : Option Nat)              -- rmc_log_set_file
  | start (now : Int)                  -- rmc_log_set_start_time, rmc_log.c:36-39

def step (tty : Nat → Bool) (s : State) : Op → M (Nat × State)
  | .msg m now => do return (0, ← macroLog tty s m now)
  | .level n now => setLevel tty s n now
  | .color n => .ok (0, setColor s n)
  | .file f => do return (0, ← setFile tty s f)
  | .start now => .ok (0, { s with startTime := now })

def run (tty : Nat → Bool) : State → List Op → M State
  | s, [] => .ok s
  | s, o :: os => do
    let r ← step tty s o
    run tty r.2 os

end Log

/-- time.c:12-19 `rmc_usec_monotonic_timestamp`: seconds and nanoseconds (0 ≤ `nsec` < 10^9) of CLOCK_MONOTONIC, in 64 bit signed
arithmetic; overflow is undefined behaviour (modelled as `oob`). -/
def usecTimestamp (sec nsec : Int) : M Int :=
  let r := sec * 1000000 + nsec.tdiv 1000
  if -9223372036854775808 ≤ sec * 1000000 ∧ sec * 1000000 < 9223372036854775808 ∧ r < 9223372036854775808 then .ok r else .error .oob

end Rmc
