import Verif.Selftest

/-! # The options of the test program (rmc_test.c)

What the main program of the tests does with its options. `getopt` is not modelled: the options are what it has made of the command line, the letter with its argument (the empty text for
`-S`); a letter that is not in the option string, or one without the argument it needs, comes as `?`. The unit tests the program runs before it starts a publisher or a subscriber
(rmc_test.c:184-188) do not depend on the options and are left out. The chance of dropping packets (`-d`) is kept as text. -/

namespace Rmc
namespace CmdLine

/-- ISO C: white space in front of a number (`isspace`). -/
def isSpace (c : Char) : Bool := c = ' ' ∨ c = '\t' ∨ c = '\n' ∨ c = '\r' ∨ c.toNat = 11 ∨ c.toNat = 12

/-- ISO C: the value of the digits a text begins with. -/
def digits (a : Nat) : List Char → Nat
  | c :: cs => if '0' ≤ c ∧ c ≤ '9' then digits (10 * a + (c.toNat - 48)) cs else a
  | [] => a

/-- ISO C: an optional sign and digits. -/
def signed : List Char → Int
  | '-' :: cs => - (digits 0 cs : Int)
  | '+' :: cs => digits 0 cs
  | cs => digits 0 cs

/-- `atoll` (glibc `strtoll`): the number a text begins with; numbers that do not fit are replaced by the nearest that does. -/
def atoll (s : List Char) : Int := max (-9223372036854775808) (min 9223372036854775807 (signed (s.dropWhile isSpace)))

/-- Conversion to a 32-bit int (two's complement). -/
def toInt (n : Int) : Int := (n + 2147483648) % 4294967296 - 2147483648

/-- `atoi` (glibc): `strtol` converted to int. -/
def atoi (s : List Char) : Int := toInt (atoll s)

/-- How the program can end before it does anything. `crash`: an argument is copied beyond the end of an array. -/
inductive Stop where
  | usage | crash
  deriving DecidableEq, Repr

/-- rmc_test.c:81-99: the variables of `main`. `expect` is the array of nodes a subscriber expects, `eSet` is `e_arg_set`. -/
structure Settings where
  publisher : Bool
  group : List Char
  mcastIf : List Char
  listenIf : List Char
  listenPort : Int
  mcastPort : Int
  seed : Int
  count : Nat
  nodeId : Nat
  drop : List Char
  interval : Int
  jitter : Int
  expect : List Bool
  subscribers : Int
  eSet : Bool
  level : Int

/-- rmc_test.c:45-49, 81-105: the defaults. -/
def defaults : Settings :=
  { publisher := true, group := "239.0.0.1".toList, mcastIf := "0.0.0.0".toList, listenIf := "0.0.0.0".toList, listenPort := 0, mcastPort := 4723, seed := 1, count := 1,
    nodeId := 1, drop := "0.0".toList, interval := 0, jitter := 0, expect := List.replicate 1024 false, subscribers := 1, eSet := false, level := 0 }

/-- rmc_test.c:83-85, 118, 122, 126: `strcpy` into an array of 80 bytes. -/
def copied (s : List Char) : Except Stop (List Char) := if s.length < 80 then .ok s else .error .crash

/-- rmc_test.c:164-171: `-e`. -/
def expectNode (σ : Settings) (arg : List Char) : Except Stop Settings :=
  if atoi arg < 1 ∨ atoi arg ≥ 1024 then .error .usage
  else .ok { σ with expect := σ.expect.set (atoi arg).toNat true, eSet := true }

/-- rmc_test.c:106-177: one option. After `-E` there is no `break` (161-163): its argument is that of an `-e` too. The option string has an `n`, which no case handles. -/
def option (σ : Settings) (x : Char × List Char) : Except Stop Settings :=
  match x.1 with
  | 'L' => .ok { σ with level := atoi x.2 }
  | 'S' => .ok { σ with publisher := false }
  | 'M' => do return { σ with group := ← copied x.2 }
  | 'm' => do return { σ with mcastIf := ← copied x.2 }
  | 'l' => do return { σ with listenIf := ← copied x.2 }
  | 'P' => .ok { σ with mcastPort := atoi x.2 }
  | 'p' => .ok { σ with listenPort := atoi x.2 }
  | 'i' => .ok { σ with nodeId := (atoi x.2 % 4294967296).toNat }
  | 'c' => .ok { σ with count := (atoll x.2 % 18446744073709551616).toNat }
  | 'r' => .ok { σ with seed := atoi x.2 }
  | 's' => .ok { σ with interval := atoi x.2 }
  | 'j' => .ok { σ with jitter := atoi x.2 }
  | 'd' => .ok { σ with drop := x.2 }
  | 'E' => expectNode { σ with subscribers := atoi x.2 } x.2
  | 'e' => expectNode σ x.2
  | _ => .error .usage

/-- rmc_test.c:106-177: all options. -/
def options (xs : List (Char × List Char)) : Except Stop Settings := xs.foldlM option defaults

/-- What is started, with its arguments (rmc_test.c:194-199 and 207-218). -/
inductive Program where
  | sub (group mcastIf : List Char) (mcastPort : Int) (nodeId : Nat) (map : List Bool)
  | pub (group mcastIf listenIf : List Char) (mcastPort listenPort : Int) (nodeId count : Nat) (subscribers seed interval jitter : Int) (drop : List Char)
  deriving DecidableEq, Repr

/-- rmc_test.c:181-218: a subscriber that was told nothing expects node 1; the log level is checked (rmc_log.c:52-63); the program is started. -/
def launch (σ : Settings) : Except Stop Program :=
  if σ.level < 0 ∨ σ.level > 6 then .error .usage
  else if σ.publisher then
    .ok (.pub σ.group σ.mcastIf σ.listenIf σ.mcastPort σ.listenPort σ.nodeId σ.count σ.subscribers σ.seed σ.interval σ.jitter σ.drop)
  else .ok (.sub σ.group σ.mcastIf σ.mcastPort σ.nodeId (if σ.eSet then σ.expect else σ.expect.set 1 true))

/-- rmc_test.c:79-221 `main`. -/
def main (xs : List (Char × List Char)) : Except Stop Program := do
  let σ ← options xs
  launch σ

end CmdLine
end Rmc
