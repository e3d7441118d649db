import Verif.Selftest

/-!
# Model of the statistics of the protocol self-test

rmc_proto_test_sub.c:165 and 215-229: when a publisher is done its rate is computed and printed. This is the part of `process_incoming_signal` left out in
`Selftest.signal`.
-/

namespace Rmc
namespace Selftest

/-- A signal with the clock as it is read at rmc_proto_test_sub.c:165 (if it is the first of its publisher) and at 215 (if it is the last). -/
abbrev Timed := Signal × Int × Int

/-- rmc_proto_test_sub.c:216-217: `signal_sec = (int) max_received / ((double) (stop_ts - start_ts) / 1000000.0)`: the quotient is a `double` and is converted
to an `int`, which is undefined if it is not finite or, cut off behind the point, no `int`. Simplification: the quotient is exact, not rounded to 53 bits. -/
def rate (n : Nat) (d : Int) : M Int :=
  if d = 0 then .error .overflow
  else if ((n : Int) * 1000000).tdiv d < -2147483648 ∨ 2147483647 < ((n : Int) * 1000000).tdiv d then .error .overflow
  else .ok (((n : Int) * 1000000).tdiv d)

/-- What is printed at rmc_proto_test_sub.c:219-229: the publisher, its number of signals, signals per second and milliseconds (the kilobytes per second, the
rate times 20 / 1024, are left out). -/
structure Report where
  node : Nat
  signals : Nat
  perSec : Int
  msec : Int
  deriving DecidableEq, Repr

/-- rmc_proto_test_sub.c:109-250 `process_incoming_signal` with the clock; `st` are the fields `start_ts`. The reports come before the result of the check at 232, which
the clock has no influence on. -/
def signalT (es : List Expect) (st : Nat → Int) (x : Timed) : M (Res × (Nat → Int) × List Report) :=
  match signal es x.1 with
  | .error f => .error f
  | .ok r =>
    let st := if es[x.1.node]?.map (·.status) = some .notStarted then fun n => if n = x.1.node then x.2.1 else st n else st    -- 165
    if x.1.id = x.1.max ∧ r ≠ .corrupt then                                                   -- 199, 207-212
      match rate x.1.id (x.2.2 - st x.1.node) with                                            -- 216-217
      | .error f => .error f
      | .ok p => .ok (r, st, [⟨x.1.node, x.1.id, p, (x.2.2 - st x.1.node).tdiv 1000⟩])        -- 219-229
    else .ok (r, st, [])

/-- rmc_proto_test_sub.c:252-270, 408-416: the signals one after the other. Result: what happens in the end, and what was printed. -/
def judgeT (es : List Expect) (st : Nat → Int) : List Timed → M (Res × List Report)
  | [] => .ok (.more es, [])
  | x :: xs =>
    match signalT es st x with
    | .error f => .error f
    | .ok (.more es, st, rs) =>
      match judgeT es st xs with
      | .error f => .error f
      | .ok r => .ok (r.1, rs ++ r.2)
    | .ok (r, _, rs) => .ok (r, rs)

end Selftest
end Rmc
