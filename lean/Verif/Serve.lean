import Verif.PubCtx
import Verif.SubCtx

/-!
# Model of the loop in which applications process timeouts

The loop the programs rmc_proto_test_sub.c and rmc_proto_test_pub.c run before they wait for events: as long as the next timeout lies before the time at
which the loop was entered, process timeouts.
-/

namespace Rmc

/-- rmc_proto_test_sub.c:389-396: `current_ts` was read before the loop; `nows` are the times the calls of rmc_sub_timeout_process read from the clock,
one for each round (the list is as long as rounds are looked at). The result says whether the loop was left. The calls' return codes are ignored, as in the
program. -/
def SubCtx.serve (cur : Int) : List Int → SubCtx → M (Bool × SubCtx)
  | [], c => do
    let t ← SubCtx.timeoutGetNext c
    return (decide (t = -1 ∨ cur ≤ t), c)
  | now :: nows, c => do
    let t ← SubCtx.timeoutGetNext c
    if t = -1 ∨ cur ≤ t then return (true, c)
    else do
      let r ← SubCtx.timeoutProcess c now
      SubCtx.serve cur nows r.2

/-- rmc_proto_test_pub.c:342-351, the inner loop, without the processing of events in it. Each round has the time the call of rmc_pub_timeout_process reads
from the clock and the answer of the announce callback. -/
def PubCtx.serve (cur : Int) : List (Int × Option (Bool × List UInt8) × Nat) → PubCtx → M (Bool × PubCtx)
  | [], c => do
    let t ← PubCtx.timeoutGetNext c
    return (decide (t = -1 ∨ cur ≤ t), c)
  | (now, cb, sp) :: nows, c => do
    let t ← PubCtx.timeoutGetNext c
    if t = -1 ∨ cur ≤ t then return (true, c)
    else do
      let r ← PubCtx.timeoutProcess c now cb sp
      PubCtx.serve cur nows r.2

end Rmc
