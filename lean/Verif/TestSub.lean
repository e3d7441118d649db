import Verif.Loop
import Verif.Serve
import Verif.Selftest

/-!
# Model of the test subscriber's program

rmc_proto_test_sub.c:324-435 `test_rmc_proto_sub`, from the library's calls (`SubCtx`), the loop that serves timeouts (`Serve`), the loop that handles
events (`Loop`) and the checks of the packets (`Selftest`). Not modelled: the log and the creation of the epoll instance.
-/

namespace Rmc

/-- rmc_proto_test_sub.c:278-287 and rmc_proto_test_pub.c:66-75, the same text in both: the time for epoll_wait() in milliseconds, from the next timeout and
the clock, both in microseconds; -1 stands for no timeout and no limit. (Integer division of a number that is not negative; the conversion to `int` is
not modelled, see `C88_int`.) -/
def waitMs (timeout now : Int) : Int :=
  let t := if timeout ≠ -1 then (if timeout - now < 0 then 0 else timeout - now) else timeout
  if t = -1 then -1 else t / 1000 + 1

namespace TestSub
open SubCtx

/-- rmc_proto_test_sub.c:13 `RMC_MAX_CONNECTIONS`. -/
def MAX_CONNECTIONS : Nat := 16

/-- One round of the main loop, as the environment decides it: `cur` is the clock read at its start (389), `nows` are the times read by the calls that process
timeouts, `evs` what epoll_wait() reports, none if its time is over. -/
structure Round where
  cur : Int
  nows : List Int
  evs : Option (List Event)

/-- rmc_proto_test_sub.c:389-404: serve timeouts, wait for events and handle them. Should timeouts be still due after `nows` the round is looked at
only as far as that. The flag says that there were events (`process_events` did not return ETIME). -/
def events (c : SubCtx) (r : Round) : M (Bool × SubCtx) := do
  let x ← serve r.cur r.nows c
  match x.1, r.evs with
  | true, some evs => do
    let c ← processEvents x.2 evs
    return (true, c)
  | _, _ => return (false, x.2)

/-- rmc_proto_test_sub.c:408-416 with 252-270: take the packets from the ready list; each is checked and then marked dispatched, but for the one with which
the test ends. The first argument bounds the number of packets; the loop of the program has no bound (see `C89_verdict`). -/
def dispatchAll : Nat → List Selftest.Expect → SubCtx → M (Selftest.Res × SubCtx)
  | 0, es, c => .ok (.more es, c)
  | n + 1, es, c =>
    match nextReady c with
    | none => .ok (.more es, c)
    | some p =>
      match Selftest.packet es p.payload.data with
      | .error f => .error f
      | .ok (.more es) => do
        let r ← step c (.dispatched p.addr)
        dispatchAll n es r.2
      | .ok r => .ok (r, c)

/-- rmc_proto_test_sub.c:386-424: one round of the main loop. -/
def round (es : List Selftest.Expect) (c : SubCtx) (r : Round) : M (Selftest.Res × SubCtx) := do
  let x ← events c r
  if x.1 then dispatchAll x.2.ready.length es x.2 else return (.more es, x.2)

/-- rmc_proto_test_sub.c:386-424: the main loop, left when the test ends. -/
def rounds (es : List Selftest.Expect) (c : SubCtx) : List Round → M (Selftest.Res × SubCtx)
  | [] => .ok (.more es, c)
  | r :: rs => do
    let x ← round es c r
    match x.1 with
    | .more es => rounds es x.2 rs
    | res => .ok (res, x.2)

/-- rmc_proto_test_sub.c:349-424: initialisation, activation (the program ends with 255 if it fails) and the main loop. -/
def main (mem : Nat → Conn) (nodeId : Nat) (map : List Bool) (x : ActRes) (rs : List Round) : M (Selftest.Res × SubCtx) := do
  let r ← step (init mem MAX_CONNECTIONS nodeId) (.activate x)
  if r.1 ≠ 0 then .error .exit255 else rounds (Selftest.start map) r.2 rs

/-- rmc_proto_test_sub.c:426: handle events until there are none. -/
def flush : SubCtx → List (List Event) → M SubCtx
  | c, [] => .ok c
  | c, evs :: rest => do
    let c ← processEvents c evs
    flush c rest

/-- rmc_proto_test_sub.c:424-432: the end of the program. -/
def finish (c : SubCtx) (evss : List (List Event)) : M SubCtx := do
  let c ← flush c evss
  let r ← step c .deactivate
  return r.2

end TestSub
end Rmc
