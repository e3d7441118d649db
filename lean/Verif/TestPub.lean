import Verif.Loop
import Verif.Access
import Verif.Selftest

/-!
# Model of the test publisher's program

rmc_proto_test_pub.c:182-368 `test_rmc_proto_pub`, from the library's calls (`PubCtx`), the loop that handles events (`Loop`) and the filling of packets
(`Selftest`). The loops of the program are driven by lists of what the environment does in each of their rounds; a loop that is still running when its list
is at its end is looked at only as far as that. Not modelled: the log, the drop flag (which is only logged), the creation of the epoll instance, the values
given to epoll_wait() (`waitMs`, C88).
-/

namespace Rmc
namespace TestPub
open PubCtx

/-- rmc_proto_test_pub.c:19 `RMC_MAX_CONNECTIONS`. -/
def MAX_CONNECTIONS : Nat := 16

/-- rmc_proto_test_pub.c:311: the queue length above which no packet is queued. -/
def QUEUE_MAX : Nat := 100

/-- rmc_proto_test_pub.c:231: the announce interval. -/
def ANNOUNCE_INTERVAL : Nat := 300000

/-- rmc_proto_test_pub.c:151-164 `_subscriber_connect_callback`: it always accepts. -/
def answered (e : Event) : Event := { e with cb := some true }

/-- rmc_proto_test_pub.c:151-175: the connect callback adds one to `subscriber_count`, the disconnect callback takes one away. -/
def counted (n : Int) : CEv → Int
  | .connectCb _ _ => n + 1
  | .disconnectCb _ => n - 1
  | _ => n

/-- rmc_proto_test_pub.c:149 `subscriber_count`. -/
def counter (log : List CEv) : Int := log.foldl counted 0

/-- rmc_proto_test_pub.c:58-112 `process_events`: `none` if the time of epoll_wait() is over (ETIME is returned). -/
def poll (c : PubCtx) : Option (List Event) → M PubCtx
  | none => .ok c
  | some evs => processEvents c (evs.map answered)

/-- A round of one of the waiting loops: what epoll_wait() reports; the clock and the address of the packet if timeouts are processed; the clock read at its end. -/
structure Wait where
  evs : Option (List Event)
  now : Int := 0
  sp : Nat := 0
  cur : Int := 0

/-- rmc_proto_test_pub.c:248-250 and 314-320: handle events; timeouts are processed only if there were none. There is no announce callback. -/
def wait (c : PubCtx) (w : Wait) : M PubCtx :=
  match w.evs with
  | none => do
    let r ← step c (.timeout w.now none w.sp)
    return r.2
  | some _ => poll c w.evs

/-- rmc_proto_test_pub.c:245-251: wait for the expected number of subscribers. The flag says that the loop was left. -/
def gather (expected : Int) : List Wait → PubCtx → M (Bool × PubCtx)
  | [], c => .ok (decide (expected ≤ counter c.log), c)
  | w :: ws, c =>
    if expected ≤ counter c.log then .ok (true, c)
    else do
      let c ← wait c w
      gather expected ws c

/-- rmc_proto_test_pub.c:311-323: wait until it is time to send the next packet and not too many are queued. -/
def pause (tout : Int) : Int → List Wait → PubCtx → M (Bool × PubCtx)
  | cur, [], c => .ok (decide (tout ≤ cur ∧ queueLength c ≤ QUEUE_MAX), c)
  | cur, w :: ws, c =>
    if tout ≤ cur ∧ queueLength c ≤ QUEUE_MAX then .ok (true, c)
    else do
      let c ← wait c w
      pause tout w.cur ws c

/-- What the environment does for one packet: the address of its payload, the clock (285), the time of the next packet (292-294, any number because of the
jitter), the rounds of the waiting loop, the events after it (325) and the clock when timeouts are processed (326). -/
structure Send where
  ptr : Nat
  cur : Int
  tout : Int
  waits : List Wait
  evs : Option (List Event)
  now : Int
  sp : Nat := 0

/-- rmc_proto_test_pub.c:325-326: handle events and process timeouts once more. -/
def settleOnce (c : PubCtx) (s : Send) : M PubCtx := do
  let c ← poll c s.evs
  let r ← step c (.timeout s.now none s.sp)
  return r.2

/-- rmc_proto_test_pub.c:304-306: "Make sure we run the loop at least one." -/
def startClock (s : Send) : Int := if s.tout < s.cur then s.tout else s.cur

/-- rmc_proto_test_pub.c:115-123 `queue_test_data`: the program ends if the packet is refused. -/
def queueData (c : PubCtx) (ptr : Nat) (payload : List UInt8) : M PubCtx := do
  let r ← step c (.queue ⟨ptr, payload, false⟩ false)
  if r.1 ≠ 0 then .error .exit255 else .ok r.2

/-- rmc_proto_test_pub.c:285-331: queue one packet and wait. -/
def sendOne (c : PubCtx) (s : Send) (payload : List UInt8) : M (Bool × PubCtx) := do
  let c ← queueData c s.ptr payload
  let x ← pause s.tout (startClock s) s.waits c
  if x.1 then do
    let c ← settleOnce x.2 s
    return (true, c)
  else return (false, x.2)

/-- rmc_proto_test_pub.c:260-331: queue all packets, from signal `ind` on. -/
def sends (node count : Nat) : List Send → Nat → PubCtx → M (Bool × PubCtx)
  | [], ind, c => .ok (decide (count < ind), c)
  | s :: ss, ind, c =>
    if count < ind then .ok (true, c)
    else do
      let x ← sendOne c s (Selftest.fill node count [] ind).1
      if x.1 then sends node count ss (Selftest.fill node count [] ind).2 x.2 else return (false, x.2)

/-- A round of the last loop: the clock at its start (343), for each round of the inner loop the clock when timeouts are processed and the events after that,
and the events in the end. -/
structure Leave where
  cur : Int
  inner : List Wait
  evs : Option (List Event)

/-- rmc_proto_test_pub.c:347-351: the inner loop; `tout` is the timeout read before. -/
def serveEvents (cur : Int) : Int → List Wait → PubCtx → M (Bool × PubCtx)
  | tout, [], c => .ok (decide (tout = -1 ∨ cur ≤ tout), c)
  | tout, w :: ws, c =>
    if tout = -1 ∨ cur ≤ tout then .ok (true, c)
    else do
      let r ← step c (.timeout w.now none w.sp)
      let t ← timeoutGetNext r.2
      let c ← poll r.2 w.evs
      serveEvents cur t ws c

/-- rmc_proto_test_pub.c:341-359: one round of the last loop. -/
def leaveRound (c : PubCtx) (l : Leave) : M (Bool × PubCtx) := do
  let t ← timeoutGetNext c
  let x ← serveEvents l.cur t l.inner c
  if x.1 then do
    let c ← poll x.2 l.evs
    return (true, c)
  else return (false, x.2)

/-- rmc_proto_test_pub.c:341-359: handle events and timeouts until no subscriber is left. -/
def leave : List Leave → PubCtx → M (Bool × PubCtx)
  | [], c => .ok (decide (counter c.log ≤ 0), c)
  | l :: ls, c =>
    if counter c.log ≤ 0 then .ok (true, c)
    else do
      let x ← leaveRound c l
      if x.1 then leave ls x.2 else return (false, x.2)

/-- Where the program is. -/
inductive Stage where
  | waiting | sending | leaving | done
  deriving DecidableEq, Repr

/-- What the environment does: the clock (231), activation (235), setsockopt (239), and the rounds of the loops; the clocks at 254 and 337. -/
structure Script where
  now0 : Int
  act : ActRes
  ttl : Nat
  waits : List Wait
  now1 : Int
  sends : List Send
  now2 : Int
  leaves : List Leave

/-- rmc_proto_test_pub.c:337-367: the last part. -/
def main3 (k : Script) (c : PubCtx) : M (Stage × PubCtx) := do
  let r ← step c (.setAnnounce 0 k.now2)
  let x ← leave k.leaves r.2
  if x.1 then do
    let r ← step x.2 .deactivate
    return (.done, r.2)
  else return (.leaving, x.2)

/-- rmc_proto_test_pub.c:253-367: from the moment all subscribers are there. -/
def main2 (node count : Nat) (k : Script) (c : PubCtx) : M (Stage × PubCtx) := do
  let r ← step c (.setAnnounce 0 k.now1)
  let x ← sends node count k.sends 1 r.2
  if x.1 then main3 k x.2 else return (.sending, x.2)

/-- rmc_proto_test_pub.c:244-367: from the moment the context is active. -/
def main1 (node count : Nat) (expected : Int) (k : Script) (c : PubCtx) : M (Stage × PubCtx) := do
  let x ← gather expected k.waits c
  if x.1 then main2 node count k x.2 else return (.waiting, x.2)

/-- rmc_proto_test_pub.c:215-241: initialisation; the program ends with 255 if activation fails or the time to live cannot be set. The node id of the context
(`nodeId`) is not the one in the signals (`node`): the program asks the library for a random one (216). -/
def main (mem : Nat → Conn) (nodeId listenIp listenPort node count : Nat) (expected : Int) (k : Script) : M (Stage × PubCtx) := do
  let r ← step (init mem MAX_CONNECTIONS nodeId listenIp listenPort) (.setAnnounce ANNOUNCE_INTERVAL k.now0)
  let r ← step r.2 (.activate k.act)
  if r.1 ≠ 0 ∨ setTtl r.2 k.ttl ≠ 0 then .error .exit255 else main1 node count expected k r.2

end TestPub
end Rmc
