import Verif.Basic

/-!
# Model of `/repo/pub.c`: packet queue, in-flight packets, reference counts

Packets live on a heap (`pk`, address to packet); `malloc` returns fresh addresses (`nextAddr`), an
access through a freed address is `Fault.useAfterFree`. The intrusive lists are Lean lists of packet
addresses, head first; that the pointer implementation behaves like sequences is `C08_history`.
A packet's `parent_node` (the node that represents it in `queued` or in `inflight`) is modelled by the
name of the list that node is on (`none`: the node has been unlinked). Subscribers are identified by
their index in the `subscribers` array of the publisher context.

Simplifications: `malloc` succeeds; `ref_count` is not bounded by 2^32 (at most 2^15 subscribers exist);
`pkg_user_data` is not modelled; `log` is a ghost field (a record of what was called and of the payload
free callbacks) that no function reads.
-/

namespace Rmc

/-- A payload handed to the library: the pointer (an identity) and the bytes it refers to. `onStack` marks
the announcement buffer, a local array of `rmc_pub_timeout_process` (rmc_pub_timeout.c:137). -/
structure Payload where
  ptr : Nat
  data : List UInt8
  onStack : Bool := false
  deriving DecidableEq, Repr

/-- Which list `parent_node` is on. -/
inductive ListId where
  | queued
  | inflight
  deriving DecidableEq, Repr

/-- rmc_pub.h:20-38 `pub_packet_t`. -/
structure Pkt where
  pid : Nat
  refCount : Nat
  parent : Option ListId
  sendTs : Int
  payload : Payload
  deriving DecidableEq, Repr

/-- Ghost record of the calls made on a publisher and of the callbacks it made. -/
inductive PEv where
  | connect (slot : Nat)
  | close (slot : Nat)
  | queue (pid : Nat) (p : Payload)
  | send (pid : Nat) (p : Payload) (ts : Int)
  | ack (slot : Nat) (pid : Nat)
  | free (pid : Nat) (p : Payload)
  deriving DecidableEq, Repr

/-- rmc_pub.h:88-97 `pub_context_t`, the `pub_subscriber_t`s it refers to (rmc_pub.h:58-64) and the heap. -/
structure Pub where
  pk : Nat → Option Pkt
  nextAddr : Nat
  queued : List Nat
  inflight : List Nat
  subs : List Nat
  sinfl : Nat → List Nat
  nextPid : Nat
  log : List PEv

namespace Pub

/-- Load a packet; a freed or never allocated address faults. -/
def deref (pk : Nat → Option Pkt) (a : Nat) : M Pkt :=
  match pk a with
  | some p => .ok p
  | none => .error .useAfterFree

/-- Write a packet. -/
def setPk (s : Pub) (a : Nat) (p : Option Pkt) : Pub :=
  { s with pk := fun b => if b = a then p else s.pk b }

/-- Replace a subscriber's in-flight list. -/
def setInfl (s : Pub) (slot : Nat) (xs : List Nat) : Pub :=
  { s with sinfl := fun k => if k = slot then xs else s.sinfl k }

/-- Append to the ghost log. -/
def ev (s : Pub) (e : PEv) : Pub := { s with log := s.log ++ [e] }

/-- pub.c:44-53 `pub_init_context`. -/
def init : Pub :=
  { pk := fun _ => none, nextAddr := 1, queued := [], inflight := [], subs := [], sinfl := fun _ => [],
    nextPid := 1, log := [] }

/-- rmc_list_template.h:359-379 `_insert_sorted_node` with pub.c:97-106 `_compare_pid`: before the first
element whose pid is not greater. -/
def insertSorted (pk : Nat → Option Pkt) (a pid : Nat) : List Nat → M (List Nat)
  | [] => .ok [a]
  | x :: xs => do
    let q ← deref pk x
    if pid ≥ q.pid then return a :: x :: xs
    else do
      let r ← insertSorted pk a pid xs
      return x :: r

/-- pub.c:56-66 `pub_init_subscriber`. -/
def initSubscriber (s : Pub) (slot : Nat) : Pub :=
  ev { setInfl s slot [] with subs := s.subs ++ [slot] } (.connect slot)

/-- pub.c:110-140 `pub_queue_packet_with_pid` (payload pointer not null). -/
def queueWithPid (s : Pub) (pid : Nat) (p : Payload) : M Pub := do
  let a := s.nextAddr
  let s := setPk { s with nextAddr := a + 1 } a (some ⟨pid, 0, none, 0, p⟩)
  let q ← insertSorted s.pk a pid s.queued
  let s := setPk { s with queued := q } a (some ⟨pid, 0, some .queued, 0, p⟩)
  return ev s (.queue pid p)

/-- pub.c:142-153 `pub_queue_packet` and pub.c:36-41 `_next_pid` (`packet_id_t` is 64 bits and wraps). -/
def queuePacket (s : Pub) (p : Payload) : M (Nat × Pub) := do
  let pid := s.nextPid
  let s ← queueWithPid { s with nextPid := (s.nextPid + 1) % U64 } pid p
  return (pid, s)

/-- pub.c:155-166 `pub_queue_no_acknowledge_packet`. -/
def queueNoAck (s : Pub) (p : Payload) : M Pub := queueWithPid s 0 p

/-- pub.c:168-173 `pub_queue_size`. -/
def queueSize (s : Pub) : Nat := s.queued.length

/-- pub.c:176-185 `pub_next_queued_packet`: the tail of the queue. -/
def nextQueued (s : Pub) : Option Nat := s.queued.getLast?

/-- rmc_list_template.h:199-219 `_unlink` of a packet's parent node: takes the packet off the list the node
is on; `assert(node->owner)` fails if it is on none. -/
def unlinkParent (s : Pub) (a : Nat) (p : Pkt) : M Pub :=
  match p.parent with
  | none => .error .assertFail
  | some .queued => .ok { s with queued := s.queued.erase a }
  | some .inflight => .ok { s with inflight := s.inflight.erase a }

/-- pub.c:216-232: the loop over all subscribers of `pub_packet_sent`. -/
def addToSubs (s : Pub) (a pid : Nat) : List Nat → M Pub
  | [] => .ok s
  | k :: ks => do
    let xs ← insertSorted s.pk a pid (s.sinfl k)
    let s := setInfl s k xs
    let p ← deref s.pk a
    let s := setPk s a (some { p with refCount := p.refCount + 1 })
    addToSubs s a pid ks

/-- pub.c:187-233 `pub_packet_sent`. -/
def packetSent (s : Pub) (a : Nat) (ts : Int) : M Pub := do
  let p ← deref s.pk a
  let s := setPk s a (some { p with sendTs := ts })
  let s ← unlinkParent s a p
  let s := setPk s a (some { p with sendTs := ts, parent := none })
  let s := ev s (.send p.pid p.payload ts)
  if p.pid = 0 then return s
  else do
    let xs ← insertSorted s.pk a p.pid s.inflight
    let s := setPk { s with inflight := xs } a (some { p with sendTs := ts, parent := some .inflight })
    addToSubs s a p.pid s.subs

/-- pub.c:251-258: search a list, given in the order visited (tail first), for a pid. -/
def findPid (pk : Nat → Option Pkt) (pid : Nat) : List Nat → M (Option Nat)
  | [] => .ok none
  | x :: xs => do
    let q ← deref pk x
    if q.pid = pid then return some x else findPid pk pid xs

/-- pub.c:236-292 `pub_packet_ack` (a free function is always supplied by the callers,
rmc_pub_packet.c:97-100, rmc_pub_read.c:113-114; the payload pointer is never null), without the ghost
event of the call. -/
def ackCore (s : Pub) (slot pid : Nat) : M Pub := do
  let r ← findPid s.pk pid (s.sinfl slot).reverse
  match r with
  | none => return s
  | some a => do
    let p ← deref s.pk a
    let s := setInfl s slot ((s.sinfl slot).erase a)
    let rc := if p.refCount = 0 then U32 - 1 else p.refCount - 1
    let s := setPk s a (some { p with refCount := rc })
    if rc = 0 then do
      let s ← unlinkParent s a p
      let s := ev s (.free p.pid p.payload)
      return setPk s a none
    else return s

/-- pub.c:236-292 `pub_packet_ack` as called from outside pub.c: the call is recorded in the ghost log. -/
def packetAck (s : Pub) (slot pid : Nat) : M Pub := ackCore (ev s (.ack slot pid)) slot pid

/-- pub.c:84-86: the loop of `pub_reset_subscriber`. `fuel` bounds the iterations. -/
def resetLoop (s : Pub) (slot : Nat) : Nat → M Pub
  | 0 => if s.sinfl slot = [] then .ok s else .error .diverge
  | fuel + 1 =>
    match (s.sinfl slot).getLast? with
    | none => .ok s
    | some a => do
      let p ← deref s.pk a
      let s ← ackCore s slot p.pid
      resetLoop s slot fuel

/-- pub.c:75-94 `pub_reset_subscriber`. The ghost event is recorded first. -/
def resetSubscriber (s : Pub) (slot : Nat) : M Pub := do
  let s ← resetLoop (ev s (.close slot)) slot (s.sinfl slot).length
  if slot ∈ s.subs then return { s with subs := s.subs.erase slot }
  else .error .assertFail

/-- pub.c:294-297 `pub_get_unacknowledged_packet_count`. -/
def unackedCount (s : Pub) : Nat := s.inflight.length

/-- Is the oldest (tail) packet of a list timed out? pub.c:311-313. -/
def tailTimedOut (s : Pub) (now timeout : Int) (xs : List Nat) : M Bool :=
  match xs.getLast? with
  | none => .ok false
  | some a => do let p ← deref s.pk a; return decide (p.sendTs + timeout ≤ now)

/-- pub.c:300-317 `pub_get_timed_out_subscribers`. -/
def timedOutSubscribers (s : Pub) (now timeout : Int) : List Nat → M (List Nat)
  | [] => .ok []
  | k :: ks => do
    let t ← tailTimedOut s now timeout (s.sinfl k)
    let r ← timedOutSubscribers s now timeout ks
    return if t then k :: r else r

/-- pub.c:320-335 `pub_get_timed_out_packets`: starts at the head of the list given. -/
def timedOutPackets (pk : Nat → Option Pkt) (now timeout : Int) : List Nat → M (List Nat)
  | [] => .ok []
  | a :: xs => do
    let p ← deref pk a
    if p.sendTs + timeout ≤ now then do
      let r ← timedOutPackets pk now timeout xs
      return a :: r
    else return []

/-- pub.c:340-371 `pub_get_oldest_unackowledged_packet`, the loop over the subscribers; -1 is "none". -/
def oldestUnacked (s : Pub) : Int → List Nat → M Int
  | oldest, [] => .ok oldest
  | oldest, k :: ks =>
    match (s.sinfl k).getLast? with
    | none => oldestUnacked s oldest ks
    | some a => do
      let p ← deref s.pk a
      oldestUnacked s (if oldest = -1 ∨ p.sendTs < oldest then p.sendTs else oldest) ks

end Pub
end Rmc
