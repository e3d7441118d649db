import Verif.Pub

/-!
# Model of `/repo/sub.c`: packets received from one publisher

The intrusive lists are Lean lists, head first (that the pointer implementation behaves like sequences is
`C08_history`). A received packet is a value carrying the address of its `sub_packet_t`. All packet id
arithmetic is modulo 2^64, as in the code.

Simplifications: `malloc` succeeds; `max_pid_received`, which nothing reads, is kept for completeness.
-/

namespace Rmc

/-- rmc_sub.h:53-74 `sub_packet_t`; `addr` is its address, `slot` the `pkg_user_data` (connection index). -/
structure SPkt where
  addr : Nat
  pid : Nat
  payload : Payload
  slot : Nat
  deriving DecidableEq, Repr

/-- rmc_sub.h:83-95 `sub_pid_interval_t`. -/
structure Intv where
  first : Nat
  last : Nat
  ts : Int
  deriving DecidableEq, Repr

/-- rmc_sub.h:106-119 `sub_publisher_t`. -/
structure SubPub where
  maxReady : Nat
  maxReceived : Nat
  received : List SPkt
  intervals : List Intv
  deriving DecidableEq, Repr

namespace SubPub

/-- `packet_id_t` increment and decrement, 64 bits, wrapping. -/
@[irreducible] def inc64 (n : Nat) : Nat := (n + 1) % U64
@[irreducible] def dec64 (n : Nat) : Nat := (n + (U64 - 1)) % U64

/-- sub.c:159-166 `sub_init_publisher`. -/
def init : SubPub := ⟨0, 0, [], []⟩

/-- rmc_list_template.h:332-355 `_find_node_rev` with sub.c:36-55 `_is_duplicate`; the list is given in the order
visited (tail first). -/
def findDup (pid : Nat) : List SPkt → Bool
  | [] => false
  | h :: t => if pid = h.pid then true else if pid > h.pid then false else findDup pid t

/-- sub.c:56-81 `sub_packet_is_duplicate`. -/
def isDuplicate (s : SubPub) (pid : Nat) : Bool :=
  if s.maxReady = 0 then false
  else if pid ≤ s.maxReady then true
  else findDup pid s.received.reverse

/-- rmc_list_template.h:381-401 `_insert_sorted_node_rev` with sub.c:85-89 `_compare_pid`, on the list in the order
visited (tail first): after the first node, from the tail, whose pid is not greater. -/
def insertDesc (x : SPkt) : List SPkt → List SPkt
  | [] => [x]
  | y :: ys => if x.pid ≥ y.pid then x :: y :: ys else y :: insertDesc x ys

/-- sub.c:209-340 `sub_packet_add_to_received_interval`, the loop from the tail: `rev` are the intervals not visited
yet (nearest first), `after` those after them. `ts` is the reading of the monotonic clock. -/
def addIntervalLoop (pid : Nat) (ts : Int) : List Intv → List Intv → List Intv
  | [], after => ⟨pid, pid, ts⟩ :: after                                         -- 333-339
  | i :: rev, after =>
    if pid > inc64 i.last then rev.reverse ++ i :: ⟨pid, pid, ts⟩ :: after       -- 227-236
    else if inc64 i.last = pid then                                              -- 246-275
      match after with
      | n :: after' =>
        if dec64 n.first = pid then
          rev.reverse ++ ⟨i.first, n.last, if i.ts < n.ts then i.ts else n.ts⟩ :: after'
        else rev.reverse ++ ⟨i.first, pid, i.ts⟩ :: n :: after'
      | [] => rev.reverse ++ [⟨i.first, pid, i.ts⟩]
    else if dec64 i.first = pid then                                             -- 287-317
      match rev with
      | p :: rev' =>
        if inc64 p.last = pid then
          rev'.reverse ++ ⟨p.first, i.last, if i.ts < p.ts then i.ts else p.ts⟩ :: after
        else (p :: rev').reverse ++ ⟨pid, i.last, i.ts⟩ :: after
      | [] => ⟨pid, i.last, i.ts⟩ :: after
    else addIntervalLoop pid ts rev (i :: after)                                 -- 318

/-- sub.c:209-340 `sub_packet_add_to_received_interval`. -/
def addInterval (ivs : List Intv) (pid : Nat) (ts : Int) : List Intv := addIntervalLoop pid ts ivs.reverse []

/-- sub.c:90-120 `sub_packet_received`. `store` is `store_receive_interval_data`, `ts` the clock. -/
def received' (s : SubPub) (p : SPkt) (store : Bool) (ts : Int) : SubPub :=
  { s with
    maxReceived := if s.maxReceived < p.pid then p.pid else s.maxReceived,
    received := (insertDesc p s.received.reverse).reverse,
    intervals := if store then addInterval s.intervals p.pid ts else s.intervals }

/-- sub.c:141-154: the loop of `sub_process_received_packets`: (max_pid_ready, moved to dispatch_ready, left). -/
def processLoop (maxReady : Nat) : List SPkt → Nat × List SPkt × List SPkt
  | [] => (maxReady, [], [])
  | p :: ps =>
    if maxReady ≠ 0 ∧ p.pid ≠ inc64 maxReady then (maxReady, [], p :: ps)
    else
      let r := processLoop (inc64 maxReady) ps
      (r.1, p :: r.2.1, r.2.2)

/-- sub.c:127-155 `sub_process_received_packets`: the new state and the packets appended to dispatch_ready. -/
def process (s : SubPub) : SubPub × List SPkt :=
  let m := match s.received with
    | p :: _ => if s.maxReady = 0 then dec64 p.pid else s.maxReady
    | [] => s.maxReady
  let r := processLoop m s.received
  ({ s with maxReady := r.1, received := r.2.2 }, r.2.1)

/-- sub.c:168-186 `sub_reset_publisher`: the new state and the packets whose payload is given to the free callback. -/
def reset (s : SubPub) : SubPub × List SPkt := ({ s with received := [], intervals := [] }, s.received)

/-- sub.c:195-201 `sub_oldest_unacknowledged_packet`. -/
def oldest (s : SubPub) : Int :=
  match s.intervals with
  | [] => 0
  | i :: _ => i.ts

/-- What both receive paths of rmc_sub_read.c do with an arriving packet: 79-129 (multicast, `store`) and 290-345
(resend over TCP, not `store`): drop duplicates, else record the packet and move what is in sequence to
dispatch_ready. Returns the packets appended to dispatch_ready. -/
def arrive (s : SubPub) (p : SPkt) (store : Bool) (ts : Int) : SubPub × List SPkt :=
  if isDuplicate s p.pid then (s, []) else process (received' s p store ts)

end SubPub
end Rmc
