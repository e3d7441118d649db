import Verif.Pub

/-!
# Specification of the publisher core

What a publisher is supposed to do, without packets on a heap, reference counts or per-subscriber lists:
two FIFO queues of payloads waiting to be multicast, the packets sent and not released (oldest first) each
with the set of subscribers that still owe an acknowledgement, and the connected subscribers.
`PubLemmas` proves that pub.c behaves like this machine on every history.
-/

namespace Rmc

/-- A packet that has been multicast and whose payload has not been handed back. -/
structure Sent where
  pid : Nat
  payload : Payload
  ts : Int
  owed : List Nat
  deriving DecidableEq, Repr

/-- The abstract publisher. -/
structure PSpec where
  ann : List Payload            -- announcements waiting, oldest first
  que : List (Nat × Payload)    -- packets waiting, oldest first
  infl : List Sent              -- sent, not released, oldest first
  subs : List Nat               -- connected subscribers
  nextPid : Nat
  log : List PEv

namespace PSpec

def init : PSpec := ⟨[], [], [], [], 1, []⟩

/-- Subscriber `k` is done with the packets whose id satisfies `c`: what that does to one packet. `none` if it
was the last subscriber outstanding and the packet is released. -/
def relax (k : Nat) (c : Nat → Bool) (r : Sent) : Option Sent :=
  if c r.pid ∧ k ∈ r.owed then
    if r.owed.erase k = [] then none else some { r with owed := r.owed.erase k }
  else some r

/-- The payload-free callbacks this causes, oldest packet first. -/
def freed (k : Nat) (c : Nat → Bool) (infl : List Sent) : List PEv :=
  infl.filterMap fun r => if relax k c r = none then some (.free r.pid r.payload) else none

/-- Subscriber `k` is done with all packets whose id satisfies `c`. -/
def release (A : PSpec) (k : Nat) (c : Nat → Bool) : PSpec :=
  { A with infl := A.infl.filterMap (relax k c), log := A.log ++ freed k c A.infl }

/-- The packets subscriber `k` owes an acknowledgement for, oldest first. -/
def owes (A : PSpec) (k : Nat) : List Sent := A.infl.filter fun r => decide (k ∈ r.owed)

end PSpec

/-- What can happen to a publisher at the level of pub.c. -/
inductive POp where
  | connect (slot : Nat)
  | close (slot : Nat)
  | queue (p : Payload)
  | announce (p : Payload)
  | send (ts : Int)                -- the multicast socket is ready: the next packet goes out
  | ack (slot pid : Nat)
  deriving DecidableEq, Repr

/-- The payloads a history hands to rmc_pub_queue_packet. -/
def queueArgs (ops : List POp) : List Payload :=
  ops.filterMap fun op => match op with | .queue p => some p | _ => none

namespace PSpec

/-- The abstract publisher's step. -/
def step (A : PSpec) : POp → PSpec
  | .connect k => { A with subs := A.subs ++ [k], log := A.log ++ [.connect k] }
  | .queue p => { A with que := A.que ++ [(A.nextPid, p)], nextPid := A.nextPid + 1,
                         log := A.log ++ [.queue A.nextPid p] }
  | .announce p => { A with ann := A.ann ++ [p], log := A.log ++ [.queue 0 p] }
  | .send ts =>
    match A.ann, A.que with
    | p :: ann, _ => { A with ann := ann, log := A.log ++ [.send 0 p ts] }
    | [], (pid, p) :: que =>
      { A with que := que, infl := A.infl ++ [⟨pid, p, ts, A.subs⟩], log := A.log ++ [.send pid p ts] }
    | [], [] => A
  | .ack k pid => release { A with log := A.log ++ [.ack k pid] } k (fun q => q == pid)
  | .close k => { release { A with log := A.log ++ [.close k] } k (fun _ => true) with subs := A.subs.erase k }

def run (A : PSpec) (ops : List POp) : PSpec := ops.foldl step A

/-- The calls the library itself makes: a subscriber is added to a free slot and closed once. -/
def allowed (A : PSpec) : POp → Prop
  | .connect k => k ∉ A.subs
  | .close k => k ∈ A.subs
  | _ => True

instance (A : PSpec) (op : POp) : Decidable (allowed A op) := by
  cases op <;> simp only [allowed] <;> infer_instance

/-- Every operation of the history is allowed when it is executed. -/
def allowedAll : PSpec → List POp → Prop
  | _, [] => True
  | A, op :: ops => allowed A op ∧ allowedAll (step A op) ops

instance decAllowedAll : (A : PSpec) → (ops : List POp) → Decidable (allowedAll A ops)
  | _, [] => isTrue trivial
  | A, op :: ops => by
    have := decAllowedAll (step A op) ops
    unfold allowedAll; infer_instance

end PSpec

namespace Pub

/-- The same operations on the code. `send` is what rmc_pub_write.c:37-120 does with pub.c: take the next
queued packet and report it sent. -/
def step (s : Pub) : POp → M Pub
  | .connect k => .ok (initSubscriber s k)
  | .close k => resetSubscriber s k
  | .queue p => do let r ← queuePacket s p; return r.2
  | .announce p => queueNoAck s p
  | .send ts =>
    match nextQueued s with
    | none => .ok s
    | some a => packetSent s a ts
  | .ack k pid => packetAck s k pid

def run : Pub → List POp → M Pub
  | s, [] => .ok s
  | s, op :: ops => do let s ← step s op; run s ops

end Pub
end Rmc
