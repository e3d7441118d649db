import Verif.SysSub

/-! # A publisher, a subscriber and the network between them

One publisher context and one subscriber context, the calls of which are those modelled in `PubCtx` and `SubCtx`, joined by

* the multicast group: a datagram handed to `sendto` by the publisher (rmc_pub_write.c:37-140) may be received by the subscriber
  (rmc_sub_read.c:135-248) never, once or many times, in any order, at any later time, mixed with datagrams of other publishers;
* one TCP connection, from slot `slot` of the subscriber (rmc_connection.c:174-333) to the publisher (rmc_connection.c:336-397):
  two byte streams (rmc_pub_write.c:233-303, rmc_sub_write.c:276-, rmc_protocol.c:170-240), from which the receiving side reads in chunks of any size the kernel chooses.

Both contexts may have any number of other connections, and their applications may make any calls.  Left out: the closing of
this connection by one of the sides or by the network (nothing is claimed about a connection that is closed), and runs that enter
undefined behaviour (which are characterised separately: C52, C55). -/

namespace Rmc

/-- What does not change: the slot of the connection in the subscriber context, and the address the publisher's datagrams are
received from. -/
structure Env where
  slot : Nat
  src : Nat

/-- The composed system: `acc` is the publisher's slot of the connection once it has accepted it; `down` and `up` are the bytes
sent and not yet received from the publisher to the subscriber and back; `err`: a read of the publisher from this connection has
returned a protocol error to the application. -/
structure Sys where
  pub : PubCtx
  sub : SubCtx
  acc : Option Nat
  down : List UInt8
  up : List UInt8
  err : Bool

/-- What happens: an API call of one of the two sides.  `accept`, `pubRead` and `subRead` are the calls that accept this
connection and that read from it: `n` is the number of bytes the kernel returns. -/
inductive SysOp where
  | pub (op : PubCtx.Op)
  | accept (k : Nat) (ar : ConnVec.AccRes) (cb : Option Bool)
  | pubRead (n : Nat)
  | sub (op : SubCtx.Op)
  | subRead (n : Nat) (ts : Int)

namespace Sys

/-- Publisher calls in the scope of the theorems: a failing `accept` has an error code, an accepted connection's
`setsockopt(TCP_NODELAY)` succeeds, the system does not choose port 0, and a queued packet stays allocated until it is released. -/
def callOk : PubCtx.Op → Bool
  | .readListen (.failed e) _ => decide (e ≠ 0)
  | .readListen (.noDelayFailed _ _) _ => false
  | .activate (.ok (_, _, port)) => decide (port ≠ 0)
  | .queue p false => !p.onStack
  | _ => true

/-- The call does not read from or close this connection. -/
def leaves (acc : Option Nat) : PubCtx.Op → Bool
  | .close k => decide (acc ≠ some k)
  | .read k _ => decide (acc ≠ some k)
  | .deactivate => false
  | _ => true

/-- The same for the subscriber. -/
def leavesSub (i : Nat) : SubCtx.Op → Bool
  | .close k => decide (k ≠ i)
  | .read k _ _ => decide (k ≠ i)
  | .deactivate => false
  | _ => true

/-- The address of the publisher as the subscriber sees it: rmc_sub_read.c:157-167. -/
def addr (E : Env) (c : PubCtx) : Nat := if c.listenIp = 0 then E.src else c.listenIp

/-- A received datagram was multicast by the publisher, or it names another one. -/
def honest (E : Env) (c : PubCtx) : SubCtx.RecvRes → Prop
  | .err _ => True
  | .dgram src bs _ _ _ _ => (src = E.src ∧ bs ∈ PubCtx.dgrams c.log) ∨
      (HDR_LEN ≤ bs.length → ((if (PacketHeader.dec bs).listenIp = 0 then src else (PacketHeader.dec bs).listenIp),
        (PacketHeader.dec bs).listenPort) ≠ (addr E c, c.listenPort))

instance (E : Env) (c : PubCtx) (r : SubCtx.RecvRes) : Decidable (honest E c r) := by
  cases r <;> unfold honest <;> infer_instance

/-- The datagrams a call receives. -/
def received : SubCtx.Op → List SubCtx.RecvRes
  | .readMcast rs => rs
  | _ => []

instance (c : PubCtx) (k : Nat) : Decidable (PubCtx.Connected c k) := by unfold PubCtx.Connected; infer_instance
instance (c : SubCtx) (k : Nat) : Decidable (SubCtx.Live c k) := by unfold SubCtx.Live; infer_instance

/-- The bytes a call of the publisher has sent on the connection. -/
def sentDown (s : Sys) (p : PubCtx) : List UInt8 :=
  match s.acc with
  | none => []
  | some k => PubCtx.outs k (p.log.drop s.pub.log.length)

/-- What an event makes of the system; none if it cannot happen (or runs into undefined behaviour). -/
def next (E : Env) (s : Sys) : SysOp → Option Sys
  | .pub op =>
    if callOk op = true ∧ leaves s.acc op = true then
      match PubCtx.step s.pub op with
      | .ok r => some { s with pub := r.2, down := s.down ++ sentDown s r.2 }
      | .error _ => none
    else none
  | .accept k ar cb =>
    if s.acc = none ∧ callOk (.readListen ar cb) = true ∧ ¬ PubCtx.Connected s.pub k then
      match PubCtx.step s.pub (.readListen ar cb) with
      | .ok r => if PubCtx.Connected r.2 k then some { s with pub := r.2, acc := some k } else none
      | .error _ => none
    else none
  | .pubRead n =>
    match s.acc with
    | none => none
    | some k =>
      if 0 < n ∧ n ≤ s.up.length ∧ n ≤ CircBuf.available (s.pub.cv.conns k).readBuf then
        match PubCtx.step s.pub (.read k (some (s.up.take n))) with
        | .ok r =>
          if PubCtx.Connected r.2 k then
            some { s with pub := r.2, up := s.up.drop n, err := s.err || decide (r.1 = EPROTO) }
          else none
        | .error _ => none
      else none
  | .sub op =>
    if leavesSub E.slot op = true ∧ (∀ r ∈ received op, honest E s.pub r) then
      match SubCtx.step s.sub op with
      | .ok r =>
        if SubCtx.Live r.2 E.slot then
          some { s with sub := r.2, up := s.up ++ SubCtx.outs E.slot (r.2.log.drop s.sub.log.length) }
        else none
      | .error _ => none
    else none
  | .subRead n ts =>
    if SubCtx.Up s.sub E.slot ∧ 0 < n ∧ n ≤ s.down.length ∧ n ≤ CircBuf.available (s.sub.cv.conns E.slot).readBuf then
      match SubCtx.step s.sub (.read E.slot (some (s.down.take n)) ts) with
      | .ok r => if SubCtx.Up r.2 E.slot then some { s with sub := r.2, down := s.down.drop n } else none
      | .error _ => none
    else none

/-- A history of the composed system. -/
def run (E : Env) : Sys → List SysOp → Option Sys
  | s, [] => some s
  | s, op :: ops => (next E s op).bind fun t => run E t ops

/-- Specification: the number of calls of the publisher in a history. -/
def calls : List SysOp → Nat
  | [] => 0
  | .sub _ :: ops => calls ops
  | .subRead _ _ :: ops => calls ops
  | _ :: ops => 1 + calls ops

/-- How it starts: each side is in a state its own calls can lead to (`n` calls of the publisher so far), the subscriber has
begun to connect to the publisher, and nothing has been sent on the connection. -/
structure Start (E : Env) (n : Nat) (s : Sys) : Prop where
  pub : ∃ ops, PubCtx.Reaches ops s.pub ∧ (∀ op ∈ ops, callOk op = true) ∧ ops.length ≤ n
  ids : s.pub.nodeId < U32 ∧ s.pub.listenIp < U32 ∧ s.pub.listenPort < 65536 ∧ s.pub.listenPort ≠ 0
  sub : ∃ ops, SubCtx.Reaches ops s.sub
  slot : E.slot < s.sub.cv.size ∧ (s.sub.cv.conns E.slot).mode = .connecting
  to : (s.sub.cv.conns E.slot).addr = addr E s.pub ∧ (s.sub.cv.conns E.slot).port = s.pub.listenPort
  acc : s.acc = none
  down : s.down = []
  up : s.up = []
  err : s.err = false

end Sys
end Rmc
