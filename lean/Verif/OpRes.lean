import Verif.PubCtx
import Verif.SubCtx

/-!
# Model of `*op_res`: the operation reported by `rmc_pub_read`, `rmc_pub_write`, `rmc_sub_read`, `rmc_sub_write`

The values of reliable_multicast.h:398-432. Each function below follows the assignments to `*op_res` in its part of the code
and gives the value left there at the end of the call (`none`: the variable of the caller is not assigned). They are functions
of the state before the call and of the results of the system calls, like the functions that model the rest of the call.
-/

namespace Rmc

/-- reliable_multicast.h:398-432. -/
inductive OpRes where
  | error | readMulticast | readMulticastLoopback | readMulticastNew | readMulticastNotReady | readTcp | readAccept
  | readDisconnect | writeMulticast | completeConnection | writeTcp
  deriving DecidableEq, Repr

/-- reliable_multicast.h:398-432: the numbers. -/
def OpRes.num : OpRes → Nat
  | .error => 0 | .readMulticast => 1 | .readMulticastLoopback => 2 | .readMulticastNew => 3 | .readMulticastNotReady => 4
  | .readTcp => 5 | .readAccept => 6 | .readDisconnect => 7 | .writeMulticast => 8 | .completeConnection => 9 | .writeTcp => 10

namespace Proto

/-- rmc_protocol.c:99, 104, 129, 143, 161: `*op_res` after `rmc_conn_process_tcp_read`, which returned `r`: assigned `RMC_READ_TCP` first, then
`RMC_ERROR` on every return of something other than 0 and EAGAIN. -/
def processOp (r : Nat) : OpRes := if r = 0 then .readTcp else if r = EAGAIN then .readTcp else .error

/-- rmc_protocol.c:187, 189, 204, 226: `*op_res` after `rmc_conn_tcp_read`, which returned `r`. -/
def tcpReadOp (b : CircBuf) (rv : Option (List UInt8)) (r : Nat) : OpRes :=
  if CircBuf.available b = 0 then .error
  else if (CircBuf.alloc b (CircBuf.available b)).1 ≠ 0 then .error
  else if (rv.getD []).take (CircBuf.available b) = [] then .readDisconnect
  else processOp r

end Proto

namespace PubCtx

/-- rmc_pub_read.c:139-164. -/
def listenOp (c : PubCtx) (ar : ConnVec.AccRes) : Option OpRes :=
  if (ConnVec.accept c.cv c.listen ar).1 ≠ 0 then some .error else some .readAccept

/-- rmc_pub_read.c:166-195: nothing is assigned when a datagram was read. -/
def mcastOp (c : PubCtx) (err : Option Nat) : Option OpRes :=
  if c.mcast = none then some .error
  else match err with
    | some _ => some .error
    | none => none

/-- rmc_pub_read.c:197-229. -/
def readOp (c : PubCtx) (i : Nat) (rv : Option (List UInt8)) : M (Option OpRes) :=
  if ConnVec.findByIndex c.cv i = none ∨ (c.cv.conns i).mode ≠ .connected then .ok (some .error)
  else do
    let r ← Proto.tcpRead (table i) U32 c (c.cv.conns i).readBuf rv
    return some (Proto.tcpReadOp (c.cv.conns i).readBuf rv r.1)

/-- rmc_pub_write.c:250-299. -/
def writeOp (c : PubCtx) (i : Nat) (wv : Except Nat Nat) : M (Option OpRes) :=
  if i ≥ c.cv.size then .ok (some .error)
  else if ConnVec.findByIndex c.cv i = none ∨ (c.cv.conns i).mode ≠ .connected then .ok (some .error)
  else if CircBuf.inUse (c.cv.conns i).writeBuf = 0 then .ok (some .error)
  else do
    let r ← Proto.tcpWrite (c.cv.conns i).writeBuf wv
    return some (if r.1 ≠ 0 then .error else .writeTcp)

/-- `*op_res` after a call; calls without that argument assign nothing. rmc_pub_write.c:241-248 for the multicast socket. -/
def opRes (c : PubCtx) : Op → M (Option OpRes)
  | .readListen ar _ => .ok (listenOp c ar)
  | .readMcast err => .ok (mcastOp c err)
  | .read i rv => readOp c i rv
  | .writeMcast _ => .ok (some .writeMulticast)
  | .write i wv => writeOp c i wv
  | _ => .ok none

end PubCtx

namespace SubCtx

/-- rmc_sub_read.c:135-197: `*read_res` after `process_multicast_read`, `o` before. -/
def packetOp (c : SubCtx) (src : Nat) (bs : List UInt8) (o : OpRes) : OpRes :=
  if bs.length < HDR_LEN then o
  else
    let h := PacketHeader.dec (bs.take HDR_LEN)
    if bs.length < HDR_LEN + h.payloadLen then o
    else
      match ConnVec.findByAddress c.cv (if h.listenIp = 0 then src else h.listenIp) h.listenPort with
      | none => .readMulticastNotReady
      | some i => if (c.cv.conns i).mode = .connecting then .readMulticastNotReady else .readMulticast

/-- rmc_sub_read.c:218-236: the loop of `multicast_read`. -/
def loopOp (c : SubCtx) (o : OpRes) : List RecvRes → M OpRes
  | [] => .ok o
  | .err _ :: _ => .ok o
  | .dgram src bs ts ann sk cr :: rs =>
    if bs = [] then .ok o
    else do
      let r ← mcastPacket c src (bs.take RMC_MAX_PACKET) ts ann sk cr
      let o := packetOp c src (bs.take RMC_MAX_PACKET) o
      if r.1 ≠ 0 then return o else loopOp r.2 o rs

/-- rmc_sub_read.c:208-216: `RMC_ERROR` first. -/
def mcastOp (c : SubCtx) (rs : List RecvRes) : M (Option OpRes) :=
  if c.mcast = none then .ok (some .error)
  else do return some (← loopOp c .error rs)

/-- rmc_sub_read.c:393-448; at `rearm` after ENOMEM the value of `rmc_conn_tcp_read` stays. -/
def readOp (c : SubCtx) (i : Nat) (rv : Option (List UInt8)) (ts : Int) : M (Option OpRes) :=
  if ConnVec.findByIndex c.cv i = none ∨ (c.cv.conns i).mode ≠ .connected then .ok (some .error)
  else do
    let r ← Proto.tcpRead (table i ts) U32 c (c.cv.conns i).readBuf rv
    if r.1 = ENOMEM then return some (Proto.tcpReadOp (c.cv.conns i).readBuf rv r.1)
    else if r.1 = EPIPE then return some .readDisconnect
    else if r.1 = EPROTO then return some .error
    else return some .readTcp

/-- rmc_sub_write.c:285-345. -/
def writeOp (c : SubCtx) (i : Nat) (wv : Except Nat Nat) : M (Option OpRes) :=
  if ConnVec.findByIndex c.cv i = none then .ok (some .error)
  else if (c.cv.conns i).mode = .connecting then .ok (some .completeConnection)
  else if CircBuf.inUse (c.cv.conns i).writeBuf = 0 then .ok (some .error)
  else do
    let r ← Proto.tcpWrite (c.cv.conns i).writeBuf wv
    return some (if r.1 ≠ 0 then .error else .writeTcp)

/-- `*op_res` after a call; calls without that argument assign nothing. -/
def opRes (c : SubCtx) : Op → M (Option OpRes)
  | .readMcast rs => mcastOp c rs
  | .read i rv ts => readOp c i rv ts
  | .write i _ _ wv => writeOp c i wv
  | _ => .ok none

end SubCtx
end Rmc
