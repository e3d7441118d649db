import Verif.Conn
import Verif.Proto
import Verif.PubSpec

/-!
# Model of the publisher context

`/repo/rmc_pub_packet.c`, `/repo/rmc_pub_read.c`, `/repo/rmc_pub_write.c`, `/repo/rmc_pub_timeout.c` and the parts
of `/repo/rmc_pub_context.c` that change the context. Results of socket calls, of the clock and of the user's
callbacks are parameters of the operations. What leaves the library (datagrams, bytes written to sockets, callbacks)
is recorded in `log`, a ghost field that no function reads; the poll callbacks are recorded in `cv.polls`; the opening and
closing of descriptors (of connections, of the multicast and the listen socket) is recorded in `cv.fds`.

Simplifications: null contexts and payloads, and `*op_res`, are not modelled; user callbacks do not call back into the
library; `EWOULDBLOCK = EAGAIN` (Linux); counters of type `uint32_t` that count list elements do not overflow;
timestamps are unbounded integers; a variable length array of length 0 (rmc_pub_read.c:68) is harmless; an array of
`max_subscribers` `pub_subscriber_t`s is identified with `Pub.sinfl`, its user data (the connection) with the index.
-/

namespace Rmc

/-- Ghost record of what leaves the publisher. -/
inductive CEv where
  | datagram (bs : List UInt8)            -- sendmsg() on the multicast socket succeeded
  | tcpOut (i : Nat) (bs : List UInt8)    -- writev() on connection `i` took these bytes
  | ctl (i : Nat) (bs : List UInt8)       -- control message callback
  | connectCb (i : Nat) (ok : Bool)       -- subscriber connect callback and its answer
  | disconnectCb (i : Nat)                -- subscriber disconnect callback
  | announce (now : Int) (interval : Nat) -- the announce timer fired
  | setAnnounce (now : Int) (interval : Nat) -- rmc_pub_set_announce_interval was called
  deriving DecidableEq, Repr

/-- rmc_internal.h:141-249 `struct rmc_pub_context`. `ctlCb`: the control message callback; `none` is the uninitialised
pointer left by rmc_pub_init_context, `some false` a null pointer. -/
structure PubCtx where
  pub : Pub
  cv : ConnVec
  nodeId : Nat
  listenIp : Nat
  listenPort : Nat
  mcast : Option Nat
  listen : Option Nat
  resendTimeout : Int
  annInterval : Nat
  annNext : Int
  suspendThr : Nat
  resumeThr : Nat
  suspended : Bool
  ctlCb : Option Bool
  log : List CEv

namespace PubCtx

/-- rmc_internal.h:34 RMC_DEFAULT_PACKET_TIMEOUT. -/
def DEFAULT_PACKET_TIMEOUT : Int := 100000

/-- rmc_pub_context.c:26-152 `rmc_pub_init_context` (addresses resolve, memory is available). `mem` is the uninitialised
connection array. `subscriber_control_message_cb` is not set (cf. 128-131). -/
def init (mem : Nat → Conn) (maxSubs nodeId listenIp listenPort : Nat) : PubCtx :=
  { pub := Pub.init, cv := ConnVec.init mem maxSubs RMC_MAX_PACKET, nodeId := nodeId, listenIp := listenIp,
    listenPort := listenPort, mcast := none, listen := none, resendTimeout := DEFAULT_PACKET_TIMEOUT,
    annInterval := 0, annNext := 0, suspendThr := 0, resumeThr := 0, suspended := false, ctlCb := none, log := [] }

/-- Append to the ghost log. -/
def ev (c : PubCtx) (e : CEv) : PubCtx := { c with log := c.log ++ [e] }

/-- A call of the poll_modify callback. -/
def pollModify (c : PubCtx) (i : Nat) (d : Option Nat) (old new : Act) : PubCtx :=
  { c with cv := c.cv.poll (.modify i d old new) }

/-- Write one connection. -/
def setConn (c : PubCtx) (i : Nat) (x : Conn) : PubCtx := { c with cv := c.cv.set i x }

/-- `cond ? RMC_POLLWRITE : 0`. -/
def wIf (b : Bool) : Act := if b then .W else .none

/-! ## rmc_pub_packet.c -/

/-- rmc_pub_packet.c:81-87 `rmc_pub_traffic_suspended`. -/
def trafficSuspended (c : PubCtx) : Nat := if c.suspended then EBUSY else 0

/-- rmc_pub_packet.c:17-69 `rmc_pub_queue_packet`. -/
def queuePacket (c : PubCtx) (p : Payload) (ann : Bool) : M (Nat × PubCtx) :=
  if p.data.length > RMC_MAX_PAYLOAD then .ok (EMSGSIZE, c)
  else if trafficSuspended c = EBUSY then .ok (EBUSY, c)
  else do
    let c := { c with suspended := false }
    let pack := Pub.nextQueued c.pub
    let pub ← if ann then Pub.queueNoAck c.pub p else (do let r ← Pub.queuePacket c.pub p; return r.2)
    let c := { c with pub := pub }
    let c := pollModify c MULTICAST_INDEX c.mcast (wIf pack.isSome) .W
    let c := if c.suspendThr > 0 ∧ Pub.unackedCount c.pub ≥ c.suspendThr then { c with suspended := true } else c
    return (0, c)

/-- rmc_pub_packet.c:95-115 `rmc_pub_packet_ack`. -/
def packetAck (c : PubCtx) (i pid : Nat) : M PubCtx := do
  let pub ← Pub.packetAck c.pub i pid
  let c := { c with pub := pub }
  return if c.suspended = true ∧ Pub.unackedCount c.pub ≤ c.resumeThr then { c with suspended := false } else c

/-! ## rmc_pub_read.c -/

/-- rmc_pub_read.c:40-41: `n` iterations of the loop from `pid`. -/
def ackRange (c : PubCtx) (i : Nat) : Nat → Nat → M PubCtx
  | _, 0 => .ok c
  | pid, n + 1 => do
    let c ← packetAck c i pid
    ackRange c i (pid + 1) n

/-- rmc_pub_read.c:40-41: `for (pid = first; pid <= last; ++pid)`, 64-bit `pid`: with `last = 2^64 - 1` the loop
condition is always true. -/
def ackInterval (c : PubCtx) (i : Nat) (a : AckInterval) : M PubCtx :=
  if a.last = U64 - 1 then .error .diverge
  else ackRange c i a.first (a.last + 1 - a.first)

/-- rmc_pub_read.c:21-43 `process_cmd_ack_interval`. -/
def processAck (i : Nat) : Proto.Handler PubCtx := fun c b =>
  if CircBuf.inUse b < ACK_LEN + 1 then .ok (EAGAIN, c, b)
  else do
    let r ← CircBuf.readOffset b 1 ACK_LEN
    let b := (CircBuf.free b (ACK_LEN + 1)).1
    let c ← ackInterval c i (AckInterval.dec r.2)
    return (0, c, b)

/-- rmc_pub_read.c:46-83 `process_control_message`. -/
def processCtl (i : Nat) : Proto.Handler PubCtx := fun c b =>
  if CircBuf.inUse b < CTL_LEN + 1 then .ok (EAGAIN, c, b)
  else do
    let r ← CircBuf.readOffset b 1 CTL_LEN
    let len := ctlDec r.2
    if CircBuf.inUse b < CTL_LEN + 1 + len then return (EAGAIN, c, b)
    else do
      let c ← (match c.ctlCb with
        | none => .error .uninit
        | some false => .ok c
        | some true => do
          let p ← CircBuf.readOffset b (1 + CTL_LEN) len
          return ev c (.ctl i p.2) : M PubCtx)
      return (0, c, (CircBuf.free b (CTL_LEN + 1 + len)).1)

/-- rmc_pub_read.c:127-131 the dispatch table. -/
def table (i : Nat) : Proto.Table PubCtx := [(CMD_ACK_INTERVAL, processAck i), (CMD_CONTROL_MESSAGE, processCtl i)]

/-- rmc_pub_read.c:90-117 `rmc_pub_close_connection`. -/
def closeConnection (c : PubCtx) (i : Nat) : M (Nat × PubCtx) :=
  if ConnVec.findByIndex c.cv i = none then .ok (EINVAL, c)
  else do
    let c := ev c (.disconnectCb i)
    let c := { c with cv := (ConnVec.close c.cv i).2 }
    let pub ← Pub.resetSubscriber c.pub i
    return (0, { c with pub := pub })

/-- rmc_pub_read.c:139-164: `rmc_pub_read` on the listen socket. `cb` is the answer of the connect callback, if any is
set. -/
def readListen (c : PubCtx) (ar : ConnVec.AccRes) (cb : Option Bool) : M (Nat × PubCtx) :=
  let r := ConnVec.accept c.cv c.listen ar
  let c := { c with cv := r.2.2 }
  if r.1 ≠ 0 then .ok (r.1, c)
  else
    match r.2.1 with
    | none => .error .assertFail
    | some i =>
      if ConnVec.findByIndex c.cv i = none then .error .assertFail
      else do
        let c := { c with pub := Pub.initSubscriber c.pub i }
        match cb with
        | none => return (0, c)
        | some ok => do
          let c := ev c (.connectCb i ok)
          if ok then return (0, c)
          else do
            let r ← closeConnection c i
            return (0, r.2)

/-- rmc_pub_read.c:166-195: `rmc_pub_read` on the multicast socket; `err` is the error of recvfrom(), if any. -/
def readMcast (c : PubCtx) (err : Option Nat) : Nat × PubCtx :=
  if c.mcast = none then (ENOTCONN, c)
  else match err with
    | some e => (e, c)
    | none => (0, pollModify c MULTICAST_INDEX c.mcast .R .R)

/-- rmc_pub_read.c:197-229: `rmc_pub_read` on a connection; `rv` as in `Proto.tcpRead`. The read buffer holds fewer than
2^32 bytes and every command is at least one byte long, so 2^32 bounds the number of commands. -/
def readConn (c : PubCtx) (i : Nat) (rv : Option (List UInt8)) : M (Nat × PubCtx) :=
  if ConnVec.findByIndex c.cv i = none ∨ (c.cv.conns i).mode ≠ .connected then .ok (ENOTCONN, c)
  else do
    let r ← Proto.tcpRead (table i) U32 c (c.cv.conns i).readBuf rv
    let c := r.2.1
    let c := setConn c i { c.cv.conns i with readBuf := r.2.2 }
    if r.1 = EPIPE then do
      let r ← closeConnection c i
      return (0, r.2)
    else
      let x := c.cv.conns i
      let act : Act := ⟨true, decide (ConnVec.pendingLen c.cv i > 0)⟩
      return (r.1, pollModify (setConn c i { x with action := act }) i x.desc x.action act)

/-- rmc_pub_read.c:232-251 `rmc_pub_context_has_pending_send`. -/
def hasPendingSend (c : PubCtx) (i : Nat) : Nat :=
  if ConnVec.findByIndex c.cv i = none then ENOTCONN
  else if ConnVec.pendingLen c.cv i > 0 then EBUSY else 0

/-! ## rmc_pub_write.c -/

/-- rmc_pub_write.c:19-32 `setup_packet_header`. -/
def header (c : PubCtx) (p : Pkt) : PacketHeader :=
  ⟨p.pid, c.nodeId, p.payload.data.length, c.listenIp, c.listenPort⟩

/-- What sendmsg() yields (`.ok` with the clock read afterwards at line 107, or an error) and what the dead stack frame
of rmc_pub_timeout_process holds at that time. -/
structure SendRes where
  res : Except Nat Int
  stack : List UInt8 := []

/-- The bytes found at a payload pointer when the packet is sent: an announcement's payload is a local array of
rmc_pub_timeout_process (rmc_pub_timeout.c:134, 149), which has returned. -/
def wirePayload (p : Payload) (stack : List UInt8) : List UInt8 :=
  if p.onStack then (stack ++ List.replicate p.data.length 0).take p.data.length else p.data

/-- rmc_pub_write.c:37-120 `send_single_multicast_packet`. -/
def sendSingle (c : PubCtx) (a : Nat) (r : SendRes) : M (Nat × PubCtx) :=
  if c.mcast = none then .ok (ENOTCONN, c)
  else do
    let p ← Pub.deref c.pub.pk a
    if HDR_LEN + p.payload.data.length > RMC_MAX_PACKET then return (EMSGSIZE, c)
    else
      match r.res with
      | .error e =>
        if e ≠ EAGAIN then return (e, c)
        else return (EAGAIN, pollModify c MULTICAST_INDEX c.mcast .W (wIf (Pub.nextQueued c.pub).isSome))
      | .ok ts => do
        let bs := (header c p).enc ++ wirePayload p.payload r.stack
        let pub ← Pub.packetSent c.pub a ts
        let c := ev { c with pub := pub } (.datagram bs)
        return (0, pollModify c MULTICAST_INDEX c.mcast .W (wIf (Pub.nextQueued c.pub).isSome))

/-- rmc_pub_write.c:123-139 `process_multicast_write`. `rs` are the results of the sendmsg() calls; when the list is
exhausted the socket would block. -/
def multicastWrite (c : PubCtx) : List SendRes → M (Nat × PubCtx)
  | [] =>
    match Pub.nextQueued c.pub with
    | none => .ok (0, c)
    | some a => sendSingle c a ⟨.error EAGAIN, []⟩
  | r :: rs =>
    match Pub.nextQueued c.pub with
    | none => .ok (0, c)
    | some a => do
      let x ← sendSingle c a r
      if x.1 ≠ 0 then return x
      else multicastWrite x.2 rs

/-- rmc_pub_write.c:165-209: command byte, header and payload are appended to the write buffer; an allocation failure
exits the process. -/
def resendFill (c : PubCtx) (b : CircBuf) (p : Pkt) : M CircBuf := do
  let r ← Proto.putCmd b CMD_PACKET
  if r.1 ≠ 0 then .error .exit255
  else do
    let r ← CircBuf.put r.2 (header c p).enc
    if r.1 ≠ 0 then .error .exit255
    else do
      let r ← CircBuf.put r.2 p.payload.data
      if r.1 ≠ 0 then .error .exit255 else return r.2

/-- rmc_pub_write.c:215-227: ask for write readiness unless that is done already. -/
def armWrite (c : PubCtx) (i : Nat) : PubCtx :=
  let x := c.cv.conns i
  if x.action.w then c
  else pollModify (setConn c i { x with action := x.action.setW }) i x.desc x.action x.action.setW

/-- rmc_pub_write.c:142-230 `rmc_pub_resend_packet`. -/
def resendPacket (c : PubCtx) (i : Nat) (p : Pkt) : M (Nat × PubCtx) :=
  let x := c.cv.conns i
  if CircBuf.available x.writeBuf < 1 + HDR_LEN + p.payload.data.length then .ok (EAGAIN, armWrite c i)
  else do
    let b ← resendFill c x.writeBuf p
    return (0, armWrite (setConn c i { x with writeBuf := b }) i)

/-- rmc_pub_write.c:233-300: `rmc_pub_write` on a connection; `wv` as in `Proto.tcpWrite`. -/
def writeConn (c : PubCtx) (i : Nat) (wv : Except Nat Nat) : M (Nat × PubCtx) :=
  if i ≥ c.cv.size then .ok (EINVAL, c)
  else if ConnVec.findByIndex c.cv i = none ∨ (c.cv.conns i).mode ≠ .connected then .ok (ENOTCONN, c)
  else if CircBuf.inUse (c.cv.conns i).writeBuf = 0 then .ok (ENODATA, c)
  else do
    let x := c.cv.conns i
    let r ← Proto.tcpWrite x.writeBuf wv
    let act := if r.2.1 = 0 then x.action.clearW else x.action.setW
    let c := setConn c i { x with writeBuf := r.2.2.1, action := act }
    return (r.1, pollModify (ev c (.tcpOut i r.2.2.2)) i x.desc x.action act)

/-- rmc_pub_write.c:340-368: one iteration of the loop of `rmc_pub_context_get_pending`: bytes and packets pending at
one index. -/
def pendingAt (c : PubCtx) (i : Nat) : Nat × Nat :=
  if ConnVec.findByIndex c.cv i = none then (0, 0)
  else (ConnVec.pendingLen c.cv i, (c.pub.sinfl i).length)

/-- rmc_pub_write.c:306-373 `rmc_pub_context_get_pending`: return code, `*queued_packets`, `*send_buf_len`,
`*ack_count`. -/
def getPending (c : PubCtx) : Nat × Nat × Nat × Nat :=
  let q := Pub.queueSize c.pub
  if c.cv.maxInd = NIL_INDEX then (if q > 0 then EBUSY else 0, q, 0, 0)
  else
    let l := (List.range (c.cv.maxInd + 1)).map (pendingAt c)
    let bytes : Nat := (l.map (·.1)).sum
    let acks : Nat := (l.map (·.2)).sum
    (if q > 0 ∨ bytes ≠ 0 ∨ acks ≠ 0 then EBUSY else 0, q, bytes, acks)

/-! ## rmc_pub_timeout.c -/

/-- rmc_pub_timeout.c:20-77 `process_sent_packet_timeout`: subscriber `i`, packet address `a`. -/
def sentPacketTimeout (c : PubCtx) (i a : Nat) : M (Nat × PubCtx) := do
  let p ← Pub.deref c.pub.pk a
  if (c.cv.conns i).mode ≠ .connected then do
    let c ← packetAck c i p.pid
    return (0, c)
  else do
    let r ← resendPacket c i p
    if r.1 = 0 then do
      let c ← packetAck r.2 i p.pid
      return (0, c)
    else return r

/-- rmc_pub_timeout.c:99-114: the loop over the timed out packets of one subscriber. -/
def resendLoop (c : PubCtx) (i : Nat) : List Nat → M (Nat × PubCtx)
  | [] => .ok (0, c)
  | a :: as => do
    let r ← sentPacketTimeout c i a
    if r.1 ≠ 0 then return r else resendLoop r.2 i as

/-- rmc_pub_timeout.c:80-117 `process_subscriber_timeout`. -/
def subscriberTimeout (c : PubCtx) (i : Nat) (now : Int) : M (Nat × PubCtx) := do
  let as ← Pub.timedOutPackets c.pub.pk now c.resendTimeout (c.pub.sinfl i)
  resendLoop c i as

/-- rmc_pub_timeout.c:167-176: the loop over the timed out subscribers. -/
def subscribersTimeout (c : PubCtx) (now : Int) : List Nat → M (Nat × PubCtx)
  | [] => .ok (0, c)
  | k :: ks => do
    let r ← subscriberTimeout c k now
    if r.1 ≠ 0 then return r else subscribersTimeout r.2 now ks

/-- rmc_pub_timeout.c:141-145: the answer of the announce callback: whether to send, and the payload it wrote (cut to the
size of the buffer). No callback: send an empty payload. -/
def annAnswer (cb : Option (Bool × List UInt8)) : Bool × List UInt8 :=
  match cb with
  | none => (true, [])
  | some (b, bs) => (b, bs.take RMC_MAX_PAYLOAD)

/-- rmc_pub_timeout.c:120-179 `rmc_pub_timeout_process`. `stackPtr` is the address of the local array. -/
def timeoutProcess (c : PubCtx) (now : Int) (cb : Option (Bool × List UInt8)) (stackPtr : Nat) : M (Nat × PubCtx) :=
  if c.annInterval ≠ 0 ∧ c.annNext ≠ 0 ∧ c.annNext - now ≤ 0 then do
    let c := ev c (.announce now c.annInterval)
    let a := annAnswer cb
    let r ← if a.1 then queuePacket c ⟨stackPtr, a.2, true⟩ true else .ok (0, c)
    return (0, { r.2 with annNext := now + r.2.annInterval })
  else do
    let ks ← Pub.timedOutSubscribers c.pub now c.resendTimeout c.pub.subs
    subscribersTimeout c now ks

/-- rmc_pub_timeout.c:182-228 `rmc_pub_timeout_get_next`. -/
def timeoutGetNext (c : PubCtx) : M Int := do
  let o ← Pub.oldestUnacked c.pub (-1) c.pub.subs
  let ack := if o ≠ -1 then o + c.resendTimeout else -1
  let ann := if c.annNext ≠ 0 then c.annNext else -1
  if ann = -1 ∧ ack = -1 then return -1
  else if ann ≠ -1 ∧ ack = -1 then return ann
  else if ann = -1 ∧ ack ≠ -1 then return ack
  else return if ack < ann then ack else ann

/-! ## rmc_pub_context.c -/

/-- Where `rmc_pub_activate_context` fails, with the descriptors obtained before: in socket() for the multicast socket (168-173),
in setsockopt(IP_MULTICAST_IF) (179-183), in socket() for the listen socket (189-193), or later, up to getsockname() (195-233). -/
inductive ActErr where
  | mcastSocket
  | mcastIf (md : Nat)
  | listenSocket (md : Nat)
  | listenSetup (md ld : Nat)

/-- What the socket calls of `rmc_pub_activate_context` yield: a failure (`e` is errno when the function returns), or both
descriptors and the port. -/
inductive ActRes where
  | error (e : Nat) (w : ActErr)
  | ok (r : Nat × Nat × Nat)

/-- `if (d != -1) close(d)`. -/
def closeIf (d : Option Nat) : List FdEv := if d = none then [] else [.closed d]

/-- rmc_pub_context.c:168-262: the descriptors opened and closed by an activation that fails. `old` is the listen descriptor the
context had before: it is closed by the error path if the listen socket was not reached. -/
def ActErr.fds (old : Option Nat) : ActErr → List FdEv
  | .mcastSocket => closeIf old
  | .mcastIf md => [.opened md, .closed (some md)] ++ closeIf old
  | .listenSocket md => [.opened md, .closed (some md)]
  | .listenSetup md ld => [.opened md, .opened ld, .closed (some md), .closed (some ld)]

/-- rmc_pub_context.c:155-263 `rmc_pub_activate_context`. Descriptors of an earlier activation are overwritten. -/
def activate (c : PubCtx) (r : ActRes) : Nat × PubCtx :=
  match r with
  | .error e w => (e, { c with mcast := none, listen := none, cv := c.cv.fdAll (w.fds c.listen) })
  | .ok (md, ld, port) =>
    let c := { c with mcast := some md, listen := some ld,
                      listenPort := if c.listenPort = 0 then port else c.listenPort,
                      cv := c.cv.fdAll [.opened md, .opened ld] }
    (0, { c with cv := (c.cv.poll (.add MULTICAST_INDEX c.mcast .R)).poll (.add LISTEN_INDEX c.listen .R) })

/-- rmc_pub_context.c:288-296: the loop closing all connections. -/
def closeAll (c : PubCtx) : List Nat → M PubCtx
  | [] => .ok c
  | i :: is =>
    if ConnVec.findByIndex c.cv i = none then closeAll c is
    else do
      let r ← closeConnection c i
      closeAll r.2 is

/-- rmc_pub_context.c:265-306 `rmc_pub_deactivate_context`. -/
def deactivate (c : PubCtx) : M (Nat × PubCtx) := do
  let c := { c with cv := (c.cv.poll (.remove MULTICAST_INDEX c.mcast)).poll (.remove LISTEN_INDEX c.listen) }
  let c ← if c.cv.maxInd = NIL_INDEX then .ok c else closeAll c (List.range (c.cv.maxInd + 1))
  return (0, { c with mcast := none, listen := none, cv := c.cv.fdAll [.closed c.mcast, .closed c.listen] })

/-- rmc_pub_context.c:320-337 `rmc_pub_set_announce_interval`. -/
def setAnnounceInterval (c : PubCtx) (interval : Nat) (now : Int) : PubCtx :=
  let next := if interval ≠ 0 ∧ c.annNext = 0 then now + interval else c.annNext
  ev { c with annInterval := interval, annNext := if interval = 0 then 0 else next } (.setAnnounce now interval)

/-- rmc_pub_context.c:400-414 `rmc_pub_set_control_message_callback`. -/
def setCtlCb (c : PubCtx) (set : Bool) : PubCtx := { c with ctlCb := some set }

/-- rmc_pub_context.c:453-462 `rmc_pub_get_subscriber_count`. -/
def subscriberCount (c : PubCtx) : Nat := c.cv.active

/-- rmc_pub_context.c:464-473 `rmc_pub_get_socket_count`. -/
def socketCount (c : PubCtx) : Nat :=
  subscriberCount c + (if c.mcast = none then 0 else 1) + (if c.listen = none then 0 else 1)

/-- rmc_pub_context.c:475-491 `rmc_pub_throttling`. -/
def throttling (c : PubCtx) (suspend resume : Nat) : Nat × PubCtx :=
  if suspend < resume then (EINVAL, c) else (0, { c with suspendThr := suspend, resumeThr := resume })

/-! ## Histories -/

/-- The API calls that change a publisher context, with what the environment answers. -/
inductive Op where
  | queue (p : Payload) (ann : Bool)
  | readListen (ar : ConnVec.AccRes) (cb : Option Bool)
  | readMcast (err : Option Nat)
  | read (i : Nat) (rv : Option (List UInt8))
  | writeMcast (rs : List SendRes)
  | write (i : Nat) (wv : Except Nat Nat)
  | timeout (now : Int) (cb : Option (Bool × List UInt8)) (stackPtr : Nat)
  | close (i : Nat)
  | setAnnounce (interval : Nat) (now : Int)
  | throttling (suspend resume : Nat)
  | setCtlCb (set : Bool)
  | activate (r : ActRes)
  | deactivate

/-- One API call: return code and new state. -/
def step (c : PubCtx) : Op → M (Nat × PubCtx)
  | .queue p ann => queuePacket c p ann
  | .readListen ar cb => readListen c ar cb
  | .readMcast err => .ok (readMcast c err)
  | .read i rv => readConn c i rv
  | .writeMcast rs => multicastWrite c rs
  | .write i wv => writeConn c i wv
  | .timeout now cb sp => timeoutProcess c now cb sp
  | .close i => closeConnection c i
  | .setAnnounce n now => .ok (0, setAnnounceInterval c n now)
  | .throttling s r => .ok (throttling c s r)
  | .setCtlCb b => .ok (0, setCtlCb c b)
  | .activate r => .ok (activate c r)
  | .deactivate => deactivate c

/-- A history of API calls: the return codes and the final state. -/
def run : PubCtx → List Op → M (List Nat × PubCtx)
  | c, [] => .ok ([], c)
  | c, op :: ops => do
    let r ← step c op
    let x ← run r.2 ops
    return (r.1 :: x.1, x.2)

end PubCtx
end Rmc
