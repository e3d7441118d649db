import Verif.Conn
import Verif.Proto
import Verif.Sub

/-!
# Model of the subscriber context

`/repo/rmc_sub_packet.c`, `/repo/rmc_sub_read.c`, `/repo/rmc_sub_write.c`, `/repo/rmc_sub_timeout.c` and the parts of
`/repo/rmc_sub_context.c` that change the context. Results of socket calls, of the clock and of the user's callbacks
are parameters of the operations; the packet ready callback is a function of how often it was called before and of the
ready list, and may mark packets dispatched. What happens at the borders of the library (packets arriving, packets
becoming ready, payload memory, acknowledgements and control messages put on a connection, bytes leaving, connections)
is recorded in `log`, a ghost field no function reads; poll callbacks are recorded in `cv.polls`; the opening and closing of
descriptors (of connections and of the multicast socket) is recorded in `cv.fds`.

Simplifications: null contexts, packets and payloads, and `*op_res`, are not modelled; callbacks other than the packet
ready callback do not call back into the library; `malloc` succeeds (also for 0 bytes) and returns an address never
used before; packet structures are not reused (the code frees them only when a publisher record is reset), so each keeps its address for ever; the clock reading of a
packet resent over TCP, which has no effect, is one per call; the array of `max_publishers` `sub_publisher_t`s is a
function of the index, `none` standing for a record never initialised (it is allocated by `malloc`).
-/

namespace Rmc

/-- The `user_data` handed to the payload_free callback: that of the context (`ctx->user_data`, rmc_sub_packet.c:117), or one made of
a number by `user_data_u32` (reliable_multicast.h:36). -/
inductive UData where
  | ctx
  | u32 (n : Nat)
  deriving DecidableEq, Repr

/-- Ghost record of what happens at the borders of the subscriber. -/
inductive SEv where
  | connect (i addr port : Nat)                        -- a connection attempt occupies slot `i`
  | complete (i : Nat)                                 -- the connection in slot `i` is set up, the subscription starts
  | closed (i : Nat)                                   -- `rmc_sub_close_connection` on slot `i`
  | announceCb (ok : Bool)                             -- announce callback and its answer
  | arrive (i : Nat) (p : SPkt) (mcast : Bool) (ts : Int) -- a data packet came in for slot `i`
  | ready (p : SPkt)                                   -- a packet is appended to the ready list
  | alloc (p : SPkt)                                   -- payload memory is allocated for a packet
  | free (a len : Nat) (u : UData)                     -- payload memory is given back: payload_free(a, len, u)
  | keep (a : Nat)                                     -- payload memory is handed over to the user
  | readyCb                                            -- packet ready callback
  | taken (i : Nat) (iv : Intv)                        -- an interval is taken off the record of slot `i`
  | ack (i : Nat) (first last : Nat)                   -- an acknowledgement is put on the connection of slot `i`
  | ctl (i : Nat) (bs ds : List UInt8)                 -- a control message `bs` is put on the connection of slot `i` as `ds`
  | tcpOut (i : Nat) (bs : List UInt8)                 -- writev() on connection `i` took these bytes
  deriving DecidableEq, Repr

/-- What the packet ready callback can do: mark packets dispatched, with or without freeing the payload. -/
inductive UOp where
  | dispatched (a : Nat)
  | keep (a : Nat)
  deriving DecidableEq, Repr

/-- rmc_internal.h:252-365 `struct rmc_sub_context`. -/
structure SubCtx where
  cv : ConnVec
  publishers : Nat → Option SubPub
  ready : List SPkt
  ackList : List Nat
  mcast : Option Nat
  nodeId : Nat
  ackTimeout : Int
  readyCb : Option (Nat → List SPkt → List UOp)
  cbCount : Nat
  nextAddr : Nat
  log : List SEv

namespace SubCtx
open SubPub

/-- rmc_internal.h:42 RMC_DEFAULT_ACK_TIMEOUT. -/
def DEFAULT_ACK_TIMEOUT : Int := 50000

/-- rmc_sub_context.c:26-129 `rmc_sub_init_context` (addresses resolve, memory is available). `mem` is the
uninitialised connection array; the publisher records are left uninitialised (124). -/
def init (mem : Nat → Conn) (maxPubs nodeId : Nat) : SubCtx :=
  { cv := ConnVec.init mem maxPubs RMC_MAX_PACKET, publishers := fun _ => none, ready := [], ackList := [],
    mcast := none, nodeId := nodeId, ackTimeout := DEFAULT_ACK_TIMEOUT, readyCb := none, cbCount := 0, nextAddr := 1,
    log := [] }

/-- Append to the ghost log. -/
def ev (c : SubCtx) (e : SEv) : SubCtx := { c with log := c.log ++ [e] }

/-- A call of the poll_modify callback. -/
def pollModify (c : SubCtx) (i : Nat) (d : Option Nat) (old new : Act) : SubCtx :=
  { c with cv := c.cv.poll (.modify i d old new) }

/-- Write one connection. -/
def setConn (c : SubCtx) (i : Nat) (x : Conn) : SubCtx := { c with cv := c.cv.set i x }

/-- Write one publisher record. -/
def setPub (c : SubCtx) (i : Nat) (p : SubPub) : SubCtx :=
  { c with publishers := fun j => if j = i then some p else c.publishers j }

/-- Read a publisher record. -/
def getPub (c : SubCtx) (i : Nat) : M SubPub :=
  match c.publishers i with
  | none => .error .uninit
  | some p => .ok p

/-! ## rmc_sub_packet.c -/

/-- rmc_sub_packet.c:64-70 `rmc_sub_get_dispatch_ready_count`. -/
def readyCount (c : SubCtx) : Nat := c.ready.length

/-- rmc_sub_packet.c:72-81 `rmc_sub_get_next_dispatch_ready`. -/
def nextReady (c : SubCtx) : Option SPkt := c.ready.head?

/-- rmc_list_template.h `_find_node` (from the head) with rmc_sub_packet.c:83-86 `_compare_packet` (equal pointers),
then `_delete`: the packet found and the list without it. -/
def takeReady (a : Nat) : List SPkt → Option (SPkt × List SPkt)
  | [] => none
  | p :: ps => if p.addr = a then some (p, ps) else (takeReady a ps).map fun r => (r.1, p :: r.2)

/-- rmc_sub_packet.c:89-105 `rmc_sub_packet_dispatched_keep_payload`; `a` is the address of the packet. -/
def dispatchedKeep (c : SubCtx) (a : Nat) : Nat × SubCtx :=
  match takeReady a c.ready with
  | none => (ENOENT, c)
  | some (p, ps) => (0, ev { c with ready := ps } (.keep p.payload.ptr))

/-- rmc_sub_packet.c:109-122 `rmc_sub_packet_dispatched`. (It does what `dispatchedKeep` does, then frees the payload;
only the ghost event differs.) -/
def dispatched (c : SubCtx) (a : Nat) : Nat × SubCtx :=
  match takeReady a c.ready with
  | none => (ENOENT, c)
  | some (p, ps) => (0, ev { c with ready := ps } (.free p.payload.ptr p.payload.data.length .ctx))

/-- What a packet ready callback does. -/
def userOp (c : SubCtx) : UOp → SubCtx
  | .dispatched a => (dispatched c a).2
  | .keep a => (dispatchedKeep c a).2

/-- A call of the packet ready callback: rmc_sub_read.c:128-129 and 344-345. -/
def runReadyCb (c : SubCtx) : SubCtx :=
  match c.readyCb with
  | none => c
  | some f => (f c.cbCount c.ready).foldl userOp (ev { c with cbCount := c.cbCount + 1 } .readyCb)

/-- sub.c:195-201 `sub_oldest_unacknowledged_packet` of the record at an index. -/
def oldestAt (c : SubCtx) (i : Nat) : M Int := do return oldest (← getPub c i)

/-- rmc_list_template.h:381-401 `_insert_sorted_node_rev` with rmc_sub_packet.c:16-28
`_compare_oldest_unackowledged_packet`, on the list in the order visited (tail first). `n` is the timestamp of the new
element. -/
def insertAckRev (c : SubCtx) (i : Nat) (n : Int) : List Nat → M (List Nat)
  | [] => .ok [i]
  | j :: js => do
    let o ← oldestAt c j
    if n ≥ o then return i :: j :: js
    else do
      let r ← insertAckRev c i n js
      return j :: r

/-- rmc_sub_packet.c:46-50: put the index on `pub_ack_list` unless the publisher has unacknowledged packets already. The
interval of the new packet is only added afterwards. -/
def noteAck (c : SubCtx) (i : Nat) : M SubCtx := do
  let o ← oldestAt c i
  if o ≠ 0 then return c
  else do
    let l ← insertAckRev c i o c.ackList.reverse
    return { c with ackList := l.reverse }

/-! ## rmc_sub_read.c: a data packet -/

/-- rmc_sub_read.c:79-131 (multicast) and 290-347 (resend over TCP, `mcast = false`): a data packet for the connection
in slot `i`. 109-113 go through rmc_sub_packet.c:31-62 `rmc_sub_packet_received`, 332-337 directly to
`sub_packet_received`. -/
def deliver (c : SubCtx) (i pid : Nat) (data : List UInt8) (mcast : Bool) (ts : Int) : M SubCtx := do
  let s ← getPub c i
  let p : SPkt := ⟨c.nextAddr, pid, ⟨c.nextAddr, data, false⟩, i⟩
  let c := ev c (.arrive i p mcast ts)
  if isDuplicate s pid then return c
  else do
    let c := ev { c with nextAddr := c.nextAddr + 1 } (.alloc p)
    let c ← if mcast then noteAck c i else .ok c
    let r := process (received' s p mcast ts)
    let c := setPub c i r.1
    let c := { c with ready := c.ready ++ r.2, log := c.log ++ r.2.map .ready }
    return if r.2 = [] then c else runReadyCb c

/-- rmc_sub_read.c:251-348 `process_cmd_packet`. Simplification: the payload is read from the buffer before it is known
whether the packet is a duplicate (the code reads it only if it is not; the read changes nothing). -/
def processPacket (i : Nat) (ts : Int) : Proto.Handler SubCtx := fun c b =>
  if CircBuf.inUse b < 1 + HDR_LEN then .ok (EAGAIN, c, b)
  else do
    let r ← CircBuf.readOffset b 1 HDR_LEN
    let h := PacketHeader.dec r.2
    if CircBuf.inUse b < 1 + HDR_LEN + h.payloadLen then return (EAGAIN, c, b)
    else do
      let b := (CircBuf.free b (1 + HDR_LEN)).1
      let r ← CircBuf.read b h.payloadLen
      let c ← deliver c i h.pid r.2 false ts
      return (0, c, (CircBuf.free b h.payloadLen).1)

/-- rmc_sub_read.c:372-375 the dispatch table. -/
def table (i : Nat) (ts : Int) : Proto.Table SubCtx := [(CMD_PACKET, processPacket i ts)]

/-- sub.c:127-155 `sub_process_received_packets` on the record at an index, from rmc_sub_read.c:425. No ready callback is
made here. -/
def processAt (c : SubCtx) (i : Nat) : M SubCtx := do
  let s ← getPub c i
  let r := process s
  let c := setPub c i r.1
  return { c with ready := c.ready ++ r.2, log := c.log ++ r.2.map .ready }

/-- rmc_sub_read.c:355-364 `rmc_sub_close_connection`. The result of closing the connection is ignored; the publisher
record is accessed without a check of the index. -/
def closeConnection (c : SubCtx) (i : Nat) : M (Nat × SubCtx) :=
  let c := { c with cv := (ConnVec.close c.cv i).2 }
  if i ≥ c.cv.size then .error .oob
  else do
    let s ← getPub c i
    let r := reset s
    let c := setPub (ev c (.closed i)) i r.1
    return (0, { c with log := c.log ++ r.2.map fun p => .free p.payload.ptr p.payload.data.length (.u32 p.slot) })

/-- rmc_sub_read.c:393-448: `rmc_sub_read` on a connection; `rv` as in `Proto.tcpRead`. As in the publisher, 2^32 bounds
the number of commands in a read buffer. -/
def readConn (c : SubCtx) (i : Nat) (rv : Option (List UInt8)) (ts : Int) : M (Nat × SubCtx) :=
  if ConnVec.findByIndex c.cv i = none ∨ (c.cv.conns i).mode ≠ .connected then .ok (ENOTCONN, c)
  else do
    let r ← Proto.tcpRead (table i ts) U32 c (c.cv.conns i).readBuf rv
    let c := r.2.1
    let c := setConn c i { c.cv.conns i with readBuf := r.2.2 }
    if r.1 = ENOMEM then return (ENOMEM, pollModify c i (c.cv.conns i).desc .R .R)
    else if r.1 = EPIPE then do
      let r ← closeConnection c i
      return (0, r.2)
    else do
      let c ← processAt c i
      if r.1 = EPROTO then do
        let x ← closeConnection c i
        return (EPROTO, x.2)
      else return (r.1, pollModify c i (c.cv.conns i).desc .R .R)

/-! ## rmc_sub_read.c: multicast -/

/-- What recvfrom() yields: an error, or a datagram with its source address, the clock, the answer of the announce
callback (if one is set) and the results of socket() and connect() (if they are called). -/
inductive RecvRes where
  | err (e : Nat)
  | dgram (src : Nat) (bs : List UInt8) (ts : Int) (ann : Option Bool) (sk : Except Nat Nat) (cr : ConnVec.ConnRes)

/-- rmc_sub_read.c:40-55: an announcement from a publisher not subscribed to. -/
def announced (c : SubCtx) (h : PacketHeader) (ann : Option Bool) (sk : Except Nat Nat) (cr : ConnVec.ConnRes) : SubCtx :=
  let c := match ann with
    | none => c
    | some a => ev c (.announceCb a)
  if ann = some false then c
  else
    let r := ConnVec.connect c.cv h.listenIp h.listenPort h.nodeId sk cr
    let c := { c with cv := r.2.2 }
    match r.2.1 with
    | none => c
    | some i => ev c (.connect i h.listenIp h.listenPort)

/-- rmc_sub_read.c:135-197 `process_multicast_read` with 16-56 `decode_unsubscribed_multicast` and 59-132
`decode_subscribed_multicast`: the datagram `bs` from `src`. -/
def mcastPacket (c : SubCtx) (src : Nat) (bs : List UInt8) (ts : Int) (ann : Option Bool) (sk : Except Nat Nat)
    (cr : ConnVec.ConnRes) : M (Nat × SubCtx) :=
  if bs.length < HDR_LEN then .ok (EPROTO, c)
  else
    let h := PacketHeader.dec (bs.take HDR_LEN)
    if bs.length < HDR_LEN + h.payloadLen then .ok (EPROTO, c)
    else
      let h := { h with listenIp := if h.listenIp = 0 then src else h.listenIp }
      let data := (bs.drop HDR_LEN).take h.payloadLen
      match ConnVec.findByAddress c.cv h.listenIp h.listenPort with
      | none => .ok (0, if h.pid ≠ 0 then c else announced c h ann sk cr)
      | some i =>
        if (c.cv.conns i).mode = .connecting then .ok (0, if h.pid ≠ 0 then c else announced c h ann sk cr)
        else if h.pid = 0 then .ok (0, c)
        else do
          let c ← deliver c i h.pid data true ts
          return (0, c)

/-- rmc_sub_read.c:218-236: the loop of `multicast_read`; when the list is exhausted recvfrom() would block. -/
def mcastLoop (c : SubCtx) : List RecvRes → M (Nat × SubCtx)
  | [] => .ok (EAGAIN, c)
  | .err e :: _ => .ok (e, c)
  | .dgram src bs ts ann sk cr :: rs =>
    if bs = [] then .ok (EAGAIN, c)
    else do
      let r ← mcastPacket c src (bs.take RMC_MAX_PACKET) ts ann sk cr
      if r.1 ≠ 0 then return r else mcastLoop r.2 rs

/-- rmc_sub_read.c:384-390 with 200-249 `multicast_read`: `rmc_sub_read` on the multicast socket. -/
def readMcast (c : SubCtx) (rs : List RecvRes) : M (Nat × SubCtx) :=
  if c.mcast = none then .ok (ENOTCONN, c)
  else do
    let r ← mcastLoop c rs
    return (if r.1 = EAGAIN then 0 else r.1, pollModify r.2 MULTICAST_INDEX r.2.mcast .R .R)

/-! ## rmc_sub_write.c -/

/-- rmc_sub_write.c:121-129 and 219-227: ask for write readiness. -/
def armWrite (c : SubCtx) (i : Nat) (b : CircBuf) : SubCtx :=
  let x := c.cv.conns i
  pollModify (setConn c i { x with writeBuf := b, action := x.action.setW }) i x.desc x.action x.action.setW

/-- rmc_sub_packet.c:124-137 `rmc_sub_packet_interval_acknowledged` and rmc_sub_write.c:27-131
`rmc_sub_write_interval_acknowledgement`. -/
def writeAck (c : SubCtx) (i : Nat) (iv : Intv) : M (Nat × SubCtx) :=
  let x := c.cv.conns i
  if x.mode ≠ .connected then .ok (EINVAL, c)
  else if CircBuf.available x.writeBuf < 1 + ACK_LEN then .ok (ENOMEM, c)
  else do
    let r ← Proto.putCmd x.writeBuf CMD_ACK_INTERVAL
    if r.1 ≠ 0 then return (ENOMEM, c)
    else do
      let q ← CircBuf.put r.2 (AckInterval.enc ⟨iv.first, iv.last⟩)
      if q.1 ≠ 0 then return (ENOMEM, setConn c i { x with writeBuf := q.2 })
      else return (0, armWrite (ev c (.ack i iv.first iv.last)) i q.2)

/-- The bytes of a 64-bit pointer variable, lowest first. -/
def ptrBytes (p : Nat) : List UInt8 := (List.range 8).map fun k => UInt8.ofNat (p / 256 ^ k)

/-- rmc_sub_write.c:212-216: the payload is copied from `payload` into the first segment; the rest is copied from
`&payload` (the address of the pointer variable) into the second. -/
def ctlPayload (bs : List UInt8) (ptr : Nat) (s1 s2 : Region) : M (List UInt8) :=
  if s2.len = 0 then .ok (bs.take s1.len)
  else if s1.len + s2.len > 8 then .error .oob
  else .ok (bs.take s1.len ++ ((ptrBytes ptr).drop s1.len).take s2.len)

/-- rmc_sub_write.c:135-231 `rmc_sub_write_control_message`. `ptr` is the address of the payload. -/
def writeCtl (c : SubCtx) (i : Nat) (bs : List UInt8) (ptr : Nat) : M (Nat × SubCtx) :=
  let x := c.cv.conns i
  if bs = [] then .ok (EINVAL, c)
  else if x.mode ≠ .connected then .ok (ENOTCONN, c)
  else if CircBuf.available x.writeBuf < 1 + CTL_LEN + bs.length + 1 then .ok (ENOMEM, c)
  else do
    let r ← Proto.putCmd x.writeBuf CMD_CONTROL_MESSAGE
    if r.1 ≠ 0 then return (ENOMEM, c)
    else do
      let q ← CircBuf.put r.2 (ctlEnc bs.length)
      if q.1 ≠ 0 then return (ENOMEM, setConn c i { x with writeBuf := q.2 })
      else
        let a := CircBuf.alloc q.2 bs.length
        if a.1 ≠ 0 then return (ENOMEM, setConn c i { x with writeBuf := a.2.2.2 })
        else do
          let d ← ctlPayload bs ptr a.2.1 a.2.2.1
          let b ← CircBuf.scatter a.2.2.2 a.2.1 a.2.2.1 d
          return (0, armWrite (ev c (.ctl i bs d)) i b)

/-- rmc_sub_write.c:235-253 and 257-273: the same by address or by node id; `o` is the connection found. -/
def writeCtlTo (c : SubCtx) (o : Option Nat) (bs : List UInt8) (ptr : Nat) : M (Nat × SubCtx) :=
  if bs = [] then .ok (EINVAL, c)
  else match o with
    | none => .ok (ENOTCONN, c)
    | some i => if (c.cv.conns i).mode ≠ .connected then .ok (ENOTCONN, c) else writeCtl c i bs ptr

/-- rmc_sub_write.c:276-345 `rmc_sub_write`. `so` and `nd` as in `ConnVec.complete`, `wv` as in `Proto.tcpWrite`. -/
def writeConn (c : SubCtx) (i : Nat) (so : Except Nat Nat) (nd : Option Nat) (wv : Except Nat Nat) : M (Nat × SubCtx) :=
  if ConnVec.findByIndex c.cv i = none then .ok (ENOTCONN, c)
  else if (c.cv.conns i).mode = .connecting then
    let c := setPub c i SubPub.init
    let r := ConnVec.complete c.cv i so nd
    let c := { c with cv := r.2 }
    if r.1 ≠ 0 then .ok (r.1, { c with cv := (ConnVec.close c.cv i).2 })
    else .ok (0, ev c (.complete i))
  else if CircBuf.inUse (c.cv.conns i).writeBuf = 0 then .ok (ENODATA, c)
  else do
    let x := c.cv.conns i
    let r ← Proto.tcpWrite x.writeBuf wv
    let act := if r.2.1 = 0 then x.action.clearW else x.action.setW
    let c := setConn c i { x with writeBuf := r.2.2.1, action := act }
    return (r.1, pollModify (ev c (.tcpOut i r.2.2.2)) i x.desc x.action act)

/-! ## rmc_sub_timeout.c -/

/-- rmc_sub_timeout.c:69-76: take all intervals off the record at `i` (here given) and acknowledge them. -/
def ackAll (c : SubCtx) (i : Nat) (s : SubPub) : List Intv → M (Nat × SubCtx)
  | [] => .ok (0, c)
  | iv :: rest => do
    let c := ev (setPub c i { s with intervals := rest }) (.taken i iv)
    let r ← writeAck c i iv
    if r.1 ≠ 0 then return r else ackAll r.2 i s rest

/-- rmc_sub_timeout.c:44-82: the loop over `pub_ack_list`, which is the list given. -/
def timeoutLoop (c : SubCtx) (now : Int) : List Nat → M (Nat × SubCtx)
  | [] => .ok (0, c)
  | i :: is => do
    let s ← getPub c i
    if oldest s + c.ackTimeout > now then return (0, c)
    else do
      let r ← ackAll c i s s.intervals
      if r.1 ≠ 0 then return r
      else timeoutLoop { r.2 with ackList := is } now is

/-- rmc_sub_timeout.c:21-83 `rmc_sub_timeout_process`. -/
def timeoutProcess (c : SubCtx) (now : Int) : M (Nat × SubCtx) := timeoutLoop c now c.ackList

/-- rmc_sub_timeout.c:86-104 `rmc_sub_timeout_get_next`. -/
def timeoutGetNext (c : SubCtx) : M Int :=
  match c.ackList with
  | [] => .ok (-1)
  | i :: _ => do
    let o ← oldestAt c i
    return o + c.ackTimeout

/-! ## rmc_sub_context.c -/

/-- What the socket calls of rmc_sub_activate_context yield: success, failure of bind() (173-178), failure of socket()
(147-152), failure of one of the calls of setsockopt() (154-164, 181-207). -/
inductive ActRes where
  | ok (d : Nat)
  | bindFailed (d e : Nat)
  | failed (e : Nat)
  | setupFailed (d e : Nat)

/-- rmc_sub_context.c:132-220 `rmc_sub_activate_context`. A failing bind() returns without closing the socket. -/
def activate (c : SubCtx) (r : ActRes) : Nat × SubCtx :=
  if c.mcast ≠ none then (EEXIST, c)
  else match r with
    | .ok d => (0, { c with mcast := some d, cv := (c.cv.fdAll [.opened d]).poll (.add MULTICAST_INDEX (some d) .R) })
    | .bindFailed d e => (e, { c with mcast := some d, cv := c.cv.fdAll [.opened d] })
    | .failed e => (e, c)
    | .setupFailed d e => (e, { c with cv := c.cv.fdAll [.opened d, .closed (some d)] })

/-- rmc_sub_context.c:234-235: each packet is popped from the ready list and then marked dispatched. -/
def popReady (c : SubCtx) : List SPkt → SubCtx
  | [] => { c with ready := [] }
  | p :: ps => popReady (dispatched { c with ready := ps } p.addr).2 ps

/-- rmc_sub_context.c:249-257: the loop closing all connections. -/
def closeAll (c : SubCtx) : List Nat → M SubCtx
  | [] => .ok c
  | i :: is =>
    if ConnVec.findByIndex c.cv i = none then closeAll c is
    else do
      let r ← closeConnection c i
      closeAll r.2 is

/-- rmc_sub_context.c:224-260 `rmc_sub_deactivate_context`. -/
def deactivate (c : SubCtx) : M (Nat × SubCtx) := do
  let c := popReady c c.ready
  let c := { c with ackList := [], mcast := none,
                    cv := (c.cv.fdAll [.closed c.mcast]).poll (.remove MULTICAST_INDEX c.mcast) }
  let c ← closeAll c (List.range (c.cv.maxInd + 1))
  return (0, c)

/-- rmc_sub_context.c:351-359 `rmc_sub_set_packet_ready_callback`. -/
def setReadyCb (c : SubCtx) (f : Option (Nat → List SPkt → List UOp)) : SubCtx := { c with readyCb := f }

/-- rmc_sub_context.c:339-349 `rmc_sub_get_publisher_count`. -/
def publisherCount (c : SubCtx) : Nat := c.cv.active

/-- rmc_sub_context.c:361-369 `rmc_sub_get_socket_count`. -/
def socketCount (c : SubCtx) : Nat := publisherCount c + (if c.mcast = none then 0 else 1)

/-! ## Histories -/

/-- The API calls that change a subscriber context, with what the environment answers. -/
inductive Op where
  | readMcast (rs : List RecvRes)
  | read (i : Nat) (rv : Option (List UInt8)) (ts : Int)
  | write (i : Nat) (so : Except Nat Nat) (nd : Option Nat) (wv : Except Nat Nat)
  | timeout (now : Int)
  | dispatched (a : Nat)
  | keep (a : Nat)
  | close (i : Nat)
  | ctlAddr (addr port : Nat) (bs : List UInt8) (ptr : Nat)
  | ctlNode (nid : Nat) (bs : List UInt8) (ptr : Nat)
  | setReadyCb (f : Option (Nat → List SPkt → List UOp))
  | activate (r : ActRes)
  | deactivate

/-- One API call: return code and new state. -/
def step (c : SubCtx) : Op → M (Nat × SubCtx)
  | .readMcast rs => readMcast c rs
  | .read i rv ts => readConn c i rv ts
  | .write i so nd wv => writeConn c i so nd wv
  | .timeout now => timeoutProcess c now
  | .dispatched a => .ok (dispatched c a)
  | .keep a => .ok (dispatchedKeep c a)
  | .close i => closeConnection c i
  | .ctlAddr a p bs ptr => writeCtlTo c (ConnVec.findByAddress c.cv a p) bs ptr
  | .ctlNode n bs ptr => writeCtlTo c (ConnVec.findByNodeId c.cv n) bs ptr
  | .setReadyCb f => .ok (0, setReadyCb c f)
  | .activate r => .ok (activate c r)
  | .deactivate => deactivate c

/-- A history of API calls: the return codes and the final state. -/
def run : SubCtx → List Op → M (List Nat × SubCtx)
  | c, [] => .ok ([], c)
  | c, op :: ops => do
    let r ← step c op
    let x ← run r.2 ops
    return (r.1 :: x.1, x.2)

end SubCtx
end Rmc
