import Verif.PubCtx
import Verif.SubCtx

/-! # The event loops of the test programs

rmc_proto_test_sub.c:272-320 and rmc_proto_test_pub.c:59-112 `process_events`: one epoll_wait() and the calls made for the events it reports. The
environment supplies the events together with the outcomes of the system calls made while they are handled. Not modelled: the computation of the
epoll_wait() timeout (see C27, C40 for the deadlines), a failing epoll_wait() (the program exits), and logging. -/

namespace Rmc

namespace SubCtx

/-- An event reported by epoll_wait(): the index stored with the descriptor (`data.u32`), whether EPOLLIN and EPOLLOUT are set, and the outcomes of the
system calls: `rs` of recvfrom() if the multicast socket is read, `rv` and `ts` of readv() and the clock if a connection is read, `so`, `nd`, `wv` of
getsockopt(), setsockopt() and writev() if a connection is written. -/
structure Event where
  idx : Nat
  rd : Bool
  wr : Bool
  rs : List RecvRes := []
  rv : Option (List UInt8) := none
  ts : Int := 0
  so : Except Nat Nat := .ok 0
  nd : Option Nat := none
  wv : Except Nat Nat := .ok 0

/-- rmc_proto_test_sub.c:59-74 `_descriptor`: the descriptor an index stands for. -/
def descriptorOf (c : SubCtx) (i : Nat) : Option Nat :=
  if i = MULTICAST_INDEX then c.mcast else if i = NIL_INDEX then none else (c.cv.conns i).desc

/-- rmc_sub_read.c:366-393: which read `rmc_sub_read` makes for an index. -/
def Event.readOp (e : Event) : Op := if e.idx = MULTICAST_INDEX then .readMcast e.rs else .read e.idx e.rv e.ts

/-- rmc_proto_test_sub.c:313-318: the write, and the connection is closed if the result is not 0 - whatever it is. -/
def onWrite (c : SubCtx) (e : Event) : M SubCtx := do
  let r ← step c (.write e.idx e.so e.nd e.wv)
  if r.1 ≠ 0 then do
    let x ← step r.2 (.close e.idx)
    return x.2
  else return r.2

/-- rmc_proto_test_sub.c:313-319: the second half of a round of the loop. -/
def onOut (c : SubCtx) (e : Event) : M SubCtx := if e.wr then onWrite c e else .ok c

/-- rmc_proto_test_sub.c:293-319: one round of the loop; the result of the read is only logged. -/
def onEvent (c : SubCtx) (e : Event) : M SubCtx :=
  if e.rd then do
    let r ← step c e.readOp
    onOut r.2 e
  else onOut c e

/-- rmc_proto_test_sub.c:292-320: the loop over the events, in the order in which they are handled (the array is walked from its end). -/
def onEvents : SubCtx → List Event → M SubCtx
  | c, [] => .ok c
  | c, e :: es => do
    let c ← onEvent c e
    onEvents c es

/-- rmc_proto_test_sub.c:272-320 `process_events`, from the array filled in by epoll_wait(). -/
def processEvents (c : SubCtx) (evs : List Event) : M SubCtx := onEvents c evs.reverse

end SubCtx

namespace PubCtx

/-- An event reported by epoll_wait(): the index stored with the descriptor, whether EPOLLIN and EPOLLOUT are set, and the outcomes of the system calls
and callbacks: `ar`, `cb` if the listening socket is read, `err` if the multicast socket is read, `rv` if a connection is read, `ss` if the multicast
socket is written, `wv` if a connection is written. -/
structure Event where
  idx : Nat
  rd : Bool
  wr : Bool
  ar : ConnVec.AccRes := .failed EAGAIN
  cb : Option Bool := none
  err : Option Nat := none
  rv : Option (List UInt8) := none
  ss : List SendRes := []
  wv : Except Nat Nat := .ok 0

/-- rmc_proto_test_pub.c:39-57 `_descriptor`: the descriptor an index stands for. -/
def descriptorOf (c : PubCtx) (i : Nat) : Option Nat :=
  if i = MULTICAST_INDEX then c.mcast else if i = LISTEN_INDEX then c.listen else if i = NIL_INDEX then none else (c.cv.conns i).desc

/-- rmc_pub_read.c:119-240: which read `rmc_pub_read` makes for an index. -/
def Event.readOp (e : Event) : Op :=
  if e.idx = LISTEN_INDEX then .readListen e.ar e.cb
  else if e.idx = MULTICAST_INDEX then .readMcast e.err
  else .read e.idx e.rv

/-- rmc_pub_write.c:233-256: which write `rmc_pub_write` makes for an index. -/
def Event.writeOp (e : Event) : Op := if e.idx = MULTICAST_INDEX then .writeMcast e.ss else .write e.idx e.wv

/-- rmc_proto_test_pub.c:104-108: the write, and the connection is closed unless the result is 0, EAGAIN or ENODATA. -/
def onWrite (c : PubCtx) (e : Event) : M PubCtx := do
  let r ← step c e.writeOp
  if r.1 ≠ 0 ∧ r.1 ≠ EAGAIN ∧ r.1 ≠ ENODATA then do
    let x ← step r.2 (.close e.idx)
    return x.2
  else return r.2

/-- rmc_proto_test_pub.c:104-109: the second half of a round of the loop. -/
def onOut (c : PubCtx) (e : Event) : M PubCtx := if e.wr then onWrite c e else .ok c

/-- rmc_proto_test_pub.c:81-109: one round of the loop; the result of the read is only logged. -/
def onEvent (c : PubCtx) (e : Event) : M PubCtx :=
  if e.rd then do
    let r ← step c e.readOp
    onOut r.2 e
  else onOut c e

/-- rmc_proto_test_pub.c:80-110: the loop over the events, in the order in which they are handled. -/
def onEvents : PubCtx → List Event → M PubCtx
  | c, [] => .ok c
  | c, e :: es => do
    let c ← onEvent c e
    onEvents c es

/-- rmc_proto_test_pub.c:59-112 `process_events`, from the array filled in by epoll_wait(). -/
def processEvents (c : PubCtx) (evs : List Event) : M PubCtx := onEvents c evs.reverse

end PubCtx
end Rmc
