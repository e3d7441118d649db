import Verif.CircBuf

/-!
# Model of `/repo/rmc_connection.c`: the connection vector

Connections are identified by their index. The array is a function of the index; only indices below
`size` exist (`C45_bound` proves that the highest-index bound, up to which the code scans, stays below
`size`). Socket calls are not modelled: their results are parameters of the operations. A descriptor of -1 is
`none`. The poll callbacks are recorded in `polls`, the calls of socket(), accept() and close() in `fds`: ghost lists that no
function reads.

Simplifications: null arguments (36, 63, 83, 181, 451, 460, 471, 480) are not modelled; the poll callbacks are
all supplied; `size` is at most `RMC_LISTEN_INDEX`; the bit mask of poll actions is a pair of booleans; the size of
the TCP buffers, `RMC_MAX_PACKET` in the code, is a parameter of the vector.
-/

namespace Rmc

/-- reliable_multicast.h `RMC_NIL_INDEX`, `RMC_MULTICAST_INDEX`, `RMC_LISTEN_INDEX`. -/
def NIL_INDEX : Nat := 0x7FFF
def MULTICAST_INDEX : Nat := 0x7FFE
def LISTEN_INDEX : Nat := 0x7FFD

/-- rmc_poll_action_t: `RMC_POLLREAD` and `RMC_POLLWRITE`. -/
structure Act where
  r : Bool
  w : Bool
  deriving DecidableEq, Repr

namespace Act
def none : Act := ⟨false, false⟩
def R : Act := ⟨true, false⟩
def W : Act := ⟨false, true⟩
/-- `action | RMC_POLLWRITE` and `action & ~RMC_POLLWRITE`. -/
def setW (a : Act) : Act := { a with w := true }
def clearW (a : Act) : Act := { a with w := false }
end Act

/-- A call of one of the three poll callbacks: index, descriptor, (old and) new action. -/
inductive PollEv where
  | add (i : Nat) (d : Option Nat) (a : Act)
  | modify (i : Nat) (d : Option Nat) (old new : Act)
  | remove (i : Nat) (d : Option Nat)
  deriving DecidableEq, Repr

/-- A descriptor obtained from socket() or accept(), or given to close() (`none`: close(-1)). -/
inductive FdEv where
  | opened (d : Nat)
  | closed (d : Option Nat)
  deriving DecidableEq, Repr

/-- rmc_internal.h:92-102 connection modes. -/
inductive Mode where
  | closed
  | connecting
  | connected
  deriving DecidableEq, Repr

/-- rmc_internal.h:58-106 `rmc_connection_t`. -/
structure Conn where
  index : Nat
  action : Act
  desc : Option Nat
  nodeId : Nat
  readBuf : CircBuf
  writeBuf : CircBuf
  mode : Mode
  port : Nat
  addr : Nat

/-- rmc_internal.h:112-137 `rmc_connection_vector_t`. -/
structure ConnVec where
  size : Nat
  bufSize : Nat
  maxInd : Nat
  active : Nat
  conns : Nat → Conn
  polls : List PollEv
  fds : List FdEv

namespace ConnVec

/-- Write one connection. -/
def set (v : ConnVec) (i : Nat) (c : Conn) : ConnVec :=
  { v with conns := fun j => if j = i then c else v.conns j }

/-- Record a poll callback. -/
def poll (v : ConnVec) (e : PollEv) : ConnVec := { v with polls := v.polls ++ [e] }

/-- Record the opening or closing of a descriptor. -/
def fd (v : ConnVec) (e : FdEv) : ConnVec := { v with fds := v.fds ++ [e] }

/-- Record several. -/
def fdAll (v : ConnVec) (es : List FdEv) : ConnVec := { v with fds := v.fds ++ es }

/-- rmc_connection.c:134-145 `rmc_conn_reset_connection`. -/
def resetConn (bufSize : Nat) (c : Conn) (i : Nat) : Conn :=
  { index := i, action := .none, desc := none, nodeId := 0, mode := .closed,
    readBuf := CircBuf.init c.readBuf.data bufSize, writeBuf := CircBuf.init c.writeBuf.data bufSize,
    port := 0, addr := 0 }

/-- rmc_connection.c:147-170 `rmc_conn_init_connection_vector`. `mem` is the uninitialised array. -/
def init (mem : Nat → Conn) (size bufSize : Nat) : ConnVec :=
  { size := size, bufSize := bufSize, maxInd := NIL_INDEX, active := 0,
    conns := fun i => resetConn bufSize (mem i) i, polls := [], fds := [] }

/-- rmc_connection.c:27-58 `rmc_conn_find_by_address`: the loop from 0 to the highest index. -/
def findByAddress (v : ConnVec) (addr port : Nat) : Option Nat :=
  if v.maxInd = NIL_INDEX then none
  else (List.range (v.maxInd + 1)).find? fun i =>
    decide ((v.conns i).desc ≠ none ∧ addr = (v.conns i).addr ∧ port = (v.conns i).port)

/-- rmc_connection.c:60-74 `rmc_conn_find_by_index`. -/
def findByIndex (v : ConnVec) (i : Nat) : Option Nat :=
  if i ≥ v.size then none
  else if (v.conns i).mode = .closed then none
  else some i

/-- rmc_connection.c:77-96 `rmc_conn_find_by_node_id`. -/
def findByNodeId (v : ConnVec) (nid : Nat) : Option Nat :=
  if v.maxInd = NIL_INDEX then none
  else (List.range (v.maxInd + 1)).find? fun i =>
    decide ((v.conns i).desc ≠ none ∧ (v.conns i).nodeId = nid)

/-- rmc_connection.c:99-116 `_get_free_slot`: the first free slot and the vector with `max_connection_ind` raised;
`none` is `RMC_NIL_INDEX`. -/
def getFreeSlot (v : ConnVec) : Option Nat × ConnVec :=
  match (List.range v.size).find? fun i => decide ((v.conns i).desc = none) with
  | some i => (some i, if v.maxInd < i ∨ v.maxInd = NIL_INDEX then { v with maxInd := i } else v)
  | none => (none, v)

/-- rmc_connection.c:118-131 `_reset_max_connection_ind`. -/
def resetMax (v : ConnVec) : ConnVec :=
  match (List.range v.size).reverse.find? fun i => decide ((v.conns i).desc ≠ none) with
  | some i => { v with maxInd := i }
  | none => { v with maxInd := NIL_INDEX }

/-- rmc_connection.c:401-446 `rmc_conn_close_connection`. -/
def close (v : ConnVec) (i : Nat) : Nat × ConnVec :=
  if i ≥ v.size then (EINVAL, v)
  else if (v.conns i).mode = .closed then (ENOTCONN, v)
  else
    let v := poll v (.remove i (v.conns i).desc)
    let v := fd v (.closed (v.conns i).desc)
    let v := set v i (resetConn v.bufSize (v.conns i) i)
    let v := if i = v.maxInd then resetMax v else v
    (0, { v with active := (v.active + 65535) % 65536 })

/-- rmc_connection.c:174-255 `rmc_conn_complete_connection`. `so` is the result of `getsockopt(SO_ERROR)` (an error
or the pending socket error), `nd` the error of `setsockopt(TCP_NODELAY)`, if any. -/
def complete (v : ConnVec) (i : Nat) (so : Except Nat Nat) (nd : Option Nat) : Nat × ConnVec :=
  match so with
  | .error e => (e, (close v i).2)                                             -- 185-199
  | .ok e =>
    if e ≠ 0 then (e, (close (poll v (.remove i (v.conns i).desc)) i).2)       -- 207-220
    else match nd with
      | some e => (e, (close (poll v (.remove i (v.conns i).desc)) i).2)       -- 224-238
      | none =>
        let c := v.conns i
        (0, poll (set v i { c with mode := .connected, action := .R }) (.modify i c.desc c.action .R))

/-- What `connect()` yields: 0 (with whatever `errno` was before), -1 with `EINPROGRESS`, -1 with another error. -/
inductive ConnRes where
  | now (staleErrno : Nat)
  | inProgress
  | failed (e : Nat)
  deriving DecidableEq, Repr

/-- rmc_connection.c:257-331 `rmc_conn_connect_tcp_by_address`. `sk` is the result of `socket()`, `cr` of `connect()`.
Result: return code, `*result_index` if assigned. -/
def connect (v : ConnVec) (addr port nid : Nat) (sk : Except Nat Nat) (cr : ConnRes) :
    Nat × Option Nat × ConnVec :=
  match getFreeSlot v with
  | (none, v) => (ENOMEM, none, v)
  | (some i, v) =>
    match sk with
    | .error e => (e, none, v)
    | .ok d =>
      let v := fd v (.opened d)
      let c := { v.conns i with desc := some d, addr := addr, nodeId := nid }
      match cr with
      | .failed _ => (0, none, resetMax (set (fd v (.closed (some d))) i { c with desc := none }))
      | cr =>
        let v := set v i { c with port := port, mode := .connecting, action := .W }
        let v := poll v (.add i (some d) .W)
        (match cr with | .now e => e | _ => 0, some i, { v with active := (v.active + 1) % 65536 })

/-- What `accept()` and the following `setsockopt(TCP_NODELAY)` yield. -/
inductive AccRes where
  | failed (e : Nat)
  | ok (desc addr : Nat)
  | noDelayFailed (desc e : Nat)
  deriving DecidableEq, Repr

/-- rmc_connection.c:336-397 `rmc_conn_process_accept`. Line 371 passes the descriptor where an index is expected;
`rmc_index_t` is 16 bits. `ld` is the listening descriptor. -/
def accept (v : ConnVec) (ld : Option Nat) (ar : AccRes) : Nat × Option Nat × ConnVec :=
  match getFreeSlot v with
  | (none, v) => (ENOMEM, none, v)
  | (some i, v) =>
    match ar with
    | .failed e => (e, none, v)
    | .noDelayFailed d e =>
      let v := set (fd v (.opened d)) i { v.conns i with desc := some d }
      (e, none, (close v (d % 65536)).2)
    | .ok d a =>
      let v := set (fd v (.opened d)) i { v.conns i with desc := some d, mode := .connected, addr := a, action := .R }
      let v := poll (poll v (.add i (some d) .R)) (.modify LISTEN_INDEX ld .R .R)
      (0, some i, { v with active := (v.active + 1) % 65536 })

/-- rmc_connection.c:468-476 `rmc_conn_get_pending_send_length` (`payload_len_t` is 16 bits). -/
def pendingLen (v : ConnVec) (i : Nat) : Nat := CircBuf.inUse (v.conns i).writeBuf % 65536

/-! ## Histories -/

/-- The calls the library makes on a connection vector. `io` stands for anything that reads, writes and rearms a
live connection without opening or closing it. -/
inductive Op where
  | connect (addr port nid : Nat) (sk : Except Nat Nat) (cr : ConnRes)
  | accept (ld : Option Nat) (ar : AccRes)
  | complete (i : Nat) (so : Except Nat Nat) (nd : Option Nat)
  | close (i : Nat)
  | io (i : Nat) (a : Act) (rb wb : CircBuf)

/-- What an observer of the API sees: a slot was handed out, a slot was closed, or an error. -/
inductive Ev where
  | opened (i : Nat)
  | closed (i : Nat)
  | err (e : Nat)
  deriving DecidableEq, Repr

/-- Run one call. `complete` is only called on a connection that exists (rmc_sub_write.c:298). -/
def step (v : ConnVec) : Op → Ev × ConnVec
  | .connect a p n sk cr =>
    match connect v a p n sk cr with
    | (_, some i, v) => (.opened i, v)
    | (e, none, v) => (.err e, v)
  | .accept ld ar =>
    match accept v ld ar with
    | (_, some i, v) => (.opened i, v)
    | (e, none, v) => (.err e, v)
  | .complete i so nd =>
    if findByIndex v i = none then (.err ENOTCONN, v)
    else
      let r := complete v i so nd
      (if findByIndex r.2 i = none then .closed i else .err r.1, r.2)
  | .close i =>
    let r := close v i
    (if r.1 = 0 then .closed i else .err r.1, r.2)
  | .io i a rb wb =>
    if findByIndex v i = none then (.err ENOTCONN, v)
    else (.err 0, set v i { v.conns i with action := a, readBuf := rb, writeBuf := wb })

/-- Run a history, collecting what the observer sees. -/
def run : ConnVec → List Op → List Ev × ConnVec
  | v, [] => ([], v)
  | v, op :: ops =>
    let r := step v op
    let r' := run r.2 ops
    (r.1 :: r'.1, r'.2)

end ConnVec
end Rmc
