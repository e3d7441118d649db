import Verif.CircBuf
import Verif.PtrList
import Verif.Pub
import Verif.Sub

/-!
# Model of the unit tests that `rmc_test` runs first

rmc_test.c:187-191 calls `run_list_tests` (list_test.c), `test_packet_interval` (sub_interval_test.c),
`test_circular_buffer` (circular_buffer_test.c), `test_pub` (pub_test.c) and `test_sub` (sub_test.c) before
anything else, whatever the options are. Each is transcribed here, call by call, on top of the models of
the code under test. A check that fails prints a message and calls `exit(255)`: that is `Fault.exit255`.

Simplifications: the messages are not modelled; `malloc` returns addresses never used before; the buffers
the tests read into (local arrays) are the lists of bytes read.
-/

namespace Rmc
namespace UnitTest

/-- The shape of every check of the unit tests: `if (!b) { printf(...); exit(255); }` (e.g.
circular_buffer_test.c:60-64). -/
def want (b : Bool) : M Unit := if b then .ok () else .error .exit255

/-! ## list_test.c -/

/-- The variables of `run_list_tests`: the heap with the list `p1` (list 0) and the next address of `malloc`. -/
structure ListSt where
  h : Heap Nat
  next : Nat

/-- list_test.c:98-108 `_compare_pid`. -/
def comparePid (a b : Nat) : Int := if a > b then 1 else if a < b then -1 else 0

/-- list_test.c:110-114 `_find_pid`. -/
def findPid (a b : Nat) : Int := if a = b then 1 else 0

/-- list_test.c:44-54 (`fwd`) and 71-83: one traversal of `_test_sequence`; `up` is `start < stop`. Returns the
pid reached, or `none` if an element differs (return 1 or 3). `test_id_t` is 32 bits. -/
def walk (h : Heap Nat) (fwd up : Bool) : Nat → Option Nat → Nat → M (Option Nat)
  | _, none, pid => .ok (some pid)
  | 0, some _, _ => .error .diverge
  | fuel + 1, some p, pid => do
    let n ← PtrList.deref h p
    let next := if fwd then n.next else n.prev
    let pid' := if up then add32 pid 1 else sub32 pid 1
    if n.data = pid then walk h fwd up fuel next pid' else return none

/-- list_test.c:37-96 `_test_sequence` (0 is `true`). A mismatch of the final pid dereferences the null `node`
for its message (63-64, 90-91). `fuel` bounds the traversals. -/
def testSequence (s : ListSt) (start stop : Nat) : M Bool := do
  let up := decide (start < stop)
  match ← walk s.h true up 100 (PtrList.head s.h 0) start with
  | none => return false
  | some pid =>
    if (if up then sub32 pid 1 else add32 pid 1) ≠ stop then .error .nullDeref
    else match ← walk s.h false (!up) 100 (PtrList.tail s.h 0) stop with
      | none => return false
      | some pid => if (if up then add32 pid 1 else sub32 pid 1) ≠ start then .error .nullDeref else return true

/-- A `_test_sequence` whose failure is fatal, e.g. list_test.c:126-129. -/
def sequence (s : ListSt) (start stop : Nat) : M Unit := do want (← testSequence s start stop)

/-- `test_list_push_tail(&p1, d)` (rmc_list_template.h:131-138). -/
def pushTail (s : ListSt) (d : Nat) : M ListSt := do
  let h ← PtrList.pushTail s.h 0 s.next d
  return ⟨h, s.next + 1⟩

/-- `test_list_insert_after(node, d)` (rmc_list_template.h:190-196). -/
def insertAfter (s : ListSt) (node d : Nat) : M ListSt := do
  let h ← PtrList.insertAfterNode (PtrList.allocNode s.h s.next d) node s.next
  return ⟨h, s.next + 1⟩

/-- `test_list_insert_sorted(&p1, d, _compare_pid, 0)` (rmc_list_template.h:404-419). -/
def insertSorted (s : ListSt) (d : Nat) : M ListSt := do
  let h ← PtrList.insertSorted s.h 0 s.next d comparePid 100
  return ⟨h, s.next + 1⟩

/-- `node->data` of a node pointer that may be null. -/
def data (s : ListSt) : Option Nat → M Nat
  | none => .error .nullDeref
  | some p => do let n ← PtrList.deref s.h p; return n.data

/-- `test_list_next(node)` (rmc_list_template.h:61-67): null for null. -/
def nextOf (s : ListSt) : Option Nat → M (Option Nat)
  | none => .ok none
  | some p => do let n ← PtrList.deref s.h p; return n.next

/-- `test_list_delete(node)` (rmc_list_template.h:222-227); null dereferences. -/
def deleteNode (s : ListSt) : Option Nat → M ListSt
  | none => .error .nullDeref
  | some p => do let h ← PtrList.delete s.h p; return { s with h := h }

/-- list_test.c:217 `while(test_list_pop_head(&p1, &pid));`. `fuel` bounds the iterations. -/
def popAll (s : ListSt) : Nat → M ListSt
  | 0 => .error .diverge
  | fuel + 1 => do
    let r ← PtrList.popHead s.h 0
    match r.1 with
    | none => return { s with h := r.2 }
    | some _ => popAll { s with h := r.2 } fuel

/-- list_test.c:262-304: find, check, delete and look again for one value (5.1/5.2, 5.3/5.4, 5.5/5.6). -/
def findDelete (s : ListSt) (d : Nat) : M ListSt := do
  let n ← PtrList.findNode s.h 0 findPid d 100
  let x ← data s n
  want (x == d)
  let s ← deleteNode s n
  let n ← PtrList.findNode s.h 0 findPid d 100
  want n.isNone
  return s

/-- list_test.c:116-304 `run_list_tests`: the state at the end. `h0` is the heap before: nothing is allocated,
the header of `p1` is uninitialised. -/
def listTests (hdr : Nat → Hdr) : M ListSt := do
  let s : ListSt := ⟨PtrList.init ⟨fun _ => none, hdr⟩ 0, 1⟩           -- 122
  let s ← pushTail s 1                                                  -- 125
  sequence s 1 1
  let s ← pushTail s 2                                                  -- 132
  sequence s 1 2
  let s ← pushTail s 3                                                  -- 139
  sequence s 1 3
  let s ← pushTail s 4                                                  -- 146
  sequence s 1 4
  let s ← pushTail s 5                                                  -- 153
  sequence s 1 5
  let s ← pushTail s 6                                                  -- 160
  sequence s 1 6
  let node := PtrList.head s.h 0                                        -- 168
  let node ← nextOf s node
  let node ← nextOf s node
  let s ← (match node with                                              -- 171
    | some p => insertAfter s p 31
    | none => .error .nullDeref)
  want ((← data s node) == 3)                                           -- 174
  want ((← data s (← nextOf s node)) == 31)                             -- 180
  want ((← data s (← nextOf s (← nextOf s node))) == 4)                 -- 186
  let node ← nextOf s node                                              -- 193
  let s ← deleteNode s node
  sequence s 1 6
  let s ← deleteNode s (PtrList.tail s.h 0)                             -- 202
  sequence s 1 5
  let s ← deleteNode s (PtrList.head s.h 0)                             -- 209
  sequence s 2 5
  let s ← popAll s 100                                                  -- 217
  let r ← PtrList.popHead s.h 0                                         -- 220
  want r.1.isNone
  let s : ListSt := { s with h := r.2 }
  let s ← insertSorted s 2                                              -- 226
  sequence s 2 2
  let s ← insertSorted s 1                                              -- 232
  sequence s 2 1
  let s ← insertSorted s 3                                              -- 238
  sequence s 3 1
  let s ← insertSorted s 7                                              -- 244
  let s ← insertSorted s 6
  let s ← insertSorted s 5
  let s ← insertSorted s 4
  sequence s 7 1
  let s ← insertSorted s 8                                              -- 254
  sequence s 8 1
  let s ← findDelete s 1                                                -- 260
  let s ← findDelete s 2                                                -- 275
  findDelete s 7                                                        -- 290

/-! ## sub_interval_test.c -/

/-- The variables of `test_packet_interval` and `test_sub`: the publisher, the dispatch list, how many packets
were allocated. -/
structure SubSt where
  pub : SubPub
  ready : List SPkt
  count : Nat

/-- sub_interval_test.c:35-38 `add_packet`, and the call of `sub_packet_received` of sub_test.c:88-91; `clk` gives
the readings of the monotonic clock. The payload is never looked at. -/
def addPacket (clk : Nat → Int) (s : SubSt) (pid : Nat) : SubSt :=
  { s with pub := s.pub.received' ⟨s.count + 1, pid, ⟨0, [], false⟩, 0⟩ true (clk s.count), count := s.count + 1 }

/-- Several calls of `add_packet` in a row. -/
def addPackets (clk : Nat → Int) (s : SubSt) : List Nat → SubSt
  | [] => s
  | p :: ps => addPackets clk (addPacket clk s p) ps

/-- `sub_process_received_packets(&pub, &plst)`: what is in sequence is appended to the list. -/
def processS (s : SubSt) : SubSt :=
  let r := s.pub.process
  { s with pub := r.1, ready := s.ready ++ r.2 }

/-- `sub_reset_publisher(&pub, 0); sub_packet_list_empty(&plst);` (e.g. sub_interval_test.c:80-81). -/
def resetS (s : SubSt) : SubSt := { s with pub := s.pub.reset.1, ready := [] }

/-- A node of the interval list is looked at: `pnode->data.first_pid`, `.last_pid`; a null node dereferences. -/
def intervalAt (s : SubSt) (k first last : Nat) : M Unit :=
  match s.pub.intervals[k]? with
  | none => .error .nullDeref
  | some i => want (i.first == first && i.last == last)

/-- sub_interval_test.c:41-337 `test_packet_interval`: the state at the end. -/
def intervalTest (clk : Nat → Int) : M SubSt := do
  let s : SubSt := ⟨SubPub.init, [], 0⟩                                 -- 49
  let s := processS (addPacket clk s 100)                               -- 58-59
  want (s.pub.intervals.length == 1)                                    -- 61
  let intv : Nat × Nat := match s.pub.intervals with                    -- 68
    | [] => (0, 0)
    | i :: _ => (i.first, i.last)
  let s := { s with pub := { s.pub with intervals := s.pub.intervals.tail } }
  want (intv.1 == 100 && intv.2 == 100)                                 -- 70
  let s := resetS s                                                     -- 79-81
  let s := processS (addPackets clk s [4, 5, 8, 9, 10, 223, 224, 226])  -- 86-106
  want (s.pub.intervals.length == 4)                                    -- 108
  intervalAt s 0 4 5                                                    -- 117
  intervalAt s 1 8 10                                                   -- 126
  intervalAt s 2 223 224                                                -- 135
  intervalAt s 3 226 226                                                -- 144
  let s := processS (addPacket clk s 3)                                 -- 169-170
  want (s.pub.intervals.length == 4)                                    -- 172
  intervalAt s 0 3 5                                                    -- 181
  let s := processS (addPacket clk s 1)                                 -- 206-207
  intervalAt s 0 1 1                                                    -- 211
  let s := processS (addPacket clk s 2)                                 -- 236-237
  want (s.pub.intervals.length == 4)                                    -- 239
  intervalAt s 0 1 5                                                    -- 248
  let s := processS (addPacket clk s 11)                                -- 273-274
  want (s.pub.intervals.length == 4)                                    -- 276
  intervalAt s 1 8 11                                                   -- 286
  let s := processS (addPackets clk s [6, 7, 225])                      -- 307-310
  want (s.pub.intervals.length == 2)                                    -- 312
  intervalAt s 0 1 11                                                   -- 320
  intervalAt s 1 223 226                                                -- 329
  return s

/-! ## circular_buffer_test.c -/

/-- circular_buffer_test.c:76-82: the loop of `check_integrity`, from `ind`: how many steps to `stop_ind`. -/
def countLoop (b : CircBuf) : Nat → Nat → Nat → M Nat
  | 0, ind, count => if ind = b.stop then .ok count else .error .diverge
  | fuel + 1, ind, count =>
    if ind = b.stop then .ok count
    else countLoop b fuel (if ind + 1 = b.size then 0 else ind + 1) (count + 1)

/-- circular_buffer_test.c:52-87 `check_integrity`. `fuel` bounds the iterations of the loop. -/
def checkIntegrity (fuel : Nat) (b : CircBuf) (expAvailable expUsed : Nat) : M Unit := do
  want (b.available == expAvailable)                                    -- 60
  want (b.inUse == expUsed)                                             -- 66
  let count ← countLoop b fuel b.start 0                                -- 76
  want (count == b.inUse)                                               -- 82

/-- circular_buffer_test.c:154-198: the loop of `read_data` over the offsets `off`, ..., `off + n - 1`. -/
def offsetLoop (b : CircBuf) (expected : List UInt8) : Nat → Nat → M Unit
  | _, 0 => .ok ()
  | off, n + 1 => do
    let r ← b.readOffset off (sub32 expected.length off)
    want (r.1 == 0)                                                     -- 160
    want (r.2.length == sub32 expected.length off)                      -- 167
    want (r.2 == expected.drop off)                                     -- 174
    offsetLoop b expected (off + 1) n

/-- circular_buffer_test.c:89-214 `read_data`. -/
def readData (b : CircBuf) (expected : List UInt8) : M CircBuf := do
  want (decide (expected.length ≤ b.inUse))                             -- 101
  let r ← b.read expected.length                                        -- 111
  want (r.1 == 0)                                                       -- 112
  want (r.2.length == expected.length)                                  -- 119
  want (r.2 == expected)                                                -- 126
  offsetLoop b expected 0 b.inUse                                       -- 153
  let b' := (b.free expected.length).1                                  -- 200
  want (b'.available == add32 b.available expected.length)              -- 201
  want (b'.inUse == sub32 b.inUse expected.length)                      -- 208
  return b'

/-- circular_buffer_test.c:216-282 `write_data`. The length of the second segment is not checked: line 270
compares the first again. -/
def writeData (b : CircBuf) (xs : List UInt8) (expSeg1 _expSeg2 : Nat) : M CircBuf := do
  want (decide (xs.length ≤ b.available))                               -- 231
  let r := b.alloc xs.length                                            -- 241
  let b' := r.2.2.2
  want (r.1 == 0)                                                       -- 242
  want (b'.available == sub32 b.available xs.length)                    -- 249
  want (b'.inUse == add32 b.inUse xs.length)                            -- 256
  want (r.2.1.len == expSeg1)                                           -- 263
  want (r.2.1.len == expSeg1)                                           -- 270
  let b' ← b'.storeN r.2.1.off (xs.take r.2.1.len)                      -- 276
  if r.2.2.1.len = 0 then return b'
  else b'.storeN r.2.2.1.off ((xs.drop r.2.1.len).take r.2.2.1.len)     -- 279

/-- circular_buffer_test.c:298-353: one byte is written and read, with the checks. -/
def writeReadOne (b : CircBuf) (x : UInt8) : M CircBuf := do
  let b ← writeData b [x] 1 0
  checkIntegrity 100 b 3 1
  let b ← readData b [x]
  checkIntegrity 100 b 4 0
  return b

/-- circular_buffer_test.c:298-353: the eleven bytes. -/
def writeReadAll (b : CircBuf) : List UInt8 → M CircBuf
  | [] => .ok b
  | x :: xs => do let b ← writeReadOne b x; writeReadAll b xs

/-- circular_buffer_test.c:476-503: allocate all that is available, then trim to 9; `n` times. -/
def allocTrim (b : CircBuf) : Nat → M CircBuf
  | 0 => .ok b
  | n + 1 => do
    let r := b.alloc b.available
    want (r.1 == 0)
    allocTrim (r.2.2.2.trim 9) n

/-- circular_buffer_test.c:515: the first 38 bytes of the string literal: `\0x13` is a NUL followed by "x13". -/
def prelude : List UInt8 :=
  [48, 120, 48, 49, 0, 120, 49, 51, 0, 120, 48, 48, 0, 120, 48, 48, 0, 120, 48, 48, 0, 120, 48, 48, 0, 120, 48, 48,
   0, 120, 48, 48, 0, 120, 48, 48, 0, 120]

/-- circular_buffer_test.c:284-530 `test_circular_buffer`. `mem1` and `mem2` are the contents of the uninitialised
local arrays `buf1` and `buf2`. -/
def circTest (mem1 mem2 : Nat → UInt8) : M Unit := do
  let b := CircBuf.init mem1 5                                          -- 296
  checkIntegrity 100 b 4 0                                              -- 299
  let b ← writeReadAll b [49, 50, 51, 52, 53, 54, 55, 56, 57, 65, 66]   -- 302-355
  let r := b.free 6                                                     -- 358
  want (r.2 == 0)
  let b := r.1
  checkIntegrity 100 b 4 0                                              -- 370
  let b ← writeData b [65, 66, 67, 68] 4 0                              -- 389
  checkIntegrity 100 b 0 4
  let b ← readData b [65, 66, 67]                                       -- 399
  checkIntegrity 100 b 3 1
  let b ← writeData b [65, 66, 67] 1 2                                  -- 411
  checkIntegrity 100 b 0 4
  let b ← readData b [68, 65, 66, 67]                                   -- 422
  checkIntegrity 100 b 4 0
  want ((b.alloc 5).1 == ENOMEM)                                        -- 428
  let r := b.free 6                                                     -- 435
  want (r.2 == 0)
  let b := r.1
  let b ← writeData b [65, 66, 67] 3 0                                  -- 447
  let r ← b.read 100                                                    -- 449
  want (r.1 == 0)
  want (r.2.length == 3)
  let b := (b.free 5).1                                                 -- 465
  let b ← writeData b [65, 66, 67, 68] 4 0
  let b := b.trim 2                                                     -- 467
  checkIntegrity 100 b 2 2
  let b ← readData b [65, 66]
  checkIntegrity 100 b 4 0
  let b ← writeData b [67, 68] 2 1                                      -- 471
  let b ← readData b [67, 68]
  checkIntegrity 100 b 4 0
  let b ← allocTrim (CircBuf.init mem2 65476) 4                         -- 476-503
  let b ← { b with size := 65, start := 8, stop := 7 }.storeN 8 prelude -- 507-515
  let b := b.trim 38                                                    -- 517
  checkIntegrity 100 b 26 38                                            -- 518
  let b := { CircBuf.init b.data 65 with start := 42, stop := 41 }      -- 523-527
  let b := b.trim 46                                                    -- 528
  checkIntegrity 100 b 18 46                                            -- 529

/-! ## pub_test.c -/

/-- The string literals queued by `test_pub`: "1" (two bytes with the NUL), ... -/
def payload (k : Nat) : Payload := ⟨k, [UInt8.ofNat (48 + k), 0], false⟩

/-- Queue the payloads `ks`; the id of the last one (pub_test.c:89-97, 395-404). -/
def queueAll (s : Pub) (pid : Nat) : List Nat → M (Nat × Pub)
  | [] => .ok (pid, s)
  | k :: ks => do
    let r ← s.queuePacket (payload k)
    queueAll r.2 r.1 ks

/-- A packet pointer is looked at: `pack->pid`; a null pointer dereferences. -/
def pidOf (s : Pub) : Option Nat → M Nat
  | none => .error .nullDeref
  | some a => do let p ← Pub.deref s.pk a; return p.pid

/-- `pack = pub_next_queued_packet(&ctx); pub_packet_sent(&ctx, pack, ts);`, with the check of the id if there is
one (pub_test.c:119-127, 408-424). -/
def sendNext (s : Pub) (pid : Option Nat) (ts : Int) : M Pub := do
  let a := s.nextQueued
  match pid with
  | none => .ok ()
  | some pid => do want ((← pidOf s a) == pid)
  match a with
  | none => .error .nullDeref
  | some a => s.packetSent a ts

/-- `pub_packet_ack(&sub, pid, 0)` for several pairs (subscriber, pid). No free function is given: the model records
a payload as freed all the same. -/
def acks (s : Pub) : List (Nat × Nat) → M Pub
  | [] => .ok s
  | x :: xs => do let s ← s.packetAck x.1 x.2; acks s xs

/-- pub_test.c:72-395: the first part of `test_pub`, up to and including 12.1. The subscribers `sub1`, `sub2`, `sub3`
are the slots 1, 2, 3; `clk` gives the readings of the clock. -/
def pubTest1 (clk : Nat → Int) : M Pub := do
  let s := Pub.init.initSubscriber 1                                    -- 84-87
  let s := s.initSubscriber 2
  let s := s.initSubscriber 3
  let r ← queueAll s 0 [1, 2, 3, 4, 5, 6, 7]                            -- 90-97
  let s := r.2
  want (r.1 == 7)                                                       -- 99
  want (s.queueSize == 7)                                               -- 105
  want (s.inflight.length == 0)                                         -- 111
  let s ← sendNext s (some 1) (clk 0)                                   -- 118
  let s ← sendNext s (some 2) (clk 1)                                   -- 127
  let s ← sendNext s (some 3) (clk 2)                                   -- 135
  want (s.queueSize == 4)                                               -- 144
  want (s.inflight.length == 3)
  want ((s.sinfl 1).length == 3)                                        -- 160
  want ((s.sinfl 2).length == 3)
  want ((s.sinfl 3).length == 3)
  want ((← pidOf s (s.sinfl 1).head?) == 3)                             -- 181
  want ((← pidOf s (s.sinfl 1).getLast?) == 1)                          -- 189
  let s ← acks s [(1, 1)]                                               -- 197
  want ((s.sinfl 1).length == 2)
  want ((← pidOf s (s.sinfl 1).head?) == 3)
  want ((← pidOf s (s.sinfl 1).getLast?) == 2)
  want ((← pidOf s s.inflight.getLast?) == 1)                           -- 222
  match s.inflight.getLast? with                                        -- 230
    | none => .error .nullDeref
    | some a => do want ((← Pub.deref s.pk a).refCount == 2)
  let s ← acks s [(2, 1), (3, 1)]                                       -- 239
  want (s.inflight.length == 2)
  want ((← pidOf s s.inflight.getLast?) == 2)
  let s ← acks s [(1, 3), (2, 3), (3, 3)]                               -- 260
  want ((s.sinfl 2).length == 1)
  want ((← pidOf s (s.sinfl 2).head?) == 2)
  want (s.inflight.length == 1)
  want ((← pidOf s s.inflight.head?) == 2)
  let s ← acks s [(1, 2), (2, 2), (3, 2)]                               -- 297
  want ((s.sinfl 3).length == 0)
  want (s.inflight.length == 0)
  let s ← sendNext s (some 4) (clk 3)                                   -- 318
  let s ← sendNext s (some 5) (clk 4)
  let s ← sendNext s (some 6) (clk 5)
  let s ← sendNext s (some 7) (clk 6)
  let s ← acks s [(1, 5), (2, 5), (3, 5), (1, 7), (2, 7), (3, 7), (1, 6), (2, 6), (3, 6), (1, 4), (2, 4), (3, 4)]
  want (s.inflight.length == 0)                                         -- 370
  want (s.queueSize == 0)
  want ((s.sinfl 1).length == 0)
  want ((s.sinfl 2).length == 0)
  want ((s.sinfl 3).length == 0)
  return s

/-- pub_test.c:395-595: the rest of `test_pub`. -/
def pubTest2 (s : Pub) : M Pub := do
  let r ← queueAll { s with nextPid := 1 } 0 [1]                        -- 395
  want (r.1 == 1)
  let r ← queueAll r.2 0 [2, 3, 4, 5, 6]
  let s ← sendNext r.2 none 1                                           -- 408
  let s ← sendNext s none 2
  let s ← sendNext s none 3
  let s ← sendNext s none 4
  let s ← sendNext s none 5
  let s ← sendNext s none 6
  let s ← acks s [(1, 1), (2, 1), (3, 1), (3, 2), (3, 3), (3, 4), (3, 5), (3, 6), (2, 2), (2, 3)]
  let l ← s.timedOutSubscribers 6 2 s.subs                              -- 478
  want (l.length == 2)
  want (l.head? == some 1)                                              -- 488
  want (l.getLast? == some 2)                                           -- 509
  let l ← s.timedOutSubscribers 6 3 s.subs                              -- 534
  want (l.length == 1)
  want (l.head? == some 1)
  let ts ← s.oldestUnacked (-1) s.subs                                  -- 569
  want (ts != -1)
  want (ts == 2)
  acks s [(1, 2), (1, 3), (1, 4), (1, 5), (1, 6), (2, 4), (2, 5), (2, 6)]

/-- pub_test.c:72-595 `test_pub`: the state at the end. -/
def pubTest (clk : Nat → Int) : M Pub := do pubTest2 (← pubTest1 clk)

/-! ## sub_test.c -/

/-- sub_test.c:81-93: the pids `start`, ..., `stop` of `add_received_packets` for one pair. -/
def addRange (clk : Nat → Int) (s : SubSt) (start stop : Nat) : SubSt :=
  addPackets clk s ((List.range (stop + 1 - start)).map (start + ·))

/-- sub_test.c:71-100 `add_received_packets`. -/
def addReceived (clk : Nat → Int) (s : SubSt) : List (Nat × Nat) → SubSt
  | [] => s
  | x :: xs => addReceived clk (addRange clk s x.1 x.2) xs

/-- sub_test.c:48-69 `test_sequence`; returns how many packets were looked at. -/
def sequenceS (up : Bool) : Nat → List SPkt → M Nat
  | _, [] => .ok 0
  | pid, p :: ps => do
    want (p.pid == pid)
    let n ← sequenceS up (if up then SubPub.inc64 pid else SubPub.dec64 pid) ps
    return n + 1

/-- sub_test.c:48-69 `test_sequence`. -/
def testSequenceS (l : List SPkt) (start stop : Nat) : M Nat := sequenceS (decide (start < stop)) start l

/-- sub_test.c:102-149 `test_interval_list`: the arguments are the pairs `args`, then 0, 0. Lines 137-138 read the
argument list after `va_end`, which the C standard leaves undefined: modelled as going on with the next ones. -/
def intervalList : List Intv → List (Nat × Nat) → M Unit
  | [], [] => .ok ()
  | [], _ :: _ => .error .exit255
  | _ :: _, [] => .error .exit255
  | i :: is, a :: as => do
    want (i.first == a.1 && i.last == a.2)
    intervalList is as

/-- sub_test.c:190-213: pop the head of the dispatch list and check the order of the rest. -/
def popReady (s : SubSt) : SubSt := { s with ready := s.ready.tail }

/-- sub_test.c:228-277: one out of order case: receive, check, process, check, reset; how many packets the two
checks looked at. -/
def outOfOrder (clk : Nat → Int) (s : SubSt) (pids : List (Nat × Nat)) : M (Nat × Nat × SubSt) := do
  let s := addReceived clk s pids
  let n ← testSequenceS s.pub.received 1 4
  let s := processS s
  let m ← testSequenceS s.ready 1 4
  return (n, m, resetS s)

/-- sub_test.c:153-297 `test_sub` (the rest of the function is inside a comment): how many packets each call of
`test_sequence` looked at. -/
def subTest (clk : Nat → Int) : M (List Nat) := do
  let s : SubSt := ⟨SubPub.init, [], 0⟩
  let s := addReceived clk s [(1, 5)]                                   -- 171
  let n1 ← testSequenceS s.pub.received 1 5                             -- 176
  let s := processS s
  want (s.pub.received.length == 0)                                     -- 180
  let n3 ← testSequenceS s.ready 1 5                                    -- 185
  let s := popReady s
  let n4 ← testSequenceS s.ready 2 5
  let s := popReady s
  let n5 ← testSequenceS s.ready 3 5
  let s := popReady s
  let n6 ← testSequenceS s.ready 4 5
  let s := popReady s
  let n7 ← testSequenceS s.ready 5 5
  let s := popReady s
  want (s.ready.length == 0)                                            -- 207
  intervalList s.pub.intervals [(1, 5)]                                 -- 214
  let s := resetS s                                                     -- 221
  let r ← outOfOrder clk s [(1, 1), (3, 3), (2, 2), (4, 4)]             -- 229
  let q ← outOfOrder clk r.2.2 [(2, 2), (1, 1), (3, 3), (4, 4)]         -- 248
  let t ← outOfOrder clk q.2.2 [(1, 1), (2, 2), (4, 4), (3, 3)]         -- 264
  let s := addReceived clk t.2.2 [(1, 2), (4, 5)]                       -- 285
  intervalList s.pub.intervals [(1, 2), (4, 5)]                         -- 291
  return [n1, n3, n4, n5, n6, n7, r.1, r.2.1, q.1, q.2.1, t.1, t.2.1]

/-! ## rmc_test.c -/

/-- rmc_test.c:187-191: the unit tests, in order. The unknowns are what the memory contains and what the clock shows. -/
def unitTests (hdr : Nat → Hdr) (mem1 mem2 : Nat → UInt8) (clk1 clk2 clk3 : Nat → Int) : M Unit := do
  let _ ← listTests hdr
  let _ ← intervalTest clk1
  circTest mem1 mem2
  let _ ← pubTest clk2
  let _ ← subTest clk3
  return ()

end UnitTest
end Rmc
