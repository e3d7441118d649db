import Verif.Wire

/-!
# Model of the checks of the protocol self-test

The programs rmc_proto_test_pub.c and rmc_proto_test_sub.c: how the publisher fills packets with numbered signals, and how the subscriber judges what it is
given. The statistics printed when a publisher is done (rmc_proto_test_sub.c:215-229) are in `Stats`. Not modelled: the log, the random drop flag (which has no effect) and
the waiting between packets.
-/

namespace Rmc
namespace Selftest

/-- rmc_proto_test_common.h:23-29 `signal_t`, packed: three 32 bit fields and one 64 bit field. -/
structure Signal where
  node : Nat
  id : Nat
  max : Nat
  filler : Nat
  deriving DecidableEq, Repr

/-- rmc_proto_test_common.h:23-29: `sizeof(signal_t)`. -/
def SIGNAL_LEN : Nat := 20

/-- rmc_proto_test_common.h:23-29: the bytes of a signal (little endian host). Values too large for their field lose the upper bits, as in the assignments
of rmc_proto_test_pub.c:274-279, where `count` and `signal_ind` have 64 bits. -/
def Signal.enc (s : Signal) : List UInt8 := leEnc 4 s.node ++ leEnc 4 s.id ++ leEnc 4 s.max ++ leEnc 8 s.filler

/-- rmc_proto_test_sub.c:117-120: the cast of the bytes to a signal and the reading of its fields. -/
def Signal.dec (xs : List UInt8) : Signal where
  node := leDec (xs.take 4)
  id := leDec ((xs.drop 4).take 4)
  max := leDec ((xs.drop 8).take 4)
  filler := leDec ((xs.drop 12).take 8)

/-- rmc_proto_test_pub.c:272-283: fill a payload with as many signals as fit, starting with signal `ind`. Result: the payload and the next signal. -/
def fill (node count : Nat) (payload : List UInt8) (ind : Nat) : List UInt8 × Nat :=
  if ind ≤ count ∧ payload.length + SIGNAL_LEN ≤ RMC_MAX_PAYLOAD then
    fill node count (payload ++ (Signal.mk node ind count 0).enc) (ind + 1)
  else (payload, ind)
termination_by RMC_MAX_PAYLOAD - payload.length
decreasing_by simp [Signal.enc, SIGNAL_LEN] at *; omega

/-- The inner loop never goes back. -/
theorem fill_ge (node count : Nat) (payload : List UInt8) (ind : Nat) : ind ≤ (fill node count payload ind).2 := by
  induction payload, ind using fill.induct node count with
  | case1 p i h ih => rw [fill, if_pos h]; omega
  | case2 p i h => rw [fill, if_neg h]; exact Nat.le_refl i

/-- With room for one signal, it moves on. -/
theorem fill_gt {node count ind : Nat} (h : ind ≤ count) : ind < (fill node count [] ind).2 := by
  rw [fill, if_pos ⟨h, by decide⟩]
  exact Nat.lt_of_lt_of_le (Nat.lt_succ_self _) (fill_ge ..)

/-- rmc_proto_test_pub.c:260-328: the payloads queued, in order, from signal `ind` on (`count` below the largest 64 bit number: otherwise the loop does not end).
-/
def payloads (node count : Nat) (ind : Nat) : List (List UInt8) :=
  if h : ind ≤ count then
    (fill node count [] ind).1 :: payloads node count (fill node count [] ind).2
  else []
termination_by count + 1 - ind
decreasing_by have := fill_gt (node := node) h; omega

/-- rmc_proto_test_sub.c:19-33: the states a publisher is in for the subscriber. -/
inductive Status where
  | inactive | notStarted | inProgress | completed
  deriving DecidableEq, Repr

/-- rmc_proto_test_sub.c:18-41 `sub_expect_t`, without the times. -/
structure Expect where
  status : Status
  maxExpected : Nat
  maxReceived : Nat
  expectSum : Nat
  calcSum : Nat
  deriving DecidableEq, Repr

/-- rmc_proto_test_sub.c:350-358: one entry for each node id; `map` says which nodes are expected. The two sums are not initialised there: they are written
before they are read (rmc_proto_test_sub.c:157-158). -/
def start (map : List Bool) : List Expect :=
  map.map (fun b => ⟨if b then .notStarted else .inactive, 0, 0, 0, 0⟩)

/-- rmc_proto_test_sub.c:76-87 `check_exit_condition`. -/
def checkExit (es : List Expect) : Bool :=
  es.all (fun e => !(decide (e.status = .notStarted) || decide (e.status = .inProgress)))

/-- The largest `int`. -/
def INT_MAX : Nat := 2147483647

/-- rmc_proto_test_sub.c:162-163: the sum of the numbers from one to `n`, in 64 bits. -/
def sumTo : Nat → Nat
  | 0 => 0
  | n + 1 => (sumTo n + (n + 1)) % U64

/-- What the subscriber does after a signal: go on, end the test, or end it because of data corruption (rmc_proto_test_sub.c:207-212, `exit(0)`). -/
inductive Res where
  | more (es : List Expect)
  | last (es : List Expect)
  | corrupt
  deriving DecidableEq, Repr

/-- rmc_proto_test_sub.c:109-250 `process_incoming_signal`. The index of the sum's loop is an `int`: with a maximum of `INT_MAX` or more its increment
overflows (162). Lines 239-249 are not reached: the status is one of the four. -/
def signal (es : List Expect) (s : Signal) : M Res :=
  match es[s.node]? with
  | none => .error .exit255                                                                   -- 124-129
  | some e =>
    if e.status = .inactive then .error .exit255                                               -- 132-137
    else if e.status = .completed then .error .exit255                                         -- 140-148
    else if e.status = .notStarted ∧ INT_MAX ≤ s.max then .error .overflow                     -- 162
    else
      let e1 : Expect := if e.status = .notStarted then ⟨.inProgress, s.max, 0, sumTo s.max, 0⟩ else e   -- 152-172
      if s.max ≠ e1.maxExpected then .error .exit255                                           -- 180-185
      else if s.id ≠ (e1.maxReceived + 1) % U64 then .error .exit255                            -- 188-193
      else
        let e2 : Expect := ⟨e1.status, e1.maxExpected, s.id, e1.expectSum, (e1.calcSum + s.id) % U64⟩    -- 195-196
        if s.id = s.max then                                                                   -- 199
          if e2.expectSum ≠ e2.calcSum then .ok .corrupt                                        -- 207-212
          else
            let es := es.set s.node ⟨.completed, e2.maxExpected, e2.maxReceived, e2.expectSum, e2.calcSum⟩  -- 214
            if checkExit es then .ok (.last es) else .ok (.more es)                             -- 232-233
        else .ok (.more (es.set s.node e2))

/-- rmc_proto_test_sub.c:252-270 `process_incoming_packet`, without the marking as dispatched. Of the last signal, which may be cut short, only the first
three fields are read: the first 12 bytes. -/
def packet (es : List Expect) (data : List UInt8) : M Res :=
  if data = [] then .ok (.more es)
  else if data.length < 12 then .error .oob
  else
    match signal es (Signal.dec data) with
    | .error f => .error f
    | .ok (.more es) => packet es (data.drop SIGNAL_LEN)
    | .ok r => .ok r
termination_by data.length
decreasing_by simp [SIGNAL_LEN]; omega

/-- rmc_proto_test_sub.c:408-416: the packets taken from the ready list, in order. Result: what happens in the end, and how many packets were marked
dispatched (the one with the last signal is not). -/
def run (es : List Expect) : List (List UInt8) → M (Res × Nat)
  | [] => .ok (.more es, 0)
  | p :: ps =>
    match packet es p with
    | .error f => .error f
    | .ok (.more es) =>
      match run es ps with
      | .error f => .error f
      | .ok r => .ok (r.1, r.2 + 1)
    | .ok r => .ok (r, 0)

end Selftest
end Rmc
