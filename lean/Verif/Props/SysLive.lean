import Verif.SysLive
import Verif.Props.Sys

/-! # A publisher and a subscriber are never stuck (C68)

`Sys.drainOp now op`: the call `op` is a write of the publisher to a connection, its timeout processing at time `now`, or a read
of the subscriber from the connection.  No multicast, no acknowledgement, no call of an application. -/

set_option linter.unusedVariables false

namespace Rmc
namespace Sys
open PLog CircBuf

/-- C68: whatever has been lost so far, once the held packets are overdue there is a schedule of TCP calls only, of bounded length, that
brings every packet multicast since the connection was accepted to the subscriber, with the connection still up, nothing held for the
subscriber, and nothing in the stream. The announcement callback may answer anything (`cb`).
Conditions: the publisher has not seen a protocol error on the connection, and the subscriber's read buffer is not in a state that the
trim defect can spoil (its start position is 0; this is the case when it is empty, see C68_empty). -/
theorem C68_recovers_partial {E : Env} {n : Nat} {s0 s : Sys} {pre : List SysOp} {k : Nat} (hs : Start E n s0) (hr : run E s0 pre = some s)
    (hk : s.acc = some k) (he : s.err = false) (hu : SubCtx.Up s.sub E.slot) (h0 : (s.sub.cv.conns E.slot).readBuf.start = 0)
    (now ts : Int) (cb : Option (Bool × List UInt8)) (sp : Nat)
    (hall : ∀ j, PubCtx.Connected s.pub j → ∀ x ∈ s.pub.pub.owedPkts j, x.2.2 + s.pub.resendTimeout ≤ now)
    (hn : n + calls pre + (PubCtx.held s.pub + 2) * (s.pub.cv.size + 1) + 1 < U64) :
    ∃ post s', run E s post = some s' ∧ (∀ op ∈ post, drainOp now op = true) ∧
      calls post ≤ (PubCtx.held s.pub + 2) * (s.pub.cv.size + 1) ∧
      s'.acc = some k ∧ s'.err = false ∧ SubCtx.Up s'.sub E.slot ∧ s'.pub.pub.outstanding k = [] ∧
      bytes (s'.sub.cv.conns E.slot).readBuf ++ s'.down ++ bytes (s'.pub.cv.conns k).writeBuf = [] ∧
      (∀ pid ∈ PubCtx.sentTo k s.pub.pub.log, pid ∈ (SubCtx.arrivedAt E.slot s'.sub.log).map (·.1.pid)) ∧
      ∀ b, ((SubCtx.arrivedAt E.slot s'.sub.log).map (·.1.pid)).head? = some b → b ∈ PubCtx.sentTo k s'.pub.pub.log →
        ∀ pid ∈ PubCtx.sentTo k s.pub.pub.log, b ≤ pid → pid ∈ (SubCtx.deliveredAt E.slot s'.sub.log).map (·.pid) := by
  have hi : Inv E (n + calls pre) s := (Inv.start hs).run pre (by omega) hr
  obtain ⟨post, s', a1, a2, a3, a4, a5, a6, a7, a8⟩ := empty_all hi hk hu h0 now ts cb sp hall hn
  have hreach : Reached E s' := by
    refine ⟨n, s0, pre ++ post, hs, by rw [calls_append]; omega, ?_⟩
    rw [run_append, hr]; exact a3
  obtain ⟨_, es, b2, b3⟩ := run_acc post hi (by omega) a3 hk
  have hsub : ∀ pid ∈ PubCtx.sentTo k s.pub.pub.log, pid ∈ PubCtx.sentTo k s'.pub.pub.log := by
    intro pid hp
    rw [b2, PubCtx.sentTo_append_of b3]; exact List.mem_append_left _ hp
  obtain ⟨c1, c2⟩ := C51_rest_partial hreach a4 (by rw [a5, he]) a6 a7 a8
  refine ⟨post, s', a3, a2, a1, a4, by rw [a5, he], a6, a7, a8, fun pid hp => c1 pid (hsub pid hp), ?_⟩
  intro b hb hbs pid hp hle
  obtain ⟨m, hi', _⟩ := hreach.inv
  obtain ⟨ops, h1, h2, h3⟩ := hi'.pub
  refine c2 b pid hb hle fun q q1 q2 => .inl ?_
  exact PubCtx.sentTo_between h1 hbs (hsub pid hp) q1 q2

/-- The condition on the read buffer holds when it is empty, and a connection that is up never has another start position then. -/
theorem C68_empty {E : Env} {s : Sys} (h : Reached E s) (hu : SubCtx.Up s.sub E.slot) (he : bytes (s.sub.cv.conns E.slot).readBuf = []) :
    (s.sub.cv.conns E.slot).readBuf.start = 0 := by
  obtain ⟨n, hi, _⟩ := h.inv
  obtain ⟨sops, hsr⟩ := hi.sub
  exact (hsr.rb E.slot hu).2.2.2 he

/-- The hypotheses are met after the history in which packet 2 of three is lost: it is held for the subscriber, and at time 200000
it is overdue. -/
example : ∃ s0 s, Start exE 2 s0 ∧ run exE s0 exLost = some s ∧ s.acc = some 0 ∧ s.err = false ∧ SubCtx.Up s.sub 0 ∧
    (s.sub.cv.conns 0).readBuf.start = 0 ∧
    (∀ j, PubCtx.Connected s.pub j → ∀ x ∈ s.pub.pub.owedPkts j, x.2.2 + s.pub.resendTimeout ≤ 200000) ∧
    2 + calls exLost + (PubCtx.held s.pub + 2) * (s.pub.cv.size + 1) + 1 < U64 ∧ PubCtx.held s.pub = 1 ∧
    PubCtx.sentTo 0 s.pub.pub.log = [1, 2, 3] ∧ (SubCtx.arrivedAt 0 s.sub.log).map (·.1.pid) = [1, 3, 1] := by
  obtain ⟨s0, s, h1, h2, h3⟩ := started_of (ops := exLost) (P := fun s => decide (s.acc = some 0 ∧ s.err = false ∧ SubCtx.Up s.sub 0 ∧
    (s.sub.cv.conns 0).readBuf.start = 0 ∧ s.pub.cv.size = 2 ∧
    (∀ j ∈ List.range 2, ∀ x ∈ s.pub.pub.owedPkts j, x.2.2 + s.pub.resendTimeout ≤ 200000) ∧
    2 + calls exLost + (PubCtx.held s.pub + 2) * (s.pub.cv.size + 1) + 1 < U64 ∧ PubCtx.held s.pub = 1 ∧
    PubCtx.sentTo 0 s.pub.pub.log = [1, 2, 3] ∧ (SubCtx.arrivedAt 0 s.sub.log).map (·.1.pid) = [1, 3, 1])) (by decide +kernel)
  obtain ⟨a1, a2, a3, a4, a5, a6, a7, a8, a9, a10⟩ := of_decide_eq_true h3
  exact ⟨s0, s, h1, h2, a1, a2, a3, a4, fun j hj => a6 j (by rw [List.mem_range, ← a5]; exact hj.1), a7, a8, a9, a10⟩

/-- Two packets are lost in multicast, one of 2 bytes and one of 30; both are sent again, over TCP, the newer one first, and the subscriber
reads that one and the first byte of the other. -/
def exWedge : List SysOp :=
  [.sub (.write 0 (.ok 0) none (.ok 0)), .accept 0 (.ok 5 1) none, .pub (.queue (PubCtx.exPay 1) false),
   .pub (.queue ⟨1, List.replicate 30 9, false⟩ false), .pub (.writeMcast [⟨.ok 10, []⟩, ⟨.ok 20, []⟩]),
   .pub (.timeout 200000 none 0), .pub (.write 0 (.ok 74)), .subRead 52 200100]

/-- The state after that: every read of what is in the stream, in pieces of whatever size, ends the connection (or runs into undefined
behaviour). -/
theorem wedged {E : Env} {s : Sys} (h : Reached E s) (a3 : SubCtx.Up s.sub E.slot) (a8 : s.down.length = 22)
    (a9 : (s.sub.cv.conns E.slot).readBuf.start = 51) (a10 : inUse (s.sub.cv.conns E.slot).readBuf = 1) :
    ∀ m ts, next E s (.subRead m ts) = none := by
  intro m ts
  obtain ⟨n, hi, _⟩ := h.inv
  obtain ⟨sops, hsr⟩ := hi.sub
  have hrb := hsr.rb E.slot a3
  unfold next
  dsimp only
  split
  · rename_i hok
    obtain ⟨_, b1, b2, b3⟩ := hok
    have hlen : (s.down.take m).length = m := by rw [List.length_take]; omega
    split
    · rename_i r hx
      rw [if_neg]
      intro hup
      have := SubCtx.read_safe a3 hrb.1 (by rw [hrb.2.1]; decide) (xs := s.down.take m) (by intro e; rw [e] at hlen; simp at hlen; omega)
        (by rw [hlen]; exact b3) (ts := ts) (r := r.1) (c' := r.2) hx hup
      rw [hlen] at this
      apply this
      rw [a9, a10]
      have : RMC_MAX_PACKET = 65400 := rfl
      rw [hrb.2.1]
      omega
    · rfl
  · rfl

/-- Without the condition on the read buffer C68 is not true of the code: here packet 1 has been multicast and resent, nothing is held for the
subscriber and all the rest of the packet is in the stream; but every read of the rest, in pieces of whatever size, ends the
connection (or runs into undefined behaviour). -/
theorem C68_false : ∃ s, Reached exE s ∧ s.acc = some 0 ∧ s.err = false ∧ SubCtx.Up s.sub 0 ∧ s.pub.pub.outstanding 0 = [] ∧
    bytes (s.pub.cv.conns 0).writeBuf = [] ∧ 1 ∈ PubCtx.sentTo 0 s.pub.pub.log ∧ 1 ∉ (SubCtx.arrivedAt 0 s.sub.log).map (fun x : SPkt × Bool × Int => x.1.pid) ∧
    s.down.length = 22 ∧ ∀ m ts, next exE s (.subRead m ts) = none := by
  obtain ⟨s, h, h2⟩ := reached_of (ops := exWedge) (P := fun s => decide (s.acc = some 0 ∧ s.err = false ∧ SubCtx.Up s.sub 0 ∧
    s.pub.pub.outstanding 0 = [] ∧ bytes (s.pub.cv.conns 0).writeBuf = [] ∧ 1 ∈ PubCtx.sentTo 0 s.pub.pub.log ∧
    1 ∉ (SubCtx.arrivedAt 0 s.sub.log).map (fun x : SPkt × Bool × Int => x.1.pid) ∧ s.down.length = 22 ∧
    (s.sub.cv.conns 0).readBuf.start = 51 ∧ inUse (s.sub.cv.conns 0).readBuf = 1)) (by decide) (by decide +kernel)
  obtain ⟨a1, a2, a3, a4, a5, a6, a7, a8, a9, a10⟩ := of_decide_eq_true h2
  exact ⟨s, h, a1, a2, a3, a4, a5, a6, a7, a8, wedged h a3 a8 a9 a10⟩

end Sys
end Rmc
