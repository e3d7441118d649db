import Verif.Props.SysBreak
import Verif.Props.Net

/-! # A connection of a network that breaks off (C99) -/

namespace Rmc
namespace Net
open PLog Sys

/-- The link of a network after its connection has broken off is the two-party system after a break: `m` of the bytes in flight are
still to come. -/
theorem broken_link {E : NetEnv} {n : Nat} {s0 s : Net} {ops : List NetOp} (hs : Start E n s0) (hr : run E s0 ops = some s)
    {l : Link} (hl : l ∈ s.links) {m : Nat} {cops : List CutOp} {t : Cut} (hb : n + calls ops + cops.length + 1 < U64)
    (hc : Cut.run (env E l) (Cut.of (view s l) m) cops = some t) : Cut.Broken (env E l) t := by
  obtain ⟨k, t0, tops, k1, k2, k3⟩ := ((NInv.start hs).run ops (by omega) hr).link l hl
  exact ⟨k, t0, tops, view s l, m, cops, k1, by omega, k3, hc⟩

/-- C99, however many publishers and subscribers there are: the connection between publisher `l.p` and subscriber `l.q` breaks off, in
any state of the network and anywhere in its byte stream; the two make any further calls, the subscriber hears any datagrams the
publisher has sent, and others.  What the connection has delivered, when the subscriber closes its end or reads the end of the
stream, is a contiguous piece of what the application of that publisher has queued: nothing of another publisher, nothing
missing, repeated, reordered, altered. -/
theorem C99_link {E : NetEnv} {n : Nat} {s0 s : Net} {ops : List NetOp} (hs : Start E n s0) (hr : run E s0 ops = some s)
    {l : Link} (hl : l ∈ s.links) {m : Nat} {cops : List CutOp} {t : Cut} (hb : n + calls ops + cops.length + 1 < U64)
    (hc : Cut.run (env E l) (Cut.of (view s l) m) cops = some t) (hu : SubCtx.Up t.sub l.slot) {op : SubCtx.Op}
    (ho : SubCtx.ends l.slot op) {r : Nat} {c : SubCtx} (hx : SubCtx.step t.sub op = .ok (r, c)) :
    ∃ b, (SubCtx.deliveredAt l.slot c.log).map (fun p => p.payload.data) =
      (((queuedPkts t.pub.pub.log).map (·.2.data)).drop b).take (SubCtx.deliveredAt l.slot c.log).length ∧
      (SubCtx.deliveredAt l.slot c.log).map (·.pid) =
      (((queuedPkts t.pub.pub.log).map (·.1)).drop b).take (SubCtx.deliveredAt l.slot c.log).length := by
  have h := broken_link hs hr hl hb hc
  obtain ⟨b, b1, b2⟩ := Cut.C99_broken h hu
  have e : SubCtx.deliveredAt l.slot c.log = SubCtx.deliveredAt l.slot t.sub.log := SubCtx.ends_delivered ho hx
  rw [e]
  exact ⟨b, b1, b2⟩

/-- Non-vacuity: the network of C70; publisher 0 resends to its two subscribers, and its connection to subscriber 0 breaks off after
7 of 23 bytes.  The subscriber reads them and then the end of the stream: it has delivered packet 1 of publisher 0, though 1 and 3
have arrived. -/
example : ∃ s0 s, Start exN 2 s0 ∧ run exN s0 (exNet ++ [.pub 0 (.timeout 200000 none 0), .pub 0 (.write 0 (.ok 23))]) = some s ∧
    (match s.links with
    | [_, _, l] => match Cut.run (env exN l) (Cut.of (view s l) 7) [.pub (.close 0), .subRead 7 200100] with
      | some t => match SubCtx.step t.sub (.read l.slot none 200200) with
        | .ok r => decide (l.p = 0 ∧ l.q = 0 ∧ SubCtx.Up t.sub l.slot ∧ (SubCtx.deliveredAt l.slot r.2.log).map (·.pid) = [1] ∧
            (SubCtx.arrivedAt l.slot r.2.log).map (·.1.pid) = [1, 3, 1])
        | .error _ => false
      | none => false
    | _ => false) = true :=
  net_started (P := fun s => match s.links with
    | [_, _, l] => match Cut.run (env exN l) (Cut.of (view s l) 7) [.pub (.close 0), .subRead 7 200100] with
      | some t => match SubCtx.step t.sub (.read l.slot none 200200) with
        | .ok r => decide (l.p = 0 ∧ l.q = 0 ∧ SubCtx.Up t.sub l.slot ∧ (SubCtx.deliveredAt l.slot r.2.log).map (·.pid) = [1] ∧
            (SubCtx.arrivedAt l.slot r.2.log).map (·.1.pid) = [1, 3, 1])
        | .error _ => false
      | none => false
    | _ => false) (by decide +kernel)

end Net
end Rmc
