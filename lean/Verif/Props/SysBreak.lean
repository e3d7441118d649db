import Verif.SysBreak
import Verif.Props.Sys

/-! # A connection that breaks off (C99)

`Broken E t`: publisher and subscriber were connected (a reachable state of the composed system), at some moment the TCP
connection broke off on the publisher's side or in the network (of the bytes in flight only some first part will still arrive),
and `t` is the state after any further history of both sides. -/

set_option linter.unusedSimpArgs false
set_option linter.unusedVariables false

namespace Rmc
namespace SubCtx

theorem deliveredAt_same {i : Nat} {log es : List SEv} (hc : SEv.complete i ∉ es) (hr : ∀ p, SEv.ready p ∉ es) :
    deliveredAt i (log ++ es) = deliveredAt i log := by
  unfold deliveredAt
  rw [since_append_of hc, List.filterMap_append]
  rw [List.append_right_eq_self, List.filterMap_eq_nil_iff]
  intro e he
  cases e with
  | ready p => exact absurd he (hr p)
  | _ => rfl

theorem closeConnection_delivered {c c' : SubCtx} {i j r : Nat} (h : closeConnection c i = .ok (r, c')) :
    deliveredAt j c'.log = deliveredAt j c.log := by
  unfold closeConnection at h
  dsimp only at h
  split at h
  · cases h
  · obtain ⟨s, h1, h2⟩ := bind_ok h
    have e : _ = c' := congrArg Prod.snd (Except.ok.inj h2)
    rw [← e]
    show deliveredAt j ((c.log ++ [SEv.closed i]) ++ _) = _
    rw [List.append_assoc]
    refine deliveredAt_same ?_ ?_
    · simp
    · intro p; simp

/-- The calls that end a connection: `rmc_sub_close_connection`, and a read that meets the end of the stream or an error. -/
def ends (i : Nat) : Op → Prop
  | .close j => j = i
  | .read j rv _ => j = i ∧ (rv = none ∨ rv = some [])
  | _ => False

theorem ends_delivered {c c' : SubCtx} {i j r : Nat} {op : Op} (ho : ends i op) (h : step c op = .ok (r, c')) :
    deliveredAt j c'.log = deliveredAt j c.log := by
  cases op with
  | close k => exact closeConnection_delivered h
  | read k rv ts =>
    have h' : readConn c k rv ts = .ok (r, c') := h
    unfold readConn at h'
    split at h'
    · cases h'; rfl
    · obtain ⟨⟨q, d, b⟩, e1, e2⟩ := bind_ok h'
      have hx : (rv.getD []).take (CircBuf.available (c.cv.conns k).readBuf) = [] := by
        rcases ho.2 with e | e <;> rw [e] <;> simp
      have hq : (q = ENOMEM ∨ q = EPIPE) ∧ d = c := by
        unfold Proto.tcpRead at e1
        dsimp only at e1
        split at e1
        · cases e1; exact ⟨.inl rfl, rfl⟩
        · split at e1
          · rename_i hne
            cases e1
            refine ⟨.inl ?_, rfl⟩
            unfold CircBuf.alloc at hne ⊢
            split at hne
            · rename_i hl; rw [if_pos hl]
            · split at hne <;> simp at hne
          · cases e1; exact ⟨.inr rfl, rfl⟩
      obtain ⟨hq, rfl⟩ := hq
      dsimp only at e2
      split at e2
      · cases e2; rfl
      · rename_i h1
        rw [if_pos (hq.resolve_left h1)] at e2
        obtain ⟨⟨r2, c2⟩, e3, e4⟩ := bind_ok e2
        have : c2 = c' := congrArg Prod.snd (Except.ok.inj e4)
        rw [← this]
        have e5 := closeConnection_delivered (j := j) e3
        exact e5
  | _ => cases ho

end SubCtx

namespace Cut
open PLog Sys

/-- The states after a connection has broken off. -/
def Broken (E : Env) (t : Cut) : Prop :=
  ∃ n s0 ops s m cops, Start E n s0 ∧ n + calls ops + cops.length + 1 < U64 ∧ Sys.run E s0 ops = some s ∧
    run E (of s m) cops = some t

theorem Broken.inv {E : Env} {t : Cut} (h : Broken E t) : ∃ n, Inv E n t := by
  obtain ⟨n, s0, ops, s, m, cops, h1, h2, h3, h4⟩ := h
  exact ⟨_, (Inv.of ((Sys.Inv.start h1).run ops (by omega) h3) m).run cops (by omega) h4⟩

/-- C99: a connection that breaks off, wherever in the byte stream and whatever both sides do before and after: as long as the
subscriber has not closed its end, the payloads delivered to its application in this connection are a contiguous piece of the
sequence of payloads queued by the application of the publisher, with their ids. -/
theorem C99_broken {E : Env} {t : Cut} (h : Broken E t) (hu : SubCtx.Up t.sub E.slot) :
    ∃ b, (SubCtx.deliveredAt E.slot t.sub.log).map (·.payload.data) =
      (((queuedPkts t.pub.pub.log).map (·.2.data)).drop b).take (SubCtx.deliveredAt E.slot t.sub.log).length ∧
      (SubCtx.deliveredAt E.slot t.sub.log).map (·.pid) =
      (((queuedPkts t.pub.pub.log).map (·.1)).drop b).take (SubCtx.deliveredAt E.slot t.sub.log).length := by
  obtain ⟨n, hi⟩ := h.inv
  obtain ⟨sops, hsr⟩ := hi.sub
  obtain ⟨ops, h1, h2, h3⟩ := hi.pub
  have hv := hi.valid hu
  obtain ⟨b, m, hd⟩ := SubCtx.C33_api hsr hu hv
  have hp : ∀ x ∈ SubCtx.deliveredAt E.slot t.sub.log, ∃ p, (x.pid, p) ∈ queuedPkts t.pub.pub.log ∧ x.payload.data = p.data := by
    intro x hx
    obtain ⟨before, mc, ts, after, e1, _⟩ := SubCtx.C34_api hsr hu hv hx
    obtain ⟨p, p1, p2⟩ := hi.arr hu (x, mc, ts) (by rw [e1]; simp)
    exact ⟨p, PubCtx.sent_queued h1 p1, p2⟩
  refine ⟨b - 1, piece (queued_ids h1) hd hp, ?_⟩
  have hm : (SubCtx.deliveredAt E.slot t.sub.log).length = m := by have := congrArg List.length hd; simpa using this
  rw [hd, queued_ids h1, hm]
  cases m with
  | zero => rfl
  | succ m =>
    have hids : ∀ j, b ≤ j → j < b + (m + 1) → 1 ≤ j ∧ j < 1 + (queuedPkts t.pub.pub.log).length := by
      intro j j1 j2
      have : j ∈ (SubCtx.deliveredAt E.slot t.sub.log).map (·.pid) := by rw [hd, List.mem_range'_1]; omega
      obtain ⟨x, hx, rfl⟩ := List.mem_map.1 this
      obtain ⟨p, q1, _⟩ := hp x hx
      have : x.pid ∈ (queuedPkts t.pub.pub.log).map (·.1) := List.mem_map.2 ⟨_, q1, rfl⟩
      rw [queued_ids h1, List.mem_range'_1] at this
      exact this
    have a1 := hids b (by omega) (by omega)
    have a2 := hids (b + m) (by omega) (by omega)
    rw [List.drop_range', take_range' (by omega)]
    congr 1; omega

/-- C99: and when the subscriber closes its end, or reads the end of the stream, that is what the connection has delivered. -/
theorem C99_ended {E : Env} {t : Cut} (h : Broken E t) (hu : SubCtx.Up t.sub E.slot) {op : SubCtx.Op} (ho : SubCtx.ends E.slot op)
    {r : Nat} {c : SubCtx} (hx : SubCtx.step t.sub op = .ok (r, c)) :
    ∃ b n, (SubCtx.deliveredAt E.slot c.log).map (·.payload.data) = (((queuedPkts t.pub.pub.log).map (·.2.data)).drop b).take n := by
  obtain ⟨b, h1, _⟩ := C99_broken h hu
  rw [SubCtx.ends_delivered ho hx]
  exact ⟨b, _, h1⟩

/-- Check a property of what a history, a break with `m` bytes still to arrive and a history after it lead to. -/
def holdsBroken (ops : List SysOp) (m : Nat) (cops : List CutOp) (P : Cut → Bool) : Bool :=
  holdsAfter ops fun s => match run exE (of s m) cops with
    | some t => P t
    | none => false

theorem broken_of {ops : List SysOp} {m : Nat} {cops : List CutOp} {P : Cut → Bool} (hl : 2 + ops.length + cops.length + 1 < U64)
    (h : holdsBroken ops m cops P = true) : ∃ t, Broken exE t ∧ P t = true := by
  obtain ⟨s0, s, h1, h2, h3⟩ := started_of h
  cases hr : run exE (of s m) cops with
  | none => rw [hr] at h3; cases h3
  | some t =>
    rw [hr] at h3
    exact ⟨t, ⟨2, s0, ops, s, m, cops, h1, by have := calls_le ops; omega, h2, hr⟩, h3⟩

/-- Non-vacuity: three packets are multicast, 2 is lost, 1 and 3 come in; the publisher sends 2 again over TCP, but the connection
breaks off after 7 of its 23 bytes: the publisher closes its end, queues and multicasts a fourth packet, which comes in.  Only
packet 1 is delivered, though 3 and 4 have arrived. -/
example : ∃ t, Broken exE t ∧ decide (SubCtx.Up t.sub 0 ∧ ¬ PubCtx.Connected t.pub 0 ∧ t.down = [] ∧
    (queuedPkts t.pub.pub.log).map (·.1) = [1, 2, 3, 4] ∧ (SubCtx.deliveredAt 0 t.sub.log).map (·.pid) = [1] ∧
    (SubCtx.arrivedAt 0 t.sub.log).map (·.1.pid) = [1, 3, 1, 4] ∧ 0 < CircBuf.inUse (t.sub.cv.conns 0).readBuf) = true :=
  broken_of (ops := exLost ++ [.pub (.timeout 200000 none 0), .pub (.write 0 (.ok 23))]) (m := 7)
    (cops := [.pub (.close 0), .pub (.queue (PubCtx.exPay 4) false), .pub (.writeMcast [⟨.ok 40, []⟩]), .subRead 7 200100,
      .sub (.readMcast [exMc 4 [4, 0] 210000])]) (P := fun t => decide _) (by decide) (by decide +kernel)

/-- Non-vacuity: all 23 bytes arrive before the end of the stream: packets 1, 2 and 3 are delivered. -/
example : ∃ t, Broken exE t ∧ decide (SubCtx.Up t.sub 0 ∧ ¬ PubCtx.Connected t.pub 0 ∧
    (SubCtx.deliveredAt 0 t.sub.log).map (·.pid) = [1, 2, 3]) = true :=
  broken_of (ops := exLost ++ [.pub (.timeout 200000 none 0), .pub (.write 0 (.ok 23))]) (m := 100)
    (cops := [.pub (.close 0), .subRead 7 200100, .subRead 16 200200]) (P := fun t => decide _) (by decide) (by decide +kernel)

end Cut
end Rmc
