import Verif.SysInv

/-! # A connection that breaks off

What can happen after the TCP connection of a `Sys` has ended on the publisher's side or in the network: the publisher closes it
(rmc_connection.c:400-441, rmc_pub_close_connection rmc_pub_context.c:200-215, rmc_pub_deactivate_context rmc_pub_context.c:155-197,
a failing write rmc_pub_write.c:233-303) or the network drops it.
Of the bytes in flight the subscriber still gets some first part (possibly ending inside a frame), and nothing it sends arrives
any more.  The publisher may make any calls, on any of its connections. -/

set_option linter.unusedSimpArgs false
set_option linter.unusedVariables false

namespace Rmc

/-- The two sides after the break: `down` are the bytes the subscriber can still receive. -/
structure Cut where
  pub : PubCtx
  sub : SubCtx
  down : List UInt8

/-- What happens then: a call of the publisher, one of the subscriber that does not read from or close the connection, or a read
of the subscriber that gets `n` of the remaining bytes (rmc_sub_read.c:251-300). -/
inductive CutOp where
  | pub (op : PubCtx.Op)
  | sub (op : SubCtx.Op)
  | subRead (n : Nat) (ts : Int)

namespace Cut
open PLog Sys CircBuf

/-- The break: the first `m` of the bytes in flight will still arrive. -/
def of (s : Sys) (m : Nat) : Cut := ⟨s.pub, s.sub, s.down.take m⟩

/-- What an event makes of the two sides; none if it cannot happen.  Other than in `Sys.next` the publisher may close and
deactivate. -/
def next (E : Env) (s : Cut) : CutOp → Option Cut
  | .pub op =>
    if callOk op = true then
      match PubCtx.step s.pub op with
      | .ok r => some { s with pub := r.2 }
      | .error _ => none
    else none
  | .sub op =>
    if leavesSub E.slot op = true ∧ (∀ r ∈ received op, honest E s.pub r) then
      match SubCtx.step s.sub op with
      | .ok r => if SubCtx.Live r.2 E.slot then some { s with sub := r.2 } else none
      | .error _ => none
    else none
  | .subRead n ts =>
    if SubCtx.Up s.sub E.slot ∧ 0 < n ∧ n ≤ s.down.length ∧ n ≤ CircBuf.available (s.sub.cv.conns E.slot).readBuf then
      match SubCtx.step s.sub (.read E.slot (some (s.down.take n)) ts) with
      | .ok r => if SubCtx.Up r.2 E.slot then some { s with sub := r.2, down := s.down.drop n } else none
      | .error _ => none
    else none

/-- A history after the break. -/
def run (E : Env) : Cut → List CutOp → Option Cut
  | s, [] => some s
  | s, op :: ops => (next E s op).bind fun t => run E t ops

/-- The invariant: the part of `Sys.Inv` about what has arrived; the bytes to come are the beginning of frames of packets sent. -/
structure Inv (E : Env) (n : Nat) (s : Cut) : Prop where
  pub : ∃ ops, PubCtx.Reaches ops s.pub ∧ (∀ op ∈ ops, callOk op = true) ∧ ops.length ≤ n
  ids : s.pub.nodeId < U32 ∧ s.pub.listenIp < U32 ∧ s.pub.listenPort < 65536 ∧ s.pub.listenPort ≠ 0
  sub : ∃ ops, SubCtx.Reaches ops s.sub
  live : SubCtx.Live s.sub E.slot
  to : (s.sub.cv.conns E.slot).addr = addr E s.pub ∧ (s.sub.cv.conns E.slot).port = s.pub.listenPort
  srb : WF (s.sub.cv.conns E.slot).readBuf ∧ (s.sub.cv.conns E.slot).readBuf.size = RMC_MAX_PACKET
  arr : SubCtx.Up s.sub E.slot → ∀ a ∈ SubCtx.arrivedAt E.slot s.sub.log,
    ∃ p, (a.1.pid, p) ∈ sentPkts s.pub.pub.log ∧ a.1.payload.data = p.data
  down : ∃ (ps : List (Nat × Payload)) (z : List UInt8), (∀ x ∈ ps, x ∈ sentPkts s.pub.pub.log) ∧
    bytes (s.sub.cv.conns E.slot).readBuf ++ (s.down ++ z) = (ps.map (frame s.pub)).flatten

theorem Inv.of {E : Env} {n : Nat} {s : Sys} (h : Sys.Inv E n s) (m : Nat) : Inv E n (Cut.of s m) := by
  refine ⟨h.pub, h.ids, h.sub, h.live, h.to, h.srb, ?_, ?_⟩
  · intro hu a ha
    obtain ⟨p, p1, p2, _⟩ := h.arr hu a ha
    exact ⟨p, p1, p2⟩
  · obtain ⟨ps, d1, d2, _⟩ := h.down
    refine ⟨ps, s.down.drop m ++ wbytes s, fun x hx => (d1 x hx).1, ?_⟩
    show bytes (s.sub.cv.conns E.slot).readBuf ++ (s.down.take m ++ (s.down.drop m ++ wbytes s)) = (ps.map (frame s.pub)).flatten
    rw [← List.append_assoc (s.down.take m), List.take_append_drop, ← List.append_assoc]
    exact d2

theorem Inv.pubStep {E : Env} {n : Nat} {s t : Cut} (h : Inv E n s) (hb : n + 2 < U64) {op : PubCtx.Op}
    (ht : next E s (.pub op) = some t) : Inv E (n + 1) t := by
  unfold next at ht
  dsimp only at ht
  split at ht
  · rename_i hc
    cases hx : PubCtx.step s.pub op with
    | error f => rw [hx] at ht; cases ht
    | ok x =>
      obtain ⟨r, p⟩ := x
      rw [hx] at ht
      cases ht
      obtain ⟨ops, h1, h2, h3⟩ := h.pub
      obtain ⟨pops, L, g, hq, hb', _⟩ := h1.good
      have hs := PubCtx.callOk_sane hc
      obtain ⟨i1, i2, i3⟩ := PubCtx.step_ids g hs (by omega) hx
      have i3' : p.listenPort = s.pub.listenPort := by
        rcases i3 with ⟨e, _⟩ | ⟨_, _, _, _, e⟩
        · exact e
        · rw [e, if_neg h.ids.2.2.2]
      have hsent : ∀ x ∈ sentPkts s.pub.pub.log, x ∈ sentPkts p.pub.log := by
        obtain ⟨ys, L', g', _⟩ := PubCtx.step_good g hs (by omega) hx
        obtain ⟨es, e1, _⟩ := PubCtx.good_events g g'
        intro x hx'
        rw [e1, sentPkts_append]
        exact List.mem_append_left _ hx'
      refine ⟨⟨ops ++ [op], h1.snoc' hs (by omega) hx, ?_, by simp; omega⟩, ?_, h.sub, h.live, ?_, h.srb, ?_, ?_⟩
      · intro o ho
        rcases List.mem_append.1 ho with ho | ho
        · exact h2 o ho
        · rw [List.mem_singleton.1 ho]; exact hc
      · show p.nodeId < U32 ∧ p.listenIp < U32 ∧ p.listenPort < 65536 ∧ p.listenPort ≠ 0
        rw [i1, i2, i3']; exact h.ids
      · show (s.sub.cv.conns E.slot).addr = addr E p ∧ (s.sub.cv.conns E.slot).port = p.listenPort
        rw [addr_congr i2, i3']; exact h.to
      · intro hu a ha
        obtain ⟨q, q1, q2⟩ := h.arr hu a ha
        exact ⟨q, hsent _ q1, q2⟩
      · obtain ⟨ps, z, d1, d2⟩ := h.down
        refine ⟨ps, z, fun x hx' => hsent _ (d1 x hx'), ?_⟩
        show _ = (ps.map (frame p)).flatten
        rw [frame_congr ⟨i1, i2, i3'⟩]; exact d2
  · cases ht

theorem Inv.subStep {E : Env} {n : Nat} {s t : Cut} (h : Inv E n s) {op : SubCtx.Op}
    (ht : next E s (.sub op) = some t) : Inv E n t := by
  unfold next at ht
  dsimp only at ht
  split at ht
  · rename_i hok
    cases hx : SubCtx.step s.sub op with
    | error f => rw [hx] at ht; cases ht
    | ok x =>
      obtain ⟨r, c⟩ := x
      rw [hx] at ht
      dsimp only at ht
      split at ht
      · rename_i hlive
        cases ht
        obtain ⟨ops, h1, h2, h3⟩ := h.pub
        obtain ⟨sops, hsr⟩ := h.sub
        have hsr' := hsr.snoc hx
        have hl := hok.1
        obtain ⟨es, kept, harr⟩ := SubCtx.step_link hsr.inv hx
          (by rintro rv ts rfl; simp [leavesSub] at hl) (by rintro rfl; simp [leavesSub] at hl) h.live hlive
        have new : ∀ p m ts, SEv.arrive E.slot p m ts ∈ es →
            ∃ q, (p.pid, q) ∈ sentPkts s.pub.pub.log ∧ p.payload.data = q.data := by
          intro p m ts hp
          obtain ⟨e0, rs, src, bs, ts', ann, sk, cr, e1, e2, e3⟩ := harr p m ts hp
          rw [h.to.1, h.to.2] at e3
          refine InDatagram.honest h1 h2 ⟨h.ids.1, h.ids.2.1, h.ids.2.2.1⟩ (hok.2 (.dgram src bs ts' ann sk cr) ?_) e3
          rw [e1]; exact e2
        obtain ⟨ps, z, d1, d2⟩ := h.down
        refine ⟨⟨ops, h1, h2, by omega⟩, h.ids, ⟨_, hsr'⟩, hlive, ?_, ?_, ?_, ⟨ps, z, d1, ?_⟩⟩
        · show (c.cv.conns E.slot).addr = _ ∧ (c.cv.conns E.slot).port = _
          rw [kept.addr, kept.port]; exact h.to
        · show WF (c.cv.conns E.slot).readBuf ∧ (c.cv.conns E.slot).readBuf.size = _
          rw [kept.rb]; exact h.srb
        · intro hu' a ha
          have ha' : a ∈ SubCtx.arrivedAt E.slot c.log := ha
          rw [kept.log] at ha'
          cases kept.ph with
          | up hu _ hn =>
            obtain ⟨as, b1, b2⟩ := SubCtx.arrivedAt_up (log := s.sub.log) hn
            rw [b1] at ha'
            rcases List.mem_append.1 ha' with w | w
            · exact h.arr hu a w
            · exact new _ _ _ ((b2 a).1 w)
          | waiting _ hu _ => exact absurd hu' hu
          | done _ _ e1 e2 he g1 g2 =>
            rw [he] at ha'
            have := (SubCtx.arrivedAt_done g2 a).1 ha'
            exact new a.1 a.2.1 a.2.2 (by rw [he]; simp [this])
        · show bytes (c.cv.conns E.slot).readBuf ++ (s.down ++ z) = _
          rw [kept.rb]; exact d2
      · cases ht
  · cases ht

theorem Inv.subReadStep {E : Env} {n : Nat} {s t : Cut} (h : Inv E n s) {m : Nat} {ts : Int}
    (ht : next E s (.subRead m ts) = some t) : Inv E n t := by
  unfold next at ht
  dsimp only at ht
  split at ht
  · rename_i hok
    cases hx : SubCtx.step s.sub (.read E.slot (some (s.down.take m)) ts) with
    | error f => rw [hx] at ht; cases ht
    | ok x =>
      obtain ⟨r, c⟩ := x
      rw [hx] at ht
      dsimp only at ht
      by_cases hup' : SubCtx.Up c E.slot
      case neg => rw [if_neg hup'] at ht; cases ht
      rw [if_pos hup'] at ht
      cases ht
      obtain ⟨hu, hm0, hm1, hm2⟩ := hok
      obtain ⟨ops, h1, h2, h3⟩ := h.pub
      obtain ⟨sops, hsr⟩ := h.sub
      have hsr' := hsr.snoc hx
      obtain ⟨ps, z, d1, d2⟩ := h.down
      have hlen : (s.down.take m).length = m := by rw [List.length_take]; omega
      obtain ⟨hdr, hhdr⟩ : ∃ f : Nat × Payload → PacketHeader × List UInt8,
        f = fun x => (⟨x.1, s.pub.nodeId, x.2.data.length, s.pub.listenIp, s.pub.listenPort⟩, x.2.data) := ⟨_, rfl⟩
      have hwf : SubCtx.WellFormed (ps.map hdr) := by
        intro y hy
        obtain ⟨x, hx', rfl⟩ := List.mem_map.1 hy
        have := PubCtx.queued_ok h1 h2 (PubCtx.sent_queued h1 (d1 x hx'))
        have e : RMC_MAX_PAYLOAD = 65312 := rfl
        rw [hhdr]
        exact ⟨⟨by show x.1 < U64; omega, h.ids.1, by show x.2.data.length < 65536; omega, h.ids.2.1, h.ids.2.2.1⟩, rfl⟩
      have hfr : ∀ qs : List (Nat × Payload), (qs.map hdr).map (fun p => SubCtx.frameOf p.1 p.2) = qs.map (frame s.pub) := by
        intro qs; rw [List.map_map]; rw [hhdr]; rfl
      obtain ⟨f1, f2, es, l1, l2, l3, l4, l5, l6, l7, l8, l9, l10, l11⟩ := SubCtx.read_link hsr.inv hu h.srb.1 h.srb.2 (xs := s.down.take m)
        (by intro e; rw [e] at hlen; simp at hlen; omega) (by rw [hlen]; exact hm2) hup' hwf
        (ys := s.down.drop m ++ z) (by
          rw [hfr, ← d2]
          rw [List.append_assoc, ← List.append_assoc (s.down.take m), List.take_append_drop]) hx
      obtain ⟨p1, p2, r1, r2, r3⟩ := List.map_eq_append_iff.1 l1
      have hcomp := SubCtx.quietEv_complete (i := E.slot) l10
      obtain ⟨as, b1, b2⟩ := SubCtx.arrivedAt_up (log := s.sub.log) hcomp
      have hlive : SubCtx.Live c E.slot := ⟨l2.1, by rw [l2.2]; simp⟩
      refine ⟨⟨ops, h1, h2, by omega⟩, h.ids, ⟨_, hsr'⟩, hlive, ?_, ⟨l3, l4⟩, ?_, ⟨p2, z, ?_, ?_⟩⟩
      · show (c.cv.conns E.slot).addr = _ ∧ (c.cv.conns E.slot).port = _
        rw [l7, l8]; exact h.to
      · intro _ a ha
        have ha' : a ∈ SubCtx.arrivedAt E.slot c.log := ha
        rw [l9, b1] at ha'
        rcases List.mem_append.1 ha' with w | w
        · exact h.arr hu a w
        · have hc : (E.slot, a.1.pid, a.1.payload.data, a.2.1) ∈ SubCtx.came es := SubCtx.mem_came.2 ⟨a.1, a.2.2, (b2 a).1 w, rfl, rfl⟩
          rw [l11, ← r2, List.map_map] at hc
          obtain ⟨x, hx1, hx2⟩ := List.mem_map.1 hc
          rw [hhdr] at hx2
          simp only [Function.comp, Prod.mk.injEq] at hx2
          have := d1 x (by rw [r1]; exact List.mem_append_left _ hx1)
          exact ⟨x.2, by rw [← hx2.2.1]; exact this, hx2.2.2.1.symm⟩
      · intro x hx'; exact d1 x (by rw [r1]; exact List.mem_append_right _ hx')
      · show bytes (c.cv.conns E.slot).readBuf ++ (s.down.drop m ++ z) = _
        rw [l5, ← r3, hfr]
  · cases ht

theorem Inv.run {E : Env} : ∀ (ops : List CutOp) {n : Nat} {s t : Cut}, Inv E n s → n + ops.length + 1 < U64 →
    run E s ops = some t → Inv E (n + ops.length) t := by
  intro ops
  induction ops with
  | nil => intro n s t h hb hr; cases hr; exact h
  | cons op ops ih =>
    intro n s t h hb hr
    unfold Cut.run at hr
    cases hn : next E s op with
    | none => rw [hn] at hr; cases hr
    | some u =>
      rw [hn] at hr
      have hr' : Cut.run E u ops = some t := hr
      rw [List.length_cons] at hb ⊢
      have hu : Inv E (n + 1) u := by
        cases op with
        | pub op => exact h.pubStep (by omega) hn
        | sub op =>
          have := h.subStep hn
          obtain ⟨o, a, b, c⟩ := this.pub
          exact { this with pub := ⟨o, a, b, by omega⟩ }
        | subRead m ts =>
          have := h.subReadStep hn
          obtain ⟨o, a, b, c⟩ := this.pub
          exact { this with pub := ⟨o, a, b, by omega⟩ }
      have := ih hu (by omega) hr'
      rw [show n + (ops.length + 1) = n + 1 + ops.length by omega]
      exact this

theorem Inv.valid {E : Env} {n : Nat} {s : Cut} (h : Inv E n s) (hu : SubCtx.Up s.sub E.slot) : SubCtx.ValidPids E.slot s.sub.log := by
  intro a ha
  obtain ⟨p, h1, _⟩ := h.arr hu a ha
  obtain ⟨ops, q1, q2, _⟩ := h.pub
  have := PubCtx.queued_ok q1 q2 (PubCtx.sent_queued q1 h1)
  exact ⟨this.1, this.2.1⟩

end Cut
end Rmc
