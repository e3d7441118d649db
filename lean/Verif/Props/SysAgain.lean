import Verif.Props.SysBreak
import Verif.Props.NetFirst

/-! # A subscriber that connects again (C101) -/

set_option linter.unusedSimpArgs false
set_option linter.unusedVariables false

namespace Rmc
open PLog

namespace PubCtx

theorem since_snoc (k : Nat) (xs : List PEv) (e : PEv) : since k (xs ++ [e]) = if e = .connect k then [] else since k xs ++ [e] := by
  unfold since
  rw [List.reverse_append, List.reverse_singleton, List.singleton_append, List.takeWhile_cons]
  by_cases h : e = .connect k
  · simp [h]
  · simp [h]

theorem since_mem {k : Nat} {log : List PEv} : ∀ (n : Nat) (es : List PEv), es.length = n → ∀ e, e ∈ since k (log ++ es) → e ∈ since k log ∨ e ∈ es := by
  intro n
  induction n with
  | zero => intro es hl e he; rw [List.length_eq_zero_iff.1 hl, List.append_nil] at he; exact .inl he
  | succ n ih =>
    intro es hl e he
    obtain ⟨ys, y, rfl⟩ : ∃ ys y, es = ys ++ [y] :=
      ⟨es.dropLast, es.getLast (by intro h; rw [h] at hl; cases hl), (List.dropLast_concat_getLast _).symm⟩
    rw [← List.append_assoc, since_snoc] at he
    split at he
    · cases he
    · rcases List.mem_append.1 he with he | he
      · rcases ih ys (by simpa using hl) e he with h | h
        · exact .inl h
        · exact .inr (List.mem_append_left _ h)
      · exact .inr (List.mem_append_right _ he)

/-- What was multicast since the accept, after some more events: as before, or among these. -/
theorem sentTo_later {k : Nat} {log es : List PEv} {pid : Nat} (h : pid ∈ sentTo k (log ++ es)) :
    pid ∈ sentTo k log ∨ pid ∈ (sentPkts es).map (·.1) := by
  unfold sentTo at h ⊢
  obtain ⟨⟨q, p⟩, h1, rfl⟩ := List.mem_map.1 h
  obtain ⟨hq, ts, h2⟩ := mem_sentPkts.1 h1
  rcases since_mem _ es rfl _ h2 with h3 | h3
  · exact .inl (List.mem_map.2 ⟨(q, p), mem_sentPkts.2 ⟨hq, ts, h3⟩, rfl⟩)
  · exact .inr (List.mem_map.2 ⟨(q, p), mem_sentPkts.2 ⟨hq, ts, h3⟩, rfl⟩)

/-- The history of the publisher only grows. -/
theorem step_ext {ops : List Op} {c c' : PubCtx} {op : Op} {r : Nat} (h : Reaches ops c) (hs : op.sane) (hb : ops.length + 2 < U64)
    (hx : step c op = .ok (r, c')) : ∃ es, c'.pub.log = c.pub.log ++ es := by
  obtain ⟨pops, L, g, hq, hb', _⟩ := h.good
  obtain ⟨ys, L', g', _⟩ := step_good g hs (by omega) hx
  obtain ⟨es, e, _⟩ := good_events g g'
  exact ⟨es, e⟩

theorem run_ext : ∀ (more : List Op) {ops : List Op} {c c' : PubCtx} {rs : List Nat}, Reaches ops c → (∀ op ∈ more, op.sane) →
    ops.length + more.length + 2 < U64 → run c more = .ok (rs, c') → ∃ es, c'.pub.log = c.pub.log ++ es := by
  intro more
  induction more with
  | nil => intro ops c c' rs _ _ _ hx; cases hx; exact ⟨[], by simp⟩
  | cons op more ih =>
    intro ops c c' rs h hs hb hx
    rw [List.length_cons] at hb
    rw [run_cons] at hx
    obtain ⟨⟨r, d⟩, k1, k2⟩ := bind_ok hx
    obtain ⟨⟨rs1, d2⟩, k3, k4⟩ := bind_ok k2
    cases k4
    obtain ⟨es1, e1⟩ := step_ext h (hs op (by simp)) (by omega) k1
    obtain ⟨es2, e2⟩ := ih (h.snoc' (hs op (by simp)) (by omega) k1) (fun o ho => hs o (by simp [ho]))
      (by rw [List.length_append, List.length_singleton]; omega) k3
    exact ⟨es1 ++ es2, by rw [e2, e1, List.append_assoc]⟩

/-- What is multicast later has a larger id. -/
theorem sent_later {ops : List Op} {c : PubCtx} (h : Reaches ops c) {log es : List PEv} (e : c.pub.log = log ++ es) {x y : Nat}
    (hx : x ∈ (sentPkts log).map (·.1)) (hy : y ∈ (sentPkts es).map (·.1)) : x < y := by
  obtain ⟨pops, L, g, _⟩ := h.good
  have hr := g.p.reached
  have e1 := hr.linv.qp
  have e2 := hr.linv.pids
  rw [← hr.log, e, sentPkts_append] at e1
  rw [← hr.log, e, e1, List.map_append, List.map_append] at e2
  have hs : List.Pairwise (· < ·) (List.range' 1 ((spec pops).nextPid - 1)) := List.pairwise_lt_range'
  rw [← e2] at hs
  exact (List.pairwise_append.1 (List.pairwise_append.1 hs).1).2.2 x hx y hy

end PubCtx

namespace Sys

/-- Since the history began the publisher's log has grown by `es`, and what was multicast to this connection is in it. -/
structure Since (log : List PEv) (s : Sys) : Prop where
  ext : ∃ es, s.pub.pub.log = log ++ es ∧ ∀ k, s.acc = some k → ∀ pid ∈ PubCtx.sentTo k s.pub.pub.log, pid ∈ (sentPkts es).map (·.1)

theorem Since.pub {log : List PEv} {s t : Sys} (h : Since log s) {es : List PEv} (e : t.pub.pub.log = s.pub.pub.log ++ es)
    (ha : t.acc = s.acc) : Since log t := by
  obtain ⟨es0, e0, h0⟩ := h.ext
  refine ⟨es0 ++ es, by rw [e, e0, List.append_assoc], ?_⟩
  intro k hk pid hp
  rw [e] at hp
  rw [sentPkts_append, List.map_append]
  rcases PubCtx.sentTo_later hp with hp | hp
  · exact List.mem_append_left _ (h0 k (by rw [← ha]; exact hk) pid hp)
  · exact List.mem_append_right _ hp

theorem Since.step {E : Env} {n : Nat} {log : List PEv} {s t : Sys} (hi : Inv E n s) (h : Since log s) {op : SysOp} (hb : n + calls [op] + 1 < U64)
    (ht : next E s op = some t) : Since log t := by
  obtain ⟨ops, h1, h2, h3⟩ := hi.pub
  cases op with
  | pub op =>
    unfold next at ht
    dsimp only at ht
    split at ht
    · rename_i hc
      cases hx : PubCtx.step s.pub op with
      | error f => rw [hx] at ht; cases ht
      | ok x =>
        rw [hx] at ht; cases ht
        simp only [calls] at hb
        obtain ⟨es, e⟩ := PubCtx.step_ext h1 (PubCtx.callOk_sane hc.1) (by omega) (r := x.1) (c' := x.2) hx
        exact h.pub e rfl
    · cases ht
  | accept k ar cb =>
    unfold next at ht
    dsimp only at ht
    split at ht
    · rename_i hok
      cases hx : PubCtx.step s.pub (.readListen ar cb) with
      | error f => rw [hx] at ht; cases ht
      | ok x =>
        obtain ⟨r, p⟩ := x
        rw [hx] at ht
        dsimp only at ht
        split at ht
        · rename_i hcon
          cases ht
          simp only [calls] at hb
          obtain ⟨es, e⟩ := PubCtx.step_ext h1 (PubCtx.callOk_sane hok.2.1) (by omega) hx
          obtain ⟨pops, L, g, _⟩ := h1.good
          obtain ⟨fr, _, _⟩ := PubCtx.accept_link g (PubCtx.callOk_sane hok.2.1) hx hok.2.2 hcon
          obtain ⟨es0, e0, _⟩ := h.ext
          refine ⟨es0 ++ es, by rw [e, e0, List.append_assoc], ?_⟩
          intro j hj pid hp
          cases hj
          have := fr.sent
          rw [this] at hp; cases hp
        · cases ht
    · cases ht
  | pubRead m =>
    unfold next at ht
    dsimp only at ht
    split at ht
    · cases ht
    · rename_i k hk
      split at ht
      · cases hx : PubCtx.step s.pub (.read k (some (s.up.take m))) with
        | error f => rw [hx] at ht; cases ht
        | ok x =>
          rw [hx] at ht
          dsimp only at ht
          split at ht
          · cases ht
            simp only [calls] at hb
            obtain ⟨es, e⟩ := PubCtx.step_ext h1 (PubCtx.callOk_sane rfl) (by omega) (r := x.1) (c' := x.2) hx
            exact h.pub e rfl
          · cases ht
      · cases ht
  | sub op =>
    have e : t.pub = s.pub ∧ t.acc = s.acc := by
      unfold next at ht
      dsimp only at ht
      split at ht
      · split at ht
        · split at ht
          · cases ht; exact ⟨rfl, rfl⟩
          · cases ht
        · cases ht
      · cases ht
    exact h.pub (es := []) (by rw [e.1]; simp) e.2
  | subRead m ts =>
    have e : t.pub = s.pub ∧ t.acc = s.acc := by
      unfold next at ht
      dsimp only at ht
      split at ht
      · split at ht
        · split at ht
          · cases ht; exact ⟨rfl, rfl⟩
          · cases ht
        · cases ht
      · cases ht
    exact h.pub (es := []) (by rw [e.1]; simp) e.2

theorem Since.run {E : Env} {log : List PEv} : ∀ (ops : List SysOp) {n : Nat} {s t : Sys}, Inv E n s → Since log s → n + calls ops + 1 < U64 →
    run E s ops = some t → Since log t := by
  intro ops
  induction ops with
  | nil => intro n s t _ h _ ht; cases ht; exact h
  | cons op ops ih =>
    intro n s t hi h hb ht
    rw [calls_cons] at hb
    unfold Sys.run at ht
    cases hx : next E s op with
    | none => rw [hx] at ht; cases ht
    | some u =>
      rw [hx] at ht
      exact ih (hi.step (by omega) hx) (h.step hi (by omega) hx) (by omega) ht

/-- The first packet that came in over the connection is not one the publisher had multicast (as a datagram) before the connection was begun. -/
def FirstNew (E : Env) (s0 s : Sys) : Prop :=
  ∀ a, (SubCtx.arrivedAt E.slot s.sub.log).head? = some a → a.2.1 = true → a.1.pid ∉ (sentPkts s0.pub.pub.log).map (·.1)

/-- C101, one connection, exactly: everything it delivers has a larger id than anything the publisher had multicast before it was begun if
and only if the first packet that came in over it is not a late datagram. -/
theorem C101_exact {E : Env} {n : Nat} {s0 s : Sys} {ops : List SysOp} (hs : Start E n s0) (hb : n + calls ops + 1 < U64)
    (hr : run E s0 ops = some s) (hu : SubCtx.Up s.sub E.slot) :
    (∀ x ∈ SubCtx.deliveredAt E.slot s.sub.log, ∀ q ∈ (sentPkts s0.pub.pub.log).map (·.1), q < x.pid) ↔ FirstNew E s0 s := by
  have hi0 := Inv.start hs
  have hi := hi0.run ops hb hr
  have h0 : Since s0.pub.pub.log s0 := ⟨[], by simp, fun k hk => by rw [hs.acc] at hk; cases hk⟩
  obtain ⟨es, e, hes⟩ := (h0.run ops hi0 hb hr).ext
  obtain ⟨sops, hsr⟩ := hi.sub
  obtain ⟨pops, hpr, _⟩ := hi.pub
  have hv := hi.valid hu
  constructor
  · intro h a ha hmc hq
    have hb' : ((SubCtx.arrivedAt E.slot s.sub.log).map (·.1.pid)).head? = some a.1.pid := by rw [List.head?_map, ha]; rfl
    have hin : a.1.pid ∈ (SubCtx.arrivedAt E.slot s.sub.log).map (·.1.pid) := List.mem_of_mem_head? hb'
    have hd := (SubCtx.C36_api_partial hsr hu hv hb' a.1.pid).2 ⟨Nat.le_refl _, fun q q1 q2 => by
      rw [show q = a.1.pid by omega]; exact hin⟩
    obtain ⟨x, hx, ex⟩ := List.mem_map.1 hd
    have := h x hx _ hq
    omega
  · intro hf x hx q hq
    obtain ⟨bef, mc, ts, aft, e1, _⟩ := SubCtx.C34_api hsr hu hv hx
    cases ha : (SubCtx.arrivedAt E.slot s.sub.log).head? with
    | none => rw [List.head?_eq_none_iff.1 ha] at e1; simp at e1
    | some a =>
      have hb' : ((SubCtx.arrivedAt E.slot s.sub.log).map (·.1.pid)).head? = some a.1.pid := by rw [List.head?_map, ha]; rfl
      have hle := ((SubCtx.C36_api_partial hsr hu hv hb' x.pid).1 (List.mem_map.2 ⟨x, hx, rfl⟩)).1
      obtain ⟨p, p1, p2, p3⟩ := hi.arr hu a (List.mem_of_mem_head? ha)
      have : a.1.pid ∈ (sentPkts es).map (·.1) := by
        cases hmc : a.2.1 with
        | false =>
          obtain ⟨k, k1, k2⟩ := p3 hmc
          exact hes k k1 _ k2
        | true =>
          have hn := hf a ha hmc
          rw [e, sentPkts_append] at p1
          rcases List.mem_append.1 p1 with p1 | p1
          · exact absurd (List.mem_map.2 ⟨_, p1, rfl⟩) hn
          · exact List.mem_map.2 ⟨_, p1, rfl⟩
      have := PubCtx.sent_later hpr e hq this
      omega

/-- Specification: no datagram read carries a packet of the publisher (the one listening at address `a` and port `q`) whose id is among `old`. -/
def Timely (a q : Nat) (old : List Nat) (ops : List SysOp) : Prop :=
  ∀ op, SysOp.sub op ∈ ops → ∀ src bs ts ann sk cr, SubCtx.RecvRes.dgram src bs ts ann sk cr ∈ received op →
    ∀ p, SubCtx.InDatagram a q p src (bs.take RMC_MAX_PACKET) → p.pid ∉ old

/-- The datagrams that came in over the connection carry none of the packets `old`. -/
structure New (E : Env) (a q : Nat) (old : List Nat) (s : Sys) : Prop where
  to : (s.sub.cv.conns E.slot).addr = a ∧ (s.sub.cv.conns E.slot).port = q
  arr : SubCtx.Up s.sub E.slot → ∀ x ∈ SubCtx.arrivedAt E.slot s.sub.log, x.2.1 = true → x.1.pid ∉ old

theorem New.subStep {E : Env} {n a q : Nat} {old : List Nat} {s t : Sys} (hi : Inv E n s) (h : New E a q old s) {op : SubCtx.Op}
    (ht : next E s (.sub op) = some t) (hT : Timely a q old [.sub op]) : New E a q old t := by
  unfold next at ht
  dsimp only at ht
  split at ht
  · rename_i hok
    cases hx : SubCtx.step s.sub op with
    | error f => rw [hx] at ht; cases ht
    | ok x =>
      obtain ⟨r, c⟩ := x
      rw [hx] at ht
      dsimp only at ht
      split at ht
      · rename_i hlive
        cases ht
        obtain ⟨sops, hsr⟩ := hi.sub
        have hl := hok.1
        obtain ⟨es, kept, harr⟩ := SubCtx.step_link hsr.inv hx
          (by rintro rv ts rfl; simp [leavesSub] at hl) (by rintro rfl; simp [leavesSub] at hl) hi.live hlive
        have new : ∀ p m ts, SEv.arrive E.slot p m ts ∈ es → p.pid ∉ old := by
          intro p m ts hp
          obtain ⟨e0, rs, src, bs, ts', ann, sk, cr, e1, e2, e3⟩ := harr p m ts hp
          rw [h.to.1, h.to.2] at e3
          exact hT op (by simp) src bs ts' ann sk cr (by rw [e1]; exact e2) p e3
        refine ⟨?_, ?_⟩
        · show (c.cv.conns E.slot).addr = _ ∧ (c.cv.conns E.slot).port = _
          rw [kept.addr, kept.port]; exact h.to
        · intro hu' a ha hm
          have ha' : a ∈ SubCtx.arrivedAt E.slot c.log := ha
          rw [kept.log] at ha'
          cases kept.ph with
          | up hu _ hn =>
            obtain ⟨as, b1, b2⟩ := SubCtx.arrivedAt_up (log := s.sub.log) hn
            rw [b1] at ha'
            rcases List.mem_append.1 ha' with w | w
            · exact h.arr hu a w hm
            · exact new _ _ _ ((b2 a).1 w)
          | waiting _ hu _ => exact absurd hu' hu
          | done _ _ e1 e2 he g1 g2 =>
            rw [he] at ha'
            have := (SubCtx.arrivedAt_done g2 a).1 ha'
            exact new a.1 a.2.1 a.2.2 (by rw [he]; simp [this])
      · cases ht
  · cases ht

theorem New.subReadStep {E : Env} {n a q : Nat} {old : List Nat} {s t : Sys} (h : Inv E n s) (hn : New E a q old s) {m : Nat} {ts : Int}
    (ht : next E s (.subRead m ts) = some t) : New E a q old t := by
  unfold next at ht
  dsimp only at ht
  split at ht
  · rename_i hok
    cases hx : SubCtx.step s.sub (.read E.slot (some (s.down.take m)) ts) with
    | error f => rw [hx] at ht; cases ht
    | ok x =>
      obtain ⟨r, c⟩ := x
      rw [hx] at ht
      dsimp only at ht
      by_cases hup' : SubCtx.Up c E.slot
      case neg => rw [if_neg hup'] at ht; cases ht
      rw [if_pos hup'] at ht
      cases ht
      obtain ⟨hu, hm0, hm1, hm2⟩ := hok
      obtain ⟨ops, h1, h2, h3⟩ := h.pub
      obtain ⟨sops, hsr⟩ := h.sub
      obtain ⟨ps, d1, d2, d3⟩ := h.down
      have hlen : (s.down.take m).length = m := by rw [List.length_take]; omega
      obtain ⟨hdr, hhdr⟩ : ∃ f : Nat × Payload → PacketHeader × List UInt8,
        f = fun x => (⟨x.1, s.pub.nodeId, x.2.data.length, s.pub.listenIp, s.pub.listenPort⟩, x.2.data) := ⟨_, rfl⟩
      have hwf : SubCtx.WellFormed (ps.map hdr) := by
        intro y hy
        obtain ⟨x, hx', rfl⟩ := List.mem_map.1 hy
        have := PubCtx.queued_ok h1 h2 (PubCtx.sent_queued h1 (d1 x hx').1)
        have e : RMC_MAX_PAYLOAD = 65312 := rfl
        rw [hhdr]
        exact ⟨⟨by show x.1 < U64; omega, h.ids.1, by show x.2.data.length < 65536; omega, h.ids.2.1, h.ids.2.2.1⟩, rfl⟩
      have hfr : ∀ qs : List (Nat × Payload), (qs.map hdr).map (fun p => SubCtx.frameOf p.1 p.2) = qs.map (frame s.pub) := by
        intro qs; rw [List.map_map]; rw [hhdr]; rfl
      obtain ⟨f1, f2, es, l1, l2, l3, l4, l5, l6, l7, l8, l9, l10, l11⟩ := SubCtx.read_link hsr.inv hu h.srb.1 h.srb.2 (xs := s.down.take m)
        (by intro e; rw [e] at hlen; simp at hlen; omega) (by rw [hlen]; exact hm2) hup' hwf
        (ys := s.down.drop m ++ wbytes s) (by
          rw [hfr, ← d2]; unfold toSub
          rw [List.append_assoc, ← List.append_assoc (s.down.take m), List.take_append_drop, List.append_assoc]) hx
      have hcomp := SubCtx.quietEv_complete (i := E.slot) l10
      obtain ⟨as, b1, b2⟩ := SubCtx.arrivedAt_up (log := s.sub.log) hcomp
      refine ⟨?_, ?_⟩
      · show (c.cv.conns E.slot).addr = _ ∧ (c.cv.conns E.slot).port = _
        rw [l7, l8]; exact hn.to
      · intro _ a ha hm
        have ha' : a ∈ SubCtx.arrivedAt E.slot c.log := ha
        rw [l9, b1] at ha'
        rcases List.mem_append.1 ha' with w | w
        · exact hn.arr hu a w hm
        · have hc : (E.slot, a.1.pid, a.1.payload.data, a.2.1) ∈ SubCtx.came es := SubCtx.mem_came.2 ⟨a.1, a.2.2, (b2 a).1 w, rfl, rfl⟩
          rw [l11] at hc
          obtain ⟨x, hx1, hx2⟩ := List.mem_map.1 hc
          simp only [Prod.mk.injEq] at hx2
          rw [hm] at hx2
          exact absurd hx2.2.2.2 (by decide)
  · cases ht

theorem New.step {E : Env} {n a q : Nat} {old : List Nat} {s t : Sys} (hi : Inv E n s) (h : New E a q old s) {op : SysOp}
    (ht : next E s op = some t) (hT : Timely a q old [op]) : New E a q old t := by
  cases op with
  | sub op => exact h.subStep hi ht hT
  | subRead m ts => exact h.subReadStep hi ht
  | pub op =>
    have e : t.sub = s.sub := by
      unfold next at ht
      dsimp only at ht
      split at ht
      · split at ht
        · cases ht; rfl
        · cases ht
      · cases ht
    exact ⟨by rw [e]; exact h.to, by rw [e]; exact h.arr⟩
  | accept k ar cb =>
    have e : t.sub = s.sub := by
      unfold next at ht
      dsimp only at ht
      split at ht
      · split at ht
        · split at ht
          · cases ht; rfl
          · cases ht
        · cases ht
      · cases ht
    exact ⟨by rw [e]; exact h.to, by rw [e]; exact h.arr⟩
  | pubRead m =>
    have e : t.sub = s.sub := by
      unfold next at ht
      dsimp only at ht
      split at ht
      · cases ht
      · split at ht
        · split at ht
          · split at ht
            · cases ht; rfl
            · cases ht
          · cases ht
        · cases ht
    exact ⟨by rw [e]; exact h.to, by rw [e]; exact h.arr⟩

theorem New.run {E : Env} {a q : Nat} {old : List Nat} : ∀ (ops : List SysOp) {n : Nat} {s t : Sys}, Inv E n s → New E a q old s →
    n + calls ops + 1 < U64 → run E s ops = some t → Timely a q old ops → New E a q old t := by
  intro ops
  induction ops with
  | nil => intro n s t _ h _ ht _; cases ht; exact h
  | cons op ops ih =>
    intro n s t hi h hb ht hT
    rw [calls_cons] at hb
    unfold Sys.run at ht
    cases hx : next E s op with
    | none => rw [hx] at ht; cases ht
    | some u =>
      rw [hx] at ht
      exact ih (hi.step (by omega) hx) (h.step hi hx fun o ho => hT o (by rw [List.mem_singleton.1 ho]; exact List.mem_cons_self)) (by omega) ht
        fun o ho => hT o (List.mem_cons_of_mem _ ho)

theorem firstNew_of_timely {E : Env} {n : Nat} {s0 s : Sys} {ops : List SysOp} (hs : Start E n s0) (hb : n + calls ops + 1 < U64)
    (hr : run E s0 ops = some s) (hu : SubCtx.Up s.sub E.slot)
    (hT : Timely (addr E s0.pub) s0.pub.listenPort ((sentPkts s0.pub.pub.log).map (·.1)) ops) : FirstNew E s0 s := by
  have hup : ¬ SubCtx.Up s0.sub E.slot := by rintro ⟨_, h2⟩; rw [hs.slot.2] at h2; cases h2
  have h0 : New E (addr E s0.pub) s0.pub.listenPort ((sentPkts s0.pub.pub.log).map (·.1)) s0 := ⟨hs.to, fun x => absurd x hup⟩
  intro a ha hm
  exact (h0.run ops (Inv.start hs) hb hr hT).arr hu a (List.mem_of_mem_head? ha) hm

/-- C101, with the condition on the network: if no datagram read over the connection carries a packet the publisher had multicast before the
connection was begun, then everything the connection delivers has a larger id than anything the publisher had multicast before. -/
theorem C101_timely_partial {E : Env} {n : Nat} {s0 s : Sys} {ops : List SysOp} (hs : Start E n s0) (hb : n + calls ops + 1 < U64)
    (hr : run E s0 ops = some s) (hu : SubCtx.Up s.sub E.slot)
    (hT : Timely (addr E s0.pub) s0.pub.listenPort ((sentPkts s0.pub.pub.log).map (·.1)) ops) :
    ∀ x ∈ SubCtx.deliveredAt E.slot s.sub.log, ∀ q ∈ (sentPkts s0.pub.pub.log).map (·.1), q < x.pid :=
  (C101_exact hs hb hr hu).2 (firstNew_of_timely hs hb hr hu hT)

/-- A check for `Timely`. -/
def timelyCheck (old : List Nat) (ops : List SysOp) : Bool :=
  ops.all fun op => match op with
    | .sub o => (received o).all fun r => match r with
      | .dgram _ bs _ _ _ _ => !decide ((PacketHeader.dec (bs.take RMC_MAX_PACKET)).pid ∈ old)
      | _ => true
    | _ => true

theorem timely_of_check {a q : Nat} {old : List Nat} {ops : List SysOp} (h : timelyCheck old ops = true) : Timely a q old ops := by
  intro op hop src bs ts ann sk cr hr p hp ho
  obtain ⟨hd, data, rest, v1, v2, _, _, _, _, v7, _⟩ := hp
  unfold timelyCheck at h
  have h1 := List.all_eq_true.1 h _ hop
  dsimp only at h1
  have h2 := List.all_eq_true.1 h1 _ hr
  dsimp only at h2
  rw [v2, List.append_assoc, PacketHeader.dec_enc v1, ← v7, decide_eq_true ho] at h2
  cases h2

end Sys

namespace Cut
open Sys

/-- The states after a connection has broken off, with the number of calls of the publisher counted. -/
def BrokenN (E : Env) (N : Nat) (t : Cut) : Prop :=
  ∃ n s0 ops s m cops, Start E n s0 ∧ n + calls ops + cops.length ≤ N ∧ Sys.run E s0 ops = some s ∧ run E (of s m) cops = some t

theorem BrokenN.inv {E : Env} {N : Nat} {t : Cut} (h : BrokenN E N t) (hN : N + 1 < U64) : ∃ n, n ≤ N ∧ Inv E n t := by
  obtain ⟨n, s0, ops, s, m, cops, h1, h2, h3, h4⟩ := h
  exact ⟨_, h2, (Inv.of ((Sys.Inv.start h1).run ops (by omega) h3) m).run cops (by omega) h4⟩

/-- C101, the part that holds: a connection to a publisher breaks off and is given up by the subscriber (`op`); the publisher makes any
further calls (`more`); a connection to it is begun again (`s0`), in any slot, and any history (`ops`) follows. If the first packet to come in over the second
connection is not a datagram multicast before it was begun, then every packet delivered over the second connection has a larger id than every packet
delivered over the first: no packet is delivered twice, and none out of order. -/
theorem C101_reconnect_partial {E1 E : Env} {N n : Nat} {t : Cut} {op : SubCtx.Op} {r : Nat} {c : SubCtx} {more : List PubCtx.Op} {rs : List Nat}
    {s0 s : Sys} {ops : List SysOp} (h : BrokenN E1 N t) (hu1 : SubCtx.Up t.sub E1.slot) (ho : SubCtx.ends E1.slot op)
    (hx : SubCtx.step t.sub op = .ok (r, c)) (hmo : ∀ o ∈ more, callOk o = true) (hN : N + more.length + 2 < U64)
    (hgo : PubCtx.run t.pub more = .ok (rs, s0.pub)) (hs : Start E n s0) (hb : n + calls ops + 1 < U64) (hr : Sys.run E s0 ops = some s)
    (hu : SubCtx.Up s.sub E.slot)
    (hm : FirstNew E s0 s) :
    ∀ x ∈ SubCtx.deliveredAt E1.slot c.log, ∀ y ∈ SubCtx.deliveredAt E.slot s.sub.log, x.pid < y.pid := by
  intro x hx1 y hy
  rw [SubCtx.ends_delivered ho hx] at hx1
  obtain ⟨n1, hn1, hi⟩ := h.inv (by omega)
  obtain ⟨sops, hsr⟩ := hi.sub
  obtain ⟨pops, h1, h2, h3⟩ := hi.pub
  obtain ⟨bef, mc, ts, aft, e1, _⟩ := SubCtx.C34_api hsr hu1 (hi.valid hu1) hx1
  obtain ⟨p, p1, _⟩ := hi.arr hu1 (x, mc, ts) (by rw [e1]; simp)
  obtain ⟨es, e⟩ := PubCtx.run_ext more h1 (fun o ho => PubCtx.callOk_sane (hmo o ho)) (by omega) hgo
  refine (Sys.C101_exact hs hb hr hu).2 hm y hy _ ?_
  rw [e, sentPkts_append, List.map_append]
  exact List.mem_append_left _ (List.mem_map.2 ⟨_, p1, rfl⟩)

/-- The same with the condition on the network: no datagram read over the second connection carries a packet multicast before it was begun. -/
theorem C101_reconnect_timely_partial {E1 E : Env} {N n : Nat} {t : Cut} {op : SubCtx.Op} {r : Nat} {c : SubCtx} {more : List PubCtx.Op} {rs : List Nat}
    {s0 s : Sys} {ops : List SysOp} (h : BrokenN E1 N t) (hu1 : SubCtx.Up t.sub E1.slot) (ho : SubCtx.ends E1.slot op)
    (hx : SubCtx.step t.sub op = .ok (r, c)) (hmo : ∀ o ∈ more, callOk o = true) (hN : N + more.length + 2 < U64)
    (hgo : PubCtx.run t.pub more = .ok (rs, s0.pub)) (hs : Start E n s0) (hb : n + calls ops + 1 < U64) (hr : Sys.run E s0 ops = some s)
    (hu : SubCtx.Up s.sub E.slot)
    (hT : Timely (addr E s0.pub) s0.pub.listenPort ((sentPkts s0.pub.pub.log).map (·.1)) ops) :
    ∀ x ∈ SubCtx.deliveredAt E1.slot c.log, ∀ y ∈ SubCtx.deliveredAt E.slot s.sub.log, x.pid < y.pid :=
  C101_reconnect_partial h hu1 ho hx hmo hN hgo hs hb hr hu (firstNew_of_timely hs hb hr hu hT)

/-! ## Examples -/

/-- A first connection (`ops1`), its break (`m`, `cops`), its end at the subscriber (`op`), calls of both sides (`more`, `sops`), and what
happens after the second connection is begun (`ops`). -/
structure Story where
  ops1 : List SysOp
  m : Nat
  cops : List CutOp
  op : SubCtx.Op
  more : List PubCtx.Op
  sops : List SubCtx.Op
  ops : List SysOp

/-- Check a property of the packets of the first connection, the state when the second begins and the state in the end. -/
def Story.check (y : Story) (P : List SPkt → Sys → Sys → Bool) : Bool :=
  holdsBroken y.ops1 y.m y.cops fun t =>
    match SubCtx.step t.sub y.op, PubCtx.run t.pub y.more with
    | .ok c, .ok p =>
      match SubCtx.run c.2 y.sops with
      | .ok q =>
        decide (SubCtx.Up t.sub 0 ∧ p.2.nodeId < U32 ∧ p.2.listenIp < U32 ∧ p.2.listenPort < 65536 ∧ p.2.listenPort ≠ 0 ∧
          0 < q.2.cv.size ∧ (q.2.cv.conns 0).mode = .connecting ∧ (q.2.cv.conns 0).addr = addr exE p.2 ∧
          (q.2.cv.conns 0).port = p.2.listenPort) &&
        (match Sys.run exE ⟨p.2, q.2, none, [], [], false⟩ y.ops with
        | some s => P (SubCtx.deliveredAt 0 c.2.log) ⟨p.2, q.2, none, [], [], false⟩ s
        | none => false)
      | _ => false
    | _, _ => false

theorem sub_more : ∀ (sops : List SubCtx.Op) {ops : List SubCtx.Op} {c d : SubCtx} {rs : List Nat}, SubCtx.Reaches ops c →
    SubCtx.run c sops = .ok (rs, d) → SubCtx.Reaches (ops ++ sops) d := by
  intro sops
  induction sops with
  | nil => intro ops c d rs h hx; cases hx; rw [List.append_nil]; exact h
  | cons op sops ih =>
    intro ops c d rs h hx
    rw [SubCtx.run_cons] at hx
    obtain ⟨⟨r, e⟩, k1, k2⟩ := PubCtx.bind_ok hx
    obtain ⟨⟨rs1, d2⟩, k3, k4⟩ := PubCtx.bind_ok k2
    cases k4
    have := ih (h.snoc k1) k3
    rwa [List.append_assoc] at this

theorem pub_more : ∀ (more : List PubCtx.Op) {ops : List PubCtx.Op} {c d : PubCtx} {rs : List Nat}, PubCtx.Reaches ops c →
    (∀ o ∈ more, callOk o = true) → ops.length + more.length + 2 < U64 → PubCtx.run c more = .ok (rs, d) → PubCtx.Reaches (ops ++ more) d := by
  intro more
  induction more with
  | nil => intro ops c d rs h _ _ hx; cases hx; rw [List.append_nil]; exact h
  | cons op more ih =>
    intro ops c d rs h hs hb hx
    rw [List.length_cons] at hb
    rw [PubCtx.run_cons] at hx
    obtain ⟨⟨r, e⟩, k1, k2⟩ := PubCtx.bind_ok hx
    obtain ⟨⟨rs1, d2⟩, k3, k4⟩ := PubCtx.bind_ok k2
    cases k4
    have := ih (h.snoc' (PubCtx.callOk_sane (hs op (by simp))) (by omega) k1) (fun o ho => hs o (by simp [ho]))
      (by rw [List.length_append, List.length_singleton]; omega) k3
    rwa [List.append_assoc] at this

/-- A story that checks meets all hypotheses of C101_reconnect_partial but the one about late datagrams. -/
theorem story_of {y : Story} {P : List SPkt → Sys → Sys → Bool} (ho : SubCtx.ends 0 y.op) (hmo : ∀ o ∈ y.more, callOk o = true)
    (hl : 2 + y.ops1.length + y.cops.length + y.more.length + y.ops.length + 2 < U64) (h : y.check P = true) :
    ∃ (t : Cut) (r : Nat) (c : SubCtx) (rs : List Nat) (s0 s : Sys) (N n : Nat), BrokenN exE N t ∧ SubCtx.Up t.sub 0 ∧
      SubCtx.step t.sub y.op = .ok (r, c) ∧ N + y.more.length + 2 < U64 ∧ PubCtx.run t.pub y.more = .ok (rs, s0.pub) ∧ Start exE n s0 ∧
      n + calls y.ops + 1 < U64 ∧ Sys.run exE s0 y.ops = some s ∧ P (SubCtx.deliveredAt 0 c.log) s0 s = true ∧
      ∃ rs2, SubCtx.run c y.sops = .ok (rs2, s0.sub) := by
  unfold Story.check at h
  obtain ⟨s0, s, h1, h2, h3⟩ := started_of h
  cases hr : Cut.run exE (Cut.of s y.m) y.cops with
  | none => rw [hr] at h3; cases h3
  | some t =>
    rw [hr] at h3
    dsimp only at h3
    cases hc : SubCtx.step t.sub y.op with
    | error f => rw [hc] at h3; cases h3
    | ok c =>
      cases hp : PubCtx.run t.pub y.more with
      | error f => rw [hc, hp] at h3; cases h3
      | ok p =>
        rw [hc, hp] at h3
        dsimp only at h3
        cases hq : SubCtx.run c.2 y.sops with
        | error f => rw [hq] at h3; cases h3
        | ok q =>
          rw [hq] at h3
          dsimp only at h3
          rw [Bool.and_eq_true, decide_eq_true_eq] at h3
          obtain ⟨⟨g0, g1, g2, g3, g4, g5, g6, g7, g8⟩, h4⟩ := h3
          cases hz : Sys.run exE ⟨p.2, q.2, none, [], [], false⟩ y.ops with
          | none => rw [hz] at h4; cases h4
          | some u =>
            rw [hz] at h4
            have hbr : BrokenN exE (2 + y.ops1.length + y.cops.length) t :=
              ⟨2, s0, y.ops1, s, y.m, y.cops, h1, by have := calls_le y.ops1; omega, h2, hr⟩
            obtain ⟨n1, hn1, hi⟩ := hbr.inv (by omega)
            obtain ⟨pops, w1, w2, w3⟩ := hi.pub
            obtain ⟨sops, v1⟩ := hi.sub
            refine ⟨t, c.1, c.2, p.1, ⟨p.2, q.2, none, [], [], false⟩, u, 2 + y.ops1.length + y.cops.length,
              2 + y.ops1.length + y.cops.length + y.more.length, hbr, g0, hc, by omega, hp, ?_, ?_, hz, h4, q.1, hq⟩
            · refine ⟨⟨pops ++ y.more, pub_more y.more w1 hmo (by omega) hp, ?_, by rw [List.length_append]; omega⟩, ⟨g1, g2, g3, g4⟩,
                ⟨_, sub_more y.sops (v1.snoc hc) hq⟩, ⟨g5, g6⟩, ⟨g7, g8⟩, rfl, rfl, rfl, rfl⟩
              intro o ho
              rcases List.mem_append.1 ho with ho | ho
              · exact w2 o ho
              · exact hmo o ho
            · have := calls_le y.ops; omega

/-- Packet 1 has been delivered, 2 is lost, 3 has arrived; the publisher closes the connection, the subscriber reads the end of the stream;
meanwhile packet 4 is multicast. Then the publisher is announced again, and the subscriber connects again. -/
def exAgain (ops : List SysOp) : Story :=
  ⟨exLost, 0, [.pub (.close 0)], .read 0 none 3000, [.queue (PubCtx.exPay 4) false, .writeMcast [⟨.ok 3001, []⟩]],
   [.readMcast [exMc 0 [] 3002]], [.sub (.write 0 (.ok 0) none (.ok 0)), .accept 0 (.ok 6 1) none] ++ ops⟩

/-- Packet 5 is multicast and comes in, and after it packet 1 once more. -/
def exNext : List SysOp :=
  [.pub (.queue (PubCtx.exPay 5) false), .pub (.writeMcast [⟨.ok 4000, []⟩]), .sub (.readMcast [exMc 5 [5, 0] 4001, exMc 1 [1, 0] 4002])]

/-- The check of C101_reconnect_partial's last hypothesis. -/
def notLate (s0 s : Sys) : Bool := match (SubCtx.arrivedAt 0 s.sub.log).head? with
  | some a => !a.2.1 || !decide (a.1.pid ∈ (sentPkts s0.pub.pub.log).map (·.1))
  | none => true

theorem notLate_ok {s0 s : Sys} (h : notLate s0 s = true) : FirstNew exE s0 s := by
  intro a ha hm hq
  unfold notLate at h
  have ha' : (SubCtx.arrivedAt 0 s.sub.log).head? = some a := ha
  rw [ha'] at h
  dsimp only at h
  rw [hm, decide_eq_true hq] at h
  cases h

/-- Non-vacuity: the second connection delivers packet 5 only. -/
example : ∃ (t : Cut) (r : Nat) (c : SubCtx) (rs : List Nat) (s0 s : Sys) (N n : Nat), BrokenN exE N t ∧ SubCtx.Up t.sub 0 ∧
      SubCtx.step t.sub (.read 0 none 3000) = .ok (r, c) ∧ N + 2 + 2 < U64 ∧ PubCtx.run t.pub (exAgain exNext).more = .ok (rs, s0.pub) ∧ Start exE n s0 ∧
      n + calls (exAgain exNext).ops + 1 < U64 ∧ Sys.run exE s0 (exAgain exNext).ops = some s ∧
      (notLate s0 s && decide (SubCtx.Up s.sub 0 ∧ (SubCtx.deliveredAt 0 c.log).map (·.pid) = [1] ∧
        (SubCtx.deliveredAt 0 s.sub.log).map (·.pid) = [5])) = true ∧ ∃ rs2, SubCtx.run c (exAgain exNext).sops = .ok (rs2, s0.sub) :=
  story_of (y := exAgain exNext) (P := fun d s0 s => notLate s0 s && decide (SubCtx.Up s.sub 0 ∧ d.map (·.pid) = [1] ∧
    (SubCtx.deliveredAt 0 s.sub.log).map (·.pid) = [5])) ⟨rfl, .inl rfl⟩ (by decide) (by decide) (by decide +kernel)

/-- Packet 5 is multicast and comes in, and nothing else. -/
def exOnly : List SysOp :=
  [.pub (.queue (PubCtx.exPay 5) false), .pub (.writeMcast [⟨.ok 4000, []⟩]), .sub (.readMcast [exMc 5 [5, 0] 4001])]

/-- Non-vacuity of the condition on the network: four packets were multicast before, and the second connection delivers the fifth. -/
example : ∃ (n : Nat) (s0 s : Sys), Start exE n s0 ∧ n + calls (exAgain exOnly).ops + 1 < U64 ∧ Sys.run exE s0 (exAgain exOnly).ops = some s ∧
    SubCtx.Up s.sub 0 ∧ (sentPkts s0.pub.pub.log).map (·.1) = [1, 2, 3, 4] ∧
    Timely (addr exE s0.pub) s0.pub.listenPort ((sentPkts s0.pub.pub.log).map (·.1)) (exAgain exOnly).ops ∧
    (SubCtx.deliveredAt 0 s.sub.log).map (·.pid) = [5] := by
  obtain ⟨t, r, c, rs, s0, s, N, n, _, _, _, _, _, h6, h7, h8, h9, _⟩ :=
    story_of (y := exAgain exOnly) (P := fun _ s0 s => timelyCheck ((sentPkts s0.pub.pub.log).map (·.1)) (exAgain exOnly).ops &&
      decide (SubCtx.Up s.sub 0 ∧ (sentPkts s0.pub.pub.log).map (·.1) = [1, 2, 3, 4] ∧
        (SubCtx.deliveredAt 0 s.sub.log).map (·.pid) = [5])) ⟨rfl, .inl rfl⟩ (by decide) (by decide) (by decide +kernel)
  rw [Bool.and_eq_true, decide_eq_true_eq] at h9
  exact ⟨n, s0, s, h6, h7, h8, h9.2.1, h9.2.2.1, timely_of_check h9.1, h9.2.2.2⟩

/-- C101 is false: the network delivers the datagram of packet 1 once more after the second connection is set up. The application gets packet 1
a second time. -/
theorem C101_false : ∃ (E : Env) (N n : Nat) (t : Cut) (op : SubCtx.Op) (r : Nat) (c : SubCtx) (more : List PubCtx.Op) (rs : List Nat) (s0 s : Sys)
    (sops : List SubCtx.Op) (rs2 : List Nat) (ops : List SysOp), BrokenN E N t ∧ SubCtx.Up t.sub E.slot ∧ SubCtx.ends E.slot op ∧ SubCtx.step t.sub op = .ok (r, c) ∧
      (∀ o ∈ more, callOk o = true) ∧ N + more.length + 2 < U64 ∧ PubCtx.run t.pub more = .ok (rs, s0.pub) ∧
      SubCtx.run c sops = .ok (rs2, s0.sub) ∧ Start E n s0 ∧ n + calls ops + 1 < U64 ∧ Sys.run E s0 ops = some s ∧ SubCtx.Up s.sub E.slot ∧
      (SubCtx.deliveredAt E.slot c.log).map (·.pid) = [1] ∧ (SubCtx.deliveredAt E.slot s.sub.log).map (·.pid) = [1] := by
  obtain ⟨t, r, c, rs, s0, s, N, n, h1, h2, h3, h4, h5, h6, h7, h8, h9, rs2, h10⟩ :=
    story_of (y := exAgain [.sub (.readMcast [exMc 1 [1, 0] 4000])]) (P := fun d s0 s => decide (SubCtx.Up s.sub 0 ∧ d.map (·.pid) = [1] ∧
      (SubCtx.deliveredAt 0 s.sub.log).map (·.pid) = [1])) ⟨rfl, .inl rfl⟩ (by decide) (by decide) (by decide +kernel)
  have h9 := of_decide_eq_true h9
  exact ⟨exE, N, n, t, .read 0 none 3000, r, c, _, rs, s0, s, _, rs2, _, h1, h2, ⟨rfl, .inl rfl⟩, h3, by decide, h4, h5, h10, h6, h7, h8, h9.1, h9.2.1, h9.2.2⟩

end Cut
end Rmc
