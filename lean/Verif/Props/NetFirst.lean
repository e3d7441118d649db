import Verif.Props.NetJoin
import Verif.Props.SubCtxStream

/-!
# What a connection carries, and the first packet of a new subscriber (C74, C75)
-/

set_option linter.unusedVariables false
set_option linter.unusedSimpArgs false

namespace Rmc
open PLog

namespace PubCtx
open CircBuf

/-- A packet queued when nothing is waiting is multicast by the next write. -/
theorem publishes {N : Nat} {c : PubCtx} (hp : ∃ ops, Reaches ops c ∧ (∀ op ∈ ops, Sys.callOk op = true) ∧ ops.length ≤ N) (hb : N + 4 < U64)
    (hport : c.listenPort ≠ 0) (hm : c.mcast ≠ none) (hsus : c.suspended = false) (hpe : (getPending c).2.1 = 0) {pl : Payload} (hst : pl.onStack = false)
    (hlen : pl.data.length ≤ RMC_MAX_PAYLOAD) (t0 : Int) (st : List UInt8) :
    ∃ c1 c2 pid, step c (.queue pl false) = .ok (0, c1) ∧ step c1 (.writeMcast [⟨.ok t0, st⟩]) = .ok (0, c2) ∧ pid ≠ 0 ∧
      c2.pub.log = c.pub.log ++ [.queue pid pl, .send pid pl t0] ∧ (∀ i, c2.cv.conns i = c.cv.conns i) ∧
      (∀ k, outs k (c1.log.drop c.log.length) = []) ∧ (∀ k, outs k (c2.log.drop c1.log.length) = []) := by
  obtain ⟨ops, h1, h2, h3⟩ := hp
  obtain ⟨pops, L, g, hq, hb', _⟩ := h1.good
  rcases queue_cases g pl false (by omega) with ⟨e1, _⟩ | ⟨_, e1, _⟩ | ⟨_, _, s', k1, k2, k3, e⟩
  · omega
  · rw [hsus] at e1; cases e1
  obtain ⟨c1, hc1⟩ : ∃ c1, c1 = { c with
        pub := s', cv := c.cv.poll (.modify MULTICAST_INDEX c.mcast (wIf (Pub.nextQueued c.pub).isSome) .W),
        suspended := decide (c.suspendThr > 0 ∧ Pub.unackedCount s' ≥ c.suspendThr) } := ⟨_, rfl⟩
  rw [← hc1] at e
  have hx1 : step c (.queue pl false) = .ok (0, c1) := e
  have g1 := good_queue g (by omega) e
  rw [if_pos rfl] at g1
  have g1 : Good c1 (pops ++ [.queue pl]) L := g1
  have hcall : Sys.callOk (.queue pl false) = true := by
    show (!pl.onStack) = true
    rw [hst]; rfl
  obtain ⟨f1, f2, f3, f4⟩ := Net.pub_frame ⟨ops, h1, h2, h3⟩ hport (op := .queue pl false) hcall (by omega) hx1
  obtain ⟨ops1, r1, r2, r3⟩ := f1
  have hqs0 : (spec pops).que = [] ∧ (spec pops).ann = [] := by
    rw [pending_eq, queueSize_spec g] at hpe
    exact ⟨List.eq_nil_of_length_eq_zero (by omega), List.eq_nil_of_length_eq_zero (by omega)⟩
  have es1 : spec (pops ++ [.queue pl]) = (spec pops).step (.queue pl) := by unfold spec; rw [PSpec.run_snoc]
  have hq1 : (spec (pops ++ [.queue pl])).que = [((spec pops).nextPid, pl)] := by rw [es1]; simp [PSpec.step, hqs0.1]
  have ha1 : (spec (pops ++ [.queue pl])).ann = [] := by rw [es1]; simp [PSpec.step, hqs0.2]
  have hl1 : (spec (pops ++ [.queue pl])).log = (spec pops).log ++ [.queue (spec pops).nextPid pl] := by rw [es1]; rfl
  have hpe1 : (getPending c1).2.1 = 1 := by
    rw [pending_eq, queueSize_spec g1, hq1, ha1]; rfl
  have hm1 : c1.mcast ≠ none := by rw [hc1]; exact hm
  obtain ⟨c2, hx2, d2, _⟩ := C63_drains r1 hm1 (rs := [⟨.ok t0, st⟩]) (by intro s hs; rw [List.mem_singleton.1 hs]; exact ⟨t0, rfl⟩)
    (by rw [hpe1]; exact Nat.le_refl 1)
  obtain ⟨r, c2', ys, es, ds, w1, w2, w3, w4, w5, w6, w7, w8, w9⟩ := multicastWrite_spec [⟨.ok t0, st⟩] g1
  have hx2' : multicastWrite c1 [⟨.ok t0, st⟩] = .ok (0, c2) := hx2
  rw [w1] at hx2'
  have e2 : c2' = c2 := congrArg Prod.snd (Except.ok.inj hx2')
  subst e2
  have hys : ys = [.send t0] := by
    have w9' : (sendTs ys).Sublist [t0] := w9
    cases ys with
    | nil =>
      rw [List.append_nil] at w2
      rw [pending_eq, queueSize_spec w2, hq1] at d2
      simp at d2
    | cons y ys =>
      obtain ⟨t, rfl⟩ := w5.sends y (by simp)
      have hc : sendTs (.send t :: ys) = t :: sendTs ys := rfl
      rw [hc] at w9'
      have hlen := w9'.length_le
      simp at hlen
      have : ys = [] := by
        cases ys with
        | nil => rfl
        | cons z zs =>
          obtain ⟨t', rfl⟩ := w5.sends z (by simp)
          have : sendTs (.send t' :: zs) = t' :: sendTs zs := rfl
          rw [this] at hlen; cases hlen
      subst this
      have : t ∈ [t0] := w9'.subset (by simp)
      rw [List.mem_singleton.1 this]
  subst hys
  have hr := g.p.reached
  refine ⟨c1, c2', (spec pops).nextPid, hx1, hx2, ?_, ?_, fun i => ?_, fun k => ?_, fun k => ?_⟩
  · have := hr.inv.pos; omega
  · rw [w2.p.reached.log, hr.log]
    have e3 : spec (pops ++ [.queue pl] ++ [.send t0]) = (spec (pops ++ [.queue pl])).step (.send t0) := by unfold spec; rw [PSpec.run_snoc]
    rw [e3]
    unfold PSpec.step
    rw [ha1, hq1]
    dsimp only
    rw [hl1, List.append_assoc]; rfl
  · rw [w8, hc1]; rfl
  · rw [hc1]
    show outs k (c.log.drop c.log.length) = []
    rw [List.drop_length]; rfl
  · rw [w7, List.drop_left]
    apply outs_none
    intro d hd bs e
    obtain ⟨w, hw⟩ := w5.datagrams d hd
    rw [hw] at e; cases e

end PubCtx
theorem PubCtx.nodup_snd {l : List (Nat × Payload)} (h : (l.map (·.1)).Nodup) {i : Nat} {x y : Payload} (hx : (i, x) ∈ l) (hy : (i, y) ∈ l) : x = y := by
  obtain ⟨a, ha, ea⟩ := List.getElem_of_mem hx
  obtain ⟨b, hb, eb⟩ := List.getElem_of_mem hy
  have : a = b := by
    refine (List.getElem_inj (xs := l.map (·.1)) (h₀ := by simpa using ha) (h₁ := by simpa using hb) h).1 ?_
    simp [ea, eb]
  subst this
  rw [ea] at eb
  exact congrArg Prod.snd eb

namespace SubCtx

theorem arrivedAt_new {i : Nat} {log es : List SEv} {a : SPkt × Bool × Int} (h : a ∈ arrivedAt i (log ++ es)) :
    a ∈ arrivedAt i log ∨ SEv.arrive i a.1 a.2.1 a.2.2 ∈ es := by
  unfold arrivedAt at h
  obtain ⟨e, h1, h2⟩ := List.mem_filterMap.1 h
  have he : e = .arrive i a.1 a.2.1 a.2.2 := by
    cases e with
    | arrive j p m ts =>
      dsimp only at h2
      split at h2
      · rename_i hj; cases h2; rw [hj]
      · cases h2
    | _ => cases h2
  subst he
  by_cases hc : SEv.complete i ∈ es
  · right
    unfold since at h1
    rw [List.mem_reverse, List.reverse_append, List.takeWhile_append] at h1
    rw [if_neg] at h1
    · exact List.mem_reverse.1 (List.takeWhile_subset _ h1)
    · intro hl
      have e := (List.takeWhile_prefix (fun e => decide (e ≠ SEv.complete i)) (l := es.reverse)).eq_of_length hl
      have := List.all_takeWhile (p := fun e => decide (e ≠ SEv.complete i)) (l := es.reverse)
      rw [e, List.all_eq_true] at this
      have := this (.complete i) (by simpa using hc)
      simp at this
  · rw [since_append_of hc] at h1
    rcases List.mem_append.1 h1 with h1 | h1
    · exact .inl (List.mem_filterMap.2 ⟨_, h1, by simp⟩)
    · exact .inr h1

/-- Reading from a connection, nothing arrives by multicast. -/
theorem read_tcp {ops : List Op} {c c' : SubCtx} (h : Reaches ops c) {j r : Nat} {rv : Option (List UInt8)} {ts : Int}
    (hs : step c (.read j rv ts) = .ok (r, c')) (i : Nat) (h0 : ∀ a ∈ arrivedAt i c.log, a.2.1 = false) :
    ∀ a ∈ arrivedAt i c'.log, a.2.1 = false := by
  obtain ⟨es, e1, e2⟩ := (step_steps h.inv.core h.inv.mem (by simp) hs).arrival
  intro a ha
  rw [e1] at ha
  rcases arrivedAt_new ha with ha | ha
  · exact h0 a ha
  · rcases e2 _ _ _ _ ha with ⟨h2, _⟩ | ⟨_, h2⟩
    · have : 3 + j = 2 := h2; omega
    · exact h2

end SubCtx

namespace Sys

/-- C75, two parties: what arrives over the connection has been multicast since the publisher accepted it. -/
theorem C75_arrived {E : Env} {s : Sys} (h : Reached E s) (hu : SubCtx.Up s.sub E.slot) {a : SPkt × Bool × Int}
    (ha : a ∈ SubCtx.arrivedAt E.slot s.sub.log) (hm : a.2.1 = false) : ∃ k, s.acc = some k ∧ a.1.pid ∈ PubCtx.sentTo k s.pub.pub.log := by
  obtain ⟨n, hi, _⟩ := h.inv
  obtain ⟨_, _, _, h3⟩ := hi.arr hu a ha
  exact h3 hm

end Sys

namespace Net

/-- C75: a connection carries only packets multicast since the publisher accepted it: what has arrived over it has been, and the stream consists
of complete frames of such packets. -/
theorem C75_since_accept {E : NetEnv} {s : Net} (h : Reached E s) {l : Link} (hl : l ∈ s.links) {k : Nat} (hk : l.acc = some k) :
    (SubCtx.Up (s.subs l.q) l.slot → ∀ a ∈ SubCtx.arrivedAt l.slot (s.subs l.q).log, a.2.1 = false → a.1.pid ∈ PubCtx.sentTo k (s.pubs l.p).pub.log) ∧
    ∃ ps : List (Nat × Payload), (∀ x ∈ ps, x ∈ queued s l.p ∧ x.1 ∈ PubCtx.sentTo k (s.pubs l.p).pub.log) ∧
      stream s l k = (ps.map fun x => CMD_PACKET :: ((PacketHeader.mk x.1 (s.pubs l.p).nodeId x.2.data.length (s.pubs l.p).listenIp
          (s.pubs l.p).listenPort).enc ++ x.2.data)).flatten := by
  obtain ⟨n, hi, _⟩ := (h.link hl).inv
  have hk' : (view s l).acc = some k := hk
  constructor
  · intro hu a ha hm
    obtain ⟨k', h1, h2⟩ := Sys.C75_arrived (h.link hl) hu ha hm
    rw [hk'] at h1; cases h1; exact h2
  · obtain ⟨ops, h1, h2, h3⟩ := hi.pub
    obtain ⟨ps, d1, d2, _⟩ := hi.down
    refine ⟨ps, fun x hx => ⟨PubCtx.sent_queued h1 (d1 x hx).1, ?_⟩, ?_⟩
    · obtain ⟨_, k', w1, w2⟩ := d1 x hx
      rw [hk'] at w1; cases w1; exact w2
    · have : Sys.toSub (env E l) (view s l) = stream s l k := by
        unfold Sys.toSub Sys.wbytes; rw [hk']; rfl
      rw [← this]; exact d2

/-- C75: before the publisher has accepted it, a connection carries nothing. -/
theorem C75_not_accepted {E : NetEnv} {s : Net} (h : Reached E s) {l : Link} (hl : l ∈ s.links) (hk : l.acc = none) :
    l.down = [] ∧ CircBuf.bytes ((s.subs l.q).cv.conns l.slot).readBuf = [] ∧
    (SubCtx.Up (s.subs l.q) l.slot → ∀ a ∈ SubCtx.arrivedAt l.slot (s.subs l.q).log, a.2.1 = true) := by
  obtain ⟨n, hi, _⟩ := (h.link hl).inv
  have hk' : (view s l).acc = none := hk
  obtain ⟨ps, d1, d2, _⟩ := hi.down
  have hps : ps = [] := by
    cases ps with
    | nil => rfl
    | cons x ps =>
      obtain ⟨_, k', w1, _⟩ := d1 x (by simp)
      rw [hk'] at w1; cases w1
  rw [hps] at d2
  have : Sys.toSub (env E l) (view s l) = CircBuf.bytes ((s.subs l.q).cv.conns l.slot).readBuf ++ l.down := by
    unfold Sys.toSub Sys.wbytes; rw [hk']
    exact List.append_nil _
  rw [this] at d2
  obtain ⟨e1, e2⟩ := List.append_eq_nil_iff.1 d2
  refine ⟨e2, e1, fun hu a ha => ?_⟩
  cases hm : a.2.1 with
  | true => rfl
  | false =>
    obtain ⟨k', w1, _⟩ := Sys.C75_arrived (h.link hl) hu ha hm
    rw [hk'] at w1; cases w1

/-- Under calls that use TCP only, nothing arrives by multicast. -/
theorem tcp_run {E : NetEnv} {now : Int} {p : Nat} : ∀ (post : List NetOp) {N : Nat} {s s' : Net}, NInv E N s → N + calls post + 1 < U64 →
    run E s post = some s' → (∀ op ∈ post, isFlush p now op = true ∨ isRead op = true) →
    ∀ q i, (∀ a ∈ SubCtx.arrivedAt i (s.subs q).log, a.2.1 = false) → ∀ a ∈ SubCtx.arrivedAt i (s'.subs q).log, a.2.1 = false := by
  intro post
  induction post with
  | nil => intro N s s' _ _ h _; cases h; exact fun _ _ h => h
  | cons op post ih =>
    intro N s s' hi hb hr hop
    change (next E s op).bind _ = _ at hr
    rw [calls_cons] at hb
    cases hn : next E s op with
    | none => rw [hn] at hr; cases hr
    | some t =>
      rw [hn] at hr
      have i2 := ih (hi.step (by omega) hn) (by omega) hr (fun o ho => hop o (by simp [ho]))
      rcases hop op (by simp) with ho | ho
      · obtain ⟨o, rfl⟩ : ∃ o, op = .pub p o := isFlush_pub ho
        rw [(next_pub_subs hn).1] at i2
        exact i2
      · cases op with
        | subRead q slot n ts =>
          unfold next at hn
          dsimp only at hn
          split at hn
          · cases hn
          · split at hn
            case isFalse => cases hn
            split at hn
            case h_2 => cases hn
            rename_i x hx
            cases hn
            refine fun j i h0 => i2 j i ?_
            show ∀ a ∈ SubCtx.arrivedAt i (setAt s.subs q x.2 j).log, a.2.1 = false
            by_cases e : j = q
            · subst e
              rw [setAt_same]
              obtain ⟨ops, hsub⟩ := hi.sub j
              exact SubCtx.read_tcp hsub hx i h0
            · rw [setAt_ne _ _ e]; exact h0
        | _ => cases ho

theorem range_eq {a m b n : Nat} (hm : 0 < m) (h : ∀ x, x ∈ List.range' a m ↔ x ∈ List.range' b n) : a = b ∧ m = n := by
  simp only [List.mem_range'_1] at h
  have h1 := (h a).1 (by omega)
  have h2 := (h b).2 (by omega)
  have h3 := (h (a + m - 1)).1 (by omega)
  have h4 := (h (b + n - 1)).2 (by omega)
  omega

theorem filter_range {a m b : Nat} (h1 : a ≤ b) (h2 : b < a + m) : (List.range' a m).filter (fun x => decide (b ≤ x)) = List.range' b (a + m - b) := by
  obtain ⟨d, rfl⟩ : ∃ d, b = a + d := ⟨b - a, by omega⟩
  obtain ⟨e, rfl⟩ : ∃ e, m = d + e := ⟨m - d, by omega⟩
  rw [← List.range'_append_1, List.filter_append, List.filter_eq_nil_iff.2, List.filter_eq_self.2, List.nil_append]
  · congr 1; omega
  · intro x hx; have := List.mem_range'_1.1 hx; simp; omega
  · intro x hx; have := List.mem_range'_1.1 hx; simp; omega

/-- C74, the part that holds, for every schedule: a subscriber that hears none of the multicasts has delivered, when everything has come to
rest, exactly the packets multicast since its connection was accepted from the first one on that it got. (Missing, and false: all of them, see
C74_false.) -/
theorem C74_rest_partial {E : NetEnv} {s : Net} (h : Reached E s) {l : Link} (hl : l ∈ s.links) {k : Nat} (hk : l.acc = some k)
    (he : l.err = false) (hu : SubCtx.Up (s.subs l.q) l.slot) (ho : (s.pubs l.p).pub.outstanding k = []) (hw : stream s l k = [])
    (hm : ∀ a ∈ SubCtx.arrivedAt l.slot (s.subs l.q).log, a.2.1 = false) (hne : PubCtx.sentTo k (s.pubs l.p).pub.log ≠ []) :
    ∃ b ∈ PubCtx.sentTo k (s.pubs l.p).pub.log, (arrived s l).head? = some b ∧
      (delivered s l).map (·.pid) = (PubCtx.sentTo k (s.pubs l.p).pub.log).filter (fun x => decide (b ≤ x)) := by
  obtain ⟨g1, g2⟩ := Sys.C51_rest_partial (h.link hl) (k := k) hk he hu ho hw
  have g1 : ∀ pid ∈ PubCtx.sentTo k (s.pubs l.p).pub.log, pid ∈ arrived s l := g1
  have g0 : ∀ pid ∈ arrived s l, pid ∈ PubCtx.sentTo k (s.pubs l.p).pub.log := by
    intro pid hp
    obtain ⟨a, ha, rfl⟩ := List.mem_map.1 hp
    exact (C75_since_accept h hl hk).1 hu a ha (hm a ha)
  obtain ⟨n, hi, _⟩ := (h.link hl).inv
  obtain ⟨ops, q1, _⟩ := hi.pub
  obtain ⟨sops, hsr⟩ := hi.sub
  have hv := hi.valid hu
  obtain ⟨a, m, e⟩ := PubCtx.sentTo_range q1 k
  have e : PubCtx.sentTo k (s.pubs l.p).pub.log = List.range' a m := e
  obtain ⟨b', n', hd⟩ := SubCtx.C33_api hsr hu hv
  have hd : (delivered s l).map (·.pid) = List.range' b' n' := hd
  cases hb : (arrived s l).head? with
  | none =>
    exfalso
    have : arrived s l = [] := List.head?_eq_none_iff.1 hb
    cases hs : PubCtx.sentTo k (s.pubs l.p).pub.log with
    | nil => exact hne hs
    | cons x xs =>
      have := g1 x (by rw [hs]; simp)
      rw [List.head?_eq_none_iff.1 hb] at this; cases this
  | some b =>
    have hbm : b ∈ arrived s l := List.mem_of_head? hb
    have hbs := g0 b hbm
    refine ⟨b, hbs, rfl, ?_⟩
    have hmem : ∀ p, p ∈ (delivered s l).map (·.pid) ↔ b ≤ p ∧ ∀ q, b ≤ q → q ≤ p → q ∈ arrived s l :=
      fun p => SubCtx.C36_api_partial hsr hu hv hb p
    rw [e] at hbs
    have hbr := List.mem_range'_1.1 hbs
    rw [e, filter_range hbr.1 hbr.2, hd]
    have hiff : ∀ x, x ∈ List.range' b (a + m - b) ↔ x ∈ List.range' b' n' := by
      intro x
      rw [← hd, hmem x, List.mem_range'_1]
      constructor
      · rintro ⟨x1, x2⟩
        exact ⟨x1, fun q y1 y2 => g1 q (by rw [e, List.mem_range'_1]; omega)⟩
      · rintro ⟨x1, x2⟩
        have := g0 x (x2 x x1 (Nat.le_refl _))
        rw [e, List.mem_range'_1] at this
        omega
    obtain ⟨w1, w2⟩ := range_eq (by omega) hiff
    rw [w2, w1]

/-- C74, the part that holds: the first packet queued after a subscriber has joined is delivered to it even if its multicast is lost. From every state of
the network in which nothing has been multicast since the connection was accepted, nothing has arrived, and nothing is waiting to be multicast:
once the packet has been multicast, and lost, and is overdue, there is a schedule of TCP calls after which the application of the subscriber has got
exactly this packet. -/
theorem C74_first_partial {E : NetEnv} {n : Nat} {s0 s : Net} {pre : List NetOp} (hs : Start E n s0) (hr : run E s0 pre = some s)
    (hn : n + calls pre + 5 < U64) {l : Link} (hl : l ∈ s.links) {k : Nat} (hk : l.acc = some k) (he : l.err = false)
    (hu : SubCtx.Up (s.subs l.q) l.slot) (h0 : ((s.subs l.q).cv.conns l.slot).readBuf.start = 0)
    (hsent : PubCtx.sentTo k (s.pubs l.p).pub.log = []) (harr : arrived s l = [])
    (hact : (s.pubs l.p).mcast ≠ none) (hsus : (s.pubs l.p).suspended = false) (hpe : (PubCtx.getPending (s.pubs l.p)).2.1 = 0)
    {pl : Payload} (hst : pl.onStack = false) (hlen : pl.data.length ≤ RMC_MAX_PAYLOAD) (t0 : Int) (st : List UInt8) :
    ∃ s1, run E s [.pub l.p (.queue pl false), .pub l.p (.writeMcast [⟨.ok t0, st⟩])] = some s1 ∧
      ∀ (now ts : Int) (cb : Option (Bool × List UInt8)) (sp : Nat),
        (∀ j, PubCtx.Connected (s1.pubs l.p) j → ∀ x ∈ (s1.pubs l.p).pub.owedPkts j, x.2.2 + (s1.pubs l.p).resendTimeout ≤ now) →
        n + calls pre + 2 + (PubCtx.held (s1.pubs l.p) + 2) * ((s1.pubs l.p).cv.size + 1) + 1 < U64 →
        ∃ post s', run E s1 post = some s' ∧ (∀ op ∈ post, isFlush l.p now op = true ∨ isRead op = true) ∧
          ∃ l' ∈ s'.links, l'.p = l.p ∧ l'.q = l.q ∧ l'.slot = l.slot ∧ l'.acc = some k ∧ SubCtx.Up (s'.subs l'.q) l'.slot ∧
            (delivered s' l').map (·.payload.data) = [pl.data] := by
  have hinv : NInv E (n + calls pre) s := (NInv.start hs).run pre (by omega) hr
  have hp := hinv.lp l hl
  have hid := hinv.ids l.p hp
  obtain ⟨c1, c2, pid, x1, x2, hpid, x3, x4, x5, x6⟩ := PubCtx.publishes (hinv.pub l.p hp) (by omega) hid.2.2.2 hact hsus hpe hst hlen t0 st
  have hcall : Sys.callOk (.queue pl false) = true := by
    show (!pl.onStack) = true
    rw [hst]; rfl
  have st1 := pub_keeps (E := E) (s := s) hp hcall x1 (fun _ => rfl) x5
  obtain ⟨S1, hS1⟩ : ∃ S1 : Net, S1 = ⟨setAt s.pubs l.p c1, s.subs, s.links⟩ := ⟨_, rfl⟩
  rw [← hS1] at st1
  have hS1p : S1.pubs l.p = c1 := by rw [hS1]; exact setAt_same ..
  have st2 := pub_keeps (E := E) (s := S1) hp (op := .writeMcast [⟨.ok t0, st⟩]) rfl (by rw [hS1p]; exact x2) (fun _ => rfl) (by rw [hS1p]; exact x6)
  obtain ⟨S2, hS2⟩ : ∃ S2 : Net, S2 = ⟨setAt S1.pubs l.p c2, S1.subs, S1.links⟩ := ⟨_, rfl⟩
  rw [← hS2] at st2
  have hS2p : S2.pubs l.p = c2 := by rw [hS2]; exact setAt_same ..
  have hS2s : S2.subs = s.subs := by rw [hS2, hS1]
  have hS2l : S2.links = s.links := by rw [hS2, hS1]
  have hrun1 : run E s [.pub l.p (.queue pl false), .pub l.p (.writeMcast [⟨.ok t0, st⟩])] = some S2 := by
    rw [run_cons st1, run_cons st2]; rfl
  refine ⟨S2, hrun1, ?_⟩
  intro now ts cb sp hall hbound
  have hpre : run E s0 (pre ++ [.pub l.p (.queue pl false), .pub l.p (.writeMcast [⟨.ok t0, st⟩])]) = some S2 := by
    rw [run_append, hr]; exact hrun1
  have hcalls : calls (pre ++ [.pub l.p (.queue pl false), .pub l.p (.writeMcast [⟨.ok t0, st⟩])]) = calls pre + 2 := by
    rw [calls_append]; rfl
  obtain ⟨post, s', r1, r2, r3, r4⟩ := C71_recovers_partial hs hpre l.p now ts cb sp hall (by rw [hcalls]; omega)
  obtain ⟨l', m1, m2, m3, m4, m5, m6, m7, m8, m9, mS, m10, m11⟩ := r4 l (by rw [hS2l]; exact hl) rfl k hk he (by rw [hS2s]; exact hu) (by rw [hS2s]; exact h0)
  refine ⟨post, s', r1, r2, l', m1, m2, m3, m4, m5, m7, ?_⟩
  have hrun2 : run E s0 (pre ++ [.pub l.p (.queue pl false), .pub l.p (.writeMcast [⟨.ok t0, st⟩])] ++ post) = some s' := by
    rw [run_append, hpre]; exact r1
  have hreach : Reached E s' := ⟨n, s0, _, hs, by rw [calls_append, hcalls]; omega, hrun2⟩
  have hinv2 : NInv E (n + (calls pre + 2)) S2 := by
    have := (NInv.start hs).run _ (by rw [hcalls]; omega) hpre
    rw [hcalls] at this; exact this
  have t2 := tcp_run post hinv2 (by omega) r1 r2
  have hnm : ∀ a ∈ SubCtx.arrivedAt l'.slot (s'.subs l'.q).log, a.2.1 = false := by
    refine t2 l'.q l'.slot ?_
    rw [hS2s, m3, m4]
    intro a ha
    have : a.1.pid ∈ arrived s l := List.mem_map.2 ⟨a, ha, rfl⟩
    rw [harr] at this; cases this
  have hsent2 : PubCtx.sentTo k (S2.pubs l.p).pub.log = [pid] := by
    rw [hS2p, x3, PubCtx.sentTo_append_of (by simp), hsent]
    simp [sentPkts, hpid]
  have hsent3 : PubCtx.sentTo k (s'.pubs l'.p).pub.log = [pid] := by rw [m2, mS, hsent2]
  obtain ⟨b, b1, b2, b3⟩ := C74_rest_partial hreach m1 m5 m6 m7 (by rw [m2]; exact m8) m9 hnm (by rw [hsent3]; simp)
  rw [hsent3] at b1 b3
  have hb : b = pid := List.mem_singleton.1 b1
  subst hb
  have hdel : (delivered s' l').map (·.pid) = [b] := by rw [b3]; simp
  -- the payload
  obtain ⟨x, hx⟩ : ∃ x, delivered s' l' = [x] := by
    match hd : delivered s' l' with
    | [] => rw [hd] at hdel; cases hdel
    | [x] => exact ⟨x, rfl⟩
    | x :: y :: zs => rw [hd] at hdel; simp at hdel
  rw [hx] at hdel ⊢
  have hxp : x.pid = b := by simpa using hdel
  obtain ⟨m, hi', _⟩ := (hreach.link m1).inv
  obtain ⟨sops, hsr⟩ := hi'.sub
  obtain ⟨ops, q1, q2, q3⟩ := hi'.pub
  obtain ⟨before, mc, ts', after, e1, _⟩ := SubCtx.C34_api hsr m7 (hi'.valid m7) (x := x) (by
    have : delivered s' l' = SubCtx.deliveredAt l'.slot (s'.subs l'.q).log := rfl
    show x ∈ SubCtx.deliveredAt l'.slot (s'.subs l'.q).log
    rw [← this, hx]; simp)
  obtain ⟨pp, p1, p2, _⟩ := hi'.arr m7 (x, mc, ts') (by
    have e1 : SubCtx.arrivedAt l'.slot (s'.subs l'.q).log = _ := e1
    show _ ∈ SubCtx.arrivedAt l'.slot (s'.subs l'.q).log
    rw [e1]; simp)
  have p1 : (b, pp) ∈ sentPkts (s'.pubs l.p).pub.log := by rw [← hxp, ← m2]; exact p1
  have p2 : x.payload.data = pp.data := p2
  have hin : (b, pl) ∈ sentPkts (s'.pubs l.p).pub.log := by
    rw [flush_unsent post hinv2 (by omega) r1 r2 l.p hp, hS2p, x3, sentPkts_append]
    refine List.mem_append_right _ ?_
    simp [sentPkts, hpid]
  rw [← m2] at p1 hin
  obtain ⟨pops, L, g, _⟩ := q1.good
  have hnd := PSpec.sent_nodup g.p.reached.linv
  rw [← g.p.reached.log] at hnd
  have : pp = pl := PubCtx.nodup_snd hnd p1 hin
  simp [p2, this]

/-! ## Examples -/

/-- Subscriber 0 has joined publisher 0, which multicasts packets 1 and 2; both datagrams are lost. Both are overdue at 200000 and are resent, the
newer one first (pub.c 320-335); the subscriber reads everything. -/
def exNetNewest : List NetOp :=
  [.link 0 0 0, .sub 0 (.write 0 (.ok 0) none (.ok 0)), .accept 0 0 0 (.ok 5 1) none, .pub 0 (.queue (exNPay 0 1) false),
   .pub 0 (.queue (exNPay 0 2) false), .pub 0 (.writeMcast [⟨.ok 10, []⟩, ⟨.ok 20, []⟩]),
   .pub 0 (.timeout 200000 none 0), .pub 0 (.write 0 (.ok 46)), .subRead 0 0 46 200100]

/-- C74 is not true of the code: two packets were multicast to the subscriber after it had joined, both have arrived over its connection, which
is up and without errors; nothing is outstanding, nothing is in the stream; the application has got the second one only, and the publisher has
released both. -/
theorem C74_false : ∃ s l, Reached exN s ∧ l ∈ s.links ∧ l.p = 0 ∧ l.q = 0 ∧ l.slot = 0 ∧ l.acc = some 0 ∧ l.err = false ∧
    SubCtx.Up (s.subs 0) 0 ∧ (s.pubs 0).pub.outstanding 0 = [] ∧ stream s l 0 = [] ∧ PubCtx.sentTo 0 (s.pubs 0).pub.log = [1, 2] ∧
    (∀ a ∈ SubCtx.arrivedAt 0 (s.subs 0).log, a.2.1 = false) ∧ arrived s l = [2, 1] ∧ (delivered s l).map (·.pid) = [2] ∧
    (frees (s.pubs 0).pub.log).map (·.1) = [2, 1] := by
  obtain ⟨s, h, h2⟩ := net_reached (ops := exNetNewest) (P := fun s => decide ((∃ l ∈ s.links, l.p = 0 ∧ l.q = 0 ∧ l.slot = 0 ∧ l.acc = some 0 ∧
    l.err = false ∧ stream s l 0 = [] ∧ arrived s l = [2, 1] ∧ (delivered s l).map (fun (x : SPkt) => x.pid) = [2]) ∧ SubCtx.Up (s.subs 0) 0 ∧
    (s.pubs 0).pub.outstanding 0 = [] ∧ PubCtx.sentTo 0 (s.pubs 0).pub.log = [1, 2] ∧
    (∀ a ∈ SubCtx.arrivedAt 0 (s.subs 0).log, a.2.1 = false) ∧ (frees (s.pubs 0).pub.log).map (fun x => x.1) = [2, 1]))
    (by decide) (by decide +kernel)
  obtain ⟨⟨l, hl, e1, e2, e3, e4, e5, e6, e7, e8⟩, b1, b2, b3, b4, b5⟩ := of_decide_eq_true h2
  exact ⟨s, l, h, hl, e1, e2, e3, e4, e5, b1, b2, e6, b3, b4, e7, e8, b5⟩

/-- The hypotheses of C74_first_partial are met: subscriber 0 has joined after packet 1, which subscriber 1 alone was to get, and nothing has been
multicast since. -/
def exNetLate : List NetOp :=
  [.link 0 1 0, .sub 1 (.write 0 (.ok 0) none (.ok 0)), .accept 1 0 0 (.ok 4 1) none, .pub 0 (.queue (exNPay 0 1) false),
   .pub 0 (.writeMcast [⟨.ok 10, []⟩]),
   .link 0 0 0, .sub 0 (.write 0 (.ok 0) none (.ok 0)), .accept 0 0 1 (.ok 5 1) none]

example : ∃ s0 s, Start exN 2 s0 ∧ run exN s0 exNetLate = some s ∧ decide (2 + calls exNetLate + 5 < U64 ∧
    (∃ l ∈ s.links, l.p = 0 ∧ l.q = 0 ∧ l.slot = 0 ∧ l.acc = some 1 ∧ l.err = false ∧ arrived s l = []) ∧
    SubCtx.Up (s.subs 0) 0 ∧ ((s.subs 0).cv.conns 0).readBuf.start = 0 ∧ PubCtx.sentTo 1 (s.pubs 0).pub.log = [] ∧
    PubCtx.sentTo 0 (s.pubs 0).pub.log = [1] ∧ (s.pubs 0).mcast ≠ none ∧ (s.pubs 0).suspended = false ∧
    (PubCtx.getPending (s.pubs 0)).2.1 = 0) = true :=
  net_started (ops := exNetLate) (P := fun s => decide _) (by decide +kernel)

/-- Packet 2 is multicast and lost, and comes over the connection: the state satisfies the hypotheses of C74_rest_partial and C75_since_accept, and
packet 1, multicast before the connection was accepted, has not come. -/
example : ∃ s, Reached exN s ∧ decide ((∃ l ∈ s.links, l.p = 0 ∧ l.q = 0 ∧ l.slot = 0 ∧ l.acc = some 1 ∧ l.err = false ∧ stream s l 1 = [] ∧
      arrived s l = [2] ∧ (delivered s l).map (fun (x : SPkt) => (x.pid, x.payload.data)) = [(2, [2, 0])]) ∧
    SubCtx.Up (s.subs 0) 0 ∧ (s.pubs 0).pub.outstanding 1 = [] ∧ PubCtx.sentTo 1 (s.pubs 0).pub.log = [2] ∧
    (∀ a ∈ SubCtx.arrivedAt 0 (s.subs 0).log, a.2.1 = false)) = true :=
  net_reached (ops := exNetLate ++ [.pub 0 (.queue (exNPay 0 2) false), .pub 0 (.writeMcast [⟨.ok 100, []⟩]), .pub 0 (.timeout 200000 none 0),
      .pub 0 (.write 1 (.ok 23)), .subRead 0 0 23 200100])
    (P := fun s => decide _) (by decide) (by decide +kernel)

/-- A link that has not been accepted, with a packet that came by multicast: C75_not_accepted. -/
example : ∃ s, Reached exN s ∧ decide ((∃ l ∈ s.links, l.p = 0 ∧ l.q = 0 ∧ l.slot = 0 ∧ l.acc = none ∧ arrived s l = [1]) ∧
    SubCtx.Up (s.subs 0) 0) = true :=
  net_reached (ops := [.link 0 0 0, .sub 0 (.write 0 (.ok 0) none (.ok 0)), .pub 0 (.queue (exNPay 0 1) false), .pub 0 (.writeMcast [⟨.ok 10, []⟩]),
      .sub 0 (.readMcast [exND 0 1 [1, 0] 100])])
    (P := fun s => decide _) (by decide) (by decide +kernel)

end Net
end Rmc
