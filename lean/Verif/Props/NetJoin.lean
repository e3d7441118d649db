import Verif.Props.Net
import Verif.Props.SubCtxConn
import Verif.Props.Codes
import Verif.Props.PubCtxMisc
import Verif.Props.PubCtxCb

/-! # Discovery: a subscriber can always join (C73)

A publisher whose announcement is due announces itself by multicast; a subscriber that hears the announcement connects to it; the publisher accepts. -/

set_option linter.unusedVariables false
set_option linter.unusedSimpArgs false

namespace Rmc

namespace PubCtx
open CircBuf

theorem Sends.datagrams {c : Cfg} {ys : List POp} {es : List PEv} {ds : List CEv} (h : Sends c ys es ds) : ∀ d ∈ ds, ∃ w, d = .datagram w := by
  induction h with
  | nil => simp
  | snoc h pid p ts stack hp hl ih =>
    intro y hy
    rcases List.mem_append.1 hy with hy | hy
    · exact ih y hy
    · exact ⟨_, List.mem_singleton.1 hy⟩

/-- Sends take the announcements off the queue in order; the datagram of one that is not waiting any more has been sent. -/
theorem ann_sent : ∀ (ys : List POp) (A : PSpec) (x : Payload), (∀ y ∈ ys, ∃ ts, y = .send ts) → x ∈ A.ann → (A.run ys).ann = [] →
    (0, x) ∈ sentAll (A.run ys).log := by
  intro ys
  -- once in the log, it stays there
  have keep : ∀ (ys : List POp) (A : PSpec) (z : Nat × Payload), (∀ y ∈ ys, ∃ ts, y = .send ts) → z ∈ sentAll A.log → z ∈ sentAll (A.run ys).log := by
    intro ys
    induction ys with
    | nil => intro A z _ h; exact h
    | cons y ys ih =>
      intro A z hy h
      refine ih (A.step y) z (fun y h => hy y (by simp [h])) ?_
      obtain ⟨ts, rfl⟩ := hy y (by simp)
      unfold PSpec.step
      dsimp only
      split
      · rw [sentAll_append]; exact List.mem_append.2 (.inl h)
      · rw [sentAll_append]; exact List.mem_append.2 (.inl h)
      · exact h
  induction ys with
  | nil =>
    intro A x _ h h0
    have h0' : A.ann = [] := h0
    rw [h0'] at h; cases h
  | cons y ys ih =>
    intro A x hy h h0
    obtain ⟨ts, rfl⟩ := hy y (by simp)
    have hys : ∀ y ∈ ys, ∃ ts, y = .send ts := fun y h => hy y (by simp [h])
    cases ha : A.ann with
    | nil => rw [ha] at h; cases h
    | cons p ann =>
      have e : A.step (.send ts) = { A with ann := ann, log := A.log ++ [.send 0 p ts] } := by simp [PSpec.step, ha]
      rw [ha] at h
      rcases List.mem_cons.1 h with rfl | h
      · refine keep ys (A.step (.send ts)) _ hys ?_
        rw [e, sentAll_append]
        exact List.mem_append.2 (.inr (by simp [sentAll]))
      · refine ih (A.step (.send ts)) x hys ?_ h0
        rw [e]; exact h

theorem pending_eq (x : PubCtx) : (getPending x).2.1 = Pub.queueSize x.pub := by
  unfold getPending; dsimp only; split <;> rfl

/-- A publisher whose announcement is due announces itself: after the timeout processing and a write of its multicast socket that takes
everything, a datagram with its address has been multicast. -/
theorem announces {N : Nat} {c : PubCtx} (hp : ∃ ops, Reaches ops c ∧ (∀ op ∈ ops, Sys.callOk op = true) ∧ ops.length ≤ N) (hb : N + 4 < U64)
    (hid : c.nodeId < U32 ∧ c.listenIp < U32 ∧ c.listenPort < 65536 ∧ c.listenPort ≠ 0)
    (hm : c.mcast ≠ none) {now : Int} (hd : annDue c now) (hsus : c.suspended = false) {cb : Option (Bool × List UInt8)}
    (hcb : (annAnswer cb).1 = true) (sp : Nat) {rs : List SendRes} (hz : ∀ s ∈ rs, ∃ ts, s.res = .ok ts)
    (hl : (getPending c).2.1 + 1 ≤ rs.length) :
    ∃ c1 c2 tail, step c (.timeout now cb sp) = .ok (0, c1) ∧ step c1 (.writeMcast rs) = .ok (0, c2) ∧
      tail.length = (annAnswer cb).2.length ∧
      (PacketHeader.mk 0 c.nodeId (annAnswer cb).2.length c.listenIp c.listenPort).enc ++ tail ∈ dgrams c2.log ∧
      (∀ i, c2.cv.conns i = c.cv.conns i) ∧ c2.cv.size = c.cv.size ∧ c2.listen = c.listen ∧ (∀ k, Connected c2 k ↔ Connected c k) ∧
      c2.listenIp = c.listenIp ∧ c2.listenPort = c.listenPort ∧
      (∀ k, outs k (c1.log.drop c.log.length) = []) ∧ ∀ k, outs k (c2.log.drop c1.log.length) = [] := by
  obtain ⟨ops, h1, h2, h3⟩ := hp
  obtain ⟨pops, L, g, hq, hb', _⟩ := h1.good
  obtain ⟨c1, a1, a2, a3, a4, a5, a6, a7, a8, a9⟩ := timeout_announce g hd cb sp (by omega)
  have hx1 : step c (.timeout now cb sp) = .ok (0, c1) := a1
  obtain ⟨f1, f2, f3, f4⟩ := Net.pub_frame ⟨ops, h1, h2, h3⟩ hid.2.2.2 (op := .timeout now cb sp) rfl (by omega) hx1
  obtain ⟨ops1, r1, r2, r3⟩ := f1
  obtain ⟨-, -, g1, -, -⟩ : (annAnswer cb).1 = true ∧ c.suspended = false ∧ Good c1 (pops ++ [.announce ⟨sp, (annAnswer cb).2, true⟩]) L ∧
      c1.suspended = decide (c.suspendThr > 0 ∧ Pub.unackedCount c1.pub ≥ c.suspendThr) ∧ c1.pub.unackedCount = c.pub.unackedCount := by
    rcases a9 with a9 | ⟨a9 | a9, _⟩
    · exact a9
    · rw [hcb] at a9; cases a9
    · rw [hsus] at a9; cases a9
  have hm1 : c1.mcast ≠ none ∧ c1.listen = c.listen := by
    have hcfg : c1.mcast = c.mcast ∧ c1.listen = c.listen := by
      unfold timeoutProcess at a1
      rw [if_pos ⟨hd.1, hd.2.1, by have := hd.2.2; omega⟩] at a1
      dsimp only at a1
      rw [hcb, if_pos rfl] at a1
      have h' : Good (ev c (.announce now c.annInterval)) pops L := g.congr rfl rfl
      rcases queue_cases h' ⟨sp, (annAnswer cb).2, true⟩ true (by omega) with ⟨e1, _⟩ | ⟨_, e2, e⟩ | ⟨_, e2, s', _, _, _, e⟩
      · have : (annAnswer cb).2.length ≤ RMC_MAX_PAYLOAD := annAnswer_len cb
        exact absurd e1 (Nat.not_lt.mpr this)
      · rw [e, Pub.ok_bind] at a1
        have e : _ = c1 := congrArg Prod.snd (Except.ok.inj a1)
        rw [← e]; exact ⟨rfl, rfl⟩
      · rw [e, Pub.ok_bind] at a1
        have e : _ = c1 := congrArg Prod.snd (Except.ok.inj a1)
        rw [← e]; exact ⟨rfl, rfl⟩
    exact ⟨by rw [hcfg.1]; exact hm, hcfg.2⟩
  have hqs : (getPending c1).2.1 = (getPending c).2.1 + 1 := by
    rw [pending_eq, pending_eq, queueSize_spec g, queueSize_spec g1]
    have : spec (pops ++ [.announce ⟨sp, (annAnswer cb).2, true⟩]) = (spec pops).step (.announce ⟨sp, (annAnswer cb).2, true⟩) := by
      unfold spec; rw [PSpec.run_snoc]
    rw [this]
    simp [PSpec.step]; omega
  obtain ⟨c2, hx2, d2, -⟩ := C63_drains r1 hm1.1 hz (by omega)
  obtain ⟨r, c2', ys, es, ds, k1, k2, k3, k4, k5, k6, k7, k8, k9⟩ := multicastWrite_spec rs g1
  have hx2' : multicastWrite c1 rs = .ok (0, c2) := hx2
  rw [k1] at hx2'
  have e : c2' = c2 := congrArg Prod.snd (Except.ok.inj hx2')
  subst e
  obtain ⟨p1, p2, p3, p4⟩ := Net.pub_frame ⟨ops1, r1, r2, r3⟩ (by rw [f4]; exact hid.2.2.2) (op := .writeMcast rs) rfl (by omega) hx2
  obtain ⟨ops2, q1, q2, q3⟩ := p1
  -- the announcement has been sent
  have hann : (spec (pops ++ [.announce ⟨sp, (annAnswer cb).2, true⟩] ++ ys)).ann = [] := by
    rw [pending_eq, queueSize_spec k2] at d2
    exact List.eq_nil_of_length_eq_zero (by omega)
  have hmem : (0, (⟨sp, (annAnswer cb).2, true⟩ : Payload)) ∈ sentAll c2'.pub.log := by
    rw [k2.p.reached.log]
    have e1 : spec (pops ++ [.announce ⟨sp, (annAnswer cb).2, true⟩] ++ ys) =
        (spec (pops ++ [.announce ⟨sp, (annAnswer cb).2, true⟩])).run ys := by
      unfold spec PSpec.run; rw [List.foldl_append]
    rw [e1] at hann ⊢
    refine ann_sent ys _ _ k5.sends ?_ hann
    have : spec (pops ++ [.announce ⟨sp, (annAnswer cb).2, true⟩]) = (spec pops).step (.announce ⟨sp, (annAnswer cb).2, true⟩) := by
      unfold spec; rw [PSpec.run_snoc]
    rw [this]
    simp [PSpec.step]
  obtain ⟨w1, w2⟩ := C53_datagrams q1 (fun op ho => callOk_port (q2 op ho))
  obtain ⟨k, hk⟩ := List.getElem?_of_mem hmem
  have hlt : k < (dgrams c2'.log).length := by rw [← w1]; exact (List.getElem?_eq_some_iff.1 hk).1
  obtain ⟨tail, t1, t2, -⟩ := w2 k 0 _ _ hk (List.getElem?_eq_getElem hlt)
  refine ⟨c1, c2', tail, hx1, hx2, t2, ?_, fun i => ?_, ?_, ?_, ?_, by rw [p3, f3], by rw [p4, f4], fun k => ?_, fun k => ?_⟩
  · rw [p2, f2, p3, f3, p4, f4] at t1
    rw [← t1]
    exact List.getElem_mem _
  · rw [k8, a7]
  · obtain ⟨_, _, _, _, e, _⟩ := step_bal (q := false) (op := .writeMcast rs) trivial (fun h => by cases h) hx2
    rw [e, a8]
  · rw [← hm1.2]; exact congrArg Cfg.listen k3
  · intro k
    rw [k2.connected, g.connected]
  · rw [a2, List.drop_left]; rfl
  · rw [k7, List.drop_left]
    apply outs_none
    intro d hd bs e
    obtain ⟨w, hw⟩ := k5.datagrams d hd
    rw [hw] at e; cases e

/-- A publisher with a free slot accepts a connection. -/
theorem accepts {N : Nat} {c : PubCtx} (hp : ∃ ops, Reaches ops c ∧ (∀ op ∈ ops, Sys.callOk op = true) ∧ ops.length ≤ N)
    (hfree : ∃ i, i < c.cv.size ∧ ¬ Connected c i) (fd a : Nat) {cb : Option Bool} (hcb : cb ≠ some false) :
    ∃ k c', step c (.readListen (.ok fd a) cb) = .ok (0, c') ∧ k < c.cv.size ∧ ¬ Connected c k ∧ Connected c' k ∧
      (∀ j, j ≠ k → (Connected c' j ↔ Connected c j)) ∧ (∀ j, outs j (c'.log.drop c.log.length) = []) ∧ sentTo k c'.pub.log = [] ∧
      bytes (c'.cv.conns k).writeBuf = [] := by
  obtain ⟨ops, h1, h2, h3⟩ := hp
  obtain ⟨pops, L, g, hq, hb', _⟩ := h1.good
  obtain ⟨r, c', ys, L', ds, k1, k2, k3, k4, k5, k6, k7⟩ := readListen_spec g (ar := .ok fd a) trivial cb
  have hx : step c (.readListen (.ok fd a) cb) = .ok (r, c') := k1
  rcases k7 with ⟨e1, e2, e3, e4, _⟩ | ⟨rfl, i, i1, i2, ⟨_, e2, _⟩ | ⟨_, _, e, _⟩⟩
  · have hcode := readListen_code g (ar := .ok fd a) trivial k1
    unfold Code at hcode
    dsimp only at hcode
    rcases hcode with ⟨hf, _⟩ | ⟨_, hcode⟩
    · obtain ⟨i, hi, hn⟩ := hfree
      exact absurd (hf i hi) hn
    · exact absurd hcode e4
  · have hn : ¬ Connected c i := fun hk => i1 (g.connected.1 hk)
    have hy : Connected c' i := k2.connected.2 (by rw [e2]; simp)
    have hfr := (accept_link g (ar := .ok fd a) trivial hx hn hy).1
    refine ⟨i, c', hx, i2, hn, hy, fun j hj => ?_, fun j => ?_, hfr.sent, hfr.wb⟩
    · rw [k2.connected, g.connected, e2]
      simp [hj]
    · rw [k5, List.drop_left]
      apply outs_none
      intro d hd bs e
      obtain ⟨i, hi | hi | hi⟩ := k6 d hd <;> rw [hi] at e <;> cases e
  · exact absurd e hcb

/-- A call on a suspended publisher with no subscriber and nothing to send sends nothing. -/
theorem mute_step {c c' : PubCtx} {pops : List POp} (g : Good c pops []) (hsu : c.suspended = true)
    (hb : (queueArgs pops).length + 2 < U64) (hq : Pub.queueSize c.pub = 0) {op : Op} (hn : noListen op) {r : Nat} (hx : step c op = .ok (r, c')) :
    Pub.queueSize c'.pub = 0 ∧ dgrams c'.log = dgrams c.log := by
  have hsubs : c.pub.subs = [] := by
    cases hs : c.pub.subs with
    | nil => rfl
    | cons k ks => exact absurd ((g.slots k).2 (by rw [hs]; simp)) (by simp)
  cases op with
  | queue p ann =>
    have hx' : queuePacket c p ann = .ok (r, c') := hx
    rcases queue_cases g p ann hb with ⟨_, e⟩ | ⟨_, _, e⟩ | ⟨_, e1, s', k1, k2, k3, e⟩ <;> rw [e] at hx' <;> cases hx'
    · exact ⟨hq, rfl⟩
    · exact ⟨hq, rfl⟩
    · rw [e1] at hsu; cases hsu
  | readListen ar cb => exact hn.elim
  | readMcast err =>
    have hx' : readMcast c err = (r, c') := Except.ok.inj hx
    unfold readMcast at hx'
    split at hx'
    · cases hx'; exact ⟨hq, rfl⟩
    · split at hx' <;> cases hx' <;> exact ⟨hq, rfl⟩
  | read i rv =>
    rcases readConn_spec g hx with ⟨_, _, e⟩ | ⟨h0, _⟩
    · rw [e]; exact ⟨hq, rfl⟩
    · cases h0
  | writeMcast rs =>
    obtain ⟨r', c'', ys, es, ds, g1, g2, g3, g4, g5, g6, g7, _⟩ := multicastWrite_spec rs g
    have : step c (.writeMcast rs) = .ok (r', c'') := g1
    have e : c'' = c' := congrArg Prod.snd (Except.ok.inj (this.symm.trans hx))
    subst e
    have hnil : Pub.nextQueued c.pub = none := by
      unfold Pub.queueSize at hq
      unfold Pub.nextQueued
      rw [List.eq_nil_of_length_eq_zero hq]; rfl
    have : c''.pub = c.pub ∧ c''.log = c.log := by
      cases rs <;> unfold multicastWrite at g1 <;> rw [hnil] at g1 <;> cases g1 <;> exact ⟨rfl, rfl⟩
    rw [this.1, this.2]; exact ⟨hq, rfl⟩
  | write i wv =>
    have hx' : writeConn c i wv = .ok (r, c') := hx
    rcases writeConn_spec g i wv with ⟨_, e | e⟩ | ⟨h0, _, e⟩ | ⟨h0, _⟩
    · rw [e] at hx'; cases hx'; exact ⟨hq, rfl⟩
    · rw [e] at hx'; cases hx'; exact ⟨hq, rfl⟩
    · cases h0
    · cases h0
  | timeout now cb sp =>
    have hx' : timeoutProcess c now cb sp = .ok (r, c') := hx
    by_cases hd : annDue c now
    · obtain ⟨c'', e, e2, _, _, _, _, _, _, k⟩ := timeout_announce g hd cb sp hb
      rw [e] at hx'; cases hx'
      rcases k with ⟨_, k, _⟩ | ⟨_, k, k2, k3⟩
      · rw [k] at hsu; cases hsu
      · refine ⟨by rw [k3]; exact hq, ?_⟩
        rw [e2, dgrams_append]; simp [dgrams]
    · have ht := timeout_resend g hd hx'
      rw [hsubs] at ht
      cases ht
      exact ⟨hq, rfl⟩
  | close i =>
    have hx' : closeConnection c i = .ok (r, c') := hx
    rw [close_none g (by simp)] at hx'; cases hx'
    exact ⟨hq, rfl⟩
  | setAnnounce n now =>
    cases hx; exact ⟨hq, by simp [setAnnounceInterval, ev, dgrams]⟩
  | throttling a b =>
    have hx' : throttling c a b = (r, c') := Except.ok.inj hx
    unfold throttling at hx'
    split at hx' <;> cases hx' <;> exact ⟨hq, rfl⟩
  | setCtlCb b => cases hx; exact ⟨hq, rfl⟩
  | activate x =>
    have hx' : activate c x = (r, c') := Except.ok.inj hx
    unfold activate at hx'
    split at hx' <;> cases hx' <;> exact ⟨hq, rfl⟩
  | deactivate =>
    obtain ⟨c'', ys, ds, e, k1, k, k4, k5, k2, _⟩ := deactivate_spec g
    have hx' : deactivate c = .ok (r, c') := hx
    rw [e] at hx'; cases hx'
    constructor
    · rw [queueSize_spec g] at hq
      rw [queueSize_spec k1]
      have : ∀ (ys : List POp) (A : PSpec), (∀ y ∈ ys, ∃ k, y = .close k) → (A.run ys).que = A.que ∧ (A.run ys).ann = A.ann := by
        intro ys
        induction ys with
        | nil => intro A _; exact ⟨rfl, rfl⟩
        | cons y ys ih =>
          intro A hy
          obtain ⟨k, rfl⟩ := hy y (by simp)
          obtain ⟨i1, i2⟩ := ih (A.step (.close k)) (fun z hz => hy z (by simp [hz]))
          exact ⟨i1, i2⟩
      obtain ⟨w1, w2⟩ := this ys (spec pops) k2
      have e1 : spec (pops ++ ys) = (spec pops).run ys := by unfold spec PSpec.run; rw [List.foldl_append]
      rw [e1, w1, w2]; exact hq
    · rw [k4, dgrams_append, dgrams_none (ds := ds), List.append_nil]
      intro d hd bs e
      obtain ⟨i, hi⟩ := k5 d hd
      rw [hi] at e; cases e

/-- C73, what stands against it: a publisher that is suspended, has no subscriber and nothing to send is mute. As long as no connection
is accepted, whatever is called, also timeout processing when announcements are due, no datagram is multicast, so no subscriber hears of it
(and it accepts no packet either: C25_stuck). -/
theorem C73_mute_false : ∀ (more : List Op) {ops : List Op} {c c' : PubCtx} {rs : List Nat}, Reaches ops c →
    ops.length + 2 < U64 → trafficSuspended c = EBUSY → (∀ i, ¬ Connected c i) → (getPending c).2.1 = 0 → (∀ op ∈ more, noListen op) →
    run c more = .ok (rs, c') → dgrams c'.log = dgrams c.log := by
  intro more ops c c' rs h hlen h0 hno hpe hn hx
  obtain ⟨pops, L, g, hq, hb, _⟩ := h.good
  have hL : L = [] := by
    cases L with
    | nil => rfl
    | cons i L => exact absurd (g.connected.2 (by simp)) (hno i)
  subst hL
  have hsu : c.suspended = true := by
    cases hh : c.suspended with
    | true => rfl
    | false => unfold trafficSuspended at h0; rw [hh] at h0; cases h0
  have hb' : (queueArgs pops).length + 2 < U64 := by omega
  rw [pending_eq] at hpe
  clear h h0 hno hq hb
  have key : ∀ (more : List Op) (c c' : PubCtx) (pops : List POp) (rs : List Nat), Good c pops [] → c.suspended = true →
      (queueArgs pops).length + 2 < U64 → Pub.queueSize c.pub = 0 → (∀ op ∈ more, noListen op) → run c more = .ok (rs, c') →
      dgrams c'.log = dgrams c.log := by
    intro more
    induction more with
    | nil =>
      intro c c' pops rs g hsu _ _ _ hx
      cases hx; rfl
    | cons op more ih =>
      intro c c' pops rs g hsu hb hq hn hx
      rw [run_cons] at hx
      obtain ⟨⟨r, c1⟩, h1, h2⟩ := bind_ok hx
      obtain ⟨⟨rs1, c2⟩, h3, h4⟩ := bind_ok h2
      cases h4
      obtain ⟨⟨pops', k1, k2⟩, k3, k4⟩ := stuck_step g hsu hb (hn op (by simp)) h1
      obtain ⟨m1, m2⟩ := mute_step g hsu hb hq (hn op (by simp)) h1
      rw [ih c1 c2 pops' rs1 k1 k3 (by rw [k2]; exact hb) m1 (fun o ho => hn o (by simp [ho])) h3, m2]
  exact key more c c' pops rs g hsu hb' hpe hn hx

/-- Throttling at one packet, announcements every 100 microseconds; nobody subscribes. -/
def exMute : List Op :=
  [.activate (.ok (7, 8, 9)), .throttling 1 0, .setAnnounce 100 1, .queue (exPay 1) false, .writeMcast [⟨.ok 10, []⟩], .queue (exPay 2) false,
   .writeMcast [⟨.ok 11, []⟩]]

/-- The state of `C73_mute_false` is reached: nobody has ever subscribed, and the application has sent two packets. An announcement is due. -/
example : ∃ c rs, Reaches exMute c ∧ run exC0 exMute = .ok (rs, c) ∧
    decide (exMute.length + 2 < U64 ∧ trafficSuspended c = EBUSY ∧ (∀ i ∈ List.range 2, ¬ Connected c i) ∧ c.cv.size = 2 ∧
      (getPending c).2.1 = 0 ∧ annDue c 1000 ∧ rs = [0, 0, 0, 0, 0, 0, 0]) = true :=
  reaches_of (P := fun rs c => decide (exMute.length + 2 < U64 ∧ trafficSuspended c = EBUSY ∧ (∀ i ∈ List.range 2, ¬ Connected c i) ∧ c.cv.size = 2 ∧
      (getPending c).2.1 = 0 ∧ annDue c 1000 ∧ rs = [0, 0, 0, 0, 0, 0, 0]))
    (by intro op hop; simp [exMute] at hop; rcases hop with rfl | rfl | rfl | rfl | rfl | rfl | rfl <;> trivial) (by decide +kernel) (by decide +kernel)

end PubCtx

namespace SubCtx
open ConnVec CircBuf

theorem arrivedAt_complete (i : Nat) (log : List SEv) : arrivedAt i (log ++ [.complete i]) = [] := by
  unfold arrivedAt since
  simp

theorem outs_silent {i : Nat} {es : List SEv} (h : ∀ e ∈ es, ∀ j bs, e ≠ .tcpOut j bs) : outs i es = [] := by
  unfold outs
  rw [List.filterMap_eq_nil_iff.2]
  · rfl
  · intro e he
    have := h e he
    cases e <;> first | rfl | exact absurd rfl (this _ _)

/-- Polling a connection that has been set up completes it. -/
theorem completes {ops : List Op} {c : SubCtx} (h : Reaches ops c) {i : Nat} (hi : i < c.cv.size) (hm : (c.cv.conns i).mode = .connecting)
    (wv : Except Nat Nat) :
    ∃ c', step c (.write i (.ok 0) none wv) = .ok (0, c') ∧ Up c' i ∧ c'.cv.size = c.cv.size ∧ (∀ j, j ≠ i → c'.cv.conns j = c.cv.conns j) ∧
      (c'.cv.conns i).addr = (c.cv.conns i).addr ∧ (c'.cv.conns i).port = (c.cv.conns i).port ∧ c'.log = c.log ++ [.complete i] ∧
      (c'.cv.conns i).readBuf.start = 0 ∧ bytes (c'.cv.conns i).readBuf = [] := by
  have hc := h.inv.core
  have hfr := (hc.fresh i hi (by rw [hm]; decide)).1
  obtain ⟨L, hL⟩ := hc.v
  have hiL : i ∈ L := (live_iff hL i).1 ⟨hi, by rw [hm]; decide⟩
  obtain ⟨g, -⟩ : ConnVec.complete c.cv i (.ok 0) none = (0, poll (set c.cv i { c.cv.conns i with mode := .connected, action := .R })
        (.modify i (c.cv.conns i).desc (c.cv.conns i).action .R)) ∧ True := by
    rcases complete_spec hL hiL (.ok 0) none with ⟨-, -, g, -⟩ | ⟨e, _⟩
    · exact ⟨g, trivial⟩
    · exact absurd ⟨rfl, rfl⟩ e
  show ∃ c', writeConn c i (.ok 0) none wv = .ok (0, c') ∧ _
  unfold writeConn
  rw [findByIndex_spec hL, if_pos hiL, if_neg (by simp), if_pos hm]
  dsimp only [SubCtx.setPub]
  rw [g]
  dsimp only
  rw [if_neg (by simp)]
  refine ⟨_, rfl, ⟨hi, ?_⟩, rfl, ?_, ?_, ?_, rfl, ?_, ?_⟩
  · show ((set c.cv i _).conns i).mode = _
    simp [ConnVec.set]
  · intro j hj
    show (set c.cv i _).conns j = _
    simp [ConnVec.set, hj]
  · show ((set c.cv i _).conns i).addr = _
    simp [ConnVec.set]
  · show ((set c.cv i _).conns i).port = _
    simp [ConnVec.set]
  · have : ((set c.cv i { c.cv.conns i with mode := .connected, action := .R }).conns i).readBuf = (c.cv.conns i).readBuf := by simp [ConnVec.set]
    show ((set c.cv i _).conns i).readBuf.start = _
    rw [this]; exact hfr.2.1
  · have : ((set c.cv i { c.cv.conns i with mode := .connected, action := .R }).conns i).readBuf = (c.cv.conns i).readBuf := by simp [ConnVec.set]
    show bytes ((set c.cv i _).conns i).readBuf = _
    rw [this]; exact fresh_bytes hfr (by decide)

end SubCtx

namespace Net

theorem filterMap_id {α : Type} {f : α → Option α} : ∀ {l : List α}, (∀ x ∈ l, f x = some x) → l.filterMap f = l
  | [], _ => rfl
  | x :: l, h => by rw [List.filterMap_cons, h x (by simp)]; simp only; rw [filterMap_id fun y hy => h y (by simp [hy])]

theorem afterPub_id {s : Net} {p : Nat} {op : PubCtx.Op} {c' : PubCtx} (hlv : ∀ acc, Sys.leaves acc op = true)
    (ho : ∀ k, PubCtx.outs k (c'.log.drop (s.pubs p).log.length) = []) (l : Link) : afterPub s p op c' l = some l := by
  unfold afterPub
  by_cases e : l.p = p
  · rw [if_pos e, if_pos (hlv _)]
    have : (view s l).sentDown c' = [] := by
      unfold Sys.sentDown view
      dsimp only
      cases l.acc with
      | none => rfl
      | some k => dsimp only; rw [e]; exact ho k
    rw [this, List.append_nil]
  · rw [if_neg e]

theorem pub_keeps {E : NetEnv} {s : Net} {p : Nat} (hp : p < E.np) {op : PubCtx.Op} (hc : Sys.callOk op = true) {r : Nat} {c' : PubCtx}
    (hx : PubCtx.step (s.pubs p) op = .ok (r, c')) (hlv : ∀ acc, Sys.leaves acc op = true)
    (ho : ∀ k, PubCtx.outs k (c'.log.drop (s.pubs p).log.length) = []) :
    next E s (.pub p op) = some ⟨setAt s.pubs p c', s.subs, s.links⟩ := by
  unfold next
  dsimp only
  rw [if_pos ⟨hp, hc⟩, hx]
  dsimp only
  rw [filterMap_id fun l _ => afterPub_id hlv ho l]

theorem sub_keeps {E : NetEnv} {s : Net} {q : Nat} {op : SubCtx.Op} (hh : ∀ r ∈ Sys.received op, heard E s r) {r : Nat} {c' : SubCtx}
    (hx : SubCtx.step (s.subs q) op = .ok (r, c')) (hlv : ∀ i, Sys.leavesSub i op = true)
    (hlive : ∀ l ∈ s.links, l.q = q → SubCtx.Live c' l.slot)
    (ho : ∀ k, SubCtx.outs k (c'.log.drop (s.subs q).log.length) = []) :
    next E s (.sub q op) = some ⟨s.pubs, setAt s.subs q c', s.links⟩ := by
  unfold next
  dsimp only
  rw [if_pos hh, hx]
  dsimp only
  rw [filterMap_id]
  intro l hl
  unfold afterSub
  by_cases e : l.q = q
  · rw [if_pos e, if_pos ⟨hlv _, hlive l hl e⟩, ho, List.append_nil]
  · rw [if_neg e]

theorem run_cons {E : NetEnv} {s t : Net} {op : NetOp} {ops : List NetOp} (h : next E s op = some t) : run E s (op :: ops) = run E t ops := by
  show (next E s op).bind _ = _
  rw [h]; rfl

/-- C73: from every state of the network, a subscriber with a free slot that is not connected to publisher `p` can join it, if `p` is active,
not suspended, has a free slot, and its announcement is due: processing the timeout of the publisher and writing its multicast socket
multicasts an announcement, reading it makes the subscriber connect, and the connection is completed on both sides. Nothing else changes. -/
theorem C73_join_partial {E : NetEnv} {n : Nat} {s0 s : Net} {pre : List NetOp} (hs : Start E n s0) (hr : run E s0 pre = some s)
    (hn : n + calls pre + 5 < U64) {p q : Nat} (hp : p < E.np) {now : Int}
    (hact : (s.pubs p).mcast ≠ none) (hdue : PubCtx.annDue (s.pubs p) now) (hsus : (s.pubs p).suspended = false)
    (hfree : ∃ i, i < (s.pubs p).cv.size ∧ ¬ PubCtx.Connected (s.pubs p) i)
    (qact : (s.subs q).mcast ≠ none) (qfree : ∃ i, i < (s.subs q).cv.size ∧ ¬ SubCtx.Live (s.subs q) i)
    (qno : ∀ i, ¬ SubCtx.ConnTo (s.subs q) (address E s p).1 (address E s p).2 i)
    {cb : Option (Bool × List UInt8)} (hcb : (PubCtx.annAnswer cb).1 = true) (sp : Nat)
    {rs : List PubCtx.SendRes} (hz : ∀ x ∈ rs, ∃ ts, x.res = .ok ts) (hl : (PubCtx.getPending (s.pubs p)).2.1 + 1 ≤ rs.length)
    {ann : Option Bool} (hann : ann ≠ some false) {cr : ConnVec.ConnRes} (hcr : ∀ e, cr ≠ .failed e) (ts : Int) (fd fd' a : Nat)
    {cb' : Option Bool} (hcb' : cb' ≠ some false) (wv : Except Nat Nat) :
    ∃ d slot k t, run E s [.pub p (.timeout now cb sp), .pub p (.writeMcast rs),
        .sub q (.readMcast [.dgram (E.src p) d ts ann (.ok fd) cr]), .link p q slot,
        .sub q (.write slot (.ok 0) none wv), .accept q slot k (.ok fd' a) cb'] = some t ∧
      t.links = ⟨p, q, slot, some k, [], [], false⟩ :: s.links ∧
      ¬ SubCtx.Live (s.subs q) slot ∧ SubCtx.Up (t.subs q) slot ∧ ¬ PubCtx.Connected (s.pubs p) k ∧ PubCtx.Connected (t.pubs p) k ∧
      (∀ j, j ≠ slot → (t.subs q).cv.conns j = (s.subs q).cv.conns j) ∧
      (∀ j, j ≠ k → (PubCtx.Connected (t.pubs p) j ↔ PubCtx.Connected (s.pubs p) j)) ∧
      (∀ j, j ≠ q → t.subs j = s.subs j) ∧ (∀ j, j ≠ p → t.pubs j = s.pubs j) ∧
      PubCtx.sentTo k (t.pubs p).pub.log = [] ∧ arrived t ⟨p, q, slot, some k, [], [], false⟩ = [] ∧
      stream t ⟨p, q, slot, some k, [], [], false⟩ k = [] ∧ ((t.subs q).cv.conns slot).readBuf.start = 0 := by
  have hinv : NInv E (n + calls pre) s := (NInv.start hs).run pre (by omega) hr
  have hid := hinv.ids p hp
  obtain ⟨c1, c2, tail, x1, x2, t1, hmem, e1, e2, e3, e4, e5, e6, e7, e8⟩ := PubCtx.announces (hinv.pub p hp) (by omega) hid hact hdue hsus hcb sp hz hl
  obtain ⟨sops, hsub⟩ := hinv.sub q
  have hlen := PubCtx.annAnswer_len cb
  obtain ⟨hd, hhd⟩ : ∃ hd, hd = PacketHeader.mk 0 (s.pubs p).nodeId (PubCtx.annAnswer cb).2.length (s.pubs p).listenIp (s.pubs p).listenPort := ⟨_, rfl⟩
  have hval : hd.Valid := by
    rw [hhd]
    refine ⟨?_, ?_, ?_, ?_, ?_⟩
    · show 0 < U64; decide
    · exact hid.1
    · show (PubCtx.annAnswer cb).2.length < 65536
      have : RMC_MAX_PAYLOAD < 65536 := by decide
      omega
    · exact hid.2.1
    · exact hid.2.2.1
  rw [← hhd] at hmem
  have ha1 : SubCtx.addrOf hd (E.src p) = (address E s p).1 := by rw [hhd]; rfl
  have ha2 : hd.listenPort = (address E s p).2 := by rw [hhd]; rfl
  obtain ⟨d1, slot, y1, y2, y3, y4, ⟨es, y5, y5'⟩, y6, hsz⟩ := SubCtx.C43_accepted hsub qact hval (src := E.src p) (by rw [hhd]) (data := tail)
    (by rw [hhd]; exact t1) (by have : HDR_LEN + RMC_MAX_PAYLOAD ≤ RMC_MAX_PACKET := by decide
                                omega) (by rw [ha1, ha2]; exact qno) qfree ts hann fd hcr
  have hsub1 := hsub.snoc y1
  obtain ⟨d2, z1, z2, z3, z4, z5, z6, z7, z8, z9⟩ := SubCtx.completes hsub1 y3.1.1 y4 wv
  have hf1 := PubCtx.step_bal (q := false) (op := .timeout now cb sp) trivial (fun h => by cases h) x1
  have hpub1 := (pub_frame (hinv.pub p hp) hid.2.2.2 (op := .timeout now cb sp) rfl (by omega) x1).1
  have hport1 := (pub_frame (hinv.pub p hp) hid.2.2.2 (op := .timeout now cb sp) rfl (by omega) x1).2
  have hpub2 := (pub_frame hpub1 (by rw [hport1.2.2]; exact hid.2.2.2) (op := .writeMcast rs) rfl (by omega) x2).1
  obtain ⟨k, c3, w1, w2, w3, w4, w5, w6, w7, w8⟩ := PubCtx.accepts hpub2 (by
    obtain ⟨i, i1, i2⟩ := hfree
    exact ⟨i, by rw [e2]; exact i1, fun h => i2 ((e4 i).1 h)⟩) fd' a hcb'
  have hno : ∀ l ∈ s.links, isAt q slot l = false := by
    intro l hl
    cases hc : isAt q slot l with
    | false => rfl
    | true =>
      obtain ⟨h1, h2⟩ := isAt_iff.1 hc
      have := (hinv.link l hl).live (by omega)
      have h3 : SubCtx.Live (s.subs l.q) l.slot := this
      rw [h1, h2] at h3
      exact absurd h3 y2
  have hlive : ∀ l ∈ s.links, l.q = q → l.slot ≠ slot ∧ SubCtx.Live (s.subs q) l.slot := by
    intro l hl e
    have h3 : SubCtx.Live (s.subs l.q) l.slot := (hinv.link l hl).live (by omega)
    rw [e] at h3
    exact ⟨fun e' => y2 (e' ▸ h3), h3⟩
  -- the six events
  have s1 : next E s (.pub p (.timeout now cb sp)) = some ⟨setAt s.pubs p c1, s.subs, s.links⟩ :=
    pub_keeps hp rfl x1 (fun _ => rfl) e7
  obtain ⟨S1, hS1⟩ : ∃ S1 : Net, S1 = ⟨setAt s.pubs p c1, s.subs, s.links⟩ := ⟨_, rfl⟩
  rw [← hS1] at s1
  have hS1p : S1.pubs p = c1 := by rw [hS1]; exact setAt_same ..
  have s2 : next E S1 (.pub p (.writeMcast rs)) = some ⟨setAt S1.pubs p c2, S1.subs, S1.links⟩ :=
    pub_keeps hp rfl (by rw [hS1p]; exact x2) (fun _ => rfl) (by rw [hS1p]; exact e8)
  obtain ⟨S2, hS2⟩ : ∃ S2 : Net, S2 = ⟨setAt S1.pubs p c2, S1.subs, S1.links⟩ := ⟨_, rfl⟩
  rw [← hS2] at s2
  have hS2p : S2.pubs p = c2 := by rw [hS2]; exact setAt_same ..
  have hS2q : S2.subs = s.subs := by rw [hS2, hS1]
  have hS2l : S2.links = s.links := by rw [hS2, hS1]
  have hdl : ∀ k, SubCtx.outs k (d1.log.drop (s.subs q).log.length) = [] := by
    intro k
    rw [y5, List.append_assoc, List.drop_left]
    apply SubCtx.outs_silent
    intro e he j bs h
    rcases List.mem_append.1 he with he | he
    · rw [y5' e he] at h; cases h
    · rw [List.mem_singleton.1 he] at h; cases h
  have s3 : next E S2 (.sub q (.readMcast [.dgram (E.src p) (hd.enc ++ tail) ts ann (.ok fd) cr])) =
      some ⟨S2.pubs, setAt S2.subs q d1, S2.links⟩ := by
    refine sub_keeps ?_ (by rw [hS2q]; exact y1) (fun _ => rfl) ?_ (by rw [hS2q]; exact hdl)
    · intro r hr
      have : r = .dgram (E.src p) (hd.enc ++ tail) ts ann (.ok fd) cr := by simpa [Sys.received] using hr
      subst this
      exact .inl ⟨p, hp, rfl, by rw [hS2p]; exact hmem⟩
    · intro l hl e
      rw [hS2l] at hl
      obtain ⟨h1, h2⟩ := hlive l hl e
      exact ⟨by rw [hsz]; exact h2.1, by rw [y6 _ h1]; exact h2.2⟩
  obtain ⟨S3, hS3⟩ : ∃ S3 : Net, S3 = ⟨S2.pubs, setAt S2.subs q d1, S2.links⟩ := ⟨_, rfl⟩
  rw [← hS3] at s3
  have hS3q : S3.subs q = d1 := by rw [hS3]; exact setAt_same ..
  have hS3l : S3.links = s.links := by rw [hS3, ← hS2l]
  have hS3p : S3.pubs = S2.pubs := by rw [hS3]
  have hadd : address E S3 p = address E s p := by
    unfold address
    rw [hS3p, hS2p, e5, e6]
  have s4 : next E S3 (.link p q slot) = some { S3 with links := ⟨p, q, slot, none, [], [], false⟩ :: S3.links } := by
    unfold next
    dsimp only
    rw [if_pos]
    refine ⟨hp, ?_, by rw [hS3q]; exact y3.1.1, by rw [hS3q]; exact y4, ?_⟩
    · have : S3.links.find? (isAt q slot) = none := by
        rw [List.find?_eq_none, hS3l]
        intro l hl
        rw [hno l hl]; decide
      rw [this]; rfl
    · rw [hS3q, hadd, y3.2.1, y3.2.2, ha1, ha2]
  obtain ⟨S4, hS4⟩ : ∃ S4 : Net, S4 = { S3 with links := ⟨p, q, slot, none, [], [], false⟩ :: S3.links } := ⟨_, rfl⟩
  rw [← hS4] at s4
  have hS4q : S4.subs q = d1 := by rw [hS4]; exact hS3q
  have s5 : next E S4 (.sub q (.write slot (.ok 0) none wv)) = some ⟨S4.pubs, setAt S4.subs q d2, S4.links⟩ := by
    refine sub_keeps (by intro r hr; simp [Sys.received] at hr) (by rw [hS4q]; exact z1) (fun _ => rfl) ?_ (by
      rw [hS4q, z7]; intro k; rw [List.drop_left]; rfl)
    intro l hl e
    rw [hS4] at hl
    rcases List.mem_cons.1 hl with rfl | hl
    · exact ⟨z2.1, by rw [z2.2]; decide⟩
    · have hl' : l ∈ s.links := by rw [← hS3l]; exact hl
      obtain ⟨h1, h2⟩ := hlive l hl' e
      exact ⟨by rw [z3, hsz]; exact h2.1, by rw [z4 _ h1, y6 _ h1]; exact h2.2⟩
  obtain ⟨S5, hS5⟩ : ∃ S5 : Net, S5 = ⟨S4.pubs, setAt S4.subs q d2, S4.links⟩ := ⟨_, rfl⟩
  rw [← hS5] at s5
  have hS5l : S5.links = ⟨p, q, slot, none, [], [], false⟩ :: s.links := by rw [hS5, hS4, ← hS3l]
  have hS5p : S5.pubs p = c2 := by rw [hS5, hS4, hS3]; exact hS2p
  have s6 : next E S5 (.accept q slot k (.ok fd' a) cb') =
      some ⟨setAt S5.pubs p c3, S5.subs, ⟨p, q, slot, some k, [], [], false⟩ :: s.links⟩ := by
    have hat : isAt q slot ⟨p, q, slot, none, [], [], false⟩ = true := isAt_iff.2 ⟨rfl, rfl⟩
    have hfind : S5.links.find? (isAt q slot) = some ⟨p, q, slot, none, [], [], false⟩ := by
      rw [hS5l, List.find?_cons_of_pos hat]
    unfold next
    dsimp only
    rw [hfind]
    dsimp only
    rw [if_pos ⟨rfl, rfl, by rw [hS5p]; exact w3⟩, hS5p, w1]
    dsimp only
    rw [if_pos w4, hS5l, List.filterMap_cons, if_pos hat]
    dsimp only
    rw [filterMap_id]
    intro l hl
    rw [if_neg (by rw [hno l hl]; decide)]
    exact afterPub_id (fun _ => rfl) (by rw [hS5p]; exact w6) l
  refine ⟨hd.enc ++ tail, slot, k, ⟨setAt S5.pubs p c3, S5.subs, ⟨p, q, slot, some k, [], [], false⟩ :: s.links⟩, ?_, rfl, y2, ?_, fun h => w3 ((e4 k).2 h), ?_, ?_, ?_, ?_, ?_, ?_, ?_, ?_, ?_⟩
  · rw [run_cons s1, run_cons s2, run_cons s3, run_cons s4, run_cons s5, run_cons s6]
    rfl
  · show SubCtx.Up (S5.subs q) slot
    have : S5.subs q = d2 := by rw [hS5]; exact setAt_same ..
    rw [this]; exact z2
  · show PubCtx.Connected (setAt S5.pubs p c3 p) k
    rw [setAt_same]; exact w4
  · intro j hj
    show (S5.subs q).cv.conns j = _
    have : S5.subs q = d2 := by rw [hS5]; exact setAt_same ..
    rw [this, z4 j hj, y6 j hj]
  · intro j hj
    show PubCtx.Connected (setAt S5.pubs p c3 p) j ↔ _
    rw [setAt_same, w5 j hj, e4]
  · intro j hj
    show S5.subs j = s.subs j
    rw [hS5]
    show setAt S4.subs q d2 j = _
    rw [setAt_ne _ _ hj, hS4]
    show S3.subs j = _
    rw [hS3]
    show setAt S2.subs q d1 j = _
    rw [setAt_ne _ _ hj, hS2q]
  · intro j hj
    show setAt S5.pubs p c3 j = _
    rw [setAt_ne _ _ hj, hS5, hS4]
    show S3.pubs j = _
    rw [hS3p, hS2]
    show setAt S1.pubs p c2 j = _
    rw [setAt_ne _ _ hj, hS1]
    exact setAt_ne _ _ hj
  · show PubCtx.sentTo k (setAt S5.pubs p c3 p).pub.log = []
    rw [setAt_same]; exact w7
  · have : S5.subs q = d2 := by rw [hS5]; exact setAt_same ..
    unfold arrived
    show (SubCtx.arrivedAt slot (S5.subs q).log).map _ = []
    rw [this, z7, SubCtx.arrivedAt_complete]; rfl
  · have : S5.subs q = d2 := by rw [hS5]; exact setAt_same ..
    unfold stream
    show CircBuf.bytes ((S5.subs q).cv.conns slot).readBuf ++ [] ++ CircBuf.bytes ((setAt S5.pubs p c3 p).cv.conns k).writeBuf = []
    rw [this, z9, setAt_same, w8]; rfl
  · have : S5.subs q = d2 := by rw [hS5]; exact setAt_same ..
    show ((S5.subs q).cv.conns slot).readBuf.start = 0
    rw [this]; exact z8

/-! ## Examples -/

/-- Subscriber 0 is connected to both publishers; publisher 0 ends the connection, which it sees; publisher 0 turns on announcements every 5000
microseconds, beginning at time 1000; a packet is waiting to be multicast. -/
def exNetAgain : List NetOp :=
  [.link 0 0 0, .link 1 0 1, .sub 0 (.write 0 (.ok 0) none (.ok 0)), .sub 0 (.write 1 (.ok 0) none (.ok 0)),
   .accept 0 0 0 (.ok 5 1) none, .accept 0 1 0 (.ok 6 1) none, .pub 0 (.close 0), .sub 0 (.read 0 none 900),
   .pub 0 (.setAnnounce 5000 1000), .pub 0 (.queue (exNPay 0 1) false)]

/-- The hypotheses of C73_join_partial are met for publisher 0 and subscriber 0 at time 7000; the link to publisher 1 is there. -/
example : ∃ s0 s, Start exN 2 s0 ∧ run exN s0 exNetAgain = some s ∧ decide (2 + calls exNetAgain + 5 < U64 ∧ (s.pubs 0).mcast ≠ none ∧
    PubCtx.annDue (s.pubs 0) 7000 ∧ (s.pubs 0).suspended = false ∧ (0 < (s.pubs 0).cv.size ∧ ¬ PubCtx.Connected (s.pubs 0) 0) ∧
    (s.subs 0).mcast ≠ none ∧ (0 < (s.subs 0).cv.size ∧ ¬ SubCtx.Live (s.subs 0) 0) ∧ (s.subs 0).cv.size = 2 ∧
    (∀ i ∈ List.range 2, ¬ SubCtx.ConnTo (s.subs 0) (address exN s 0).1 (address exN s 0).2 i) ∧
    (PubCtx.annAnswer none).1 = true ∧ (PubCtx.getPending (s.pubs 0)).2.1 + 1 ≤ 2 ∧ s.links.map (fun l => (l.p, l.q, l.slot)) = [(1, 0, 1)]) = true :=
  net_started (ops := exNetAgain) (P := fun s => decide _) (by decide +kernel)

/-- The schedule: the announcement goes out before the packet; the subscriber is linked to both publishers again. -/
example : ∃ s, Reached exN s ∧ decide (s.links.map (fun l => (l.p, l.q, l.slot, l.acc)) = [(0, 0, 0, some 0), (1, 0, 1, some 0)] ∧
    SubCtx.Up (s.subs 0) 0 ∧ PubCtx.Connected (s.pubs 0) 0 ∧ (PLog.sentPkts (s.pubs 0).pub.log).map (·.1) = [1] ∧
    PubCtx.sentTo 0 (s.pubs 0).pub.log = []) = true :=
  net_reached (ops := exNetAgain ++ [.pub 0 (.timeout 7000 none 0), .pub 0 (.writeMcast [⟨.ok 7010, []⟩, ⟨.ok 7020, []⟩]),
      .sub 0 (.readMcast [exND 0 0 [] 7100]), .link 0 0 0, .sub 0 (.write 0 (.ok 0) none (.ok 0)), .accept 0 0 0 (.ok 9 1) none])
    (P := fun s => decide _) (by decide) (by decide +kernel)

end Net
end Rmc
