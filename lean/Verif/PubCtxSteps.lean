import Verif.PubCtxLemmas

/-! # What each call of the publisher context does, in terms of histories of pub.c -/

set_option linter.unusedSimpArgs false
set_option linter.unusedVariables false

namespace Rmc

namespace Proto
open CircBuf
variable {σ : Type}

theorem processLoop_pres {t : Table σ} {P : σ → Prop}
    (hP : ∀ c h, lookup t c = some h → ∀ s b r s' b', P s → h s b = .ok (r, s', b') → P s') :
    ∀ (fuel : Nat) {s : σ} {b : CircBuf} {c : UInt8} {r : Nat} {s' : σ} {b' : CircBuf}, P s →
      processLoop t fuel s b c = .ok (r, s', b') → P s' := by
  intro fuel
  induction fuel with
  | zero => intro s b c r s' b' _ h; cases h
  | succ fuel ih =>
    intro s b c r s' b' hs h
    unfold processLoop at h
    cases hl : lookup t c with
    | none => rw [hl] at h; cases h; exact hs
    | some hd =>
      rw [hl] at h
      dsimp only at h
      cases hx : hd s b with
      | error f => rw [hx] at h; cases h
      | ok x =>
        obtain ⟨r1, s1, b1⟩ := x
        rw [hx, ok_bind] at h
        have h1 := hP c hd hl s b r1 s1 b1 hs hx
        split at h
        · cases h; exact h1
        · split at h
          · cases h; exact h1
          · cases hy : CircBuf.read b1 1 with
            | error f => rw [hy] at h; cases h
            | ok y =>
              rw [hy, ok_bind] at h
              dsimp only at h
              split at h
              · cases h; exact h1
              · exact ih h1 h

/-- What every handler preserves, reading a connection preserves. -/
theorem tcpRead_pres {t : Table σ} {P : σ → Prop}
    (hP : ∀ c h, lookup t c = some h → ∀ s b r s' b', P s → h s b = .ok (r, s', b') → P s')
    {fuel : Nat} {s : σ} {b : CircBuf} {rv : Option (List UInt8)} {r : Nat} {s' : σ} {b' : CircBuf} (hs : P s)
    (h : tcpRead t fuel s b rv = .ok (r, s', b')) : P s' := by
  unfold tcpRead at h
  dsimp only at h
  split at h
  · cases h; exact hs
  · split at h
    · cases h; exact hs
    · split at h
      · cases h; exact hs
      · generalize scatter (alloc b (available b)).2.2.2 (alloc b (available b)).2.1 (alloc b (available b)).2.2.1
          (List.take (available b) (rv.getD [])) = x at h
        cases x with
        | error f => cases h
        | ok x =>
          rw [ok_bind] at h
          unfold processTcpRead at h
          generalize CircBuf.read (trim x (add32 (List.take (available b) (rv.getD [])).length (inUse b))) 1 = y at h
          cases y with
          | error f => cases h
          | ok y =>
            rw [ok_bind] at h
            dsimp only at h
            split at h
            · cases h; exact hs
            · exact processLoop_pres hP fuel hs h

end Proto

namespace PubCtx
open CircBuf

/-- The part of a context that reading, writing and acknowledging do not touch. -/
structure Cfg where
  nodeId : Nat
  listenIp : Nat
  listenPort : Nat
  mcast : Option Nat
  listen : Option Nat
  resendTimeout : Int
  annInterval : Nat
  annNext : Int
  suspendThr : Nat
  resumeThr : Nat
  ctlCb : Option Bool

def cfg (c : PubCtx) : Cfg :=
  ⟨c.nodeId, c.listenIp, c.listenPort, c.mcast, c.listen, c.resendTimeout, c.annInterval, c.annNext, c.suspendThr,
   c.resumeThr, c.ctlCb⟩

/-! ## Multicasting -/

/-- What is put on the wire for a packet. -/
def wire (c : Cfg) (pid : Nat) (p : Payload) (stack : List UInt8) : List UInt8 :=
  (PacketHeader.mk pid c.nodeId p.data.length c.listenIp c.listenPort).enc ++ wirePayload p stack

/-- The effect of `n` successful sends on the two logs. -/
inductive Sends (c : Cfg) : List POp → List PEv → List CEv → Prop
  | nil : Sends c [] [] []
  | snoc {ys : List POp} {es : List PEv} {ds : List CEv} (h : Sends c ys es ds) (pid : Nat) (p : Payload) (ts : Int)
      (stack : List UInt8) (hp : pid < U64) (hl : p.data.length ≤ RMC_MAX_PAYLOAD) :
      Sends c (ys ++ [.send ts]) (es ++ [.send pid p ts]) (ds ++ [.datagram (wire c pid p stack)])

theorem Sends.append {c : Cfg} {ys ys' : List POp} {es es' : List PEv} {ds ds' : List CEv} (h : Sends c ys es ds)
    (h' : Sends c ys' es' ds') : Sends c (ys ++ ys') (es ++ es') (ds ++ ds') := by
  induction h' with
  | nil => simpa using h
  | snoc h' pid p ts stack hp hl ih =>
    rw [← List.append_assoc, ← List.append_assoc, ← List.append_assoc]; exact .snoc ih pid p ts stack hp hl

theorem Sends.sends {c : Cfg} {ys : List POp} {es : List PEv} {ds : List CEv} (h : Sends c ys es ds) :
    ∀ y ∈ ys, ∃ ts, y = .send ts := by
  induction h with
  | nil => simp
  | snoc h pid p ts stack hp hl ih =>
    intro y hy
    rcases List.mem_append.mp hy with hy | hy
    · exact ih y hy
    · exact ⟨ts, List.mem_singleton.mp hy⟩

/-- The send times of a history of pub.c. -/
def sendTs (ys : List POp) : List Int := ys.filterMap fun y => match y with | .send ts => some ts | _ => none

/-- The times at which sendmsg() calls succeeded. -/
def resTimes (rs : List SendRes) : List Int := rs.filterMap fun r => match r.res with | .ok ts => some ts | .error _ => none

theorem sendTs_append (xs ys : List POp) : sendTs (xs ++ ys) = sendTs xs ++ sendTs ys := List.filterMap_append ..

theorem sendSingle_spec {c : PubCtx} {pops : List POp} {L : List Nat} (h : Good c pops L) {a : Nat}
    (ha : Pub.nextQueued c.pub = some a) (r : SendRes) :
    ∃ code c' ys es ds, sendSingle c a r = .ok (code, c') ∧ Good c' (pops ++ ys) L ∧ cfg c' = cfg c ∧
      c'.suspended = c.suspended ∧ Sends (cfg c) ys es ds ∧ c'.pub.log = c.pub.log ++ es ∧ c'.log = c.log ++ ds ∧
      (∀ ts, r.res = .ok ts → c.mcast ≠ none → code = 0 ∧ ys = [.send ts]) ∧
      c'.cv.conns = c.cv.conns ∧ (sendTs ys).Sublist (resTimes [r]) := by
  have key : ∀ {c1 : PubCtx} {ps : List POp} (o n : Act), Good c1 ps L →
      Good (pollModify c1 MULTICAST_INDEX c1.mcast o n) ps L := by
    intro c1 ps o n hg
    exact (hg.pollOther (e := .modify MULTICAST_INDEX c1.mcast o n)
      (by show LISTEN_INDEX ≤ MULTICAST_INDEX; decide)).congr rfl rfl
  unfold sendSingle
  by_cases hm : c.mcast = none
  · rw [if_pos hm]
    exact ⟨_, _, [], [], [], rfl, by simpa using h, rfl, rfl, .nil, by simp, by simp, fun _ _ h => absurd hm h, rfl, List.nil_sublist _⟩
  · rw [if_neg hm]
    rcases h.p.next with ⟨e, _⟩ | ⟨a', pkt, e1, e2, e3, e4, e5, _⟩
    · rw [ha] at e; cases e
    · rw [ha] at e1; cases e1
      rw [e2, Pub.ok_bind, if_neg (by
        have : HDR_LEN = 20 := rfl
        have : RMC_MAX_PACKET = 65400 := rfl
        have : RMC_MAX_PAYLOAD = 65312 := rfl
        omega)]
      cases hres : r.res with
      | error e =>
        dsimp only
        by_cases he : e ≠ EAGAIN
        · rw [if_pos he]
          refine ⟨_, _, [], [], [], rfl, by simpa using h, rfl, rfl, .nil, by simp, by simp, ?_, rfl, List.nil_sublist _⟩
          intro ts h0; cases h0
        · rw [if_neg he]
          exact ⟨_, _, [], [], [], rfl, by simpa using key _ _ h, rfl, rfl, .nil, by simp [pollModify], by simp [pollModify],
            (fun ts h0 => by cases h0), rfl, List.nil_sublist _⟩
      | ok ts =>
        obtain ⟨s', h1, h2⟩ := h.p.step (op := .send ts) trivial trivial (by simpa [queueArgs] using h.p.bnd)
        have h1' : Pub.packetSent c.pub a ts = .ok s' := by
          have := h1; unfold Pub.step at this; rw [ha] at this; exact this
        have hlog : s'.log = c.pub.log ++ [.send pkt.pid pkt.payload ts] := by
          rw [h2.reached.log, h.p.reached.log]
          unfold spec; rw [PSpec.run_snoc]; unfold spec at e3
          generalize PSpec.init.run pops = A at e3
          revert e3
          generalize pkt.pid = pid
          generalize pkt.payload = pl
          intro e3
          cases e3 with
          | ann h => simp only [PSpec.step, h]
          | que h1 h2 => simp only [PSpec.step, h1, h2]
        have hsubs : s'.subs = c.pub.subs := by
          rw [h2.subs, h.p.subs]; unfold spec; rw [PSpec.run_snoc]
          simp only [PSpec.step]; split <;> rfl
        dsimp only
        rw [h1', Pub.ok_bind]
        refine ⟨_, _, [.send ts], [.send pkt.pid pkt.payload ts],
          [.datagram (wire (cfg c) pkt.pid pkt.payload r.stack)], rfl, ?_, rfl, rfl, ?_, hlog, rfl, (fun t ht _ => by cases ht; exact ⟨rfl, rfl⟩),
          rfl, by unfold sendTs resTimes; simp [hres]⟩
        · exact key _ _ ((h.setPub h2 hsubs).congr (c' := ev { c with pub := s' }
            (.datagram (wire (cfg c) pkt.pid pkt.payload r.stack))) rfl rfl)
        · exact Sends.snoc (c := cfg c) .nil pkt.pid pkt.payload ts r.stack e4 e5

theorem multicastWrite_spec : ∀ (rs : List SendRes) {c : PubCtx} {pops : List POp} {L : List Nat}, Good c pops L →
    ∃ code c' ys es ds, multicastWrite c rs = .ok (code, c') ∧ Good c' (pops ++ ys) L ∧ cfg c' = cfg c ∧
      c'.suspended = c.suspended ∧ Sends (cfg c) ys es ds ∧ c'.pub.log = c.pub.log ++ es ∧ c'.log = c.log ++ ds ∧
      c'.cv.conns = c.cv.conns ∧ (sendTs ys).Sublist (resTimes rs) := by
  intro rs
  induction rs with
  | nil =>
    intro c pops L h
    unfold multicastWrite
    cases ha : Pub.nextQueued c.pub with
    | none => exact ⟨_, _, [], [], [], rfl, by simpa using h, rfl, rfl, .nil, by simp, by simp, rfl, List.nil_sublist _⟩
    | some a =>
      obtain ⟨code, c', ys, es, ds, h1, h2, h3, h4, h5, h6, h7, _, h8, h9⟩ := sendSingle_spec h ha ⟨.error EAGAIN, []⟩
      exact ⟨code, c', ys, es, ds, h1, h2, h3, h4, h5, h6, h7, h8, h9⟩
  | cons r rs ih =>
    intro c pops L h
    unfold multicastWrite
    cases ha : Pub.nextQueued c.pub with
    | none => exact ⟨_, _, [], [], [], rfl, by simpa using h, rfl, rfl, .nil, by simp, by simp, rfl, List.nil_sublist _⟩
    | some a =>
      obtain ⟨code, c', ys, es, ds, h1, h2, h3, h4, h5, h6, h7, _, h8, h9⟩ := sendSingle_spec h ha r
      dsimp only
      rw [h1, Pub.ok_bind]
      have hsub : (resTimes [r]).Sublist (resTimes (r :: rs)) :=
        List.Sublist.filterMap _ (List.Sublist.cons_cons r (List.nil_sublist rs))
      by_cases h0 : code ≠ 0
      · rw [if_pos h0]; exact ⟨code, c', ys, es, ds, rfl, h2, h3, h4, h5, h6, h7, h8, h9.trans hsub⟩
      · rw [if_neg h0]
        obtain ⟨code2, c2, ys2, es2, ds2, g1, g2, g3, g4, g5, g6, g7, g8, g9⟩ := ih h2
        refine ⟨code2, c2, ys ++ ys2, es ++ es2, ds ++ ds2, g1, by rw [← List.append_assoc]; exact g2, by rw [g3, h3],
          by rw [g4, h4], h5.append (by rw [← h3]; exact g5), by rw [g6, h6, List.append_assoc],
          by rw [g7, h7, List.append_assoc], by rw [g8, h8], ?_⟩
        have hr : resTimes (r :: rs) = resTimes [r] ++ resTimes rs := by
          unfold resTimes; rw [← List.filterMap_append]; rfl
        rw [sendTs_append, hr]
        exact h9.append g9

/-! ## Acknowledging -/

/-- A sequence of acknowledgements and what it does to the store and the throttling flag. -/
inductive Acks (thr : Nat) (s : Pub) (b : Bool) : List POp → Pub → Bool → Prop
  | nil : Acks thr s b [] s b
  | snoc {ys : List POp} {s1 s2 : Pub} {b1 : Bool} (h : Acks thr s b ys s1 b1) (k pid : Nat)
      (hs : Pub.step s1 (.ack k pid) = .ok s2) :
      Acks thr s b (ys ++ [.ack k pid]) s2 (b1 && decide (thr < Pub.unackedCount s2))

theorem Acks.append {thr : Nat} {s s1 s2 : Pub} {b b1 b2 : Bool} {ys zs : List POp} (h : Acks thr s b ys s1 b1)
    (h' : Acks thr s1 b1 zs s2 b2) : Acks thr s b (ys ++ zs) s2 b2 := by
  induction h' with
  | nil => simpa using h
  | snoc h' k pid hs ih => rw [← List.append_assoc]; exact .snoc ih k pid hs

theorem Acks.acks {thr : Nat} {s s' : Pub} {b b' : Bool} {ys : List POp} (h : Acks thr s b ys s' b') :
    ∀ y ∈ ys, ∃ k pid, y = .ack k pid := by
  induction h with
  | nil => simp
  | snoc h k pid hs ih =>
    intro y hy
    rcases List.mem_append.mp hy with hy | hy
    · exact ih y hy
    · exact ⟨k, pid, List.mem_singleton.mp hy⟩

/-- Context `c'` is `c` after the acknowledgements `ys` (and control messages handed to the callback). -/
structure AckStep (c c' : PubCtx) (ys : List POp) : Prop where
  acks : Acks c.resumeThr c.pub c.suspended ys c'.pub c'.suspended
  cfg : cfg c' = cfg c

theorem AckStep.refl (c : PubCtx) : AckStep c c [] := ⟨.nil, rfl⟩

theorem AckStep.trans {c c1 c2 : PubCtx} {ys zs : List POp} (h : AckStep c c1 ys) (h' : AckStep c1 c2 zs) :
    AckStep c c2 (ys ++ zs) := by
  have e : c1.resumeThr = c.resumeThr := congrArg Cfg.resumeThr h.cfg
  exact ⟨h.acks.append (by rw [← e]; exact h'.acks), h'.cfg.trans h.cfg⟩

theorem packetAck_spec {c : PubCtx} {pops : List POp} {L : List Nat} (h : Good c pops L) (i pid : Nat) :
    ∃ c', packetAck c i pid = .ok c' ∧ Good c' (pops ++ [.ack i pid]) L ∧ AckStep c c' [.ack i pid] ∧ c'.cv = c.cv ∧
      c'.log = c.log := by
  obtain ⟨s', h1, h2, h3, h4⟩ := ack_eq h i pid
  refine ⟨_, h4, (h.setPub h2 h3).congr rfl rfl, ⟨?_, rfl⟩, rfl, rfl⟩
  exact Acks.snoc (ys := []) .nil i pid h1

theorem ackRange_spec (i : Nat) : ∀ (n pid : Nat) {c : PubCtx} {pops : List POp} {L : List Nat}, Good c pops L →
    ∃ c', ackRange c i pid n = .ok c' ∧ Good c' (pops ++ (List.range' pid n).map (POp.ack i)) L ∧
      AckStep c c' ((List.range' pid n).map (POp.ack i)) ∧ c'.cv = c.cv ∧ c'.log = c.log := by
  intro n
  induction n with
  | zero => intro pid c pops L h; exact ⟨c, rfl, by simpa using h, .refl c, rfl, rfl⟩
  | succ n ih =>
    intro pid c pops L h
    obtain ⟨c1, h1, h2, h3, h4, h5⟩ := packetAck_spec h i pid
    obtain ⟨c2, g1, g2, g3, g4, g5⟩ := ih (pid + 1) h2
    refine ⟨c2, ?_, ?_, ?_, by rw [g4, h4], by rw [g5, h5]⟩
    · show (packetAck c i pid >>= fun c => ackRange c i (pid + 1) n) = _
      rw [h1, Pub.ok_bind]; exact g1
    · rw [List.range'_succ, List.map_cons]
      rw [List.append_assoc] at g2; exact g2
    · rw [List.range'_succ, List.map_cons]; exact h3.trans g3

/-- `process_cmd_ack_interval` on an interval: the acknowledgements it makes. -/
theorem ackInterval_spec {c : PubCtx} {pops : List POp} {L : List Nat} (h : Good c pops L) (i : Nat) (a : AckInterval)
    (ha : a.last ≠ U64 - 1) :
    ∃ c', ackInterval c i a = .ok c' ∧
      Good c' (pops ++ (List.range' a.first (a.last + 1 - a.first)).map (POp.ack i)) L ∧
      AckStep c c' ((List.range' a.first (a.last + 1 - a.first)).map (POp.ack i)) ∧ c'.cv = c.cv ∧ c'.log = c.log := by
  unfold ackInterval
  rw [if_neg ha]
  exact ackRange_spec i _ _ h

/-! ## Closing -/

theorem close_spec {c : PubCtx} {pops : List POp} {L : List Nat} (h : Good c pops L) {i : Nat} (hi : i ∈ L) :
    ∃ c', closeConnection c i = .ok (0, c') ∧ Good c' (pops ++ [.close i]) (L.erase i) ∧ cfg c' = cfg c ∧
      c'.suspended = c.suspended ∧ c'.log = c.log ++ [.disconnectCb i] ∧
      (∀ j, j ≠ i → c'.cv.conns j = c.cv.conns j) ∧ c'.cv.size = c.cv.size := by
  obtain ⟨s', h1, h2⟩ := h.p.step (op := .close i) (by
    show i ∈ (spec pops).subs; rw [← h.p.subs]; exact (h.slots i).1 hi) trivial (by simpa [queueArgs] using h.p.bnd)
  obtain ⟨v1, v2, v3, v4, v5, v6, v7⟩ := (ConnVec.close_spec h.v i).1 hi
  have h1' : Pub.resetSubscriber c.pub i = .ok s' := h1
  have hsubs : s'.subs = c.pub.subs.erase i := by
    rw [h2.subs, h.p.subs]; unfold spec; rw [PSpec.run_snoc]; rfl
  have hnd : c.pub.subs.Nodup := by rw [h.p.subs]; exact h.p.reached.inv.subsND
  refine ⟨{ c with cv := (ConnVec.close c.cv i).2, pub := s', log := c.log ++ [.disconnectCb i] }, ?_, ?_, rfl, rfl, rfl,
    v5, v3⟩
  · unfold closeConnection
    rw [ConnVec.findByIndex_spec h.v, if_pos hi, if_neg (by simp)]
    dsimp only [ev]
    rw [h1', Pub.ok_bind]; rfl
  · have hne : ∀ j, j ∈ L.erase i → j ≠ i ∧ j ∈ L := fun j hj => (h.v.nodup.mem_erase_iff).1 hj
    refine ⟨h2, v2, ?_, ?_, ?_, by show (ConnVec.close c.cv i).2.bufSize = _; rw [v4]; exact h.buf, ?_, ?_, ?_⟩
    rotate_left 5
    · intro j hj
      obtain ⟨g1, g2⟩ := hne j hj
      show bytes ((ConnVec.close c.cv i).2.conns j).writeBuf = [] → ((ConnVec.close c.cv i).2.conns j).writeBuf.start = 0
      rw [v5 j g1]; exact h.zero j g2
    · intro k
      show k ∈ L.erase i ↔ k ∈ s'.subs
      rw [hsubs, h.v.nodup.mem_erase_iff, hnd.mem_erase_iff, h.slots k]
    · intro j hj
      obtain ⟨g1, g2⟩ := hne j hj
      show ((ConnVec.close c.cv i).2.conns j).mode = _
      rw [v5 j g1]; exact h.conn j g2
    · intro j hj
      obtain ⟨g1, g2⟩ := hne j hj
      show WF ((ConnVec.close c.cv i).2.conns j).writeBuf ∧ ((ConnVec.close c.cv i).2.conns j).writeBuf.size =
        (ConnVec.close c.cv i).2.bufSize
      rw [v5 j g1, v4]; exact h.wb j g2
    · intro j hj
      obtain ⟨g1, g2⟩ := hne j hj
      show ((ConnVec.close c.cv i).2.conns j).action.r = true ∧ (((ConnVec.close c.cv i).2.conns j).action.w = true ↔
        bytes ((ConnVec.close c.cv i).2.conns j).writeBuf ≠ [])
      rw [v5 j g1]; exact h.arm j g2
    · intro j hj
      show reg j (ConnVec.close c.cv i).2.polls = some (if j ∈ L.erase i then some ((ConnVec.close c.cv i).2.conns j).action else none)
      have hj' : j < c.cv.size := by rw [← v3]; exact hj
      have hr := h.regs j hj'
      rw [v7]
      by_cases e : j = i
      · subst e
        rw [if_pos hi] at hr
        rw [reg_remove hr, if_neg (fun hx => (hne j hx).1 rfl)]
      · rw [reg_other (by simp only [PollEv.idx]; exact fun h => e h.symm), hr, v5 j e]
        by_cases hm : j ∈ L
        · rw [if_pos hm, if_pos ((h.v.nodup.mem_erase_iff).2 ⟨e, hm⟩)]
        · rw [if_neg hm, if_neg (fun hx => hm (hne j hx).2)]

theorem close_none {c : PubCtx} {pops : List POp} {L : List Nat} (h : Good c pops L) {i : Nat} (hi : i ∉ L) :
    closeConnection c i = .ok (EINVAL, c) := by
  unfold closeConnection
  rw [ConnVec.findByIndex_spec h.v, if_neg hi, if_pos rfl]

/-! ## Accepting -/

/-- A new connection in a free slot. -/
theorem Good.accept {c : PubCtx} {pops : List POp} {L : List Nat} (h : Good c pops L) {d a i : Nat} {v' : ConnVec}
    (hi : i < c.cv.size) (hn : i ∉ L) (hv : ConnVec.VInv v' (i :: L))
    (e1 : v'.size = c.cv.size) (e2 : v'.bufSize = c.cv.bufSize) (e3 : ∀ j, j ≠ i → v'.conns j = c.cv.conns j)
    (e4 : v'.conns i = { c.cv.conns i with desc := some d, mode := .connected, addr := a, action := .R })
    (e5 : v'.polls = c.cv.polls ++ [.add i (some d) .R, .modify LISTEN_INDEX c.listen .R .R]) :
    ∃ s', Pub.initSubscriber c.pub i = s' ∧ Good { c with cv := v', pub := s' } (pops ++ [.connect i]) (i :: L) := by
  have hns : i ∉ c.pub.subs := fun hx => hn ((h.slots i).2 hx)
  obtain ⟨s', h1, h2⟩ := h.p.step (op := .connect i) (by show i ∉ (spec pops).subs; rw [← h.p.subs]; exact hns) trivial
    (by simpa [queueArgs] using h.p.bnd)
  have hs : Pub.initSubscriber c.pub i = s' := by
    have h1' : (Except.ok (Pub.initSubscriber c.pub i) : M Pub) = .ok s' := h1
    injection h1'
  refine ⟨s', hs, h2, hv, ?_, ?_, ?_, by show v'.bufSize = _; rw [e2]; exact h.buf, ?_, ?_, ?_⟩
  rotate_left 5
  · intro j hj
    show bytes (v'.conns j).writeBuf = [] → (v'.conns j).writeBuf.start = 0
    by_cases e : j = i
    · subst e
      rw [e4]
      obtain ⟨_, f, _⟩ := h.v.clean j hi hn
      exact fun _ => f.2.1
    · rw [e3 j e]; exact h.zero j (by simpa [e] using hj)
  · intro k
    show k ∈ i :: L ↔ k ∈ s'.subs
    have : s'.subs = c.pub.subs ++ [i] := by rw [← hs]; rfl
    rw [this, List.mem_cons, List.mem_append, List.mem_singleton, h.slots k, or_comm]
  · intro j hj
    show (v'.conns j).mode = _
    by_cases e : j = i
    · subst e; rw [e4]
    · rw [e3 j e]; exact h.conn j (by simpa [e] using hj)
  · intro j hj
    show WF (v'.conns j).writeBuf ∧ (v'.conns j).writeBuf.size = v'.bufSize
    by_cases e : j = i
    · subst e
      rw [e4, e2]
      obtain ⟨_, f, _⟩ := h.v.clean j hi hn
      dsimp only
      refine ⟨?_, f.1⟩
      obtain ⟨f1, f2, f3⟩ := f
      rw [h.buf] at f1
      exact ⟨by rw [f1]; decide, by rw [f1]; decide, by rw [f2, f1]; decide, by rw [f3, f1]; decide, by
        rw [f2, f3, f1]; decide⟩
    · rw [e3 j e, e2]; exact h.wb j (by simpa [e] using hj)
  · intro j hj
    show (v'.conns j).action.r = true ∧ ((v'.conns j).action.w = true ↔ bytes (v'.conns j).writeBuf ≠ [])
    by_cases e : j = i
    · subst e
      rw [e4]
      dsimp only
      obtain ⟨_, f, _⟩ := h.v.clean j hi hn
      refine ⟨rfl, fun hb => (by cases hb), fun hb => ?_⟩
      exact absurd (by
        rw [← inUse_zero_iff]
        obtain ⟨f1, f2, f3⟩ := f
        rw [inUse_eq]
        · simp [f2, f3]
        · rw [h.buf] at f1
          exact ⟨by rw [f1]; decide, by rw [f1]; decide, by rw [f2, f1]; decide, by rw [f3, f1]; decide, by
            rw [f2, f3, f1]; decide⟩) hb
    · rw [e3 j e]; exact h.arm j (by simpa [e] using hj)
  · intro j hj
    show reg j v'.polls = some (if j ∈ i :: L then some (v'.conns j).action else none)
    have hj' : j < c.cv.size := by rw [← e1]; exact hj
    have hr := h.regs j hj'
    have hsz := h.v.sz
    have e6 : c.cv.polls ++ [.add i (some d) .R, .modify LISTEN_INDEX c.listen .R .R] =
      (c.cv.polls ++ [.add i (some d) .R]) ++ [.modify LISTEN_INDEX c.listen .R .R] := by simp
    rw [e5, e6, reg_other (by simp only [PollEv.idx]; omega)]
    by_cases e : j = i
    · subst e
      rw [if_neg hn] at hr
      rw [reg_add hr, if_pos (by simp), e4]
    · rw [reg_other (by simp only [PollEv.idx]; exact fun h => e h.symm), hr, e3 j e]
      simp [e]

/-- accept() fails with a non-zero errno or succeeds, and setsockopt(TCP_NODELAY) does not fail (cf. C45_false). -/
def saneAcc : ConnVec.AccRes → Prop
  | .failed e => e ≠ 0
  | .ok _ _ => True
  | .noDelayFailed _ _ => False

/-- `rmc_pub_read` on the listen socket. -/
theorem readListen_spec {c : PubCtx} {pops : List POp} {L : List Nat} (h : Good c pops L) {ar : ConnVec.AccRes}
    (hs : saneAcc ar) (cb : Option Bool) :
    ∃ r c' ys L' ds, readListen c ar cb = .ok (r, c') ∧ Good c' (pops ++ ys) L' ∧ cfg c' = cfg c ∧
      c'.suspended = c.suspended ∧ c'.log = c.log ++ ds ∧
      (∀ d ∈ ds, ∃ i, d = .connectCb i true ∨ d = .connectCb i false ∨ d = .disconnectCb i) ∧
      ((ys = [] ∧ L' = L ∧ ds = [] ∧ r ≠ 0 ∧ c'.cv.conns = c.cv.conns) ∨
       (r = 0 ∧ ∃ i, i ∉ L ∧ i < c.cv.size ∧ ((ys = [.connect i] ∧ L' = i :: L ∧ cb ≠ some false ∧
          (∀ j, j ≠ i → c'.cv.conns j = c.cv.conns j) ∧ (c'.cv.conns i).readBuf = (c.cv.conns i).readBuf ∧
          (c'.cv.conns i).writeBuf = (c.cv.conns i).writeBuf) ∨
         (ys = [.connect i, .close i] ∧ L' = L ∧ cb = some false ∧
          (∀ j, j ≠ i → c'.cv.conns j = c.cv.conns j))))) := by
  cases ar with
  | noDelayFailed d e => exact hs.elim
  | failed e =>
    obtain ⟨r, m, h1, h2, h3⟩ := ConnVec.accept_failed h.v c.listen e
    unfold readListen
    rw [h1]
    dsimp only
    have h0 : r ≠ 0 := by
      rcases h3 with rfl | rfl
      · decide
      · exact hs
    rw [if_pos h0]
    refine ⟨_, _, [], L, [], rfl, ?_, rfl, rfl, by simp, by simp, .inl ⟨rfl, rfl, rfl, h0, rfl⟩⟩
    rw [List.append_nil]
    exact ⟨h.p, h2, h.slots, h.conn, h.wb, h.buf, h.arm, h.regs, h.zero⟩
  | ok d a =>
    rcases ConnVec.accept_ok h.v c.listen d a with ⟨_, h1⟩ | ⟨_, i, v', h1, h2, h3, h4, h5, h6, h7, h8, h9⟩
    · unfold readListen
      rw [h1]
      dsimp only
      rw [if_pos (by decide)]
      refine ⟨_, _, [], L, [], rfl, ?_, rfl, rfl, by simp, by simp, .inl ⟨rfl, rfl, rfl, by decide, rfl⟩⟩
      rw [List.append_nil]; exact h.congr rfl rfl
    · obtain ⟨s', g1, g2⟩ := h.accept h2 h3 h4 h5 h6 h7 h8 h9
      unfold readListen
      rw [h1]
      dsimp only
      have hf : ConnVec.findByIndex v' i = some i := by rw [ConnVec.findByIndex_spec h4, if_pos (by simp)]
      rw [if_neg (by decide), hf, if_neg (by simp), g1]
      cases cb with
      | none =>
        exact ⟨_, _, [.connect i], i :: L, [], rfl, g2, rfl, rfl, by simp, by simp, .inr ⟨rfl, i, h3, h2, .inl ⟨rfl, rfl, by simp, h7, by show (v'.conns i).readBuf = _; rw [h8], by show (v'.conns i).writeBuf = _; rw [h8]⟩⟩⟩
      | some b =>
        cases b with
        | true =>
          exact ⟨_, _, [.connect i], i :: L, [.connectCb i true], rfl, g2.congr rfl rfl, rfl, rfl, rfl,
            by simp, .inr ⟨rfl, i, h3, h2, .inl ⟨rfl, rfl, by simp, h7, by show (v'.conns i).readBuf = _; rw [h8], by show (v'.conns i).writeBuf = _; rw [h8]⟩⟩⟩
        | false =>
          dsimp only
          rw [if_neg (by simp)]
          obtain ⟨c2, k1, k2, k3, k4, k5, k6, _⟩ := close_spec (c := ev { c with cv := v', pub := s' } (.connectCb i false))
            (g2.congr rfl rfl) (i := i) (by simp)
          rw [k1, Pub.ok_bind]
          refine ⟨0, c2, [.connect i, .close i], L, [.connectCb i false, .disconnectCb i], rfl, ?_, k3, k4, ?_,
            by simp, .inr ⟨rfl, i, h3, h2, .inr ⟨rfl, rfl, rfl, ?_⟩⟩⟩
          · rw [List.erase_cons_head] at k2
            have : pops ++ [POp.connect i, .close i] = pops ++ [.connect i] ++ [.close i] := by simp
            rw [this]; exact k2
          · rw [k5]; simp [ev]
          · intro j hj; rw [k6 j hj]; exact h7 j hj

/-! ## Reading a connection -/

theorem set_set (v : ConnVec) (i : Nat) (x y : Conn) : (v.set i x).set i y = v.set i y := by
  unfold ConnVec.set
  congr 1
  funext j
  dsimp only
  by_cases h : j = i
  · rw [if_pos h, if_pos h]
  · rw [if_neg h, if_neg h, if_neg h]

/-- The states a connection's commands can lead to. -/
def ReadRel (c : PubCtx) (pops : List POp) (L : List Nat) (i : Nat) (c' : PubCtx) : Prop :=
  ∃ ys ds, Good c' (pops ++ ys) L ∧ AckStep c c' ys ∧ (∀ y ∈ ys, ∃ pid, y = .ack i pid) ∧ c'.cv = c.cv ∧
    c'.log = c.log ++ ds ∧ ∀ d ∈ ds, ∃ bs, d = .ctl i bs

theorem processAck_pres {c c1 c2 : PubCtx} {pops : List POp} {L : List Nat} {i r : Nat} {b b' : CircBuf}
    (h : ReadRel c pops L i c1) (hx : processAck i c1 b = .ok (r, c2, b')) : ReadRel c pops L i c2 := by
  unfold processAck at hx
  split at hx
  · cases hx; exact h
  · cases hy : CircBuf.readOffset b 1 ACK_LEN with
    | error f => rw [hy] at hx; cases hx
    | ok y =>
      rw [hy, Pub.ok_bind] at hx
      dsimp only at hx
      by_cases ha : (AckInterval.dec y.2).last = U64 - 1
      · unfold ackInterval at hx; rw [if_pos ha] at hx; cases hx
      · obtain ⟨ys, ds, g1, g2, g3, g4, g5, g6⟩ := h
        obtain ⟨c3, k1, k2, k3, k4, k5⟩ := ackInterval_spec g1 i (AckInterval.dec y.2) ha
        rw [k1, Pub.ok_bind] at hx
        cases hx
        refine ⟨_, ds, by rw [← List.append_assoc]; exact k2, g2.trans k3, ?_, by rw [k4, g4], by rw [k5, g5], g6⟩
        intro z hz
        rcases List.mem_append.mp hz with hz | hz
        · exact g3 z hz
        · obtain ⟨pid, _, rfl⟩ := List.mem_map.mp hz; exact ⟨pid, rfl⟩

theorem processCtl_pres {c c1 c2 : PubCtx} {pops : List POp} {L : List Nat} {i r : Nat} {b b' : CircBuf}
    (h : ReadRel c pops L i c1) (hx : processCtl i c1 b = .ok (r, c2, b')) : ReadRel c pops L i c2 := by
  unfold processCtl at hx
  split at hx
  · cases hx; exact h
  · cases hy : CircBuf.readOffset b 1 CTL_LEN with
    | error f => rw [hy] at hx; cases hx
    | ok y =>
      rw [hy, Pub.ok_bind] at hx
      dsimp only at hx
      split at hx
      · cases hx; exact h
      · cases hc : c1.ctlCb with
        | none => rw [hc] at hx; cases hx
        | some v =>
          rw [hc] at hx
          cases v with
          | false => cases hx; exact h
          | true =>
            cases hz : CircBuf.readOffset b (1 + CTL_LEN) (ctlDec y.2) with
            | error f => rw [hz] at hx; cases hx
            | ok z =>
              rw [hz] at hx
              cases hx
              obtain ⟨ys, ds, g1, g2, g3, g4, g5, g6⟩ := h
              refine ⟨ys, ds ++ [.ctl i z.2], g1.congr rfl rfl, ⟨g2.acks, g2.cfg⟩, g3, g4, ?_, ?_⟩
              · show c1.log ++ _ = _; rw [g5, List.append_assoc]
              · intro d hd
                rcases List.mem_append.mp hd with hd | hd
                · exact g6 d hd
                · exact ⟨z.2, List.mem_singleton.mp hd⟩

theorem tcpRead_rel {c c' : PubCtx} {pops : List POp} {L : List Nat} (h : Good c pops L) {i fuel r : Nat}
    {b b' : CircBuf} {rv : Option (List UInt8)} (hx : Proto.tcpRead (table i) fuel c b rv = .ok (r, c', b')) :
    ReadRel c pops L i c' := by
  refine Proto.tcpRead_pres (P := ReadRel c pops L i) ?_ ?_ hx
  · intro cmd hd hl s b r s' b' hs hb
    unfold table at hl
    simp only [Proto.lookup] at hl
    split at hl
    · cases hl; exact processAck_pres hs hb
    · split at hl
      · cases hl; exact processCtl_pres hs hb
      · cases hl
  · exact ⟨[], [], by simpa using h, .refl c, by simp, rfl, by simp, by simp⟩

theorem pendingLen_eq {c : PubCtx} {pops : List POp} {L : List Nat} (h : Good c pops L) {i : Nat} (hi : i ∈ L) :
    ConnVec.pendingLen c.cv i = (bytes (c.cv.conns i).writeBuf).length := by
  obtain ⟨w1, w2⟩ := h.wb i hi
  have hlt := inUse_lt w1
  rw [h.buf] at w2
  unfold ConnVec.pendingLen
  rw [length_bytes, Nat.mod_eq_of_lt]
  have : RMC_MAX_PACKET = 65400 := rfl
  omega

/-- `rmc_pub_read` on a connection, whatever arrives. -/
theorem readConn_spec {c c' : PubCtx} {pops : List POp} {L : List Nat} (h : Good c pops L) {i r : Nat}
    {rv : Option (List UInt8)} (hx : readConn c i rv = .ok (r, c')) :
    (i ∉ L ∧ r = ENOTCONN ∧ c' = c) ∨
    (i ∈ L ∧ ∃ c1 ys zs ds L', AckStep c c1 ys ∧ (∀ y ∈ ys, ∃ pid, y = .ack i pid) ∧ Good c' (pops ++ ys ++ zs) L' ∧
      cfg c' = cfg c ∧ c'.suspended = c1.suspended ∧ Good c1 (pops ++ ys) L ∧
      c'.log = c.log ++ ds ∧ (∀ d ∈ ds, (∃ bs, d = .ctl i bs) ∨ d = .disconnectCb i) ∧
      (∀ j, j ≠ i → c'.cv.conns j = c.cv.conns j) ∧
      ((zs = [] ∧ L' = L ∧ c'.pub = c1.pub ∧ (c'.cv.conns i).writeBuf = (c.cv.conns i).writeBuf) ∨
       (zs = [.close i] ∧ L' = L.erase i ∧ r = 0))) := by
  unfold readConn at hx
  by_cases hi : i ∈ L
  · right
    refine ⟨hi, ?_⟩
    rw [ConnVec.findByIndex_spec h.v, if_pos hi, if_neg (by simp [h.conn i hi])] at hx
    cases hT : Proto.tcpRead (table i) U32 c (c.cv.conns i).readBuf rv with
    | error f => rw [hT] at hx; cases hx
    | ok x =>
      obtain ⟨code, c1, b1⟩ := x
      rw [hT, Pub.ok_bind] at hx
      obtain ⟨ys, ds, g1, g2, g3, g4, g5, g6⟩ := tcpRead_rel h hT
      dsimp only at hx
      obtain ⟨x1, hx1⟩ : ∃ x1, x1 = { c1.cv.conns i with readBuf := b1 } := ⟨_, rfl⟩
      have hidx : (c1.cv.conns i).index = i := by rw [g4]; exact h.v.idx i
      have G2 : Good (setConn c1 i x1) (pops ++ ys) L := by
        refine (g1.setConn hi (x := x1) (es := []) (by rw [hx1]) (by rw [hx1]) (by rw [hx1]; exact hidx)
          (by rw [hx1]; exact (g1.wb i hi).1) (by rw [hx1]; exact (g1.wb i hi).2) (by rw [hx1]; exact g1.arm i hi)
          (by rw [hx1]; exact g1.zero i hi) (.inl ⟨rfl, by rw [hx1]⟩)).congr rfl ?_
        show ConnVec.set c1.cv i x1 = _
        rw [List.append_nil]; rfl
      have hci : (setConn c1 i x1).cv.conns i = x1 := by
        show (if i = i then x1 else _) = x1; rw [if_pos rfl]
      have hcj : ∀ j, j ≠ i → (setConn c1 i x1).cv.conns j = c.cv.conns j := by
        intro j hj
        show (if j = i then x1 else c1.cv.conns j) = _
        rw [if_neg hj, g4]
      rw [← hx1] at hx
      by_cases he : code = EPIPE
      · rw [if_pos he] at hx
        obtain ⟨c2, k1, k2, k3, k4, k5, k6, _⟩ := close_spec G2 hi
        rw [k1, Pub.ok_bind] at hx
        cases hx
        refine ⟨c1, ys, [.close i], ds ++ [.disconnectCb i], L.erase i, g2, g3, k2, k3.trans g2.cfg, k4, g1, ?_, ?_, ?_,
          .inr ⟨rfl, rfl, rfl⟩⟩
        · rw [k5]; show c1.log ++ _ = _; rw [g5, List.append_assoc]
        · intro d hd
          rcases List.mem_append.mp hd with hd | hd
          · exact .inl (g6 d hd)
          · exact .inr (List.mem_singleton.mp hd)
        · intro j hj; rw [k6 j hj]; exact hcj j hj
      · rw [if_neg he] at hx
        have hp := pendingLen_eq G2 hi
        rw [hci] at hx hp
        rw [hp] at hx
        obtain ⟨act, hact⟩ : ∃ act : Act, act = ⟨true, decide ((bytes x1.writeBuf).length > 0)⟩ := ⟨_, rfl⟩
        rw [← hact] at hx
        cases hx
        have hw := G2.wb i hi
        have hz := G2.zero i hi
        rw [hci] at hw hz
        refine ⟨c1, ys, [], ds, L, g2, g3, ?_, g2.cfg, rfl, g1, g5, fun d hd => .inl (g6 d hd), ?_,
          .inl ⟨rfl, rfl, rfl, ?_⟩⟩
        · rw [List.append_nil]
          refine (G2.setConn hi (x := { x1 with action := act }) (es := [.modify i x1.desc x1.action act])
            (by rw [hci]) (by rw [hci]) (by rw [hx1]; exact hidx) hw.1 hw.2 ?_ hz (.inr ⟨x1.desc, by rw [hci]⟩)).congr rfl rfl
          show act.r = true ∧ (act.w = true ↔ bytes x1.writeBuf ≠ [])
          rw [hact]
          exact ⟨rfl, decide_eq_true_iff.trans List.length_pos_iff⟩
        · intro j hj
          show (if j = i then _ else (setConn c1 i x1).cv.conns j) = _
          rw [if_neg hj]; exact hcj j hj
        · show (if i = i then { x1 with action := act } else _).writeBuf = _
          rw [if_pos rfl, hx1, g4]
  · left
    rw [ConnVec.findByIndex_spec h.v, if_neg hi, if_pos (.inl rfl)] at hx
    cases hx
    exact ⟨hi, rfl, rfl⟩

end PubCtx
end Rmc
