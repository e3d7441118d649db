import Verif.Props.PubCtxMisc

/-!
# C48 for the publisher: poll registrations
-/

set_option linter.unusedSimpArgs false
set_option linter.unusedVariables false

namespace Rmc
namespace PubCtx
open CircBuf Proto PLog

/-! ## The connections -/

/-- C48 for the subscriber connections of a publisher: the calls of the poll callbacks for a slot are well formed (added once,
modified and removed only while registered, the old action always the one registered), a slot is registered exactly while it
holds a connected subscriber, always for read readiness, and for write readiness exactly while bytes are pending for it. -/
theorem C48_connections {ops : List Op} {c : PubCtx} (h : Reaches ops c) {i : Nat} (hi : i < c.cv.size) :
    (¬ Connected c i → reg i c.cv.polls = some none) ∧
    (Connected c i → ∃ a, reg i c.cv.polls = some (some a) ∧ a.r = true ∧ (a.w = true ↔ bytes (c.cv.conns i).writeBuf ≠ [])) := by
  obtain ⟨pops, L, g, hq, _⟩ := h.good
  have hr := g.regs i hi
  constructor
  · intro hc
    rw [hr, if_neg (fun e => hc (g.connected.2 e))]
  · intro hc
    have hL := g.connected.1 hc
    rw [if_pos hL] at hr
    exact ⟨_, hr, g.arm i hL⟩

example : ∃ c rs, Reaches (exPre ++ [.timeout 100035 none 0, .write 1 (.ok 30)]) c ∧
    run exC0 (exPre ++ [.timeout 100035 none 0, .write 1 (.ok 30)]) = .ok (rs, c) ∧
    decide (Connected c 1 ∧ (bytes (c.cv.conns 1).writeBuf).length = 39 ∧ reg 1 c.cv.polls = some (some ⟨true, true⟩)) = true :=
  reaches_of (P := fun rs c => decide (Connected c 1 ∧ (bytes (c.cv.conns 1).writeBuf).length = 39 ∧
    reg 1 c.cv.polls = some (some ⟨true, true⟩))) (by simp [exPre, Op.sane, saneAcc]) (by decide) (by decide +kernel)

/-! ## The multicast socket -/

/-- The calls for one index. -/
def only (i : Nat) (es : List PollEv) : List PollEv := es.filter fun e => e.idx = i

theorem only_other {i : Nat} {e : PollEv} (h : e.idx ≠ i) (xs : List PollEv) : only i (xs ++ [e]) = only i xs := by
  unfold only
  rw [List.filter_append, List.filter_cons_of_neg (by simpa using h)]
  simp

theorem regW_only (i : Nat) (es : List PollEv) : regW i (only i es) = regW i es := by
  have key : ∀ (es : List PollEv) st, (only i es).foldl (regWStep i) st = es.foldl (regWStep i) st := by
    intro es
    induction es with
    | nil => intro st; rfl
    | cons e es ih =>
      intro st
      unfold only
      by_cases h : e.idx = i
      · rw [List.filter_cons_of_pos (by simpa using h), List.foldl_cons, List.foldl_cons]; exact ih _
      · rw [List.filter_cons_of_neg (by simpa using h), List.foldl_cons]
        have : regWStep i st e = st := by
          cases st with
          | none => cases e <;> rfl
          | some r => cases e <;> simp_all [regWStep, PollEv.idx]
        rw [this]; exact ih _
  exact key es _

/-- The calls for the multicast socket. -/
def mcs (c : PubCtx) : List PollEv := only MULTICAST_INDEX c.cv.polls

/-- Nothing happens to the multicast socket's registration. -/
def Fr (c c' : PubCtx) : Prop := mcs c' = mcs c ∧ c'.cv.size = c.cv.size

theorem Fr.refl (c : PubCtx) : Fr c c := ⟨rfl, rfl⟩
theorem Fr.trans {a b c : PubCtx} (h1 : Fr a b) (h2 : Fr b c) : Fr a c := ⟨h2.1.trans h1.1, h2.2.trans h1.2⟩
theorem Fr.of_cv {c c' : PubCtx} (h : c'.cv = c.cv) : Fr c c' := ⟨by unfold mcs; rw [h], by rw [h]⟩

theorem mult_ne {i n : Nat} (h : i < n) (hn : n ≤ LISTEN_INDEX) : i ≠ MULTICAST_INDEX := by
  have h1 : LISTEN_INDEX = 32765 := rfl
  have h2 : MULTICAST_INDEX = 32766 := rfl
  omega

theorem Fr.poll {c : PubCtx} {i : Nat} (hi : i ≠ MULTICAST_INDEX) (d : Option Nat) (o n : Act) : Fr c (pollModify c i d o n) :=
  ⟨only_other (e := .modify i d o n) hi _, rfl⟩

theorem packetAck_cv' {c c' : PubCtx} {i pid : Nat} (h : packetAck c i pid = .ok c') : c'.cv = c.cv := by
  unfold packetAck at h
  obtain ⟨s, _, h⟩ := bind_ok h
  dsimp only at h
  have h := Except.ok.inj h
  subst h
  split <;> rfl

theorem ackRange_cv' {i : Nat} : ∀ (n : Nat) {c c' : PubCtx} {pid : Nat}, ackRange c i pid n = .ok c' → c'.cv = c.cv := by
  intro n
  induction n with
  | zero => intro c c' pid h; cases h; rfl
  | succ n ih =>
    intro c c' pid h
    unfold ackRange at h
    obtain ⟨c1, h1, h2⟩ := bind_ok h
    exact (ih h2).trans (packetAck_cv' h1)

theorem handler_cv {i : Nat} (cv : ConnVec) : ∀ c h, lookup (table i) c = some h → ∀ s b r s' b', PubCtx.cv s = cv →
    h s b = .ok (r, s', b') → PubCtx.cv s' = cv := by
  intro c h hl s b r s' b' hs hx
  have hh : h = processAck i ∨ h = processCtl i := by
    unfold table lookup at hl
    repeat' (first | split at hl | unfold lookup at hl)
    all_goals first | exact .inl (Option.some.inj hl).symm | exact .inr (Option.some.inj hl).symm | cases hl
  rcases hh with rfl | rfl
  · unfold processAck at hx
    split at hx
    · cases hx; exact hs
    · obtain ⟨x, _, hx⟩ := bind_ok hx
      obtain ⟨c2, h2, hx⟩ := bind_ok hx
      cases hx
      unfold ackInterval at h2
      split at h2
      · cases h2
      · rw [ackRange_cv' _ h2, hs]
  · unfold processCtl at hx
    split at hx
    · cases hx; exact hs
    · obtain ⟨x, _, hx⟩ := bind_ok hx
      dsimp only at hx
      split at hx
      · cases hx; exact hs
      · obtain ⟨c2, h2, hx⟩ := bind_ok hx
        cases hx
        split at h2
        · cases h2
        · cases h2; exact hs
        · obtain ⟨y, _, h2⟩ := bind_ok h2
          cases h2; exact hs

theorem close_fr {c c' : PubCtx} {pops : List POp} {L : List Nat} (g : Good c pops L) {i r : Nat}
    (hx : closeConnection c i = .ok (r, c')) : Fr c c' := by
  by_cases hi : i ∈ L
  · unfold closeConnection at hx
    rw [ConnVec.findByIndex_spec g.v, if_pos hi, if_neg (by simp)] at hx
    dsimp only at hx
    obtain ⟨s, _, hx⟩ := bind_ok hx
    cases hx
    have := (ConnVec.close_spec g.v i).1 hi
    refine ⟨?_, this.2.2.1⟩
    unfold mcs
    show only MULTICAST_INDEX (ConnVec.close c.cv i).2.polls = _
    rw [this.2.2.2.2.2.2]
    exact only_other (e := .remove i _) (mult_ne (g.v.lt i hi) g.v.sz) _
  · rw [close_none g hi] at hx; cases hx; exact .refl _

theorem readListen_fr {c c' : PubCtx} {pops : List POp} {L : List Nat} (g : Good c pops L) {ar : ConnVec.AccRes}
    (hs : saneAcc ar) {cb : Option Bool} {r : Nat} (hx : readListen c ar cb = .ok (r, c')) : Fr c c' := by
  cases ar with
  | noDelayFailed d e => exact hs.elim
  | failed e =>
    obtain ⟨r1, m, h1, h2, h3⟩ := ConnVec.accept_failed g.v c.listen e
    unfold readListen at hx
    rw [h1] at hx
    dsimp only at hx
    have h0 : r1 ≠ 0 := by
      rcases h3 with rfl | rfl
      · decide
      · exact hs
    rw [if_pos h0] at hx
    cases hx
    exact ⟨rfl, rfl⟩
  | ok d a =>
    rcases ConnVec.accept_ok g.v c.listen d a with ⟨_, h1⟩ | ⟨_, i, v', h1, h2, h3, h4, h5, h6, h7, h8, h9⟩
    · unfold readListen at hx
      rw [h1] at hx
      dsimp only at hx
      rw [if_pos (by decide)] at hx
      cases hx; exact .refl _
    · -- the new connection
      have hv : only MULTICAST_INDEX v'.polls = only MULTICAST_INDEX c.cv.polls := by
        rw [h9, show ∀ (xs : List PollEv) x y, xs ++ [x, y] = (xs ++ [x]) ++ [y] by simp, only_other, only_other]
        · exact mult_ne h2 g.v.sz
        · show LISTEN_INDEX ≠ MULTICAST_INDEX; decide
      unfold readListen at hx
      rw [h1] at hx
      dsimp only at hx
      rw [if_neg (by simp)] at hx
      split at hx
      · cases hx
      · split at hx
        · cases hx; exact ⟨hv, h5⟩
        · split at hx
          · cases hx; exact ⟨hv, h5⟩
          · obtain ⟨y, hy, hx⟩ := bind_ok hx
            cases hx
            unfold closeConnection at hy
            split at hy
            · cases hy; exact ⟨hv, h5⟩
            · dsimp only at hy
              obtain ⟨s, _, hy⟩ := bind_ok hy
              cases hy
              have := (ConnVec.close_spec h4 i).1 (by simp)
              refine ⟨?_, this.2.2.1.trans h5⟩
              show only MULTICAST_INDEX (ConnVec.close v' i).2.polls = _
              rw [this.2.2.2.2.2.2]
              exact (only_other (e := .remove i _) (mult_ne h2 g.v.sz) _).trans hv

theorem readConn_fr {c c' : PubCtx} {pops : List POp} {L : List Nat} (g : Good c pops L) {i r : Nat}
    {rv : Option (List UInt8)} (hx : readConn c i rv = .ok (r, c')) : Fr c c' := by
  by_cases hi : i ∈ L
  · have hne := mult_ne (g.v.lt i hi) g.v.sz
    unfold readConn at hx
    split at hx
    · cases hx; exact .refl _
    · obtain ⟨⟨r1, c1, b1⟩, h1, hx⟩ := bind_ok hx
      have hcv : c1.cv = c.cv := tcpRead_pres (P := fun s => PubCtx.cv s = c.cv) (handler_cv c.cv) rfl h1
      dsimp only at hx
      split at hx
      · obtain ⟨⟨r2, c2⟩, h2, hx⟩ := bind_ok hx
        cases hx
        unfold closeConnection at h2
        split at h2
        · cases h2
          exact ⟨by unfold mcs setConn; show only _ c1.cv.polls = _; rw [hcv], by show c1.cv.size = _; rw [hcv]⟩
        · dsimp only at h2
          obtain ⟨s, _, h2⟩ := bind_ok h2
          cases h2
          have hp : ∀ (v : ConnVec), i < v.size → v.size ≤ LISTEN_INDEX →
              only MULTICAST_INDEX (ConnVec.close v i).2.polls = only MULTICAST_INDEX v.polls ∧
              (ConnVec.close v i).2.size = v.size := by
            intro v hv hv2
            unfold ConnVec.close
            rw [if_neg (by omega)]
            split
            · exact ⟨rfl, rfl⟩
            · dsimp only
              have : ∀ w : ConnVec, (ConnVec.resetMax w).polls = w.polls ∧ (ConnVec.resetMax w).size = w.size := by
                intro w; unfold ConnVec.resetMax; constructor <;> (repeat' split) <;> rfl
              split
              · refine ⟨?_, (this _).2⟩
                show only MULTICAST_INDEX (ConnVec.resetMax _).polls = _
                rw [(this _).1]
                exact only_other (e := .remove i _) hne _
              · exact ⟨only_other (e := .remove i _) hne _, rfl⟩
          have hz : (setConn c1 i { c1.cv.conns i with readBuf := b1 }).cv.size = c.cv.size := by
            show c1.cv.size = _; rw [hcv]
          have := hp (ev (setConn c1 i { c1.cv.conns i with readBuf := b1 }) (.disconnectCb i)).cv
            (by rw [show (ev (setConn c1 i { c1.cv.conns i with readBuf := b1 }) (.disconnectCb i)).cv.size = _ from hz]
                exact g.v.lt i hi)
            (by rw [show (ev (setConn c1 i { c1.cv.conns i with readBuf := b1 }) (.disconnectCb i)).cv.size = _ from hz]
                exact g.v.sz)
          refine ⟨?_, this.2.trans hz⟩
          refine this.1.trans ?_
          show only _ c1.cv.polls = _
          rw [hcv]; rfl
      · cases hx
        refine ⟨?_, by show c1.cv.size = _; rw [hcv]⟩
        refine (only_other (e := .modify i _ _ _) hne _).trans ?_
        show only _ c1.cv.polls = _
        rw [hcv]; rfl
  · unfold readConn at hx
    rw [ConnVec.findByIndex_spec g.v, if_neg hi, if_pos (.inl rfl)] at hx
    cases hx; exact .refl _

theorem writeConn_fr {c c' : PubCtx} {i r : Nat} (hz : c.cv.size ≤ LISTEN_INDEX) {wv : Except Nat Nat}
    (hx : writeConn c i wv = .ok (r, c')) : Fr c c' := by
  unfold writeConn at hx
  split at hx
  · cases hx; exact .refl _
  · split at hx
    · cases hx; exact .refl _
    · split at hx
      · cases hx; exact .refl _
      · obtain ⟨x, _, hx⟩ := bind_ok hx
        cases hx
        exact ⟨only_other (e := .modify i _ _ _) (mult_ne (i := i) (n := c.cv.size) (by omega) hz) _, rfl⟩

theorem armWrite_fr {c : PubCtx} {i : Nat} (hi : i ≠ MULTICAST_INDEX) : Fr c (armWrite c i) := by
  unfold armWrite
  dsimp only
  split
  · exact .refl _
  · exact ⟨only_other (e := .modify i _ _ _) hi _, rfl⟩

theorem resend_fr {c c' : PubCtx} {i r : Nat} (hi : i ≠ MULTICAST_INDEX) {p : Pkt} (hx : resendPacket c i p = .ok (r, c')) :
    Fr c c' := by
  unfold resendPacket at hx
  dsimp only at hx
  split at hx
  · cases hx; exact armWrite_fr hi
  · obtain ⟨b, _, hx⟩ := bind_ok hx
    cases hx
    exact Fr.trans (b := setConn c i { c.cv.conns i with writeBuf := b }) ⟨rfl, rfl⟩ (armWrite_fr hi)

theorem sentPacket_fr {c c' : PubCtx} {i a r : Nat} (hi : i ≠ MULTICAST_INDEX) (hx : sentPacketTimeout c i a = .ok (r, c')) :
    Fr c c' := by
  unfold sentPacketTimeout at hx
  obtain ⟨p, _, hx⟩ := bind_ok hx
  split at hx
  · obtain ⟨c1, h1, hx⟩ := bind_ok hx
    cases hx
    exact .of_cv (packetAck_cv' h1)
  · obtain ⟨⟨r1, c1⟩, h1, hx⟩ := bind_ok hx
    dsimp only at hx
    split at hx
    · obtain ⟨c2, h2, hx⟩ := bind_ok hx
      cases hx
      exact (resend_fr hi h1).trans (.of_cv (packetAck_cv' h2))
    · cases hx; exact resend_fr hi h1

theorem resendLoop_fr {i : Nat} (hi : i ≠ MULTICAST_INDEX) : ∀ (as : List Nat) {c c' : PubCtx} {r : Nat},
    resendLoop c i as = .ok (r, c') → Fr c c' := by
  intro as
  induction as with
  | nil => intro c c' r hx; cases hx; exact .refl _
  | cons a as ih =>
    intro c c' r hx
    rw [resendLoop_cons] at hx
    obtain ⟨⟨r1, c1⟩, h1, hx⟩ := bind_ok hx
    dsimp only at hx
    split at hx
    · cases hx; exact sentPacket_fr hi h1
    · exact (sentPacket_fr hi h1).trans (ih hx)

theorem subscribers_fr {now : Int} : ∀ (ks : List Nat), (∀ k ∈ ks, k ≠ MULTICAST_INDEX) → ∀ {c c' : PubCtx} {r : Nat},
    subscribersTimeout c now ks = .ok (r, c') → Fr c c' := by
  intro ks
  induction ks with
  | nil => intro _ c c' r hx; cases hx; exact .refl _
  | cons k ks ih =>
    intro hk c c' r hx
    rw [subscribersTimeout_cons] at hx
    obtain ⟨⟨r1, c1⟩, h1, hx⟩ := bind_ok hx
    have f1 : Fr c c1 := by
      unfold subscriberTimeout at h1
      obtain ⟨as, _, h1⟩ := bind_ok h1
      exact resendLoop_fr (hk k (by simp)) as h1
    dsimp only at hx
    split at hx
    · cases hx; exact f1
    · exact f1.trans (ih (fun j hj => hk j (by simp [hj])) hx)

/-- Something is waiting to be multicast. -/
def Waiting (c : PubCtx) : Prop := Pub.queueSize c.pub ≠ 0

/-- What an event loop makes of the calls for the multicast socket: other calls do not count, and a call to modify whose old action has the write
interest registered sets the write interest. -/
structure View (rg : List PollEv → Option (Option Act)) : Prop where
  only : ∀ es, rg (only MULTICAST_INDEX es) = rg es
  modify : ∀ {xs : List PollEv} {x old : Act} {d : Option Nat} {a : Act}, rg xs = some (some x) → x.w = old.w →
    ∃ b, rg (xs ++ [.modify MULTICAST_INDEX d old a]) = some (some b) ∧ b.w = a.w

theorem View.regW : View (regW MULTICAST_INDEX) :=
  ⟨regW_only _, fun h hw => ⟨_, regW_modify h hw _ _, rfl⟩⟩

variable {rg : List PollEv → Option (Option Act)}

/-- The multicast socket is registered for writing iff something is waiting. -/
def Armed (rg : List PollEv → Option (Option Act)) (c : PubCtx) : Prop := ∃ a, rg c.cv.polls = some (some a) ∧ (a.w = true ↔ Waiting c)

theorem next_waiting {c : PubCtx} {pops : List POp} {L : List Nat} (g : Good c pops L) :
    (Pub.nextQueued c.pub).isSome = true ↔ Waiting c := by
  unfold Waiting
  rcases g.p.next with ⟨h1, h2⟩ | ⟨a, pkt, h1, _, _, _, _, h2⟩
  · rw [h1, h2]; simp
  · rw [h1]; simp [h2]

theorem wIf_w (b : Bool) : (wIf b).w = b := by cases b <;> rfl

theorem Armed.fr {c c' : PubCtx} (v : View rg) (h : Armed rg c) (f : Fr c c') (hq : Pub.queueSize c'.pub = Pub.queueSize c.pub) : Armed rg c' := by
  obtain ⟨a, h1, h2⟩ := h
  refine ⟨a, ?_, by rw [h2]; unfold Waiting; rw [hq]⟩
  have := f.1
  unfold mcs at this
  rw [← v.only, this, v.only]; exact h1

theorem Armed.poll {c : PubCtx} {x : Act} {d : Option Nat} {pops : List POp} {L : List Nat} (v : View rg) (g : Good c pops L)
    (hm : rg c.cv.polls = some (some x)) (hx : x.w = true) :
    Armed rg (pollModify c MULTICAST_INDEX d .W (wIf (Pub.nextQueued c.pub).isSome)) := by
  obtain ⟨b, e1, e2⟩ := v.modify (d := d) (old := .W) (a := wIf (Pub.nextQueued c.pub).isSome) hm (by rw [hx]; rfl)
  refine ⟨b, e1, ?_⟩
  rw [e2, wIf_w, next_waiting g]; rfl

theorem sendSingle_armed {c c' : PubCtx} {pops : List POp} {L : List Nat} (v : View rg) (g : Good c pops L) {a : Nat} {r : SendRes} {code : Nat}
    (ha : Pub.nextQueued c.pub = some a) (h : Armed rg c) (hx : sendSingle c a r = .ok (code, c')) : Armed rg c' := by
  have h0 := h
  obtain ⟨x, hm, hxw⟩ := h0
  have hxw : x.w = true := hxw.2 ((next_waiting g).1 (by rw [ha]; rfl))
  unfold sendSingle at hx
  split at hx
  · cases hx; exact h
  · obtain ⟨p, _, hx⟩ := bind_ok hx
    split at hx
    · cases hx; exact h
    · split at hx
      · split at hx
        · cases hx; exact h
        · cases hx; exact .poll v g hm hxw
      · rename_i ts hts
        dsimp only at hx
        obtain ⟨s, hs, hx⟩ := bind_ok hx
        cases hx
        obtain ⟨s', h1, h2⟩ := g.p.step (op := .send ts) trivial trivial (by simpa [queueArgs] using g.p.bnd)
        have h1' : Pub.packetSent c.pub a ts = .ok s' := by
          have := h1; unfold Pub.step at this; rw [ha] at this; exact this
        rw [h1'] at hs; cases hs
        have hsubs : s.subs = c.pub.subs := by
          rw [h2.subs, g.p.subs]; unfold spec; rw [PSpec.run_snoc]
          simp only [PSpec.step]; split <;> rfl
        exact Armed.poll v (((g.setPub h2 hsubs)).congr (c' := ev { c with pub := s } (.datagram ((header c p).enc ++ wirePayload p.payload r.stack))) rfl rfl) hm hxw

theorem multicastWrite_armed (v : View rg) : ∀ (rs : List SendRes) {c c' : PubCtx} {pops : List POp} {L : List Nat} {code : Nat}, Good c pops L →
    Armed rg c → multicastWrite c rs = .ok (code, c') → Armed rg c' := by
  intro rs
  induction rs with
  | nil =>
    intro c c' pops L code g h hx
    unfold multicastWrite at hx
    split at hx
    · cases hx; exact h
    · rename_i a ha
      exact sendSingle_armed v g ha h hx
  | cons r rs ih =>
    intro c c' pops L code g h hx
    unfold multicastWrite at hx
    split at hx
    · cases hx; exact h
    · rename_i a ha
      obtain ⟨⟨r1, c1⟩, h1, hx⟩ := bind_ok hx
      obtain ⟨_, c2, ys, es, ds, k1, k2, _⟩ := sendSingle_spec g ha r
      rw [k1] at h1; cases h1
      have := sendSingle_armed v g ha h k1
      dsimp only at hx
      split at hx
      · cases hx; exact this
      · exact ih k2 this hx

theorem queue_armed {c c' : PubCtx} {pops : List POp} {L : List Nat} (v : View rg) (g : Good c pops L) {p : Payload} {ann : Bool} {r : Nat}
    (hb : (queueArgs pops).length + 2 < U64) (h : Armed rg c) (hx : queuePacket c p ann = .ok (r, c')) : Armed rg c' := by
  rcases queue_cases g p ann hb with ⟨_, e⟩ | ⟨_, _, e⟩ | ⟨_, _, s', h1, h2, h3, e⟩ <;> rw [e] at hx
  · cases hx; exact h
  · cases hx; exact h
  · have hx := (Prod.mk.inj (Except.ok.inj hx)).2
    subst hx
    obtain ⟨x, hm, hxw⟩ := h
    obtain ⟨b, e1, e2⟩ := v.modify (xs := c.cv.polls) (d := c.mcast) (old := wIf (Pub.nextQueued c.pub).isSome) (a := .W) hm
      (by rw [wIf_w, Bool.eq_iff_iff, hxw, next_waiting g])
    refine ⟨b, e1, ?_⟩
    · refine ⟨fun _ => ?_, fun _ => by rw [e2]; rfl⟩
      show Pub.queueSize s' ≠ 0
      obtain ⟨Q, N, I, r1, r2, r3, r4, _⟩ := h2.reached.rel
      unfold Pub.queueSize
      rw [r4]
      intro h0
      have hlen : (spec (pops ++ [qop p ann])).que = [] ∧ (spec (pops ++ [qop p ann])).ann = [] := by
        rw [r1, r2]
        simp at h0
        rw [h0.1, h0.2]; simp
      unfold spec at hlen
      rw [PSpec.run_snoc] at hlen
      cases ann <;> simp [qop, PSpec.step] at hlen

/-- Specification: the calls that leave the multicast socket's registration alone: all but activation, deactivation and reading
from the multicast socket. -/
def quiet : Op → Prop
  | .activate _ => False
  | .deactivate => False
  | .readMcast _ => False
  | _ => True

theorem spec_size : ∀ (ys : List POp) {A : PSpec}, (∀ y ∈ ys, (∃ k pid, y = .ack k pid) ∨ (∃ k, y = .close k) ∨ ∃ k, y = .connect k) →
    (A.run ys).que = A.que ∧ (A.run ys).ann = A.ann := by
  intro ys
  induction ys with
  | nil => intro A _; exact ⟨rfl, rfl⟩
  | cons y ys ih =>
    intro A h
    obtain ⟨h1, h2⟩ := ih (A := A.step y) (fun z hz => h z (by simp [hz]))
    have : (A.step y).que = A.que ∧ (A.step y).ann = A.ann := by
      rcases h y (by simp) with ⟨k, pid, rfl⟩ | ⟨k, rfl⟩ | ⟨k, rfl⟩ <;> exact ⟨rfl, rfl⟩
    exact ⟨h1.trans this.1, h2.trans this.2⟩

theorem queueSize_eq {c c' : PubCtx} {pops ys : List POp} {L L' : List Nat} (g : Good c pops L) (g' : Good c' (pops ++ ys) L')
    (h : ∀ y ∈ ys, (∃ k pid, y = .ack k pid) ∨ (∃ k, y = .close k) ∨ ∃ k, y = .connect k) :
    Pub.queueSize c'.pub = Pub.queueSize c.pub := by
  have hsz : ∀ {s : Pub} {A : PSpec}, Pub.Rel s A → s.queueSize = A.que.length + A.ann.length := by
    intro s A hR
    obtain ⟨Q, N, I, r1, r2, r3, r4, _⟩ := hR
    unfold Pub.queueSize; rw [r1, r2, r4]; simp
  rw [hsz g.p.reached.rel, hsz g'.p.reached.rel]
  have := spec_size ys (A := spec pops) h
  have e : spec (pops ++ ys) = (spec pops).run ys := by unfold spec PSpec.run; rw [List.foldl_append]
  rw [e, this.1, this.2]

theorem step_armed {c c' : PubCtx} {pops : List POp} {L : List Nat} {op : Op} {r : Nat} (v : View rg) (h : Good c pops L) (hs : op.sane)
    (hq : quiet op) (hb : (queueArgs pops).length + 2 < U64) (ha : Armed rg c) (hx : step c op = .ok (r, c')) : Armed rg c' := by
  cases op with
  | queue p ann => exact queue_armed v h hb ha hx
  | readListen ar cb =>
    obtain ⟨r', c'', ys, L', ds, g1, g2, _, _, g4, g5, g3⟩ := readListen_spec h hs cb
    have : step c (.readListen ar cb) = .ok (r', c'') := g1
    rw [this] at hx; cases hx
    refine ha.fr v (readListen_fr h hs g1) (queueSize_eq h g2 ?_)
    rcases g3 with ⟨e, _⟩ | ⟨_, i, _, _, ⟨e, _⟩ | ⟨e, _⟩⟩ <;> rw [e] <;> simp
  | readMcast err => exact hq.elim
  | read i rv =>
    have hx' : readConn c i rv = .ok (r, c') := hx
    rcases readConn_spec h hx with ⟨_, _, e⟩ | ⟨_, c1, ys, zs, ds, L', _, hy, g, _, _, _, hds, hds2, _, hz⟩
    · exact e ▸ ha
    · refine ha.fr v (readConn_fr h hx') (queueSize_eq h (ys := ys ++ zs) (by rw [← List.append_assoc]; exact g) ?_)
      intro y hy'
      rcases List.mem_append.mp hy' with hy' | hy'
      · obtain ⟨_, e2⟩ := hy y hy'; exact .inl ⟨_, _, e2⟩
      · rcases hz with ⟨e2, _⟩ | ⟨e2, _⟩ <;> rw [e2] at hy' <;> simp at hy'
        exact .inr (.inl ⟨_, hy'⟩)
  | writeMcast rs => exact multicastWrite_armed v rs h ha hx
  | write i wv =>
    have hx' : writeConn c i wv = .ok (r, c') := hx
    refine ha.fr v (writeConn_fr h.v.sz hx') ?_
    rcases writeConn_spec h i wv with ⟨_, e | e⟩ | ⟨_, _, e⟩ | ⟨_, _, r', c'', out, e, g, _, _, g3, g2, _⟩ <;> rw [e] at hx' <;>
      cases hx' <;> first | rfl | rw [g3]
  | timeout now cb sp =>
    have hx' : timeoutProcess c now cb sp = .ok (r, c') := hx
    by_cases hd : annDue c now
    · unfold timeoutProcess at hx'
      rw [if_pos ⟨hd.1, hd.2.1, by have := hd.2.2; omega⟩] at hx'
      dsimp only at hx'
      have h' : Good (ev c (.announce now c.annInterval)) pops L := h.congr rfl rfl
      have ha' : Armed rg (ev c (.announce now c.annInterval)) := ha
      split at hx'
      · obtain ⟨⟨r1, c1⟩, h1, hx'⟩ := bind_ok hx'
        cases hx'
        have : Armed rg c1 := queue_armed v h' hb ha' h1
        exact this
      · cases hx'; exact ha'
    · have ht := timeout_resend h hd hx'
      obtain ⟨_, ys, g1, g2, g3, _⟩ := subscribersTimeout_spec _ ((subs_nodup h).filter _)
        (fun k hk => (h.slots k).2 (List.mem_filter.mp hk).1) h ht
      refine ha.fr v (subscribers_fr _ ?_ ht) (queueSize_eq h g1 ?_)
      · intro k hk
        exact mult_ne (h.v.lt k ((h.slots k).2 (List.mem_filter.mp hk).1)) h.v.sz
      · intro y hy
        obtain ⟨_, _, e2⟩ := g2.acks.acks y hy; exact .inl ⟨_, _, e2⟩
  | close i =>
    have hx' : closeConnection c i = .ok (r, c') := hx
    by_cases hi : i ∈ L
    · refine ha.fr v (close_fr h hx') ?_
      obtain ⟨c'', e, g, _, _, g2, _⟩ := close_spec h hi
      rw [e] at hx'; cases hx'
      exact queueSize_eq h g (by simp)
    · rw [close_none h hi] at hx'; cases hx'
      exact ha
  | setAnnounce n now => cases hx; exact ha
  | throttling a b =>
    have hx' : throttling c a b = (r, c') := Except.ok.inj hx
    unfold throttling at hx'
    split at hx' <;> cases hx' <;> exact ha
  | setCtlCb b => cases hx; exact ha
  | activate x => exact hq.elim
  | deactivate => exact hq.elim

/-- C48 for the multicast socket, in a history that activates the context, and then neither activates it again, nor deactivates
it, nor reads from the multicast socket: the socket is registered, the "old action" passed to the event loop always has the write
interest registered before, and the action last registered asks for write readiness if and only if a packet is waiting
to be multicast.
Missing for the full property: other histories, see `C48_mcast_false`. -/
theorem C48_mcast_partial {md ld port : Nat} {ops : List Op} {c : PubCtx} (h : Reaches (.activate (.ok (md, ld, port)) :: ops) c)
    (hq : ∀ op ∈ ops, quiet op) :
    ∃ a, regW MULTICAST_INDEX c.cv.polls = some (some a) ∧ lastAct MULTICAST_INDEX c.cv.polls = some a ∧
      (a.w = true ↔ (sentAll c.pub.log).length < (queuedPkts c.pub.log).length + (queuedAnn c.pub.log).length) := by
  have hcount := (C28_exact_partial h).1
  have hw : Armed (regW MULTICAST_INDEX) c := by
    obtain ⟨mem, n, nid, ip, prt, rs, h1, h2, h3, h4⟩ := h
    rw [run_cons] at h4
    obtain ⟨⟨r0, c0⟩, k1, k2⟩ := bind_ok h4
    obtain ⟨⟨rs1, c2⟩, k3, k4⟩ := bind_ok k2
    cases k4
    cases k1
    have g0 := (Good.init mem h1 nid ip prt).fds
      (c' := { init mem n nid ip prt with cv := (init mem n nid ip prt).cv.fdAll [.opened md, .opened ld] }) rfl rfl
    have g1 : Good (activate (init mem n nid ip prt) (.ok (md, ld, port))).2 [] [] :=
      ((g0.pollOther (e := .add MULTICAST_INDEX (some md) .R) (by show LISTEN_INDEX ≤ MULTICAST_INDEX; decide)).pollOther
        (e := .add LISTEN_INDEX (some ld) .R) (by show LISTEN_INDEX ≤ LISTEN_INDEX; decide)).congr rfl rfl
    have ha : Armed (regW MULTICAST_INDEX) (activate (init mem n nid ip prt) (.ok (md, ld, port))).2 := by
      refine ⟨.R, rfl, ?_⟩
      constructor
      · intro h; cases h
      · intro h; exact absurd rfl h
    clear hcount
    rw [List.length_cons] at h3
    have key : ∀ (os : List Op) {d d' : PubCtx} {pops : List POp} {L : List Nat} {rs : List Nat}, Good d pops L → Armed (regW MULTICAST_INDEX) d →
        (∀ op ∈ os, op.sane) → (∀ op ∈ os, quiet op) → (queueArgs pops).length + os.length + 1 < U64 →
        run d os = .ok (rs, d') → Armed (regW MULTICAST_INDEX) d' := by
      intro os
      induction os with
      | nil => intro d d' pops L rs _ ha _ _ _ hx; cases hx; exact ha
      | cons o os ih =>
        intro d d' pops L rs g ha hs hq hb hx
        rw [run_cons] at hx
        obtain ⟨⟨r, d1⟩, h1, h2⟩ := bind_ok hx
        obtain ⟨⟨rs1, d2⟩, h3, h4⟩ := bind_ok h2
        cases h4
        rw [List.length_cons] at hb
        obtain ⟨ys, L', g1, _, _, g2⟩ := step_good g (hs o (by simp)) (by omega) h1
        refine ih g1 (step_armed .regW g (hs o (by simp)) (hq o (by simp)) (by omega) ha h1) (fun x hx => hs x (by simp [hx]))
          (fun x hx => hq x (by simp [hx])) ?_ h3
        have : queueArgs (pops ++ ys) = queueArgs pops ++ queueArgs ys := List.filterMap_append ..
        rw [this, List.length_append]; omega
    exact key ops g1 ha (fun o ho => h2 o (by simp [ho])) hq (by simp [queueArgs]; omega) k3
  obtain ⟨a, h1, h2⟩ := hw
  refine ⟨a, h1, regW_last _ _ _ h1, ?_⟩
  rw [h2]
  have : (getPending c).2.1 = Pub.queueSize c.pub := by
    unfold getPending; dsimp only; split <;> rfl
  rw [this] at hcount
  unfold Waiting
  omega

example : ∀ op ∈ exPre.tail ++ [Op.queue (exPay 9) false], quiet op := by simp [exPre, quiet]
example : ∃ c rs, Reaches (exPre ++ [.queue (exPay 9) false]) c ∧ run exC0 (exPre ++ [.queue (exPay 9) false]) = .ok (rs, c) ∧
    decide ((sentAll c.pub.log).length < (queuedPkts c.pub.log).length + (queuedAnn c.pub.log).length) = true :=
  reaches_of (P := fun rs c => decide ((sentAll c.pub.log).length < (queuedPkts c.pub.log).length + (queuedAnn c.pub.log).length))
    (by simp [exPre, Op.sane, saneAcc]) (by decide) (by decide +kernel)

/-- C48 fails for the multicast socket: a packet is waiting and the action last registered does not ask for write readiness,
(1) after a read from the multicast socket, (2) if the packet was queued before activation; and (3) the first packet queued
passes an old action that is not the one registered. -/
theorem C48_mcast_false :
    (∃ c, Reaches [.activate (.ok (7, 8, 9)), .queue (exPay 1) false, .readMcast none] c ∧
      Pub.queueSize c.pub = 1 ∧ lastAct MULTICAST_INDEX c.cv.polls = some .R) ∧
    (∃ c, Reaches [.queue (exPay 1) false, .activate (.ok (7, 8, 9))] c ∧
      Pub.queueSize c.pub = 1 ∧ lastAct MULTICAST_INDEX c.cv.polls = some .R) ∧
    (∃ c, Reaches [.activate (.ok (7, 8, 9)), .queue (exPay 1) false] c ∧ reg MULTICAST_INDEX c.cv.polls = none) := by
  refine ⟨?_, ?_, ?_⟩
  · obtain ⟨c, rs, h1, _, h2⟩ := reaches_of (ops := [.activate (.ok (7, 8, 9)), .queue (exPay 1) false, .readMcast none])
      (P := fun rs c => decide (Pub.queueSize c.pub = 1 ∧ lastAct MULTICAST_INDEX c.cv.polls = some .R))
      (by simp [Op.sane, saneAcc]) (by decide) (by decide +kernel)
    exact ⟨c, h1, of_decide_eq_true h2⟩
  · obtain ⟨c, rs, h1, _, h2⟩ := reaches_of (ops := [.queue (exPay 1) false, .activate (.ok (7, 8, 9))])
      (P := fun rs c => decide (Pub.queueSize c.pub = 1 ∧ lastAct MULTICAST_INDEX c.cv.polls = some .R))
      (by simp [Op.sane, saneAcc]) (by decide) (by decide +kernel)
    exact ⟨c, h1, of_decide_eq_true h2⟩
  · obtain ⟨c, rs, h1, _, h2⟩ := reaches_of (ops := [.activate (.ok (7, 8, 9)), .queue (exPay 1) false])
      (P := fun rs c => decide (reg MULTICAST_INDEX c.cv.polls = none))
      (by simp [Op.sane, saneAcc]) (by decide) (by decide +kernel)
    exact ⟨c, h1, of_decide_eq_true h2⟩

/-- Packets or announcements given to the publisher and not yet multicast. -/
def ToSend (c : PubCtx) : Prop :=
  (sentAll c.pub.log).length < (queuedPkts c.pub.log).length + (queuedAnn c.pub.log).length

instance (c : PubCtx) : Decidable (ToSend c) := by unfold ToSend; infer_instance

theorem toSend_waiting {ops : List Op} {c : PubCtx} (h : Reaches ops c) : ToSend c ↔ Waiting c := by
  have hcount := (C28_exact_partial h).1
  have : (getPending c).2.1 = Pub.queueSize c.pub := by
    unfold getPending; dsimp only; split <;> rfl
  rw [this] at hcount
  unfold Waiting ToSend
  omega

theorem lastAct_modify (i : Nat) (xs : List PollEv) (d : Option Nat) (o a : Act) : lastAct i (xs ++ [.modify i d o a]) = some a := by
  unfold lastAct; rw [List.foldl_append]; simp

/-- C48, what a successful call to queue a packet asks for at the multicast socket, in every history: write readiness and
nothing else. -/
theorem C48_mcast_queue {ops : List Op} {c c' : PubCtx} (h : Reaches ops c) (hl : ops.length + 2 < U64) {p : Payload}
    {ann : Bool} (hx : step c (.queue p ann) = .ok (0, c')) : lastAct MULTICAST_INDEX c'.cv.polls = some ⟨false, true⟩ := by
  obtain ⟨pops, L, g, h1, h2, _⟩ := h.good
  rcases queue_cases g p ann (by omega) with ⟨_, e⟩ | ⟨_, _, e⟩ | ⟨_, _, s', _, _, _, e⟩ <;>
    rw [show step c (.queue p ann) = queuePacket c p ann from rfl, e] at hx
  · cases hx
  · cases hx
  · have hx := (Prod.mk.inj (Except.ok.inj hx)).2
    subst hx
    exact lastAct_modify _ _ _ _ _

theorem sendSingle_act {c c' : PubCtx} {pops : List POp} {L : List Nat} (g : Good c pops L) {a : Nat} {r : SendRes} {code : Nat}
    (ha : Pub.nextQueued c.pub = some a) (hm : c.mcast ≠ none) (hz : r.res ≠ .error 0) (hc : code = 0 ∨ code = EAGAIN)
    (hx : sendSingle c a r = .ok (code, c')) :
    lastAct MULTICAST_INDEX c'.cv.polls = some ⟨false, (Pub.nextQueued c'.pub).isSome⟩ := by
  have hw : ∀ b : Bool, wIf b = ⟨false, b⟩ := by intro b; cases b <;> rfl
  unfold sendSingle at hx
  rw [if_neg hm] at hx
  obtain ⟨p, _, hx⟩ := bind_ok hx
  split at hx
  · cases hx; rcases hc with hc | hc <;> cases hc
  · split at hx
    · rename_i e he
      split at hx
      · rename_i hne
        cases hx
        rcases hc with hc | hc
        · subst hc
          exact absurd he hz
        · exact absurd hc hne
      · cases hx
        rw [← hw]
        exact lastAct_modify _ _ _ _ _
    · dsimp only at hx
      obtain ⟨s, hs, hx⟩ := bind_ok hx
      cases hx
      rw [← hw]
      exact lastAct_modify _ _ _ _ _

theorem multicastWrite_act : ∀ (rs : List SendRes) {c c' : PubCtx} {pops : List POp} {L : List Nat} {r : Nat}, Good c pops L →
    c.mcast ≠ none → (∀ s ∈ rs, s.res ≠ .error 0) → r = 0 ∨ r = EAGAIN → multicastWrite c rs = .ok (r, c') →
    (Pub.nextQueued c.pub = none ∧ c' = c) ∨
    lastAct MULTICAST_INDEX c'.cv.polls = some ⟨false, (Pub.nextQueued c'.pub).isSome⟩ := by
  intro rs
  induction rs with
  | nil =>
    intro c c' pops L r g hm hz hc hx
    unfold multicastWrite at hx
    split at hx
    · rename_i h0; cases hx; exact .inl ⟨h0, rfl⟩
    · rename_i a ha
      exact .inr (sendSingle_act g ha hm (by intro h; cases h) hc hx)
  | cons s rs ih =>
    intro c c' pops L r g hm hz hc hx
    unfold multicastWrite at hx
    split at hx
    · rename_i h0; cases hx; exact .inl ⟨h0, rfl⟩
    · rename_i a ha
      right
      obtain ⟨⟨r1, c1⟩, h1, hx⟩ := bind_ok hx
      have hs := hz s (by simp)
      obtain ⟨_, c2, ys, es, ds, k1, k2, k3, _⟩ := sendSingle_spec g ha s
      rw [k1] at h1; cases h1
      dsimp only at hx
      split at hx
      · cases hx; exact sendSingle_act g ha hm hs hc k1
      · rename_i hr
        have hr : r1 = 0 := Classical.byContradiction hr
        have hm1 : c1.mcast ≠ none := by
          have : c1.mcast = c.mcast := congrArg Cfg.mcast k3
          rw [this]; exact hm
        rcases ih k2 hm1 (fun x hx => hz x (by simp [hx])) hc hx with ⟨_, e⟩ | e
        · rw [e]; exact sendSingle_act g ha hm hs (.inl hr) k1
        · exact e

/-- C48, what a write of the multicast socket asks for, in every history: if packets are waiting and the call returns 0 or "try
again", then afterwards write readiness is asked for exactly if packets are still waiting, and nothing else.
(A system call that fails sets errno.) -/
theorem C48_mcast_write {ops : List Op} {c c' : PubCtx} (h : Reaches ops c) {rs : List SendRes} {r : Nat} (hm : c.mcast ≠ none)
    (hz : ∀ s ∈ rs, s.res ≠ .error 0) (hw : ToSend c) (hr : r = 0 ∨ r = EAGAIN) (hx : step c (.writeMcast rs) = .ok (r, c')) :
    lastAct MULTICAST_INDEX c'.cv.polls = some ⟨false, decide (ToSend c')⟩ := by
  obtain ⟨pops, L, g, h1, h2, _⟩ := h.good
  have hx' : multicastWrite c rs = .ok (r, c') := hx
  rcases multicastWrite_act rs g hm hz hr hx' with ⟨e, _⟩ | e
  · have := (next_waiting g).2 ((toSend_waiting h).1 hw)
    rw [e] at this; cases this
  · rw [e]
    obtain ⟨r', c'', ys, es, ds, k1, g', _⟩ := multicastWrite_spec rs g
    rw [k1] at hx'
    have e : c' = c'' := (congrArg Prod.snd (Except.ok.inj hx')).symm
    subst e
    have hq : Pub.queueSize c'.pub + (sentAll c'.pub.log).length =
        (queuedPkts c'.pub.log).length + (queuedAnn c'.pub.log).length := queueSize_log g'
    have : (Pub.nextQueued c'.pub).isSome = decide (ToSend c') := by
      rw [Bool.eq_iff_iff, next_waiting g', decide_eq_true_iff]
      unfold Waiting ToSend
      omega
    rw [this]

example : ∃ c rs, Reaches (exPre ++ [.queue (exPay 9) false, .queue (exPay 8) false]) c ∧
    run exC0 (exPre ++ [.queue (exPay 9) false, .queue (exPay 8) false]) = .ok (rs, c) ∧
    (decide (c.mcast ≠ none ∧ ToSend c) && (match step c (.writeMcast [⟨.ok 50, []⟩, ⟨.error EAGAIN, []⟩]) with
      | .ok (r, c') => decide (r = EAGAIN ∧ ToSend c' ∧ lastAct MULTICAST_INDEX c'.cv.polls = some ⟨false, true⟩) | _ => false)) = true :=
  reaches_of (P := fun rs c => decide (c.mcast ≠ none ∧ ToSend c) && (match step c (.writeMcast [⟨.ok 50, []⟩, ⟨.error EAGAIN, []⟩]) with
      | .ok (r, c') => decide (r = EAGAIN ∧ ToSend c' ∧ lastAct MULTICAST_INDEX c'.cv.polls = some ⟨false, true⟩) | _ => false))
    (by simp [exPre, Op.sane, saneAcc]) (by decide) (by decide +kernel)

end PubCtx
end Rmc
