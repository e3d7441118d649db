import Verif.Props.PubCtxPoll
import Verif.Props.Settings

/-!
# C14 for the publisher; C58: the connect and disconnect callbacks of the publisher
-/

set_option linter.unusedSimpArgs false
set_option linter.unusedVariables false

namespace Rmc
namespace PubCtx
open CircBuf Proto PLog

/-! ## C14 -/

/-- C14 for the publisher (partial: reads in the safe class): if the bytes buffered and read are complete commands `good` followed by a
byte that is no command, then exactly the commands `good` are executed, EPROTO is returned, the bad byte and everything behind it stay
buffered, and the connection stays up. -/
theorem C14_publisher_unknown_partial {ops : List Op} {c d : PubCtx} (h : Reaches ops c) {i : Nat} (hc : Connected c i)
    (hw : WF (c.cv.conns i).readBuf) (hsz : (c.cv.conns i).readBuf.size ≤ U32) {x : List UInt8}
    (hs : ChunksSafe (pubLang i) (c.cv.conns i).readBuf.size (c.cv.conns i).readBuf.start (bytes (c.cv.conns i).readBuf) [x])
    {good ys : List UInt8} {y : UInt8} (he : bytes (c.cv.conns i).readBuf ++ x = good ++ y :: ys)
    (hg : (pubLang i).rest good = []) (hy : y ≠ CMD_ACK_INTERVAL ∧ y ≠ CMD_CONTROL_MESSAGE)
    (hd : effects (pubLang i) c ((pubLang i).commands good) = .ok d) :
    ∃ v, step c (.read i (some x)) = .ok (EPROTO, d.withCv v) ∧ bytes (v.conns i).readBuf = y :: ys ∧ Connected (d.withCv v) i := by
  obtain ⟨pops, L, hgd, _⟩ := h.good
  have hb : (pubLang i).frame (y :: ys) = .bad := by
    show pubFrame (y :: ys) = .bad
    unfold pubFrame; dsimp only; rw [if_neg hy.1, if_neg hy.2]
  obtain ⟨⟨hx, hfit, htrim, hsafe⟩, _⟩ := hs
  have hbl := length_bytes (c.cv.conns i).readBuf
  have key := readConn_lang hgd (hgd.connected.1 hc) hw (xs := x) hsz hx (by rw [available_eq hw]; omega)
    (by unfold ReadSafe; rw [← hbl]; exact htrim) hsafe
  obtain ⟨a1, a2, a3⟩ := Lang.split_append (pubLang_ok i) _ good (y :: ys) (Nat.le_refl _)
  obtain ⟨d1, d2, d3⟩ := Lang.split_bad (L := pubLang i) (List.cons_ne_nil y ys) hb
  rw [hg, List.nil_append] at a1 a2 a3
  rw [he, a1, a2, a3, d1, d2, d3, List.append_nil, hd] at key
  obtain ⟨b', e1, e2, e3, e4, e5⟩ := key
  obtain ⟨zs, _, g1, _⟩ := effects_good _ hgd hd
  exact ⟨afterRead c i b', e1, by rw [afterRead_self]; exact e4,
    (good_afterRead g1 (effects_cv_eq hd) (hgd.connected.1 hc) b').connected.2 (hgd.connected.1 hc)⟩

/-- C14 for the publisher (partial: reads in the safe class): if the bytes buffered and read are complete commands `good` followed by a
proper part of a command, then exactly the commands `good` are executed, EAGAIN is returned and the part stays buffered. An
acknowledgement is 17 bytes long, a control message 3 bytes more than the 2 bytes after its first say. -/
theorem C14_publisher_incomplete_partial {ops : List Op} {c d : PubCtx} (h : Reaches ops c) {i : Nat} (hc : Connected c i)
    (hw : WF (c.cv.conns i).readBuf) (hsz : (c.cv.conns i).readBuf.size ≤ U32) {x : List UInt8}
    (hs : ChunksSafe (pubLang i) (c.cv.conns i).readBuf.size (c.cv.conns i).readBuf.start (bytes (c.cv.conns i).readBuf) [x])
    {good ys : List UInt8} {y : UInt8} (he : bytes (c.cv.conns i).readBuf ++ x = good ++ y :: ys)
    (hg : (pubLang i).rest good = [])
    (hy : (y = CMD_ACK_INTERVAL ∧ ys.length < 16) ∨
      (y = CMD_CONTROL_MESSAGE ∧ (ys.length < 2 ∨ ys.length < 2 + ctlDec (ys.take 2))))
    (hd : effects (pubLang i) c ((pubLang i).commands good) = .ok d) :
    ∃ v, step c (.read i (some x)) = .ok (EAGAIN, d.withCv v) ∧ bytes (v.conns i).readBuf = y :: ys ∧ Connected (d.withCv v) i := by
  obtain ⟨pops, L, hgd, _⟩ := h.good
  have hb : (pubLang i).frame (y :: ys) = .more := by
    show pubFrame (y :: ys) = .more
    unfold pubFrame; dsimp only
    rcases hy with ⟨rfl, hy⟩ | ⟨rfl, hy⟩
    · rw [if_pos rfl, if_pos hy]
    · rw [if_neg (by decide), if_pos rfl]
      by_cases h2 : ys.length < 2
      · rw [if_pos h2]
      · rw [if_neg h2, if_pos (hy.resolve_left h2)]
  obtain ⟨⟨hx, hfit, htrim, hsafe⟩, _⟩ := hs
  have hbl := length_bytes (c.cv.conns i).readBuf
  have key := readConn_lang hgd (hgd.connected.1 hc) hw (xs := x) hsz hx (by rw [available_eq hw]; omega)
    (by unfold ReadSafe; rw [← hbl]; exact htrim) hsafe
  obtain ⟨a1, a2, a3⟩ := Lang.split_append (pubLang_ok i) _ good (y :: ys) (Nat.le_refl _)
  obtain ⟨d1, d2, d3⟩ := Lang.split_more (L := pubLang i) (List.cons_ne_nil y ys) hb
  rw [hg, List.nil_append] at a1 a2 a3
  rw [he, a1, a2, a3, d1, d2, d3, List.append_nil, hd] at key
  obtain ⟨b', e1, e2, e3, e4, e5⟩ := key
  obtain ⟨zs, _, g1, _⟩ := effects_good _ hgd hd
  exact ⟨afterRead c i b', e1, by rw [afterRead_self]; exact e4,
    (good_afterRead g1 (effects_cv_eq hd) (hgd.connected.1 hc) b').connected.2 (hgd.connected.1 hc)⟩

/-- C14 is false in general: a protocol error is reported although all the bytes received are complete, known commands (seven
of them, the last two reads cutting a command), and by then a control message has been executed a second time. -/
theorem C14_false : ∃ (cmds : List (List UInt8)) (x y z : List UInt8), cmds.flatten = x ++ y ++ z ∧
    (∀ cmd ∈ cmds, pubFrame cmd = .cmd cmd.length) ∧
    (match run exC0 (exPre ++ [.read 0 (some x), .read 0 (some y), .read 0 (some z)]) with
      | .ok (rs, c) => decide (rs.getLast? = some EPROTO ∧ c.log.count (.ctl 0 [9]) = 2 ∧ cmds.count (ctlBytes [9]) = 1)
      | .error _ => false) = true := by
  refine ⟨[ackBytes 1 1, ackBytes 1 1, ackBytes 1 1, ctlBytes [9], ackBytes 1 1, ackBytes 2 2, ackBytes 3 3],
    ackBytes 1 1 ++ ackBytes 1 1 ++ ackBytes 1 1 ++ ctlBytes [9], (ackBytes 1 1 ++ ackBytes 2 2 ++ ackBytes 3 3).take 39,
    (ackBytes 1 1 ++ ackBytes 2 2 ++ ackBytes 3 3).drop 39, ?_, ?_, ?_⟩
  · decide +kernel
  · decide +kernel
  · decide +kernel

/-- Non-vacuity: packet 1 is acknowledged, then comes a byte 9, and more. The acknowledgement is executed and the rest stays. -/
example : ∃ c rs, Reaches (exPre ++ [.read 1 (some (ackBytes 1 1 ++ [9, 2, 3]))]) c ∧
    run exC0 (exPre ++ [.read 1 (some (ackBytes 1 1 ++ [9, 2, 3]))]) = .ok (rs, c) ∧
    decide (rs.getLast? = some EPROTO ∧ c.pub.outstanding 1 = [2, 3] ∧ bytes (c.cv.conns 1).readBuf = [9, 2, 3] ∧ Connected c 1)
      = true :=
  reaches_of (P := fun rs c => decide (rs.getLast? = some EPROTO ∧ c.pub.outstanding 1 = [2, 3] ∧
    bytes (c.cv.conns 1).readBuf = [9, 2, 3] ∧ Connected c 1)) (by simp [exPre, Op.sane, saneAcc]) (by decide) (by decide +kernel)

/-! ## Specification -/

/-- How often the disconnect callback was called for a slot. -/
def disconnects (i : Nat) (log : List CEv) : Nat := log.countP fun e => match e with
  | .disconnectCb j => j == i
  | _ => false

/-- How often the connect callback was called for a slot. -/
def connects (i : Nat) (log : List CEv) : Nat := log.countP fun e => match e with
  | .connectCb j _ => j == i
  | _ => false

/-- How often a slot was opened: each time, and at no other time, the event loop is told to add its descriptor. -/
def opens (i : Nat) (ps : List PollEv) : Nat := ps.countP fun e => match e with
  | .add j _ _ => j == i
  | _ => false

/-- How often a slot was closed: the event loop was told to remove its descriptor. -/
def removals (i : Nat) (ps : List PollEv) : Nat := ps.countP fun e => match e with
  | .remove j _ => j == i
  | _ => false

/-! ## One call -/

/-- A callback of the application called for a slot. -/
def callbackFor (i : Nat) : CEv → Prop
  | .connectCb j _ => j = i
  | .disconnectCb j => j = i
  | _ => False

/-- The callbacks logged by a call match the slots it closes and, if there is a connect callback (`q`), those it opens. -/
def Bal (q : Bool) (c c' : PubCtx) : Prop := ∃ ds ps, c'.log = c.log ++ ds ∧ c'.cv.polls = c.cv.polls ++ ps ∧ c'.cv.size = c.cv.size ∧
  (∀ e ∈ ds, ∀ i, callbackFor i e → i < c.cv.size) ∧
  ∀ i, i < LISTEN_INDEX → disconnects i ds = removals i ps ∧ (q = true → connects i ds = opens i ps)

variable {q : Bool}

theorem Bal.refl (c : PubCtx) : Bal q c c := ⟨[], [], by simp, by simp, rfl, by simp, fun _ _ => ⟨rfl, fun _ => rfl⟩⟩

theorem Bal.trans {a b c : PubCtx} (h1 : Bal q a b) (h2 : Bal q b c) : Bal q a c := by
  obtain ⟨ds, ps, e1, e2, e3, e5, e4⟩ := h1
  obtain ⟨ds', ps', f1, f2, f3, f5, f4⟩ := h2
  refine ⟨ds ++ ds', ps ++ ps', by rw [f1, e1, List.append_assoc], by rw [f2, e2, List.append_assoc], f3.trans e3, ?_, ?_⟩
  · intro e he i hi
    rcases List.mem_append.1 he with he | he
    · exact e5 e he i hi
    · rw [← e3]; exact f5 e he i hi
  intro i hi
  have a1 := e4 i hi
  have a2 := f4 i hi
  unfold disconnects removals connects opens at *
  rw [List.countP_append, List.countP_append, List.countP_append, List.countP_append, a1.1, a2.1]
  exact ⟨rfl, fun hq => by rw [a1.2 hq, a2.2 hq]⟩

theorem Bal.same {c c' : PubCtx} (h1 : c'.log = c.log) (h2 : c'.cv.polls = c.cv.polls) (h3 : c'.cv.size = c.cv.size) : Bal q c c' :=
  ⟨[], [], by simpa using h1, by simpa using h2, h3, by simp, fun _ _ => ⟨rfl, fun _ => rfl⟩⟩

theorem Bal.ev (c : PubCtx) {e : CEv} (he0 : ∀ i, e ≠ .disconnectCb i ∧ ∀ b, e ≠ .connectCb i b) : Bal q c (ev c e) := by
  refine ⟨[e], [], rfl, by simp [PubCtx.ev], rfl, ?_, ?_⟩
  · intro e' he i hi
    rw [List.mem_singleton.1 he] at hi
    unfold callbackFor at hi
    cases e <;> first | exact hi.elim | skip
    all_goals first | exact absurd rfl (he0 _).1 | exact absurd rfl ((he0 _).2 _)
  intro i _
  show disconnects i [e] = 0 ∧ (_ → connects i [e] = 0)
  unfold disconnects connects
  cases e <;> first | exact ⟨rfl, fun _ => rfl⟩ | exact absurd rfl (he0 _).1 | exact absurd rfl ((he0 _).2 _)

theorem Bal.modify (c : PubCtx) (i : Nat) (d : Option Nat) (o n : Act) : Bal q c (pollModify c i d o n) :=
  ⟨[], [.modify i d o n], by simp [pollModify], rfl, rfl, by simp, fun _ _ => ⟨rfl, fun _ => rfl⟩⟩

theorem Bal.conn (c : PubCtx) (i : Nat) (x : Conn) : Bal q c (setConn c i x) := .same rfl rfl rfl

theorem packetAck_log {c c' : PubCtx} {i pid : Nat} (h : packetAck c i pid = .ok c') : c'.log = c.log := by
  unfold packetAck at h
  obtain ⟨s, _, h⟩ := bind_ok h
  dsimp only at h
  have h := Except.ok.inj h
  subst h
  split <;> rfl

theorem packetAck_bal {c c' : PubCtx} {i pid : Nat} (h : packetAck c i pid = .ok c') : Bal q c c' :=
  .same (packetAck_log h) (by rw [packetAck_cv' h]) (by rw [packetAck_cv' h])

theorem ackRange_bal {i : Nat} : ∀ (n : Nat) {c c' : PubCtx} {pid : Nat}, ackRange c i pid n = .ok c' → Bal q c c' := by
  intro n
  induction n with
  | zero => intro c c' pid h; cases h; exact .refl _
  | succ n ih =>
    intro c c' pid h
    unfold ackRange at h
    obtain ⟨c1, h1, h2⟩ := bind_ok h
    exact (packetAck_bal h1).trans (ih h2)

theorem handler_bal {i : Nat} (c0 : PubCtx) : ∀ c h, lookup (table i) c = some h → ∀ s b r s' b', Bal q c0 s →
    h s b = .ok (r, s', b') → Bal q c0 s' := by
  intro c h hl s b r s' b' hs hx
  have hh : h = processAck i ∨ h = processCtl i := by
    unfold table lookup at hl
    repeat' (first | split at hl | unfold lookup at hl)
    all_goals first | exact .inl (Option.some.inj hl).symm | exact .inr (Option.some.inj hl).symm | cases hl
  rcases hh with rfl | rfl
  · unfold processAck at hx
    split at hx
    · cases hx; exact hs
    · obtain ⟨x, _, hx⟩ := bind_ok hx
      obtain ⟨c2, h2, hx⟩ := bind_ok hx
      cases hx
      unfold ackInterval at h2
      split at h2
      · cases h2
      · exact hs.trans (ackRange_bal _ h2)
  · unfold processCtl at hx
    split at hx
    · cases hx; exact hs
    · obtain ⟨x, _, hx⟩ := bind_ok hx
      dsimp only at hx
      split at hx
      · cases hx; exact hs
      · obtain ⟨c2, h2, hx⟩ := bind_ok hx
        cases hx
        split at h2
        · cases h2
        · cases h2; exact hs
        · obtain ⟨y, _, h2⟩ := bind_ok h2
          cases h2; exact hs.trans (.ev _ (by simp))

theorem close_polls {v : ConnVec} {i : Nat} (h : ConnVec.findByIndex v i ≠ none) :
    (ConnVec.close v i).2.polls = v.polls ++ [.remove i (v.conns i).desc] ∧ (ConnVec.close v i).2.size = v.size := by
  unfold ConnVec.findByIndex at h
  split at h
  · exact absurd rfl h
  · rename_i h1
    split at h
    · exact absurd rfl h
    · rename_i h2
      have : ∀ w : ConnVec, (ConnVec.resetMax w).polls = w.polls ∧ (ConnVec.resetMax w).size = w.size := by
        intro w; unfold ConnVec.resetMax; constructor <;> (repeat' split) <;> rfl
      unfold ConnVec.close
      rw [if_neg h1, if_neg h2]
      dsimp only
      split
      · exact ⟨(this _).1, (this _).2⟩
      · exact ⟨rfl, rfl⟩

theorem close_bal {c c' : PubCtx} {i r : Nat} (hx : closeConnection c i = .ok (r, c')) : Bal q c c' := by
  unfold closeConnection at hx
  split at hx
  · cases hx; exact .refl _
  · rename_i h
    dsimp only at hx
    obtain ⟨s, _, hx⟩ := bind_ok hx
    cases hx
    obtain ⟨h1, h2⟩ := close_polls h
    refine ⟨[.disconnectCb i], [.remove i (c.cv.conns i).desc], rfl, h1, h2, ?_, ?_⟩
    · intro e he j hj
      rw [List.mem_singleton.1 he] at hj
      have hj : i = j := hj
      subst hj
      unfold ConnVec.findByIndex at h
      split at h
      · exact absurd rfl h
      · omega
    intro j _
    unfold disconnects removals
    exact ⟨by simp [List.countP_cons], fun _ => rfl⟩

theorem accept_polls {v : ConnVec} {ld : Option Nat} {ar : ConnVec.AccRes} (hs : saneAcc ar) : ∃ ps,
    (ConnVec.accept v ld ar).2.2.polls = v.polls ++ ps ∧ (ConnVec.accept v ld ar).2.2.size = v.size ∧ (∀ i, removals i ps = 0) ∧
    ((ConnVec.accept v ld ar).2.1 = none → ∀ i, opens i ps = 0) ∧
    (∀ j, (ConnVec.accept v ld ar).2.1 = some j → ∀ i, i < LISTEN_INDEX → opens i ps = if j = i then 1 else 0) ∧
    ∀ j, (ConnVec.accept v ld ar).2.1 = some j → j < v.size := by
  have hg : (ConnVec.getFreeSlot v).2.polls = v.polls ∧ (ConnVec.getFreeSlot v).2.size = v.size := by
    unfold ConnVec.getFreeSlot
    constructor <;> (repeat' split) <;> rfl
  unfold ConnVec.accept
  split
  · rename_i w hw; rw [hw] at hg
    exact ⟨[], by simpa using hg.1, hg.2, fun _ => rfl, fun _ _ => rfl, fun j h => (by cases h), fun j h => (by cases h)⟩
  · rename_i i w hw
    rw [hw] at hg
    cases ar with
    | failed e => exact ⟨[], by simpa using hg.1, hg.2, fun _ => rfl, fun _ _ => rfl, fun j h => (by cases h), fun j h => (by cases h)⟩
    | noDelayFailed d e => exact hs.elim
    | ok d a =>
      dsimp only
      refine ⟨[.add i (some d) .R, .modify LISTEN_INDEX ld .R .R], ?_, hg.2, fun _ => rfl, fun h => (by cases h), ?_, ?_⟩
      · show (w.polls ++ [_]) ++ [_] = _
        rw [show w.polls = v.polls from hg.1]; simp
      · intro j h k hk
        cases h
        unfold opens
        simp [List.countP_cons]
      · intro j h
        cases h
        unfold ConnVec.getFreeSlot at hw
        split at hw
        · rename_i k hk
          have := List.mem_range.1 (List.mem_of_find?_eq_some hk)
          have e := Option.some.inj (congrArg Prod.fst hw)
          omega
        · cases congrArg Prod.fst hw

theorem readListen_bal {c c' : PubCtx} {ar : ConnVec.AccRes} (hs : saneAcc ar) {cb : Option Bool} (hq : q = true → cb ≠ none) {r : Nat}
    (hx : readListen c ar cb = .ok (r, c')) : Bal q c c' := by
  obtain ⟨ps, e1, e2, e3, e4, e5, e6⟩ := accept_polls (v := c.cv) (ld := c.listen) hs
  unfold readListen at hx
  dsimp only at hx
  split at hx
  · rename_i hr
    cases hx
    refine ⟨[], ps, by simp, e1, e2, by simp, fun i hi => ⟨(e3 i).symm, fun _ => ?_⟩⟩
    refine (e4 ?_ i).symm
    cases ar with
    | noDelayFailed d e => exact hs.elim
    | failed e => unfold ConnVec.accept; split <;> rfl
    | ok d a =>
      unfold ConnVec.accept at hr ⊢
      split
      · rfl
      · rename_i h; rw [h] at hr; exact absurd rfl hr
  · split at hx
    · cases hx
    · rename_i i hi
      split at hx
      · cases hx
      · split at hx
        · cases hx
          refine ⟨[], ps, by simp, e1, e2, by simp, fun i hi => ⟨(e3 i).symm, fun h => absurd rfl (hq h)⟩⟩
        · rename_i ok
          have h2 : Bal q c (ev { { c with cv := (ConnVec.accept c.cv c.listen ar).2.2 } with
              pub := Pub.initSubscriber c.pub i } (.connectCb i ok)) := by
            refine ⟨[.connectCb i ok], ps, rfl, e1, e2, ?_, fun j hj => ⟨(e3 j).symm, fun _ => ?_⟩⟩
            rotate_left
            rw [e5 i hi j hj]
            unfold connects
            simp [List.countP_cons]
            intro e he j hj
            rw [List.mem_singleton.1 he] at hj
            have hj : i = j := hj
            subst hj
            exact e6 i hi
          split at hx
          · cases hx; exact h2
          · obtain ⟨y, hy, hx⟩ := bind_ok hx
            cases hx
            exact h2.trans (close_bal hy)

theorem readConn_bal {c c' : PubCtx} {i r : Nat} {rv : Option (List UInt8)} (hx : readConn c i rv = .ok (r, c')) : Bal q c c' := by
  unfold readConn at hx
  split at hx
  · cases hx; exact .refl _
  · obtain ⟨⟨r1, c1, b1⟩, h1, hx⟩ := bind_ok hx
    have h2 : Bal q c c1 := tcpRead_pres (P := fun s => Bal q c s) (handler_bal c) (.refl c) h1
    dsimp only at hx
    split at hx
    · obtain ⟨⟨r2, c2⟩, h3, hx⟩ := bind_ok hx
      cases hx
      exact (h2.trans (.conn _ _ _)).trans (close_bal h3)
    · cases hx
      exact (h2.trans (.conn _ _ _)).trans ((Bal.conn _ _ _).trans (.modify _ _ _ _ _))

theorem writeConn_bal {c c' : PubCtx} {i r : Nat} {wv : Except Nat Nat} (hx : writeConn c i wv = .ok (r, c')) : Bal q c c' := by
  unfold writeConn at hx
  split at hx
  · cases hx; exact .refl _
  · split at hx
    · cases hx; exact .refl _
    · split at hx
      · cases hx; exact .refl _
      · obtain ⟨x, _, hx⟩ := bind_ok hx
        cases hx
        exact ((Bal.conn _ _ _).trans (.ev _ (by simp))).trans (.modify _ _ _ _ _)

theorem armWrite_bal (c : PubCtx) (i : Nat) : Bal q c (armWrite c i) := by
  unfold armWrite
  dsimp only
  split
  · exact .refl _
  · exact (Bal.conn _ _ _).trans (.modify _ _ _ _ _)

theorem resend_bal {c c' : PubCtx} {i r : Nat} {p : Pkt} (hx : resendPacket c i p = .ok (r, c')) : Bal q c c' := by
  unfold resendPacket at hx
  dsimp only at hx
  split at hx
  · cases hx; exact armWrite_bal _ _
  · obtain ⟨b, _, hx⟩ := bind_ok hx
    cases hx
    exact (Bal.conn _ _ _).trans (armWrite_bal _ _)

theorem sentPacket_bal {c c' : PubCtx} {i a r : Nat} (hx : sentPacketTimeout c i a = .ok (r, c')) : Bal q c c' := by
  unfold sentPacketTimeout at hx
  obtain ⟨p, _, hx⟩ := bind_ok hx
  split at hx
  · obtain ⟨c1, h1, hx⟩ := bind_ok hx
    cases hx
    exact packetAck_bal h1
  · obtain ⟨⟨r1, c1⟩, h1, hx⟩ := bind_ok hx
    dsimp only at hx
    split at hx
    · obtain ⟨c2, h2, hx⟩ := bind_ok hx
      cases hx
      exact (resend_bal h1).trans (packetAck_bal h2)
    · cases hx; exact resend_bal h1

theorem resendLoop_bal {i : Nat} : ∀ (as : List Nat) {c c' : PubCtx} {r : Nat}, resendLoop c i as = .ok (r, c') → Bal q c c' := by
  intro as
  induction as with
  | nil => intro c c' r hx; cases hx; exact .refl _
  | cons a as ih =>
    intro c c' r hx
    rw [resendLoop_cons] at hx
    obtain ⟨⟨r1, c1⟩, h1, hx⟩ := bind_ok hx
    dsimp only at hx
    split at hx
    · cases hx; exact sentPacket_bal h1
    · exact (sentPacket_bal h1).trans (ih hx)

theorem subscribers_bal {now : Int} : ∀ (ks : List Nat) {c c' : PubCtx} {r : Nat},
    subscribersTimeout c now ks = .ok (r, c') → Bal q c c' := by
  intro ks
  induction ks with
  | nil => intro c c' r hx; cases hx; exact .refl _
  | cons k ks ih =>
    intro c c' r hx
    rw [subscribersTimeout_cons] at hx
    obtain ⟨⟨r1, c1⟩, h1, hx⟩ := bind_ok hx
    have f1 : Bal q c c1 := by
      unfold subscriberTimeout at h1
      obtain ⟨as, _, h1⟩ := bind_ok h1
      exact resendLoop_bal as h1
    dsimp only at hx
    split at hx
    · cases hx; exact f1
    · exact f1.trans (ih hx)

theorem queue_bal {c c' : PubCtx} {p : Payload} {ann : Bool} {r : Nat} (hx : queuePacket c p ann = .ok (r, c')) : Bal q c c' := by
  unfold queuePacket at hx
  repeat' split at hx
  all_goals first
    | (cases hx; exact .refl _)
    | (have hx := (Prod.mk.inj (Except.ok.inj hx)).2
       subst hx
       exact ⟨[], [.modify _ _ _ _], by simp [pollModify], rfl, rfl, by simp, fun _ _ => ⟨rfl, fun _ => rfl⟩⟩)
    | (obtain ⟨x, _, hx⟩ := bind_ok hx
       have hx := (Prod.mk.inj (Except.ok.inj hx)).2
       subst hx
       split <;> exact ⟨[], [.modify _ _ _ _], by simp [pollModify], rfl, rfl, by simp, fun _ _ => ⟨rfl, fun _ => rfl⟩⟩)

theorem sendSingle_bal {c c' : PubCtx} {a : Nat} {r : SendRes} {code : Nat} (hx : sendSingle c a r = .ok (code, c')) : Bal q c c' := by
  unfold sendSingle at hx
  split at hx
  · cases hx; exact .refl _
  · obtain ⟨p, _, hx⟩ := bind_ok hx
    split at hx
    · cases hx; exact .refl _
    · split at hx
      · split at hx
        · cases hx; exact .refl _
        · cases hx; exact .modify _ _ _ _ _
      · dsimp only at hx
        obtain ⟨s, hs, hx⟩ := bind_ok hx
        cases hx
        exact ((Bal.same (c := c) (c' := { c with pub := s }) rfl rfl rfl).trans (.ev _ (by simp))).trans (.modify _ _ _ _ _)

theorem multicastWrite_bal : ∀ (rs : List SendRes) {c c' : PubCtx} {code : Nat},
    multicastWrite c rs = .ok (code, c') → Bal q c c' := by
  intro rs
  induction rs with
  | nil =>
    intro c c' code hx
    unfold multicastWrite at hx
    split at hx
    · cases hx; exact .refl _
    · exact sendSingle_bal hx
  | cons r rs ih =>
    intro c c' code hx
    unfold multicastWrite at hx
    split at hx
    · cases hx; exact .refl _
    · obtain ⟨⟨r1, c1⟩, h1, hx⟩ := bind_ok hx
      dsimp only at hx
      split at hx
      · cases hx; exact sendSingle_bal h1
      · exact (sendSingle_bal h1).trans (ih hx)

theorem closeAll_bal : ∀ (is : List Nat) {c c' : PubCtx}, closeAll c is = .ok c' → Bal q c c' := by
  intro is
  induction is with
  | nil => intro c c' hx; cases hx; exact .refl _
  | cons i is ih =>
    intro c c' hx
    unfold closeAll at hx
    split at hx
    · exact ih hx
    · obtain ⟨⟨r1, c1⟩, h1, hx⟩ := bind_ok hx
      exact (close_bal h1).trans (ih hx)

theorem removals_other {i : Nat} (hi : i < LISTEN_INDEX) (a b : Option Nat) :
    removals i [.remove MULTICAST_INDEX a, .remove LISTEN_INDEX b] = 0 := by
  have h1 : MULTICAST_INDEX ≠ i := by
    have : LISTEN_INDEX = 32765 := rfl
    have : MULTICAST_INDEX = 32766 := rfl
    omega
  have h2 : LISTEN_INDEX ≠ i := by omega
  simp [removals, List.countP_cons, h1, h2]

theorem opens_other {i : Nat} (hi : i < LISTEN_INDEX) (a b : Option Nat) :
    opens i [.add MULTICAST_INDEX a .R, .add LISTEN_INDEX b .R] = 0 := by
  have h1 : MULTICAST_INDEX ≠ i := by
    have : LISTEN_INDEX = 32765 := rfl
    have : MULTICAST_INDEX = 32766 := rfl
    omega
  have h2 : LISTEN_INDEX ≠ i := by omega
  simp [opens, List.countP_cons, h1, h2]

theorem step_bal {c c' : PubCtx} {op : Op} {r : Nat} (hs : op.sane) (hq : q = true → ∀ ar, op ≠ .readListen ar none)
    (hx : step c op = .ok (r, c')) : Bal q c c' := by
  cases op with
  | queue p ann => exact queue_bal hx
  | readListen ar cb => exact readListen_bal hs (fun h e => hq h ar (by rw [e])) hx
  | readMcast err =>
    have hx' : readMcast c err = (r, c') := Except.ok.inj hx
    unfold readMcast at hx'
    split at hx'
    · cases hx'; exact .refl _
    · split at hx'
      · cases hx'; exact .refl _
      · cases hx'; exact .modify _ _ _ _ _
  | read i rv => exact readConn_bal hx
  | writeMcast rs => exact multicastWrite_bal rs hx
  | write i wv => exact writeConn_bal hx
  | timeout now cb sp =>
    have hx' : timeoutProcess c now cb sp = .ok (r, c') := hx
    unfold timeoutProcess at hx'
    split at hx'
    · dsimp only at hx'
      split at hx'
      · obtain ⟨⟨r1, c1⟩, h1, hx'⟩ := bind_ok hx'
        cases hx'
        exact ((Bal.ev c (e := .announce now c.annInterval) (by simp)).trans (queue_bal h1)).trans (.same rfl rfl rfl)
      · cases hx'; exact (Bal.ev c (e := .announce now c.annInterval) (by simp)).trans (.same rfl rfl rfl)
    · obtain ⟨ks, _, hx'⟩ := bind_ok hx'
      exact subscribers_bal ks hx'
  | close i => exact close_bal hx
  | setAnnounce n now =>
    cases Except.ok.inj hx
    refine (Bal.same (c := c) (c' := { c with annInterval := n, annNext := _ }) rfl rfl rfl).trans (.ev _ (by simp))
  | throttling s r' =>
    have hx' : throttling c s r' = (r, c') := Except.ok.inj hx
    unfold throttling at hx'
    split at hx' <;> cases hx' <;> exact .same rfl rfl rfl
  | setCtlCb b => cases Except.ok.inj hx; exact .same rfl rfl rfl
  | activate x =>
    have hx' : activate c x = (r, c') := Except.ok.inj hx
    unfold activate at hx'
    split at hx'
    · cases hx'; exact .same rfl rfl rfl
    · cases hx'
      exact ⟨[], [.add MULTICAST_INDEX _ .R, .add LISTEN_INDEX _ .R], by simp, by
        show (c.cv.polls ++ [_]) ++ [_] = _; rw [List.append_assoc]; rfl, rfl, by simp, fun i hi => ⟨rfl, fun _ => (opens_other hi _ _).symm⟩⟩
  | deactivate =>
    have hx' : deactivate c = .ok (r, c') := hx
    unfold deactivate at hx'
    dsimp only at hx'
    have h0 : Bal q c { c with cv := (c.cv.poll (.remove MULTICAST_INDEX c.mcast)).poll (.remove LISTEN_INDEX c.listen) } :=
      ⟨[], [.remove MULTICAST_INDEX c.mcast, .remove LISTEN_INDEX c.listen], by simp, by
        show (c.cv.polls ++ [_]) ++ [_] = _; rw [List.append_assoc]; rfl, rfl, by simp, fun i hi => ⟨(removals_other hi _ _).symm, fun _ => rfl⟩⟩
    split at hx'
    · cases hx'; exact h0.trans (.same rfl rfl rfl)
    · obtain ⟨c1, h1, hx'⟩ := bind_ok hx'
      cases hx'
      exact (h0.trans (closeAll_bal _ h1)).trans (.same rfl rfl rfl)

/-! ## C58 -/

theorem disconnects_eq {ops : List Op} {c : PubCtx} (h : Reaches ops c) {i : Nat} (hi : i < LISTEN_INDEX) :
    disconnects i c.log = removals i c.cv.polls := by
  refine Reaches.induct (P := fun ops c => disconnects i c.log = removals i c.cv.polls) ?_ ?_ h
  · intro mem n nid ip port hn; rfl
  · intro ops c op r c' hr ha hs hb hx
    obtain ⟨ds, ps, e1, e2, _, _, e4⟩ := step_bal (q := false) hs (fun h => by cases h) hx
    have := (e4 i hi).1
    rw [e1, e2]
    unfold disconnects removals at *
    rw [List.countP_append, List.countP_append]; omega

/-- Adds and removes alternate, so as many slots were opened as were closed, plus one if the slot is registered now. -/
theorem opens_eq (i : Nat) : ∀ (ps : List PollEv) (a : Option Act), reg i ps = some a →
    opens i ps = removals i ps + (if a = none then 0 else 1) := by
  intro ps
  induction hl : ps.length generalizing ps with
  | zero =>
    intro a h
    have : ps = [] := List.length_eq_zero_iff.1 hl
    subst this
    cases h; rfl
  | succ n ih =>
    intro a h
    rcases List.eq_nil_or_concat ps with rfl | ⟨qs, e, rfl⟩
    · cases hl
    · rw [List.concat_eq_append] at hl h ⊢
      rw [reg_snoc] at h
      have hq : qs.length = n := by simp at hl; exact hl
      cases hr : reg i qs with
      | none => rw [hr] at h; cases h
      | some b =>
        have := ih qs hq b hr
        rw [hr] at h
        unfold opens removals at *
        rw [List.countP_append, List.countP_append, this]
        unfold regStep at h
        cases e with
        | add j d x =>
          dsimp only at h
          by_cases hj : j = i
          · rw [if_pos hj] at h
            split at h
            · rename_i hb; cases h; subst hb; simp [List.countP_cons, hj]
            · cases h
          · rw [if_neg hj] at h; cases h; simp [List.countP_cons, hj]
        | modify j d o x =>
          dsimp only at h
          by_cases hj : j = i
          · rw [if_pos hj] at h
            split at h
            · rename_i hb; cases h; subst hb; simp [List.countP_cons, hj]
            · cases h
          · rw [if_neg hj] at h; cases h; simp [List.countP_cons, hj]
        | remove j d =>
          dsimp only at h
          by_cases hj : j = i
          · rw [if_pos hj] at h
            split at h
            · cases h
            · rename_i hb; cases h; simp [List.countP_cons, hj, hb]
          · rw [if_neg hj] at h; cases h; simp [List.countP_cons, hj]

/-- C58: the disconnect callback is called exactly once for each subscriber connection that ended, however it ended: as often as the
connection's descriptor was taken out of the event loop, so as often as a connection was opened on the slot, less one if one is open
now. -/
theorem C58_disconnect {ops : List Op} {c : PubCtx} (h : Reaches ops c) {i : Nat} (hi : i < c.cv.size) :
    disconnects i c.log = removals i c.cv.polls ∧
    opens i c.cv.polls = disconnects i c.log + (if Connected c i then 1 else 0) := by
  obtain ⟨pops, L, g, _⟩ := h.good
  have hL : i < LISTEN_INDEX := Nat.lt_of_lt_of_le hi g.v.sz
  have e := disconnects_eq h hL
  refine ⟨e, ?_⟩
  have := opens_eq i _ _ (g.regs i hi)
  rw [e, this]
  by_cases hc : Connected c i
  · rw [if_pos hc, if_pos (g.connected.1 hc), if_neg (by simp)]
  · rw [if_neg hc, if_neg (fun x => hc (g.connected.2 x)), if_pos rfl]

/-- C58: what accepting a connection does. If accept() fails, or all slots are taken (ENOMEM), no callback is called and nobody is
connected. Otherwise the subscriber is connected, on a slot that was free, with the peer's address, and the connect callback, if there
is one, is called for it once; if it refuses, the disconnect callback is called and the slot is free again, else nothing else happens.
Either way no other connection is touched. -/
theorem C58_connect {ops : List Op} {c : PubCtx} (h : Reaches ops c) (cb : Option Bool) (ar : ConnVec.AccRes) (hs : saneAcc ar) :
    ∃ r c', step c (.readListen ar cb) = .ok (r, c') ∧
      ((r ≠ 0 ∧ (subscriberCount c = c.cv.size ∨ ∃ e, ar = .failed e) ∧ c'.log = c.log ∧ c'.cv.polls = c.cv.polls ∧
          c'.cv.conns = c.cv.conns) ∨
       (r = 0 ∧ ∃ d a i, ar = .ok d a ∧ i < c.cv.size ∧ ¬ Connected c i ∧ (∀ j, j ≠ i → c'.cv.conns j = c.cv.conns j) ∧
          (match cb with
          | none => Connected c' i ∧ (c'.cv.conns i).addr = a ∧ (c'.cv.conns i).desc = some d ∧ c'.log = c.log
          | some true => Connected c' i ∧ (c'.cv.conns i).addr = a ∧ (c'.cv.conns i).desc = some d ∧
              c'.log = c.log ++ [.connectCb i true]
          | some false => ¬ Connected c' i ∧ c'.log = c.log ++ [.connectCb i false, .disconnectCb i]))) := by
  obtain ⟨pops, L, g, _⟩ := h.good
  show ∃ r c', readListen c ar cb = .ok (r, c') ∧ _
  cases ar with
  | noDelayFailed d e => exact hs.elim
  | failed e =>
    obtain ⟨r, m, h1, h2, h3⟩ := ConnVec.accept_failed g.v c.listen e
    unfold readListen
    rw [h1]
    dsimp only
    have h0 : r ≠ 0 := by
      rcases h3 with rfl | rfl
      · decide
      · exact hs
    rw [if_pos h0]
    exact ⟨_, _, rfl, .inl ⟨h0, .inr ⟨e, rfl⟩, rfl, rfl, rfl⟩⟩
  | ok d a =>
    rcases ConnVec.accept_ok g.v c.listen d a with ⟨hl, h1⟩ | ⟨_, i, v', h1, h2, h3, h4, h5, h6, h7, h8, h9⟩
    · unfold readListen
      rw [h1]
      dsimp only
      rw [if_pos (by decide)]
      refine ⟨_, _, rfl, .inl ⟨by decide, .inl ?_, rfl, rfl, rfl⟩⟩
      unfold subscriberCount
      rw [g.v.active, hl]
    · obtain ⟨s', g1, g2⟩ := g.accept h2 h3 h4 h5 h6 h7 h8 h9
      unfold readListen
      rw [h1]
      dsimp only
      have hf : ConnVec.findByIndex v' i = some i := by rw [ConnVec.findByIndex_spec h4, if_pos (by simp)]
      have hc : ¬ Connected c i := fun x => h3 (g.connected.1 x)
      rw [if_neg (by decide), hf, if_neg (by simp), g1]
      have hcon : ∀ log, Connected { c with cv := v', pub := s', log := log } i := fun log =>
        (g2.congr (c' := { c with cv := v', pub := s', log := log }) rfl rfl).connected.2 (by simp)
      cases cb with
      | none =>
        exact ⟨_, _, rfl, .inr ⟨rfl, d, a, i, rfl, h2, hc, h7, hcon _, by show (v'.conns i).addr = a; rw [h8],
          by show (v'.conns i).desc = _; rw [h8], rfl⟩⟩
      | some b =>
        cases b with
        | true =>
          exact ⟨_, _, rfl, .inr ⟨rfl, d, a, i, rfl, h2, hc, h7, hcon _, by show (v'.conns i).addr = a; rw [h8],
            by show (v'.conns i).desc = _; rw [h8], rfl⟩⟩
        | false =>
          dsimp only
          rw [if_neg (by simp)]
          obtain ⟨c2, k1, k2, k3, k4, k5, k6, _⟩ := close_spec (c := ev { c with cv := v', pub := s' } (.connectCb i false))
            (g2.congr rfl rfl) (i := i) (by simp)
          rw [k1, Pub.ok_bind]
          refine ⟨0, c2, rfl, .inr ⟨rfl, d, a, i, rfl, h2, hc, fun j hj => (k6 j hj).trans (h7 j hj), ?_, ?_⟩⟩
          · intro x
            have := k2.connected.1 x
            rw [List.erase_cons_head] at this
            exact h3 this
          · rw [k5]; simp [ev]

/-- Non-vacuity of C58: two subscribers connect, one of them is refused, the other one leaves and a third one comes in. -/
example : ∃ c rs, Reaches [.activate (.ok (5, 6, 7)), .readListen (.ok 8 100) (some false), .readListen (.ok 9 101) (some true),
      .read 0 none, .readListen (.ok 10 102) none] c ∧
    run exC0 [.activate (.ok (5, 6, 7)), .readListen (.ok 8 100) (some false), .readListen (.ok 9 101) (some true),
      .read 0 none, .readListen (.ok 10 102) none] = .ok (rs, c) ∧
    decide (disconnects 0 c.log = 2 ∧ opens 0 c.cv.polls = 3 ∧ Connected c 0) = true :=
  reaches_of (ops := [Op.activate (.ok (5, 6, 7)), .readListen (.ok 8 100) (some false), .readListen (.ok 9 101) (some true),
      .read 0 none, .readListen (.ok 10 102) none])
    (P := fun rs c => decide (disconnects 0 c.log = 2 ∧ opens 0 c.cv.polls = 3 ∧ Connected c 0))
    (by simp [Op.sane, saneAcc]) (by decide) (by decide +kernel)

end PubCtx
end Rmc
