import Verif.PubCtxReads
import Verif.BadRead

/-! # What a publisher reads from a connection, wherever it lies in the ring

The same as `PubCtxReads`, but for any position in the ring at the price of saying nothing about the payload of a control message
(which is misread at the end of the ring: C04_false), and for reads that run into the defect of circ_buf_trim (C05_false). -/

set_option linter.unusedSimpArgs false
set_option linter.unusedVariables false

namespace Rmc
namespace PubCtx
open CircBuf Proto

/-- Replace the log. -/
def withLog (c : PubCtx) (l : List CEv) : PubCtx := { c with log := l }

theorem packetAck_withLog (c : PubCtx) (v : List CEv) (i pid : Nat) :
    packetAck (c.withLog v) i pid = (packetAck c i pid).map (·.withLog v) := by
  unfold packetAck
  show (Pub.packetAck c.pub i pid >>= _) = _
  cases Pub.packetAck c.pub i pid with
  | error f => rfl
  | ok s =>
    simp only [Pub.ok_bind]
    show (Except.ok (if c.suspended = true ∧ s.unackedCount ≤ c.resumeThr then _ else _) : M PubCtx) =
      Except.ok (withLog (if c.suspended = true ∧ s.unackedCount ≤ c.resumeThr then _ else _) v)
    split <;> rfl

theorem ackRange_log (v : List CEv) (i : Nat) : ∀ (n pid : Nat) (c : PubCtx),
    ackRange (c.withLog v) i pid n = (ackRange c i pid n).map (·.withLog v) := by
  intro n
  induction n with
  | zero => intro pid c; rfl
  | succ n ih =>
    intro pid c
    show (packetAck (c.withLog v) i pid >>= fun c => ackRange c i (pid + 1) n) =
      (packetAck c i pid >>= fun c => ackRange c i (pid + 1) n).map (·.withLog v)
    rw [packetAck_withLog, map_bind, map_bind']
    congr 1; funext a; exact ih _ a

theorem ackInterval_log (v : List CEv) (i : Nat) (a : AckInterval) (c : PubCtx) :
    ackInterval (c.withLog v) i a = (ackInterval c i a).map (·.withLog v) := by
  unfold ackInterval
  split
  · rfl
  · exact ackRange_log v i _ _ c

/-- Acknowledgements do not add to the log. -/
theorem packetAck_nolog {c c' : PubCtx} {i pid : Nat} (h : packetAck c i pid = .ok c') : c'.log = c.log := by
  have h1 := packetAck_withLog c c.log i pid
  rw [show c.withLog c.log = c from rfl, h] at h1
  have := Except.ok.inj h1
  rw [this]; rfl

theorem ackInterval_nolog {c c' : PubCtx} {i : Nat} {a : AckInterval} (h : ackInterval c i a = .ok c') : c'.log = c.log := by
  have h1 := ackInterval_log c.log i a c
  rw [show c.withLog c.log = c from rfl, h] at h1
  have := Except.ok.inj h1
  rw [this]; rfl

/-- `processCtl` without the call of the control message callback. -/
def processCtlQ : Proto.Handler PubCtx := fun c b =>
  if CircBuf.inUse b < CTL_LEN + 1 then .ok (EAGAIN, c, b)
  else do
    let r ← CircBuf.readOffset b 1 CTL_LEN
    let len := ctlDec r.2
    if CircBuf.inUse b < CTL_LEN + 1 + len then return (EAGAIN, c, b)
    else if c.ctlCb = none then .error .uninit
    else return (0, c, (CircBuf.free b (CTL_LEN + 1 + len)).1)

/-- The dispatch table with it. -/
def tableQ (i : Nat) : Proto.Table PubCtx := [(CMD_ACK_INTERVAL, processAck i), (CMD_CONTROL_MESSAGE, processCtlQ)]

/-- What the commands do, as far as `tableQ` goes. -/
def pubEffQ (i : Nat) (c : PubCtx) (xs : List UInt8) : M PubCtx :=
  match xs with
  | [] => .ok c
  | x :: cs =>
    if x = CMD_ACK_INTERVAL then ackInterval c i (AckInterval.dec cs)
    else if c.ctlCb = none then .error .uninit else .ok c

/-- The same commands, read at any position. -/
def pubLangQ (i : Nat) : Lang PubCtx := ⟨pubFrame, pubEffQ i, fun _ _ _ => True⟩

theorem pubLangQ_ok (i : Nat) : (pubLangQ i).OK :=
  ⟨(pubLang_ok i).pos, (pubLang_ok i).cmd_append, (pubLang_ok i).bad_append⟩

theorem pubLangQ_implements (i : Nat) : Implements (tableQ i) (pubLangQ i) := by
  intro s b c cs hw hb hs
  have hlen : inUse b = cs.length + 1 := by rw [← length_bytes, hb]; rfl
  dsimp only [pubLangQ]
  rw [hb]
  unfold pubFrame
  dsimp only
  by_cases h1 : c = CMD_ACK_INTERVAL
  · rw [if_pos h1]
    have hl : lookup (tableQ i) c = some (processAck i) := by rw [h1]; rfl
    by_cases h2 : cs.length < 16
    · rw [if_pos h2]
      refine ⟨_, hl, ?_⟩
      unfold processAck
      rw [if_pos (by rw [hlen]; unfold ACK_LEN; omega)]
    · rw [if_neg h2]
      refine ⟨_, hl, ?_⟩
      have ht : (c :: cs).take 17 = c :: cs.take 16 := rfl
      rw [ht]
      unfold pubEffQ processAck
      dsimp only
      rw [if_pos h1, if_neg (by rw [hlen]; unfold ACK_LEN; omega),
        readOffset_ok hw (by omega) offsetSafe_one, ok_bind, hb]
      dsimp only
      rw [show (List.drop 1 (c :: cs)).take ACK_LEN = cs.take 16 from rfl]
      cases hA : ackInterval s i (AckInterval.dec (cs.take 16)) with
      | error f => rfl
      | ok s' =>
        have := free_case hw (n := 17) (by omega)
        rw [hb] at this
        exact ⟨_, rfl, this⟩
  · rw [if_neg h1]
    by_cases h2 : c = CMD_CONTROL_MESSAGE
    · rw [if_pos h2]
      have hl : lookup (tableQ i) c = some processCtlQ := by rw [h2]; rfl
      by_cases h3 : cs.length < 2
      · rw [if_pos h3]
        refine ⟨_, hl, ?_⟩
        unfold processCtlQ
        rw [if_pos (by rw [hlen]; unfold CTL_LEN; omega)]
      · rw [if_neg h3]
        have hrd : readOffset b 1 CTL_LEN = .ok (0, cs.take 2) := by
          rw [readOffset_ok hw (by omega) offsetSafe_one, hb]; rfl
        by_cases h4 : cs.length < 2 + ctlDec (cs.take 2)
        · rw [if_pos h4]
          refine ⟨_, hl, ?_⟩
          unfold processCtlQ
          rw [if_neg (by rw [hlen]; unfold CTL_LEN; omega), hrd, ok_bind]
          dsimp only
          rw [if_pos (by rw [hlen]; unfold CTL_LEN; omega)]; rfl
        · rw [if_neg h4]
          refine ⟨_, hl, ?_⟩
          have ht : (c :: cs).take (3 + ctlDec (cs.take 2)) = c :: cs.take (2 + ctlDec (cs.take 2)) := by
            rw [show 3 + ctlDec (cs.take 2) = (2 + ctlDec (cs.take 2)) + 1 by omega]; rfl
          have hfree := free_case hw (n := 3 + ctlDec (cs.take 2)) (by omega)
          rw [hb] at hfree
          rw [ht]
          unfold pubEffQ processCtlQ
          dsimp only
          have n1 : ¬ inUse b < CTL_LEN + 1 := by rw [hlen]; unfold CTL_LEN; omega
          have n2 : ¬ inUse b < CTL_LEN + 1 + ctlDec (cs.take 2) := by rw [hlen]; unfold CTL_LEN; omega
          rw [if_neg h1]
          by_cases hcb : s.ctlCb = none
          · rw [if_pos hcb]
            dsimp only
            rw [if_neg n1, hrd, ok_bind]
            dsimp only
            rw [if_neg n2, if_pos hcb]
          · rw [if_neg hcb]
            dsimp only
            rw [if_neg n1, hrd, ok_bind]
            dsimp only
            rw [if_neg n2, if_neg hcb, show CTL_LEN + 1 + ctlDec (cs.take 2) = 3 + ctlDec (cs.take 2) by unfold CTL_LEN; omega]
            exact ⟨_, rfl, hfree⟩
    · rw [if_neg h2]
      dsimp only
      show (if c = CMD_ACK_INTERVAL then _ else if c = CMD_CONTROL_MESSAGE then _ else none) = none
      rw [if_neg h1, if_neg h2]

/-- Events of control messages from connection `i`. -/
def CtlOnly (i : Nat) (ds : List CEv) : Prop := ∀ e ∈ ds, ∃ bs, e = .ctl i bs

/-- The dispatch functions do the same, except that control messages are put in the log. -/
theorem handler_sim {i : Nat} {x : UInt8} {f : Handler PubCtx} (hl : lookup (table i) x = some f) :
    ∃ g, lookup (tableQ i) x = some g ∧ ∀ s b r s' b', f s b = .ok (r, s', b') →
      (∃ ds, s'.log = s.log ++ ds ∧ CtlOnly i ds) ∧ ∀ l, g (s.withLog l) b = .ok (r, s'.withLog l, b') := by
  by_cases h1 : x = CMD_ACK_INTERVAL
  · have : lookup (table i) x = some (processAck i) := by rw [h1]; rfl
    rw [hl] at this
    cases this
    refine ⟨processAck i, by rw [h1]; rfl, ?_⟩
    intro s b r s' b' h
    unfold processAck at h ⊢
    split at h
    · rename_i hc
      cases h
      refine ⟨⟨[], by simp, fun e he => by simp at he⟩, fun l => by rw [if_pos hc]⟩
    · rename_i hc
      obtain ⟨y, h2, h3⟩ := bind_ok h
      obtain ⟨c1, h4, h5⟩ := bind_ok h3
      cases h5
      refine ⟨⟨[], by rw [ackInterval_nolog h4]; simp, fun e he => by simp at he⟩, fun l => ?_⟩
      rw [if_neg hc, h2, ok_bind, ackInterval_log, h4]
      rfl
  · by_cases h2 : x = CMD_CONTROL_MESSAGE
    · have : lookup (table i) x = some (processCtl i) := by rw [h2]; rfl
      rw [hl] at this
      cases this
      refine ⟨processCtlQ, by rw [h2]; rfl, ?_⟩
      intro s b r s' b' h
      unfold processCtl at h
      unfold processCtlQ
      split at h
      · rename_i hc
        cases h
        refine ⟨⟨[], by simp, fun e he => by simp at he⟩, fun l => by rw [if_pos hc]⟩
      · rename_i hc
        obtain ⟨y, h3, h4⟩ := bind_ok h
        dsimp only at h4
        split at h4
        · rename_i hc2
          cases h4
          refine ⟨⟨[], by simp, fun e he => by simp at he⟩, fun l => ?_⟩
          rw [if_neg hc, h3, ok_bind]
          dsimp only
          rw [if_pos hc2]; rfl
        · rename_i hc2
          obtain ⟨c1, h5, h6⟩ := bind_ok h4
          cases h6
          have : (∃ ds, s'.log = s.log ++ ds ∧ CtlOnly i ds) ∧ s.ctlCb ≠ none ∧ ∀ l, s'.withLog l = s.withLog l := by
            cases hcb : s.ctlCb with
            | none => rw [hcb] at h5; cases h5
            | some v =>
              rw [hcb] at h5
              cases v with
              | false => cases h5; exact ⟨⟨[], by simp, fun e he => by simp at he⟩, by simp, fun _ => rfl⟩
              | true =>
                obtain ⟨p, _, h7⟩ := bind_ok h5
                cases h7
                exact ⟨⟨[.ctl i p.2], rfl, fun e he => ⟨p.2, by simpa using he⟩⟩, by simp, fun _ => rfl⟩
          refine ⟨this.1, fun l => ?_⟩
          rw [if_neg hc, h3, ok_bind]
          dsimp only
          rw [if_neg hc2, if_neg (show ¬ (s.withLog l).ctlCb = none from this.2.1), this.2.2 l]
          rfl
    · have : lookup (table i) x = none := by
        show (if x = CMD_ACK_INTERVAL then _ else if x = CMD_CONTROL_MESSAGE then _ else none) = none
        rw [if_neg h1, if_neg h2]
      rw [hl] at this; cases this

theorem processLoop_sim (i : Nat) : ∀ (fuel : Nat) {s s' : PubCtx} {b b' : CircBuf} {x : UInt8} {r : Nat},
    processLoop (table i) fuel s b x = .ok (r, s', b') →
    (∃ ds, s'.log = s.log ++ ds ∧ CtlOnly i ds) ∧ ∀ l, processLoop (tableQ i) fuel (s.withLog l) b x = .ok (r, s'.withLog l, b') := by
  intro fuel
  induction fuel with
  | zero => intro s s' b b' x r h; cases h
  | succ fuel ih =>
    intro s s' b b' x r h
    unfold processLoop at h ⊢
    cases hl : lookup (table i) x with
    | none =>
      rw [hl] at h; cases h
      have : lookup (tableQ i) x = none := by
        have h1 : x ≠ CMD_ACK_INTERVAL := by rintro rfl; cases hl
        have h2 : x ≠ CMD_CONTROL_MESSAGE := by rintro rfl; cases hl
        show (if x = CMD_ACK_INTERVAL then _ else if x = CMD_CONTROL_MESSAGE then _ else none) = none
        rw [if_neg h1, if_neg h2]
      rw [this]
      exact ⟨⟨[], by simp, fun e he => by simp at he⟩, fun l => rfl⟩
    | some f =>
      obtain ⟨g, hg, hsim⟩ := handler_sim hl
      rw [hl] at h; rw [hg]
      dsimp only at h ⊢
      obtain ⟨⟨r1, s1, b1⟩, h1, h2⟩ := bind_ok h
      obtain ⟨⟨ds, q1, q2⟩, q3⟩ := hsim s b r1 s1 b1 h1
      dsimp only at h2
      by_cases c1 : r1 ≠ 0
      · rw [if_pos c1] at h2
        cases h2
        exact ⟨⟨ds, q1, q2⟩, fun l => by rw [q3 l, ok_bind]; dsimp only; rw [if_pos c1]; rfl⟩
      · rw [if_neg c1] at h2
        by_cases c2 : inUse b1 = 0
        · rw [if_pos c2] at h2
          cases h2
          exact ⟨⟨ds, q1, q2⟩, fun l => by rw [q3 l, ok_bind]; dsimp only; rw [if_neg c1, if_pos c2]; rfl⟩
        · rw [if_neg c2] at h2
          obtain ⟨⟨r2, xs⟩, h3, h4⟩ := bind_ok h2
          dsimp only at h4
          by_cases c3 : r2 ≠ 0
          · rw [if_pos c3] at h4
            cases h4
            refine ⟨⟨ds, q1, q2⟩, fun l => ?_⟩
            rw [q3 l, ok_bind]; dsimp only; rw [if_neg c1, if_neg c2, h3, ok_bind]; dsimp only; rw [if_pos c3]; rfl
          · rw [if_neg c3] at h4
            obtain ⟨⟨es, k1, k2⟩, k3⟩ := ih h4
            refine ⟨⟨ds ++ es, by rw [k1, q1, List.append_assoc], ?_⟩, fun l => ?_⟩
            · intro e he
              rcases List.mem_append.1 he with he | he
              · exact q2 e he
              · exact k2 e he
            · rw [q3 l, ok_bind]; dsimp only; rw [if_neg c1, if_neg c2, h3, ok_bind]; dsimp only; rw [if_neg c3]; exact k3 l

theorem tcpRead_sim (i : Nat) {fuel : Nat} {s s' : PubCtx} {b b' : CircBuf} {rv : Option (List UInt8)} {r : Nat}
    (h : tcpRead (table i) fuel s b rv = .ok (r, s', b')) :
    (∃ ds, s'.log = s.log ++ ds ∧ CtlOnly i ds) ∧ ∀ l, tcpRead (tableQ i) fuel (s.withLog l) b rv = .ok (r, s'.withLog l, b') := by
  have none : (∃ ds, s.log = s.log ++ ds ∧ CtlOnly i ds) := ⟨[], by simp, fun e he => by simp at he⟩
  unfold tcpRead at h ⊢
  dsimp only at h ⊢
  by_cases c1 : available b = 0
  · rw [if_pos c1] at h
    cases h; exact ⟨none, fun _ => by rw [if_pos c1]⟩
  · rw [if_neg c1] at h
    by_cases c2 : (alloc b (available b)).1 ≠ 0
    · rw [if_pos c2] at h
      cases h; exact ⟨none, fun _ => by rw [if_neg c1, if_pos c2]⟩
    · rw [if_neg c2] at h
      by_cases c3 : (rv.getD []).take (available b) = []
      · rw [if_pos c3] at h
        cases h; exact ⟨none, fun _ => by rw [if_neg c1, if_neg c2, if_pos c3]⟩
      · rw [if_neg c3] at h
        obtain ⟨d, h1, h2⟩ := bind_ok h
        unfold processTcpRead at h2
        obtain ⟨⟨r2, xs⟩, h3, h4⟩ := bind_ok h2
        dsimp only at h4
        by_cases c4 : r2 ≠ 0
        · rw [if_pos c4] at h4
          cases h4
          refine ⟨none, fun l => ?_⟩
          rw [if_neg c1, if_neg c2, if_neg c3, h1, ok_bind]; unfold processTcpRead; rw [h3, ok_bind]; dsimp only; rw [if_pos c4]; rfl
        · rw [if_neg c4] at h4
          obtain ⟨k1, k2⟩ := processLoop_sim i fuel h4
          refine ⟨k1, fun l => ?_⟩
          rw [if_neg c1, if_neg c2, if_neg c3, h1, ok_bind]; unfold processTcpRead; rw [h3, ok_bind]; dsimp only; rw [if_neg c4]; exact k2 l

theorem table_bad (i : Nat) : ∀ x f, lookup (table i) x = some f → KeepsBad f := by
  intro x f hl
  by_cases h1 : x = CMD_ACK_INTERVAL
  · have : lookup (table i) x = some (processAck i) := by rw [h1]; rfl
    rw [hl] at this
    cases this
    intro s b r s' b' hb h
    have hi := hb.inUse
    unfold processAck at h
    rw [if_neg (by unfold ACK_LEN; simp only [U32] at hi; omega)] at h
    obtain ⟨y, h2, h3⟩ := bind_ok h
    obtain ⟨c1, h4, h5⟩ := bind_ok h3
    cases h5
    exact ⟨rfl, hb.free (by decide)⟩
  · by_cases h2 : x = CMD_CONTROL_MESSAGE
    · have : lookup (table i) x = some (processCtl i) := by rw [h2]; rfl
      rw [hl] at this
      cases this
      intro s b r s' b' hb h
      have hi := hb.inUse
      unfold processCtl at h
      rw [if_neg (by unfold CTL_LEN; simp only [U32] at hi; omega)] at h
      obtain ⟨y, h3, h4⟩ := bind_ok h
      have hc := ctlDec_lt y.2
      dsimp only at h4
      rw [if_neg (by unfold CTL_LEN; simp only [U32] at hi; omega)] at h4
      obtain ⟨c1, h5, h6⟩ := bind_ok h4
      cases h6
      exact ⟨rfl, hb.free (by unfold CTL_LEN; omega)⟩
    · have : lookup (table i) x = none := by
        show (if x = CMD_ACK_INTERVAL then _ else if x = CMD_CONTROL_MESSAGE then _ else none) = none
        rw [if_neg h1, if_neg h2]
      rw [hl] at this; cases this

/-- A read that runs into the defect of circ_buf_trim reports a protocol error (if it returns at all). -/
theorem read_safe {c c' : PubCtx} {pops : List POp} {L : List Nat} {r i : Nat} (h : Good c pops L) (hi : i ∈ L)
    (hw : WF (c.cv.conns i).readBuf) (hsz : (c.cv.conns i).readBuf.size ≤ 65536) {xs : List UInt8}
    (hx : xs ≠ []) (hlen : xs.length ≤ available (c.cv.conns i).readBuf) (hs : readConn c i (some xs) = .ok (r, c'))
    (hr : r ≠ EPROTO) : ReadSafe (c.cv.conns i).readBuf xs.length := by
  apply Classical.byContradiction
  intro hc
  rw [readConn_eq h hi] at hs
  obtain ⟨⟨r1, s1, b1⟩, h1, h2⟩ := bind_ok hs
  have := tcpRead_bad (table_bad i) hw hsz hx hlen hc h1
  subst this
  dsimp only at h2
  rw [if_neg (by decide)] at h2
  exact hr (congrArg Prod.fst (Except.ok.inj h2)).symm

/-- Reading from a connection, with no assumption on how the bytes lie in the ring. -/
theorem readConn_langQ {c c' : PubCtx} {pops : List POp} {L : List Nat} {r i : Nat} (h : Good c pops L) (hi : i ∈ L)
    (hw : WF (c.cv.conns i).readBuf) {xs : List UInt8} (hsz : (c.cv.conns i).readBuf.size ≤ 65536)
    (hx : xs ≠ []) (hlen : xs.length ≤ available (c.cv.conns i).readBuf) (hs : readConn c i (some xs) = .ok (r, c'))
    (hr : ReadSafe (c.cv.conns i).readBuf xs.length) :
    ∃ d b' ds, effects (pubLangQ i) c ((pubLang i).commands (bytes (c.cv.conns i).readBuf ++ xs)) = .ok d ∧
      r = (pubLang i).status (bytes (c.cv.conns i).readBuf ++ xs) ∧
      c' = (d.withCv (afterRead c i b')).withLog (c.log ++ ds) ∧ CtlOnly i ds ∧ WF b' ∧
      b'.size = (c.cv.conns i).readBuf.size ∧ bytes b' = (pubLang i).rest (bytes (c.cv.conns i).readBuf ++ xs) ∧ d.cv = c.cv := by
  rw [readConn_eq h hi] at hs
  obtain ⟨⟨r1, s1, b1⟩, h1, h2⟩ := bind_ok hs
  obtain ⟨⟨ds, q1, q2⟩, q3⟩ := tcpRead_sim i h1
  have key := tcpRead_spec (fuel := U32) (s := c) (pubLangQ_ok i) (pubLangQ_implements i) hw hx hlen hr (by simp only [U32]; omega)
    (safeFrom_of_true (fun _ _ _ => trivial) _ _ _ _)
  have q4 := q3 c.log
  rw [show c.withLog c.log = c from rfl] at q4
  rw [q4] at key
  unfold Outcome at key
  split at key
  · cases key
  · rename_i d hd
    obtain ⟨b', k1, k2, k3, k4, k5⟩ := key
    have k1' := Except.ok.inj k1
    have e1 : r1 = (pubLangQ i).status (bytes (c.cv.conns i).readBuf ++ xs) := congrArg Prod.fst k1'
    have e2 : s1.withLog c.log = d := congrArg (·.2.1) k1'
    have e3 : b1 = b' := congrArg (·.2.2) k1'
    subst e3
    have hcv : d.cv = c.cv := by
      have : ∀ (cs : List (List UInt8)) (c d : PubCtx), effects (pubLangQ i) c cs = .ok d → d.cv = c.cv := by
        intro cs
        induction cs with
        | nil => intro c d h; cases h; rfl
        | cons y cs ih =>
          intro c d h
          rw [effects_cons] at h
          obtain ⟨c1, g1, g2⟩ := bind_ok h
          rw [ih _ _ g2]
          have g1' : pubEffQ i c y = .ok c1 := g1
          cases y with
          | nil => cases g1'; rfl
          | cons z zs =>
            unfold pubEffQ at g1'
            dsimp only at g1'
            split at g1'
            · rename_i hz
              have he : effects (pubLang i) c [z :: zs] = .ok c1 := by
                rw [effects_cons]
                show (pubEff i c (z :: zs) >>= _) = _
                unfold pubEff
                dsimp only
                rw [if_pos hz, g1']; rfl
              exact effects_cv_eq he
            · split at g1'
              · cases g1'
              · cases g1'; rfl
      exact this _ _ _ hd
    have hs1 : s1.cv = c.cv := by rw [← hcv, ← e2]; rfl
    dsimp only at h2
    have hst : r1 ≠ EPIPE := by rw [e1]; exact status_ne _
    rw [if_neg hst] at h2
    have e4 : r1 = r := congrArg Prod.fst (Except.ok.inj h2)
    have hci : (setConn s1 i { s1.cv.conns i with readBuf := b1 }).cv.conns i = { c.cv.conns i with readBuf := b1 } := by
      show (if i = i then _ else _ : Conn) = _
      rw [if_pos rfl, hs1]
    have hpl : ConnVec.pendingLen (setConn s1 i { s1.cv.conns i with readBuf := b1 }).cv i =
        (bytes (c.cv.conns i).writeBuf).length := by
      rw [← pendingLen_eq h hi]
      unfold ConnVec.pendingLen
      rw [hci]
    rw [hci, hpl] at h2
    refine ⟨d, b1, ds, hd, by rw [← e4]; exact e1, ?_, q2, k2, k3, k4, hcv⟩
    have h3 := congrArg Prod.snd (Except.ok.inj h2)
    dsimp only at h3
    rw [← h3, ← e2, ← q1]
    unfold withLog withCv afterRead pollModify ConnVec.poll setConn
    dsimp only
    rw [set_set, hs1]

end PubCtx
end Rmc
