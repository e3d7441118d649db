import Verif.OpRes
import Verif.Props.SubCodes

/-!
# C69: the operation reported by read and write calls
-/

set_option linter.unusedVariables false
set_option linter.unusedSimpArgs false

namespace Rmc

/-- C69: the reported operations can be told apart by their numbers, and the numbers are those of reliable_multicast.h. -/
theorem C69_numbers : (∀ a b : OpRes, a.num = b.num → a = b) ∧ (∀ a : OpRes, a.num ≤ 10) ∧ OpRes.num .error = 0 ∧ OpRes.num .readMulticast = 1 ∧
    OpRes.num .readTcp = 5 ∧ OpRes.num .readDisconnect = 7 ∧ OpRes.num .writeTcp = 10 := by
  refine ⟨fun a b h => ?_, fun a => ?_, rfl, rfl, rfl, rfl, rfl⟩
  · cases a <;> cases b <;> first | rfl | (exact absurd h (by decide))
  · cases a <;> decide

namespace Proto
open CircBuf

/-- What `rmc_conn_tcp_read` reports, from what it returns. -/
theorem tcpReadOp_eq {σ : Type} {t : Table σ}
    (ht : ∀ c h, lookup t c = some h → ∀ s b r s' b', h s b = .ok (r, s', b') → r = 0 ∨ r = EAGAIN)
    {fuel : Nat} {s s' : σ} {b b' : CircBuf} {rv : Option (List UInt8)} {r : Nat}
    (h : tcpRead t fuel s b rv = .ok (r, s', b')) :
    tcpReadOp b rv r = if r = EPIPE then .readDisconnect else if r = 0 ∨ r = EAGAIN then .readTcp else .error := by
  have hal : (CircBuf.alloc b (available b)).1 = 0 := by
    unfold CircBuf.alloc
    rw [if_neg (by omega)]
    split <;> rfl
  unfold tcpReadOp processOp
  rcases tcpRead_code ht h with ⟨h1, h2, _⟩ | ⟨h1, h2, h3, _⟩ | ⟨h1, h2, h3⟩
  · rw [if_pos h1, h2]; rfl
  · rw [if_neg h1, if_neg (by omega), if_pos (by rw [h2]; simp), h3]; rfl
  · rw [if_neg h1, if_neg (by omega), if_neg (by
      intro e
      rcases List.take_eq_nil_iff.1 e with e | e
      · exact h1 e
      · exact h2 e)]
    rcases h3 with h3 | h3 | h3 <;> rw [h3] <;> rfl

end Proto

namespace PubCtx
open CircBuf ConnVec

/-- Specification: what a call reports, given what it returns and does. -/
def Reported (op : Op) (r : Nat) (c' : PubCtx) (o : Option OpRes) : Prop :=
  match op with
  | .readListen _ _ => o = some (if r = 0 then .readAccept else .error)
  | .readMcast _ => o = if r = 0 then none else some .error
  | .read i _ => (r ≠ 0 ∧ r ≠ EAGAIN ∧ o = some .error) ∨ (r = 0 ∧ ¬ Connected c' i ∧ o = some .readDisconnect) ∨
      ((r = 0 ∨ r = EAGAIN) ∧ Connected c' i ∧ o = some .readTcp)
  | .writeMcast _ => o = some .writeMulticast
  | .write _ _ => o = some (if r = 0 then .writeTcp else .error)
  | _ => o = none

/-- C69 for the publisher: after any history, a call reports what `Reported` says. -/
theorem C69_publisher {ops : List Op} {c c' : PubCtx} (h : Reaches ops c) {op : Op} (hop : op.sane)
    (he : ∀ ar cb, op = .readListen ar cb → ar ≠ .failed 0) (hm : op ≠ .readMcast (some 0)) {r : Nat}
    (hs : step c op = .ok (r, c')) : ∃ o, opRes c op = .ok o ∧ Reported op r c' o := by
  obtain ⟨pops, L, g, _⟩ := h.good
  cases op with
  | readListen ar cb =>
    refine ⟨_, rfl, ?_⟩
    unfold Reported listenOp
    dsimp only
    have hs' : readListen c ar cb = .ok (r, c') := hs
    obtain ⟨a, ha⟩ : ∃ a, a = ConnVec.accept c.cv c.listen ar := ⟨_, rfl⟩
    have : a.1 = r := by
      unfold readListen at hs'
      dsimp only at hs'
      rw [← ha] at hs'
      by_cases h0 : a.1 ≠ 0
      · rw [if_pos h0] at hs'; exact congrArg Prod.fst (Except.ok.inj hs')
      · rw [if_neg h0] at hs'
        have h0 : a.1 = 0 := by omega
        rw [h0]
        cases ha1 : a.2.1 with
        | none => rw [ha1] at hs'; cases hs'
        | some i =>
          rw [ha1] at hs'
          dsimp only at hs'
          split at hs'
          · cases hs'
          · cases cb with
            | none => exact congrArg Prod.fst (Except.ok.inj hs')
            | some b =>
              dsimp only at hs'
              cases b with
              | true => exact congrArg Prod.fst (Except.ok.inj hs')
              | false =>
                obtain ⟨x, _, hs'⟩ := bind_ok hs'
                exact congrArg Prod.fst (Except.ok.inj hs')
    rw [← ha, this]
    by_cases h0 : r = 0
    · rw [if_neg (by omega), if_pos h0]
    · rw [if_pos h0, if_neg h0]
  | readMcast err =>
    refine ⟨_, rfl, ?_⟩
    have e := Except.ok.inj (show Except.ok (readMcast c err) = Except.ok (r, c') from hs)
    have e1 : (readMcast c err).1 = r := congrArg Prod.fst e
    unfold Reported mcastOp
    unfold readMcast at e1
    dsimp only
    by_cases h0 : c.mcast = none
    · rw [if_pos h0] at e1 ⊢
      rw [← e1]; rfl
    · rw [if_neg h0] at e1 ⊢
      cases err with
      | none => rw [← e1]; rfl
      | some x =>
        have : x ≠ 0 := by intro e; exact hm (by rw [e])
        rw [← e1]
        dsimp only
        rw [if_neg this]
  | read i rv =>
    have hs' : readConn c i rv = .ok (r, c') := hs
    have hcode := readConn_code g hs'
    unfold Code at hcode
    dsimp only at hcode
    show ∃ o, readOp c i rv = .ok o ∧ _
    unfold Reported readOp
    dsimp only
    by_cases hi : i ∈ L
    · rw [ConnVec.findByIndex_spec g.v, if_pos hi, if_neg (by simp [g.conn i hi])]
      unfold readConn at hs'
      rw [ConnVec.findByIndex_spec g.v, if_pos hi, if_neg (by simp [g.conn i hi])] at hs'
      obtain ⟨⟨r1, c1, b1⟩, h1, hs'⟩ := bind_ok hs'
      rw [h1]
      refine ⟨_, rfl, ?_⟩
      dsimp only at hs' ⊢
      rw [Proto.tcpReadOp_eq handler_code h1]
      have hc := Proto.tcpRead_code handler_code h1
      rcases hcode with ⟨hn, _⟩ | ⟨_, hcode⟩
      · exact absurd (g.connected.2 hi) hn
      rcases hc with ⟨h2, h3, _⟩ | ⟨h2, h3, h4, _⟩ | ⟨h2, h3, h4⟩
      · rw [if_pos h2] at hcode
        left
        rw [hcode.1, h3]
        exact ⟨by decide, by decide, rfl⟩
      · rw [if_neg h2, if_pos h3] at hcode
        right; left
        exact ⟨hcode.1, hcode.2, by rw [if_pos h4]⟩
      · rw [if_neg h2, if_neg h3] at hcode
        have hne : r1 ≠ EPIPE := by rcases h4 with h4 | h4 | h4 <;> rw [h4] <;> decide
        rw [if_neg hne] at hs'
        have e1 : r1 = r := congrArg Prod.fst (Except.ok.inj hs')
        subst e1
        rcases h4 with h4 | h4 | h4
        · right; right; exact ⟨.inl h4, hcode.2, by rw [h4]; rfl⟩
        · right; right; exact ⟨.inr h4, hcode.2, by rw [h4]; rfl⟩
        · left; rw [h4]; exact ⟨by decide, by decide, rfl⟩
    · rw [ConnVec.findByIndex_spec g.v, if_neg hi, if_pos (.inl rfl)]
      rcases hcode with ⟨_, h1, _⟩ | ⟨h1, _⟩
      · exact ⟨_, rfl, .inl ⟨by rw [h1]; decide, by rw [h1]; decide, rfl⟩⟩
      · exact absurd (g.connected.1 h1) hi
  | writeMcast rs => exact ⟨_, rfl, rfl⟩
  | write i wv =>
    have hs' : writeConn c i wv = .ok (r, c') := hs
    show ∃ o, writeOp c i wv = .ok o ∧ _
    unfold Reported writeOp
    unfold writeConn at hs'
    dsimp only
    by_cases h1 : i ≥ c.cv.size
    · rw [if_pos h1] at hs' ⊢
      have e1 : EINVAL = r := congrArg Prod.fst (Except.ok.inj hs')
      exact ⟨_, rfl, by rw [← e1]; rfl⟩
    rw [if_neg h1] at hs' ⊢
    by_cases h2 : ConnVec.findByIndex c.cv i = none ∨ (c.cv.conns i).mode ≠ .connected
    · rw [if_pos h2] at hs' ⊢
      have e1 : ENOTCONN = r := congrArg Prod.fst (Except.ok.inj hs')
      exact ⟨_, rfl, by rw [← e1]; rfl⟩
    rw [if_neg h2] at hs' ⊢
    by_cases h3 : CircBuf.inUse (c.cv.conns i).writeBuf = 0
    · rw [if_pos h3] at hs' ⊢
      have e1 : ENODATA = r := congrArg Prod.fst (Except.ok.inj hs')
      exact ⟨_, rfl, by rw [← e1]; rfl⟩
    rw [if_neg h3] at hs' ⊢
    dsimp only at hs'
    obtain ⟨y, h4, hs'⟩ := bind_ok hs'
    have e1 : y.1 = r := congrArg Prod.fst (Except.ok.inj hs')
    rw [h4]
    refine ⟨_, rfl, ?_⟩
    rw [e1]
    by_cases h0 : r = 0
    · rw [if_neg (by omega), if_pos h0]
    · rw [if_pos h0, if_neg h0]
  | queue p a => exact ⟨_, rfl, rfl⟩
  | timeout a b d => exact ⟨_, rfl, rfl⟩
  | close i => exact ⟨_, rfl, rfl⟩
  | setAnnounce a b => exact ⟨_, rfl, rfl⟩
  | throttling a b => exact ⟨_, rfl, rfl⟩
  | setCtlCb a => exact ⟨_, rfl, rfl⟩
  | activate a => exact ⟨_, rfl, rfl⟩
  | deactivate => exact ⟨_, rfl, rfl⟩

/-- Non-vacuity: an accepted and a refused connection attempt, a command, an incomplete command, the end of the stream, nothing to
write, a resent packet written, a failed write. -/
example : ∃ (ops : List Op) (c : PubCtx), Reaches ops c ∧ Connected c 0 ∧
    opRes c (.readListen (.ok 9 8) none) = .ok (some .readAccept) ∧ opRes c (.readListen (.failed 24) none) = .ok (some .error) ∧
    opRes c (.read 0 (some (ctlBytes [1, 2]))) = .ok (some .readTcp) ∧ opRes c (.read 0 (some [2, 1])) = .ok (some .readTcp) ∧
    opRes c (.read 0 (some [77])) = .ok (some .error) ∧ opRes c (.read 0 none) = .ok (some .readDisconnect) ∧
    opRes c (.read 1 none) = .ok (some .error) ∧ opRes c (.write 0 (.ok 1)) = .ok (some .error) := by
  obtain ⟨c, _, h1, _, h2⟩ := reaches_of (ops := [.activate (.ok (3, 4, 4711)), .setCtlCb true, .readListen (.ok 5 9) none])
    (P := fun _ c => decide (Connected c 0) &&
      decide (opRes c (.readListen (.ok 9 8) none) = .ok (some .readAccept)) && decide (opRes c (.readListen (.failed 24) none) = .ok (some .error)) &&
      decide (opRes c (.read 0 (some (ctlBytes [1, 2]))) = .ok (some .readTcp)) && decide (opRes c (.read 0 (some [2, 1])) = .ok (some .readTcp)) &&
      decide (opRes c (.read 0 (some [77])) = .ok (some .error)) && decide (opRes c (.read 0 none) = .ok (some .readDisconnect)) &&
      decide (opRes c (.read 1 none) = .ok (some .error)) && decide (opRes c (.write 0 (.ok 1)) = .ok (some .error)))
    (by intro op hop; simp at hop; rcases hop with rfl | rfl | rfl <;> trivial)
    (by decide +kernel) (by decide +kernel)
  simp only [Bool.and_eq_true, decide_eq_true_eq] at h2
  obtain ⟨⟨⟨⟨⟨⟨⟨⟨a1, a2⟩, a3⟩, a4⟩, a5⟩, a6⟩, a7⟩, a8⟩, a9⟩ := h2
  exact ⟨_, c, h1, a1, a2, a3, a4, a5, a6, a7, a8, a9⟩

/-- C69, what the documentation of the values promises and the code does not keep for the publisher: the constant `RMC_ERROR` ("check return
value") and only it goes with a return value other than 0, `RMC_WRITE_MULTICAST` ("packet was written") with a datagram having been sent, and a
value is always assigned. After the history below (one subscriber, one packet queued): a multicast write whose `sendto` fails with 5 reports
`RMC_WRITE_MULTICAST` and returns 5; a successful read of the multicast socket assigns nothing; an incomplete command returns EAGAIN and reports
`RMC_READ_TCP`; a connection refused by the callback reports `RMC_READ_ACCEPT`. -/
theorem C69_false : ∃ (ops : List Op) (c : PubCtx), Reaches ops c ∧
    (∃ c', step c (.writeMcast [⟨.error 5, []⟩]) = .ok (5, c') ∧ opRes c (.writeMcast [⟨.error 5, []⟩]) = .ok (some .writeMulticast)) ∧
    (∃ c', step c (.readMcast none) = .ok (0, c') ∧ opRes c (.readMcast none) = .ok none) ∧
    (∃ c', step c (.read 0 (some [2, 1])) = .ok (EAGAIN, c') ∧ opRes c (.read 0 (some [2, 1])) = .ok (some .readTcp)) ∧
    (∃ c', step c (.readListen (.ok 6 1) (some false)) = .ok (0, c') ∧ ¬ Connected c' 1 ∧
      opRes c (.readListen (.ok 6 1) (some false)) = .ok (some .readAccept)) := by
  have key : ∀ (x : M (Nat × PubCtx)) (r : Nat) (P : PubCtx → Bool), (match x with | .ok y => decide (y.1 = r) && P y.2 | .error _ => false) = true →
      ∃ c', x = .ok (r, c') ∧ P c' = true := by
    intro x r P h
    cases x with
    | error f => cases h
    | ok y =>
      simp only [Bool.and_eq_true, decide_eq_true_eq] at h
      exact ⟨y.2, by rw [← h.1], h.2⟩
  obtain ⟨c, _, h1, _, h2⟩ := reaches_of (ops := [.activate (.ok (3, 4, 4711)), .readListen (.ok 5 9) none, .queue (exPay 1) false])
    (P := fun _ c =>
      (match step c (.writeMcast [⟨.error 5, []⟩]) with | .ok y => decide (y.1 = 5) && true | .error _ => false) &&
      (match step c (.readMcast none) with | .ok y => decide (y.1 = 0) && true | .error _ => false) &&
      (match step c (.read 0 (some [2, 1])) with | .ok y => decide (y.1 = EAGAIN) && true | .error _ => false) &&
      (match step c (.readListen (.ok 6 1) (some false)) with | .ok y => decide (y.1 = 0) && decide (¬ Connected y.2 1) | .error _ => false) &&
      decide (opRes c (.readMcast none) = .ok none) && decide (opRes c (.read 0 (some [2, 1])) = .ok (some .readTcp)) &&
      decide (opRes c (.readListen (.ok 6 1) (some false)) = .ok (some .readAccept)))
    (by intro op hop; simp at hop; rcases hop with rfl | rfl | rfl <;> trivial)
    (by decide +kernel) (by decide +kernel)
  simp only [Bool.and_eq_true] at h2
  obtain ⟨⟨⟨⟨⟨⟨a1, a2⟩, a3⟩, a4⟩, a5⟩, a6⟩, a7⟩ := h2
  obtain ⟨c1, k1, _⟩ := key _ _ (fun _ => true) (by simpa only [Bool.and_eq_true] using a1)
  obtain ⟨c2, k2, _⟩ := key _ _ (fun _ => true) (by simpa only [Bool.and_eq_true] using a2)
  obtain ⟨c3, k3, _⟩ := key _ _ (fun _ => true) (by simpa only [Bool.and_eq_true] using a3)
  obtain ⟨c4, k4, k5⟩ := key _ _ (fun c' => decide (¬ Connected c' 1)) a4
  exact ⟨_, c, h1, ⟨c1, k1, rfl⟩, ⟨c2, k2, of_decide_eq_true a5⟩, ⟨c3, k3, of_decide_eq_true a6⟩,
    ⟨c4, k4, of_decide_eq_true k5, of_decide_eq_true a7⟩⟩

end PubCtx

namespace SubCtx
open CircBuf ConnVec

/-- Specification: the datagrams read from the multicast socket before it is empty, fails, or gives a malformed one. -/
def validDgrams : List RecvRes → List RecvRes
  | [] => []
  | .err _ :: _ => []
  | .dgram src bs ts ann sk cr :: rs =>
    if bs = [] ∨ malformed (bs.take RMC_MAX_PACKET) = true then [] else .dgram src bs ts ann sk cr :: validDgrams rs

/-- Specification: what the last of some datagrams reports in the state `c1` it is read in: whether there is a connection to the address of its
publisher, and set up. -/
def dgramOp (c1 : SubCtx) : RecvRes → OpRes
  | .err _ => .error
  | .dgram src bs _ _ _ _ =>
    let h := PacketHeader.dec (bs.take 20)
    match ConnVec.findByAddress c1.cv (if h.listenIp = 0 then src else h.listenIp) h.listenPort with
    | none => .readMulticastNotReady
    | some i => if (c1.cv.conns i).mode = .connecting then .readMulticastNotReady else .readMulticast

/-- Specification: what a call reports, given what it returns and does. -/
def Reported (c : SubCtx) (op : Op) (r : Nat) (c' : SubCtx) (o : Option OpRes) : Prop :=
  match op with
  | .readMcast rs =>                     -- not active or no valid datagram: error; else what the last valid one is
    if c.mcast = none ∨ validDgrams rs = [] then o = some .error
    else ∃ pre d c1, validDgrams rs = pre ++ [d] ∧ step c (.readMcast pre) = .ok (0, c1) ∧ o = some (dgramOp c1 d)
  | .read i _ _ => (r ≠ 0 ∧ r ≠ EAGAIN ∧ o = some .error) ∨ (r = 0 ∧ ¬ Live c' i ∧ o = some .readDisconnect) ∨
      ((r = 0 ∨ r = EAGAIN) ∧ Up c' i ∧ o = some .readTcp)
  | .write i _ _ _ => if Live c i ∧ ¬ Up c i then o = some .completeConnection else o = some (if r = 0 then .writeTcp else .error)
  | _ => o = none

theorem packetOp_eq (c : SubCtx) (src : Nat) (bs : List UInt8) (ts : Int) (ann : Option Bool) (sk : Except Nat Nat) (cr : ConnRes) (o : OpRes) :
    packetOp c src (bs.take RMC_MAX_PACKET) o =
      if malformed (bs.take RMC_MAX_PACKET) = true then o else dgramOp c (.dgram src bs ts ann sk cr) := by
  have hl : HDR_LEN = 20 := rfl
  have ht : (bs.take RMC_MAX_PACKET).take 20 = bs.take 20 := by rw [List.take_take]; rfl
  unfold packetOp malformed dgramOp
  rw [hl, ht]
  dsimp only
  by_cases h1 : (bs.take RMC_MAX_PACKET).length < 20
  · rw [if_pos h1, if_pos (by simp only [Bool.or_eq_true, decide_eq_true_eq]; exact .inl h1)]
  · rw [if_neg h1]
    by_cases h2 : (bs.take RMC_MAX_PACKET).length < 20 + (PacketHeader.dec (bs.take 20)).payloadLen
    · rw [if_pos h2, if_pos (by simp only [Bool.or_eq_true, decide_eq_true_eq]; exact .inr h2)]
    · have hb : (decide ((bs.take RMC_MAX_PACKET).length < 20) ||
          decide ((bs.take RMC_MAX_PACKET).length < 20 + (PacketHeader.dec (bs.take 20)).payloadLen)) = false := by
        rw [decide_eq_false h1, decide_eq_false h2]; rfl
      rw [if_neg h2, hb]
      exact (if_neg (show ¬ (false = true) by decide)).symm

theorem loopOp_spec : ∀ (rs : List RecvRes) {c c' : SubCtx} {r : Nat} (o : OpRes), mcastLoop c rs = .ok (r, c') →
    ∃ o', loopOp c o rs = .ok o' ∧
      ((validDgrams rs = [] ∧ o' = o) ∨
       ∃ pre d c1, validDgrams rs = pre ++ [d] ∧ mcastLoop c pre = .ok (EAGAIN, c1) ∧ o' = dgramOp c1 d) := by
  intro rs
  induction rs with
  | nil => intro c c' r o h; exact ⟨o, rfl, .inl ⟨rfl, rfl⟩⟩
  | cons x rs ih =>
    intro c c' r o h
    cases x with
    | err e => exact ⟨o, rfl, .inl ⟨rfl, rfl⟩⟩
    | dgram src bs ts ann sk cr =>
      rw [mcastLoop] at h
      rw [loopOp]
      unfold validDgrams
      by_cases h0 : bs = []
      · rw [if_pos h0]
        exact ⟨o, rfl, .inl ⟨by rw [if_pos (.inl h0)], rfl⟩⟩
      · rw [if_neg h0] at h ⊢
        obtain ⟨⟨r1, c1⟩, h1, h⟩ := bind_ok h
        have hr := mcastPacket_code h1
        rw [h1, Proto.ok_bind, packetOp_eq c src bs ts ann sk cr o]
        dsimp only at h ⊢
        by_cases hm : malformed (bs.take RMC_MAX_PACKET) = true
        · rw [if_pos hm] at hr ⊢
          rw [if_pos (by rw [hr]; decide), if_pos (.inr hm)]
          exact ⟨o, rfl, .inl ⟨rfl, rfl⟩⟩
        · rw [if_neg hm] at hr ⊢
          rw [if_neg (by omega)] at h ⊢
          rw [if_neg (by rw [not_or]; exact ⟨h0, hm⟩)]
          obtain ⟨o', k1, k2⟩ := ih (dgramOp c (.dgram src bs ts ann sk cr)) h
          refine ⟨o', k1, .inr ?_⟩
          rcases k2 with ⟨k2, k3⟩ | ⟨pre, d, c2, k2, k3, k4⟩
          · exact ⟨[], _, c, by rw [k2]; rfl, rfl, k3⟩
          · refine ⟨.dgram src bs ts ann sk cr :: pre, d, c2, by rw [k2]; rfl, ?_, k4⟩
            rw [mcastLoop, if_neg h0, h1, Proto.ok_bind]
            dsimp only
            rw [if_neg (by omega), k3]

theorem dgramOp_poll (c : SubCtx) (i : Nat) (d : Option Nat) (a b : Act) (x : RecvRes) : dgramOp (pollModify c i d a b) x = dgramOp c x := by
  cases x <;> rfl

/-- C69 for the subscriber: after any history, a call reports what `Reported` says. -/
theorem C69_subscriber {ops : List Op} {c c' : SubCtx} (h : Reaches ops c) {op : Op} {r : Nat} (hs : step c op = .ok (r, c')) :
    ∃ o, opRes c op = .ok o ∧ Reported c op r c' o := by
  have hc := h.inv.core
  obtain ⟨L, hL⟩ := hc.v
  cases op with
  | readMcast rs =>
    have hs' : readMcast c rs = .ok (r, c') := hs
    show ∃ o, mcastOp c rs = .ok o ∧ _
    unfold readMcast at hs'
    unfold Reported mcastOp
    dsimp only
    by_cases hm : c.mcast = none
    · rw [if_pos hm]
      exact ⟨_, rfl, by rw [if_pos (.inl hm)]⟩
    · rw [if_neg hm] at hs' ⊢
      obtain ⟨⟨r1, c1⟩, h1, hs'⟩ := bind_ok hs'
      obtain ⟨o', k1, k2⟩ := loopOp_spec rs .error h1
      rw [k1]
      refine ⟨_, rfl, ?_⟩
      rcases k2 with ⟨k2, k3⟩ | ⟨pre, d, c2, k2, k3, k4⟩
      · rw [if_pos (.inr k2), k3]
      · rw [if_neg (by rw [k2]; simp [hm])]
        refine ⟨pre, d, pollModify c2 MULTICAST_INDEX c2.mcast .R .R, k2, ?_, ?_⟩
        · show readMcast c pre = _
          unfold readMcast
          rw [if_neg hm, k3]; rfl
        · rw [dgramOp_poll, k4]
  | read i rv ts =>
    have hs' : readConn c i rv ts = .ok (r, c') := hs
    have hcode := readConn_code hc hs'
    unfold Code at hcode
    dsimp only at hcode
    show ∃ o, readOp c i rv ts = .ok o ∧ _
    unfold Reported readOp
    dsimp only
    by_cases hu : Up c i
    · have hi : i ∈ L := (hL.mode i hu.1).1 (by rw [hu.2]; simp)
      rw [ConnVec.findByIndex_spec hL, if_pos hi, if_neg (by simp [hu.2])]
      unfold readConn at hs'
      rw [ConnVec.findByIndex_spec hL, if_pos hi, if_neg (by simp [hu.2])] at hs'
      obtain ⟨⟨r1, c1, b1⟩, h1, hs'⟩ := bind_ok hs'
      rw [h1, Proto.ok_bind]
      dsimp only at hs' ⊢
      rw [Proto.tcpReadOp_eq handler_code h1]
      have hcd := Proto.tcpRead_code handler_code h1
      rcases hcode with ⟨hn, _⟩ | ⟨_, hcode⟩
      · exact absurd hu hn
      rcases hcd with ⟨h2, h3, _⟩ | ⟨h2, h3, h4, _⟩ | ⟨h2, h3, h4⟩
      · rw [if_pos h2] at hcode
        rw [if_pos h3]
        refine ⟨_, rfl, .inl ?_⟩
        rw [hcode.1, h3]
        exact ⟨by decide, by decide, rfl⟩
      · rw [if_neg h2, if_pos h3] at hcode
        rw [if_neg (by rw [h4]; decide), if_pos h4]
        exact ⟨_, rfl, .inr (.inl ⟨hcode.1, hcode.2, rfl⟩)⟩
      · rw [if_neg h2, if_neg h3] at hcode
        have n1 : r1 ≠ ENOMEM := by rcases h4 with h4 | h4 | h4 <;> rw [h4] <;> decide
        have n2 : r1 ≠ EPIPE := by rcases h4 with h4 | h4 | h4 <;> rw [h4] <;> decide
        rw [if_neg n1, if_neg n2]
        rw [if_neg n1, if_neg n2] at hs'
        obtain ⟨c2, _, hs'⟩ := bind_ok hs'
        by_cases h5 : r1 = EPROTO
        · rw [if_pos h5] at hs' ⊢
          obtain ⟨x, _, hs'⟩ := bind_ok hs'
          have e1 : EPROTO = r := congrArg Prod.fst (Except.ok.inj hs')
          exact ⟨_, rfl, .inl ⟨by rw [← e1]; decide, by rw [← e1]; decide, rfl⟩⟩
        · rw [if_neg h5] at hs' ⊢
          have e1 : r1 = r := congrArg Prod.fst (Except.ok.inj hs')
          subst e1
          refine ⟨_, rfl, .inr (.inr ?_)⟩
          rcases hcode with ⟨e, _⟩ | ⟨e1, e2⟩
          · exact absurd e h5
          · exact ⟨e1, e2, rfl⟩
    · have hn : ConnVec.findByIndex c.cv i = none ∨ (c.cv.conns i).mode ≠ .connected := by
        by_cases hlt : i < c.cv.size
        · right; intro e; exact hu ⟨hlt, e⟩
        · left
          rw [ConnVec.findByIndex_spec hL, if_neg (fun hi => hlt (hL.lt i hi))]
      rw [if_pos hn]
      rcases hcode with ⟨_, h1, _⟩ | ⟨h1, _⟩
      · exact ⟨_, rfl, .inl ⟨by rw [h1]; decide, by rw [h1]; decide, rfl⟩⟩
      · exact absurd h1 hu
  | write i so nd wv =>
    have hs' : writeConn c i so nd wv = .ok (r, c') := hs
    show ∃ o, writeOp c i wv = .ok o ∧ _
    unfold Reported writeOp
    unfold writeConn at hs'
    dsimp only
    rw [ConnVec.findByIndex_spec hL] at hs' ⊢
    by_cases hi : i ∈ L
    · rw [if_pos hi, if_neg (by simp)] at hs' ⊢
      have hlt := hL.lt i hi
      have hlive : Live c i := ⟨hlt, (hL.mode i hlt).2 hi⟩
      by_cases hm : (c.cv.conns i).mode = .connecting
      · rw [if_pos hm]
        refine ⟨_, rfl, ?_⟩
        rw [if_pos ⟨hlive, fun hu => by rw [hu.2] at hm; cases hm⟩]
      · rw [if_neg hm] at hs' ⊢
        have hu : Up c i := by
          refine ⟨hlt, ?_⟩
          have := hlive.2
          cases hmo : (c.cv.conns i).mode with
          | closed => exact absurd hmo this
          | connecting => exact absurd hmo hm
          | connected => rfl
        by_cases h3 : CircBuf.inUse (c.cv.conns i).writeBuf = 0
        · rw [if_pos h3] at hs' ⊢
          have e1 : ENODATA = r := congrArg Prod.fst (Except.ok.inj hs')
          exact ⟨_, rfl, by rw [if_neg (fun x => x.2 hu), ← e1]; rfl⟩
        rw [if_neg h3] at hs' ⊢
        dsimp only at hs'
        obtain ⟨y, h4, hs'⟩ := bind_ok hs'
        have e1 : y.1 = r := congrArg Prod.fst (Except.ok.inj hs')
        rw [h4]
        refine ⟨_, rfl, ?_⟩
        rw [e1, if_neg (fun x => x.2 hu)]
        by_cases h0 : r = 0
        · rw [if_neg (by omega), if_pos h0]
        · rw [if_pos h0, if_neg h0]
    · rw [if_neg hi, if_pos rfl] at hs' ⊢
      have e1 : ENOTCONN = r := congrArg Prod.fst (Except.ok.inj hs')
      have hnl : ¬ Live c i := fun hl => hi ((hL.mode i hl.1).1 hl.2)
      exact ⟨_, rfl, by rw [if_neg (fun x => hnl x.1), ← e1]; rfl⟩
  | timeout now => exact ⟨_, rfl, rfl⟩
  | dispatched a => exact ⟨_, rfl, rfl⟩
  | keep a => exact ⟨_, rfl, rfl⟩
  | close i => exact ⟨_, rfl, rfl⟩
  | ctlAddr a p bs ptr => exact ⟨_, rfl, rfl⟩
  | ctlNode n bs ptr => exact ⟨_, rfl, rfl⟩
  | setReadyCb f => exact ⟨_, rfl, rfl⟩
  | activate x => exact ⟨_, rfl, rfl⟩
  | deactivate => exact ⟨_, rfl, rfl⟩

/-- The result of one call. -/
def givesOp (c : SubCtx) (op : Op) (r : Nat) (o : Option OpRes) : Bool :=
  match step c op, opRes c op with
  | .ok x, .ok y => decide (x.1 = r) && decide (y = o)
  | _, _ => false

theorem givesOp_ok {c : SubCtx} {op : Op} {r : Nat} {o : Option OpRes} (h : givesOp c op r o = true) :
    ∃ c', step c op = .ok (r, c') ∧ opRes c op = .ok o := by
  unfold givesOp at h
  cases h1 : step c op with
  | error f => rw [h1] at h; cases h
  | ok x =>
    cases h2 : opRes c op with
    | error f => rw [h1, h2] at h; cases h
    | ok y =>
      rw [h1, h2] at h
      simp only [Bool.and_eq_true, decide_eq_true_eq] at h
      exact ⟨x.2, by rw [← h.1], by rw [h.2]⟩

/-- Non-vacuity: with one connection set up and another one being set up, datagrams of the three kinds of publishers, TCP reads and
writes. -/
example : ∃ (ops : List Op) (c : SubCtx) (rs : List Nat), Reaches ops c ∧ run exS0 ops = .ok (rs, c) ∧
    (givesOp c (.readMcast [exDg 4 5 [1] 9]) 0 (some .readMulticast) &&
     givesOp c (.readMcast [exDg 4 5 [1] 9, exDg 6 5 [1] 9]) 0 (some .readMulticastNotReady) &&
     givesOp c (.readMcast [exDg 6 5 [1] 9, exDg 4 5 [1] 9, .dgram 77 [1, 2, 3] 5 none (.ok 1) .inProgress]) EPROTO (some .readMulticast) &&
     givesOp c (.read 0 (some (exTcp 6 [60])) 3) 0 (some .readTcp) && givesOp c (.read 0 none 3) 0 (some .readDisconnect) &&
     givesOp c (.read 0 (some [99]) 3) EPROTO (some .error) && givesOp c (.read 1 (some [1]) 3) ENOTCONN (some .error) &&
     givesOp c (.write 0 (.ok 0) none (.ok 2)) ENODATA (some .error) &&
     givesOp c (.write 1 (.ok 0) none (.ok 2)) 0 (some .completeConnection)) = true :=
  ⟨exUp ++ [.readMcast [exDg 6 0 [] 1]], reaches_of (P := fun _ c => _) (by decide +kernel)⟩

/-- C69 for the subscriber, what the documentation of the values promises and the code does not keep: `RMC_ERROR` goes with a return value
other than 0, `RMC_COMPLETE_CONNECTION` ("was completed") with a completed connection, `RMC_READ_MULTICAST_NEW` with a datagram from a new
publisher. After activation and one announcement: reading the multicast socket when there is nothing returns 0 with `RMC_ERROR`; completing the
connection fails with 111 and reports `RMC_COMPLETE_CONNECTION`; a datagram of a new publisher is reported as one of a known publisher that is
not ready. And the values `RMC_READ_MULTICAST_NEW` and `RMC_READ_MULTICAST_LOOPBACK` are never reported. -/
theorem C69_false : (∃ (ops : List Op) (c : SubCtx), Reaches ops c ∧
      (∃ c', step c (.readMcast []) = .ok (0, c') ∧ opRes c (.readMcast []) = .ok (some .error)) ∧
      (∃ c', step c (.write 0 (.ok 111) none (.ok 0)) = .ok (111, c') ∧
        opRes c (.write 0 (.ok 111) none (.ok 0)) = .ok (some .completeConnection)) ∧
      (∃ c', step c (.readMcast [exDg 6 0 [] 1]) = .ok (0, c') ∧
        opRes c (.readMcast [exDg 6 0 [] 1]) = .ok (some .readMulticastNotReady))) ∧
    (∀ (ops : List Op) (c : SubCtx), Reaches ops c → ∀ (op : Op) (r : Nat) (c' : SubCtx), step c op = .ok (r, c') →
      opRes c op ≠ .ok (some .readMulticastNew) ∧ opRes c op ≠ .ok (some .readMulticastLoopback)) := by
  constructor
  · obtain ⟨c, _, h1, _, h2⟩ := reaches_of (ops := [.activate (.ok 3), .readMcast [exDg 4 0 [] 1]])
      (P := fun _ c => givesOp c (.readMcast []) 0 (some .error) &&
        givesOp c (.write 0 (.ok 111) none (.ok 0)) 111 (some .completeConnection) &&
        givesOp c (.readMcast [exDg 6 0 [] 1]) 0 (some .readMulticastNotReady)) (by decide +kernel)
    simp only [Bool.and_eq_true] at h2
    exact ⟨_, c, h1, givesOp_ok h2.1.1, givesOp_ok h2.1.2, givesOp_ok h2.2⟩
  · intro ops c h op r c' hs
    obtain ⟨o, h1, h2⟩ := C69_subscriber h hs
    have key : o ≠ some .readMulticastNew ∧ o ≠ some .readMulticastLoopback := by
      unfold Reported at h2
      cases op with
      | readMcast rs =>
        dsimp only at h2
        by_cases h0 : c.mcast = none ∨ validDgrams rs = []
        · rw [if_pos h0] at h2
          rw [h2]; simp
        · rw [if_neg h0] at h2
          obtain ⟨_, d, c1, _, _, h2⟩ := h2
          rw [h2]
          unfold dgramOp
          cases d with
          | err e => simp
          | dgram src bs a b d e =>
            dsimp only
            split
            · simp
            · split <;> simp
      | read i rv ts =>
        dsimp only at h2
        rcases h2 with h2 | h2 | h2 <;> rw [h2.2.2] <;> simp
      | write i so nd wv =>
        dsimp only at h2
        by_cases h0 : Live c i ∧ ¬ Up c i
        · rw [if_pos h0] at h2; rw [h2]; simp
        · rw [if_neg h0] at h2; rw [h2]; by_cases h3 : r = 0 <;> simp [h3]
      | _ => rw [show o = none from h2]; simp
    rw [h1]
    exact ⟨fun e => key.1 (Except.ok.inj e), fun e => key.2 (Except.ok.inj e)⟩

end SubCtx
end Rmc
