import Verif.SysInv
import Verif.Props.PubCtxRead

/-!
# C60: the acknowledgements a subscriber sends, as long as the publisher reports no protocol error
-/

set_option linter.unusedSimpArgs false
set_option linter.unusedVariables false

namespace Rmc
namespace PubCtx
open CircBuf Proto

/-! ## Specification -/

/-- Specification: the packet ids that a command of a subscriber acknowledges: those of the interval, if it is an acknowledgement. -/
def ackIds (cmd : List UInt8) : List Nat :=
  match cmd with
  | [] => []
  | x :: cs => if x = CMD_ACK_INTERVAL then
      List.range' (AckInterval.dec cs).first ((AckInterval.dec cs).last + 1 - (AckInterval.dec cs).first) else []

/-- Specification: the complete commands at the front of a byte stream from a subscriber, and what is left behind them. -/
abbrev commandsOf (xs : List UInt8) : List (List UInt8) := (pubLang 0).commands xs
abbrev restOf (xs : List UInt8) : List UInt8 := (pubLang 0).rest xs
abbrev statusOf (xs : List UInt8) : Nat := (pubLang 0).status xs

/-- Specification: the packet ids acknowledged by the complete commands in a byte stream. -/
def acksIn (xs : List UInt8) : List Nat := (commandsOf xs).flatMap ackIds

/-- Specification: what a call reads from the socket of connection `i`: what recv() has, up to the room there is. -/
def opIn (i : Nat) (c : PubCtx) : Op → List UInt8
  | .read j rv => if j = i then offered (c.cv.conns i).readBuf rv else []
  | _ => []

/-- Specification: the bytes that the reads on connection `i` among these calls took from its socket. -/
def bytesIn (i : Nat) (c : PubCtx) : List Op → List UInt8
  | [] => []
  | op :: ops =>
    match step c op with
    | .error _ => []
    | .ok (_, c') => opIn i c op ++ bytesIn i c' ops

/-- Specification: the acknowledgements by subscriber `i` recorded in a list of events. -/
def ackedBy (i : Nat) (es : List PEv) : List Nat :=
  es.filterMap fun
    | .ack j pid => if j = i then some pid else none
    | _ => none

/-- Specification: the acknowledgements recorded for subscriber `i` by the reads on its connection. (Others are recorded when a packet
is resent: see C26.) -/
def acksTaken (i : Nat) (c : PubCtx) : List Op → List Nat
  | [] => []
  | op :: ops =>
    match step c op with
    | .error _ => []
    | .ok (_, c') => (match op with
        | .read j _ => if j = i then ackedBy i (c'.pub.log.drop c.pub.log.length) else []
        | _ => []) ++ acksTaken i c' ops

/-- Specification: after each of these calls subscriber `i` is connected, and none of the reads on its connection returns EPROTO. -/
def undisturbed (i : Nat) (c : PubCtx) : List Op → Bool
  | [] => true
  | op :: ops =>
    match step c op with
    | .error _ => false
    | .ok (r, c') => decide (c'.cv.size > i ∧ (c'.cv.conns i).mode = .connected) &&
        (match op with
         | .read j _ => decide (j = i → r ≠ EPROTO)
         | _ => true) && undisturbed i c' ops

/-! ## Proof -/

theorem split3 (xs ys : List UInt8) : commandsOf (xs ++ ys) = commandsOf xs ++ commandsOf (restOf xs ++ ys) ∧
    statusOf (xs ++ ys) = statusOf (restOf xs ++ ys) ∧ restOf (xs ++ ys) = restOf (restOf xs ++ ys) :=
  Lang.split_append (pubLang_ok 0) _ xs ys (Nat.le_refl _)

/-- The beginning of one command. -/
def Left (xs : List UInt8) : Prop := commandsOf xs = [] ∧ restOf xs = xs

theorem left_nil : Left [] := ⟨rfl, rfl⟩

theorem left_rest (xs : List UInt8) : Left (restOf xs) := by
  obtain ⟨h1, h2, h3⟩ := split3 xs []
  rw [List.append_nil, List.append_nil] at h1 h3
  exact ⟨(List.append_cancel_left (by rw [List.append_nil]; exact h1)).symm, h3.symm⟩

/-- The read buffer of connection `i` is in good order. -/
def RbOK (c : PubCtx) (i : Nat) : Prop :=
  WF (c.cv.conns i).readBuf ∧ (c.cv.conns i).readBuf.size = RMC_MAX_PACKET ∧ Left (bytes (c.cv.conns i).readBuf)

theorem ackedBy_append (i : Nat) (a b : List PEv) : ackedBy i (a ++ b) = ackedBy i a ++ ackedBy i b := by
  unfold ackedBy; rw [List.filterMap_append]

theorem spec_acks (i : Nat) : ∀ (l : List Nat) (pops : List POp), ∃ es, (spec (pops ++ l.map (POp.ack i))).log = (spec pops).log ++ es ∧
    ackedBy i es = l := by
  intro l
  induction l with
  | nil => intro pops; exact ⟨[], by simp, rfl⟩
  | cons a l ih =>
    intro pops
    obtain ⟨es, h1, h2⟩ := ih (pops ++ [POp.ack i a])
    have e : pops ++ (a :: l).map (POp.ack i) = pops ++ [POp.ack i a] ++ l.map (POp.ack i) := by simp
    rw [e, h1]
    have : (spec (pops ++ [POp.ack i a])).log = (spec pops).log ++ ([.ack i a] ++
        PSpec.freed i (fun q => q == a) (spec pops).infl) := by
      unfold spec; rw [PSpec.run_snoc, ← List.append_assoc]; rfl
    refine ⟨[.ack i a] ++ PSpec.freed i (fun q => q == a) (spec pops).infl ++ es, by rw [this, List.append_assoc, List.append_assoc], ?_⟩
    rw [ackedBy_append, ackedBy_append, h2]
    have z : ackedBy i (PSpec.freed i (fun q => q == a) (spec pops).infl) = [] := by
      unfold ackedBy
      rw [List.filterMap_eq_nil_iff]
      intro e he
      obtain ⟨pid, p, rfl⟩ := freed_free _ _ _ e he
      rfl
    rw [z, List.append_nil]
    show (if i = i then some a else none).toList ++ l = _ 
    rw [if_pos rfl]; rfl

theorem effects_ids {i : Nat} : ∀ (cs : List (List UInt8)) {c d : PubCtx} {pops : List POp} {L : List Nat},
    Good c pops L → effects (pubLangQ i) c cs = .ok d → Good d (pops ++ (cs.flatMap ackIds).map (POp.ack i)) L := by
  intro cs
  induction cs with
  | nil => intro c d pops L h hx; cases hx; simpa using h
  | cons m cs ih =>
    intro c d pops L h hx
    rw [effects_cons] at hx
    obtain ⟨c1, h1, h2⟩ := bind_ok hx
    have step : Good c1 (pops ++ (ackIds m).map (POp.ack i)) L := by
      have h1' : pubEffQ i c m = .ok c1 := h1
      cases m with
      | nil => cases h1'; simpa [ackIds] using h
      | cons x xs =>
        unfold pubEffQ at h1'
        dsimp only at h1'
        unfold ackIds
        dsimp only
        by_cases hx : x = CMD_ACK_INTERVAL
        · rw [if_pos hx] at h1' ⊢
          by_cases hb : (AckInterval.dec xs).last = U64 - 1
          · unfold ackInterval at h1'; rw [if_pos hb] at h1'; cases h1'
          · obtain ⟨c', g1, g2, g3, g4, g5⟩ := ackInterval_spec h i (AckInterval.dec xs) hb
            rw [g1] at h1'; cases h1'
            exact g2
        · rw [if_neg hx] at h1' ⊢
          split at h1'
          · cases h1'
          · cases h1'; simpa using h
    have := ih step h2
    rw [List.flatMap_cons, List.map_append, ← List.append_assoc]
    exact this

theorem readConn_offered (c : PubCtx) (i : Nat) (rv : Option (List UInt8)) :
    readConn c i rv = readConn c i (some (offered (c.cv.conns i).readBuf rv)) := by
  unfold readConn
  rw [tcpRead_offered]

/-- One call. -/
theorem ack_step {c c' : PubCtx} {pops : List POp} {L : List Nat} {op : Op} {r i : Nat} (h : Good c pops L) (hs : op.sane)
    (hb : (queueArgs pops).length + 2 < U64) (hx : step c op = .ok (r, c')) (hk : Connected c i) (hk' : Connected c' i)
    (hr : ∀ rv, op = .read i rv → r ≠ EPROTO) (hw : RbOK c i) :
    RbOK c' i ∧ bytes (c'.cv.conns i).readBuf = restOf (bytes (c.cv.conns i).readBuf ++ opIn i c op) ∧
    ((∃ rv, op = .read i rv) → ackedBy i (c'.pub.log.drop c.pub.log.length) = acksIn (bytes (c.cv.conns i).readBuf ++ opIn i c op)) ∧
    ((¬ ∃ rv, op = .read i rv) → opIn i c op = []) := by
  have hi : i ∈ L := h.connected.1 hk
  by_cases hread : ∃ rv, op = .read i rv
  · obtain ⟨rv, rfl⟩ := hread
    have hne := hr rv rfl
    have hx' : readConn c i rv = .ok (r, c') := hx
    have hin : opIn i c (.read i rv) = offered (c.cv.conns i).readBuf rv := by
      show (if i = i then _ else _) = _
      rw [if_pos rfl]
    rw [hin]
    by_cases h0 : available (c.cv.conns i).readBuf = 0
    · have e0 : offered (c.cv.conns i).readBuf rv = [] := by
        unfold offered; rw [h0]; exact List.take_zero
      rw [readConn_eq h hi, tcpRead_full _ _ _ h0, Proto.ok_bind] at hx'
      dsimp only at hx'
      rw [if_neg (by decide)] at hx'
      have e : _ = c' := congrArg Prod.snd (Except.ok.inj hx')
      have hrb : (c'.cv.conns i).readBuf = (c.cv.conns i).readBuf := by
        rw [← e]
        show (if i = i then _ else _ : Conn).readBuf = _
        rw [if_pos rfl]
        show (if i = i then _ else _ : Conn).readBuf = _
        rw [if_pos rfl]
      have hp : c'.pub = c.pub := by rw [← e]; rfl
      rw [e0, List.append_nil, hrb, hp]
      obtain ⟨w1, w2, w3, w4⟩ := hw
      refine ⟨by unfold RbOK; rw [hrb]; exact ⟨w1, w2, w3, w4⟩, w4.symm, fun _ => ?_, fun hn => absurd ⟨_, rfl⟩ hn⟩
      unfold acksIn
      rw [w3, List.drop_length]; rfl
    · rw [readConn_offered] at hx'
      have hxne : offered (c.cv.conns i).readBuf rv ≠ [] := by
        intro he
        rw [he, readConn_eq h hi, tcpRead_nothing _ _ _ hw.1 h0, Proto.ok_bind] at hx'
        dsimp only at hx'
        rw [if_pos rfl] at hx'
        obtain ⟨b, hbb⟩ : ∃ b, b = (CircBuf.alloc (c.cv.conns i).readBuf (available (c.cv.conns i).readBuf)).2.2.2.trim
            (available (c.cv.conns i).readBuf) := ⟨_, rfl⟩
        rw [← hbb] at hx'
        have hg : Good (setConn c i { c.cv.conns i with readBuf := b }) pops L := by
          refine (h.setConn hi (x := { c.cv.conns i with readBuf := b }) (es := []) rfl rfl (h.v.idx i) (h.wb i hi).1
            (h.wb i hi).2 (h.arm i hi) (h.zero i hi) (.inl ⟨rfl, rfl⟩)).congr rfl ?_
          show c.cv.set i _ = { c.cv.set i _ with polls := c.cv.polls ++ [] }
          rw [List.append_nil]; rfl
        obtain ⟨c2, g1, g2, _⟩ := close_spec hg hi
        rw [g1] at hx'
        have e : c2 = c' := congrArg Prod.snd (Except.ok.inj hx')
        subst e
        have := g2.connected.1 hk'
        exact (List.Nodup.not_mem_erase h.v.nodup) this
      have hlen : (offered (c.cv.conns i).readBuf rv).length ≤ available (c.cv.conns i).readBuf := by
        unfold offered; rw [List.length_take]; omega
      have hsz' : (c.cv.conns i).readBuf.size ≤ 65536 := by rw [hw.2.1]; decide
      obtain ⟨d, b', ds, hd, k0, hc', g4, k2, k3, k4, hcv⟩ := readConn_langQ h hi hw.1 hsz' hxne hlen hx'
        (read_safe h hi hw.1 hsz' hxne hlen hx' hne)
      have hrb : (c'.cv.conns i).readBuf = b' := by rw [hc']; exact afterRead_self c i b'
      have hk4 : bytes b' = restOf (bytes (c.cv.conns i).readBuf ++ offered (c.cv.conns i).readBuf rv) := k4
      refine ⟨?_, by rw [hrb]; exact hk4, fun _ => ?_, fun hn => absurd ⟨_, rfl⟩ hn⟩
      · unfold RbOK
        rw [hrb]
        exact ⟨k2, by rw [k3]; exact hw.2.1, by rw [hk4]; exact left_rest _⟩
      · have hgd := effects_ids _ h hd
        obtain ⟨es, q1, q2⟩ := spec_acks i (acksIn (bytes (c.cv.conns i).readBuf ++ offered (c.cv.conns i).readBuf rv)) pops
        have hlog : c'.pub.log = c.pub.log ++ es := by
          have e1 : c'.pub = d.pub := by rw [hc']; rfl
          rw [e1, hgd.p.reached.log, h.p.reached.log]
          exact q1
        rw [hlog, List.drop_append_of_le_length (Nat.le_refl _), List.drop_length, List.nil_append, q2]
  · have hin : opIn i c op = [] := by
      cases op with
      | read j rv =>
        show (if j = i then _ else _) = _
        rw [if_neg]
        rintro rfl
        exact hread ⟨rv, rfl⟩
      | _ => rfl
    have hcl : op ≠ .close i := by
      rintro rfl
      obtain ⟨c2, g1, g2, _⟩ := close_spec h hi
      have hx' : closeConnection c i = .ok (r, c') := hx
      rw [g1] at hx'
      have e : c2 = c' := congrArg Prod.snd (Except.ok.inj hx')
      subst e
      exact (List.Nodup.not_mem_erase h.v.nodup) (g2.connected.1 hk')
    have hde : op ≠ .deactivate := by
      rintro rfl
      obtain ⟨c2, ys, ds, g1, g2, _⟩ := deactivate_spec h
      have hx' : deactivate c = .ok (r, c') := hx
      rw [g1] at hx'
      have e : c2 = c' := congrArg Prod.snd (Except.ok.inj hx')
      subst e
      have := g2.connected.1 hk'
      cases this
    obtain ⟨ds, ps, hkept⟩ := step_link h hs hb hx hk (fun rv e => hread ⟨rv, e⟩) hcl hde
    rw [hin, List.append_nil, hkept.rb]
    refine ⟨by unfold RbOK; rw [hkept.rb]; exact hw, hw.2.2.2.symm, fun hn => absurd hn hread, fun _ => rfl⟩

theorem bytesIn_cons {i : Nat} {c c' : PubCtx} {op : Op} {ops : List Op} {r : Nat} (h : step c op = .ok (r, c')) :
    bytesIn i c (op :: ops) = opIn i c op ++ bytesIn i c' ops := by
  rw [bytesIn, h]

theorem acksTaken_cons {i : Nat} {c c' : PubCtx} {op : Op} {ops : List Op} {r : Nat} (h : step c op = .ok (r, c')) :
    ((∃ rv, op = .read i rv) → acksTaken i c (op :: ops) = ackedBy i (c'.pub.log.drop c.pub.log.length) ++ acksTaken i c' ops) ∧
    ((¬ ∃ rv, op = .read i rv) → acksTaken i c (op :: ops) = acksTaken i c' ops) := by
  constructor
  · rintro ⟨rv, rfl⟩
    rw [acksTaken, h]
    dsimp only
    rw [if_pos rfl]
  · intro hn
    rw [acksTaken, h]
    cases op with
    | read j rv =>
      dsimp only
      rw [if_neg]
      · rfl
      · rintro rfl; exact hn ⟨rv, rfl⟩
    | _ => rfl

theorem undisturbed_cons {i : Nat} {c c' : PubCtx} {op : Op} {ops : List Op} {r : Nat} (h : step c op = .ok (r, c'))
    (hu : undisturbed i c (op :: ops) = true) :
    Connected c' i ∧ (∀ rv, op = .read i rv → r ≠ EPROTO) ∧ undisturbed i c' ops = true := by
  rw [undisturbed, h] at hu
  dsimp only at hu
  rw [Bool.and_eq_true, Bool.and_eq_true, decide_eq_true_iff] at hu
  obtain ⟨⟨h1, h2⟩, h3⟩ := hu
  refine ⟨h1, ?_, h3⟩
  rintro rv rfl
  exact (decide_eq_true_iff.1 h2) rfl

/-- The whole history, from a connection whose read buffer is in good order. -/
theorem acks_stream {pre ops : List Op} {c c' : PubCtx} {rs : List Nat} (h : Reaches pre c) {i : Nat} (hk : Connected c i)
    (hw : RbOK c i) (hs : ∀ op ∈ ops, op.sane) (hb : (pre ++ ops).length + 1 < U64) (hr : run c ops = .ok (rs, c'))
    (hu : undisturbed i c ops = true) :
    acksTaken i c ops = acksIn (bytes (c.cv.conns i).readBuf ++ bytesIn i c ops) ∧
    bytes (c'.cv.conns i).readBuf = restOf (bytes (c.cv.conns i).readBuf ++ bytesIn i c ops) := by
  induction ops generalizing pre c rs with
  | nil =>
    have e : c = c' := congrArg Prod.snd (Except.ok.inj hr)
    subst e
    obtain ⟨_, _, l1, l2⟩ := hw
    have : bytesIn i c [] = [] := rfl
    rw [this, List.append_nil]
    unfold acksIn
    rw [l1, l2]
    exact ⟨rfl, rfl⟩
  | cons op ops ih =>
    have hr' : (step c op >>= fun x => run x.2 ops >>= fun y => Except.ok (x.1 :: y.1, y.2)) = .ok (rs, c') := hr
    obtain ⟨⟨r, c1⟩, h1, h2⟩ := bind_ok hr'
    obtain ⟨⟨rs1, c2⟩, h3, h4⟩ := bind_ok h2
    have e : c2 = c' := congrArg Prod.snd (Except.ok.inj h4)
    subst e
    obtain ⟨hu1, hu2, hu3⟩ := undisturbed_cons h1 hu
    obtain ⟨pops, L, hg, hq, _⟩ := h.good
    rw [List.length_append, List.length_cons] at hb
    obtain ⟨s1, s2, s3, s4⟩ := ack_step hg (hs op (by simp)) (by omega) h1 hk hu1 hu2 hw
    obtain ⟨s5, s6⟩ := ih (h.snoc' (hs op (by simp)) (by omega) h1) hu1 s1 (fun o ho => hs o (by simp [ho]))
      (by rw [List.length_append, List.length_append, List.length_singleton]; omega) h3 hu3
    rw [bytesIn_cons h1, ← List.append_assoc]
    obtain ⟨p1, _, p3⟩ := split3 (bytes (c.cv.conns i).readBuf ++ opIn i c op) (bytesIn i c1 ops)
    rw [p3, s6, s2]
    refine ⟨?_, rfl⟩
    obtain ⟨t1, t2⟩ := acksTaken_cons (i := i) (ops := ops) h1
    have e2 : acksIn (bytes (c.cv.conns i).readBuf ++ opIn i c op ++ bytesIn i c1 ops) =
        acksIn (bytes (c.cv.conns i).readBuf ++ opIn i c op) ++ acksIn (restOf (bytes (c.cv.conns i).readBuf ++ opIn i c op) ++ bytesIn i c1 ops) := by
      unfold acksIn
      rw [p1, List.flatMap_append]
    rw [e2]
    by_cases hread : ∃ rv, op = .read i rv
    · rw [t1 hread, s3 hread, s5, s2]
    · rw [t2 hread, s5, s2, s4 hread, List.append_nil]
      have : acksIn (bytes (c.cv.conns i).readBuf) = [] := by unfold acksIn; rw [hw.2.2.1]; rfl
      rw [this, List.nil_append]

/-- C60: however the bytes that a subscriber sends are cut into reads, and whatever other calls are made in between: from the call that
accepted the connection on, as long as the subscriber stays connected and no read on its connection returns EPROTO, the
acknowledgements recorded by the reads are exactly those of the complete commands in the bytes read, one after the other,
and exactly the bytes behind the last complete command are kept for later. -/
theorem C60_acks {pre ops : List Op} {c c1 c' : PubCtx} {r : Nat} {rs : List Nat} (h : Reaches pre c) {i : Nat}
    (hn : ¬ Connected c i) {ar : ConnVec.AccRes} {cb : Option Bool} (h1 : step c (.readListen ar cb) = .ok (r, c1)) (hk : Connected c1 i)
    (hr : run c1 ops = .ok (rs, c')) (hs : ∀ op ∈ Op.readListen ar cb :: ops, op.sane) (hb : (pre ++ .readListen ar cb :: ops).length + 1 < U64)
    (hu : undisturbed i c1 ops = true) :
    acksTaken i c1 ops = acksIn (bytesIn i c1 ops) ∧ bytes (c'.cv.conns i).readBuf = restOf (bytesIn i c1 ops) := by
  obtain ⟨pops, L, hg, _⟩ := h.good
  have hsa : (Op.readListen ar cb).sane := hs _ (by simp)
  obtain ⟨hf, _⟩ := accept_link hg hsa h1 hn hk
  rw [List.length_append, List.length_cons] at hb
  have := acks_stream (h.snoc' hsa (by omega) h1) hk ⟨hf.rwf, hf.rsize, by rw [hf.rb]; exact left_nil⟩
    (fun o ho => hs o (by simp [ho])) (by rw [List.length_append, List.length_append, List.length_singleton]; omega) hr hu
  rw [hf.rb, List.nil_append] at this
  exact this

/-! ## Non-vacuity -/

/-- What the subscriber sends: two acknowledgements, a control message, and one more acknowledgement. -/
def exAckStream : List UInt8 := ackBytes 1 1 ++ ctlBytes [9, 8] ++ ackBytes 3 3 ++ ackBytes 2 2

/-- A subscriber is accepted; then its commands arrive in reads of 10, 20, 1 and 24 bytes, with other calls between. The last byte is missing. -/
def exAcks : List Op :=
  [.queue (exPay 1) false, .queue (exPay 2) false, .queue (exPay 3) false,
   .writeMcast [⟨.ok 10, []⟩, ⟨.ok 20, []⟩, ⟨.ok 30, []⟩], .read 0 (some (exAckStream.take 10)), .readListen (.ok 6 1) none,
   .timeout 50 none 0, .read 0 (some ((exAckStream.drop 10).take 20)), .read 1 (some [9]),
   .read 0 (some ((exAckStream.drop 30).take 25))]

def exAcksHold (c : PubCtx) : Bool :=
  match step c (.readListen (.ok 5 1) none) with
  | .error _ => false
  | .ok x => decide (¬ (0 < c.cv.size ∧ (c.cv.conns 0).mode = .connected) ∧ 0 < x.2.cv.size ∧ (x.2.cv.conns 0).mode = .connected) && undisturbed 0 x.2 exAcks && decide (bytesIn 0 x.2 exAcks = exAckStream.take 55) &&
      decide (acksTaken 0 x.2 exAcks = [1, 3]) &&
      (match run x.2 exAcks with
       | .ok y => decide (bytes (y.2.cv.conns 0).readBuf = (ackBytes 2 2).take 16)
       | .error _ => false)

example : ∃ c rs, Reaches [.activate (.ok (7, 8, 9)), .setCtlCb true] c ∧
    run exC0 [.activate (.ok (7, 8, 9)), .setCtlCb true] = .ok (rs, c) ∧ exAcksHold c = true :=
  reaches_of (P := fun _ c => exAcksHold c) (by simp [Op.sane, saneAcc]) (by decide) (by decide +kernel)

end PubCtx
end Rmc
