import Verif.SubCtxAck
import Verif.Props.SubCtxConn

/-! # Which calls on a subscriber context can go wrong -/

set_option linter.unusedVariables false
set_option linter.unusedSimpArgs false

namespace Rmc
namespace SubCtx
open SubPub CircBuf ConnVec

theorem insertAckRev_total {c : SubCtx} {i : Nat} {n : Int} : ∀ {l : List Nat}, (∀ j ∈ l, ∃ s, c.publishers j = some s) →
    ∃ r, insertAckRev c i n l = .ok r := by
  intro l
  induction l with
  | nil => intro _; exact ⟨_, rfl⟩
  | cons j js ih =>
    intro h
    obtain ⟨s, hs⟩ := h j (by simp)
    obtain ⟨r, hr⟩ := ih (fun k hk => h k (by simp [hk]))
    unfold insertAckRev oldestAt getPub
    rw [hs]
    by_cases hn : n ≥ oldest s
    · exact ⟨i :: j :: js, by show (if n ≥ oldest s then _ else _) = _; rw [if_pos hn]; rfl⟩
    · refine ⟨j :: r, ?_⟩
      show (if n ≥ oldest s then _ else _) = _
      rw [if_neg hn, hr]; rfl

theorem noteAck_total {c : SubCtx} {i : Nat} {s : SubPub} (hs : c.publishers i = some s)
    (ha : ∀ j ∈ c.ackList, ∃ s, c.publishers j = some s) : ∃ c', noteAck c i = .ok c' := by
  unfold noteAck oldestAt getPub
  rw [hs]
  obtain ⟨l, hl⟩ := insertAckRev_total (c := c) (i := i) (n := oldest s) (l := c.ackList.reverse)
    (fun j hj => ha j (List.mem_reverse.1 hj))
  by_cases ho : oldest s ≠ 0
  · exact ⟨c, by show (if oldest s ≠ 0 then _ else _) = _; rw [if_pos ho]; rfl⟩
  · refine ⟨{ c with ackList := l.reverse }, ?_⟩
    show (if oldest s ≠ 0 then _ else _) = _
    rw [if_neg ho, hl]; rfl

/-- A data packet for a connection that is set up never makes anything go wrong. -/
theorem deliver_total {c : SubCtx} (hc : Core c) {i : Nat} (hu : Up c i) (pid : Nat) (data : List UInt8) (m : Bool) (ts : Int) :
    ∃ c', deliver c i pid data m ts = .ok c' := by
  obtain ⟨s, hs⟩ := hc.recd i hu
  unfold deliver
  rw [getPub_ok.2 hs, Proto.ok_bind]
  dsimp only
  by_cases hd : isDuplicate s pid = true
  · rw [if_pos hd]; exact ⟨_, rfl⟩
  · rw [if_neg hd]
    cases m with
    | false =>
      rw [if_neg (by simp)]
      exact ⟨_, rfl⟩
    | true =>
      rw [if_pos rfl]
      obtain ⟨c2, h2⟩ := noteAck_total
        (c := ev { ev c (.arrive i ⟨c.nextAddr, pid, ⟨c.nextAddr, data, false⟩, i⟩ true ts) with nextAddr := c.nextAddr + 1 }
            (.alloc ⟨c.nextAddr, pid, ⟨c.nextAddr, data, false⟩, i⟩)) (i := i) (s := s) hs hc.ackInit
      have h2' : noteAck (ev { ev c (.arrive i ⟨c.nextAddr, pid, ⟨c.nextAddr, data, false⟩, i⟩ true ts) with
          nextAddr := (ev c (.arrive i ⟨c.nextAddr, pid, ⟨c.nextAddr, data, false⟩, i⟩ true ts)).nextAddr + 1 }
            (.alloc ⟨c.nextAddr, pid, ⟨c.nextAddr, data, false⟩, i⟩)) i = .ok c2 := h2
      rw [h2', Proto.ok_bind]
      exact ⟨_, rfl⟩

theorem mcastPacket_total {c : SubCtx} (hc : Core c) (src : Nat) (bs : List UInt8) (ts : Int) (ann : Option Bool)
    (sk : Except Nat Nat) (cr : ConnRes) : ∃ r c', mcastPacket c src bs ts ann sk cr = .ok (r, c') := by
  obtain ⟨L, hL⟩ := hc.v
  unfold mcastPacket
  split
  · exact ⟨_, _, rfl⟩
  · dsimp only
    split
    · exact ⟨_, _, rfl⟩
    · split
      · exact ⟨_, _, rfl⟩
      · rename_i i hf
        obtain ⟨hi, ha, hp⟩ := findByAddress_mem hL hf
        split
        · exact ⟨_, _, rfl⟩
        · rename_i hm
          split
          · exact ⟨_, _, rfl⟩
          · have hu : Up c i := ⟨hL.lt i hi, (mode_cases hL hi).resolve_left hm⟩
            obtain ⟨c2, h2⟩ := deliver_total hc hu (PacketHeader.dec (bs.take HDR_LEN)).pid
              ((bs.drop HDR_LEN).take (PacketHeader.dec (bs.take HDR_LEN)).payloadLen) true ts
            rw [h2, Proto.ok_bind]
            exact ⟨_, _, rfl⟩

theorem mcastLoop_total : ∀ (rs : List RecvRes) {c : SubCtx}, Core c → ∃ r c', mcastLoop c rs = .ok (r, c') := by
  intro rs
  induction rs with
  | nil => intro c hc; exact ⟨_, _, rfl⟩
  | cons x rs ih =>
    intro c hc
    cases x with
    | err e => exact ⟨_, _, rfl⟩
    | dgram src bs ts ann sk cr =>
      unfold mcastLoop
      split
      · exact ⟨_, _, rfl⟩
      · obtain ⟨r, c1, h1⟩ := mcastPacket_total hc src (bs.take RMC_MAX_PACKET) ts ann sk cr
        rw [h1, Proto.ok_bind]
        dsimp only
        split
        · exact ⟨_, _, rfl⟩
        · exact ih (hc.steps (mcastPacket_steps hc h1))

theorem readMcast_total {c : SubCtx} (hc : Core c) (rs : List RecvRes) : ∃ r c', readMcast c rs = .ok (r, c') := by
  unfold readMcast
  split
  · exact ⟨_, _, rfl⟩
  · obtain ⟨r, c1, h1⟩ := mcastLoop_total rs hc
    rw [h1, Proto.ok_bind]
    exact ⟨_, _, rfl⟩

theorem writeConn_total {c : SubCtx} (hc : Core c) (i : Nat) (so : Except Nat Nat) (nd : Option Nat) (wv : Except Nat Nat) :
    ∃ r c', writeConn c i so nd wv = .ok (r, c') := by
  obtain ⟨L, hL⟩ := hc.v
  unfold writeConn
  rw [findByIndex_spec hL]
  by_cases hi : i ∈ L
  rotate_left
  · rw [if_neg hi, if_pos rfl]; exact ⟨_, _, rfl⟩
  · rw [if_pos hi, if_neg (by simp)]
    split
    · dsimp only
      split <;> exact ⟨_, _, rfl⟩
    · split
      · exact ⟨_, _, rfl⟩
      · obtain ⟨hw, hz⟩ := hc.wb i (hL.lt i hi)
        obtain ⟨code, left', b', out', t1, t2, t3, t4, t5, t6⟩ := Proto.tcpWrite_spec hw (by omega) wv
        dsimp only
        rw [t1, Proto.ok_bind]
        exact ⟨_, _, rfl⟩

/-! ## Acknowledgements -/

/-- What `writeAck` does on a connection that is set up, case by case. -/
theorem writeAck_exact {c : SubCtx} {i : Nat} (hc : Core c) (hu : Up c i) (iv : Intv) :
    let B := (c.cv.conns i).writeBuf
    if available B < 17 then writeAck c i iv = .ok (ENOMEM, c)
    else if B.stop = B.size then writeAck c i iv = .error .oob
    else ∃ b, writeAck c i iv = .ok (0, armWrite (ev c (.ack i iv.first iv.last)) i b) ∧ WF b ∧ b.size = B.size ∧ b.start = B.start ∧
      b.stop = (if B.stop + 17 ≤ B.size then B.stop + 17 else B.stop + 17 - B.size) ∧
      bytes b = bytes B ++ ackFrame iv.first iv.last := by
  obtain ⟨hw, hz⟩ := hc.wb i hu.1
  have hA : ACK_LEN = 16 := rfl
  have e0 : writeAck c i iv = if available (c.cv.conns i).writeBuf < 1 + ACK_LEN then .ok (ENOMEM, c)
      else do
        let r ← Proto.putCmd (c.cv.conns i).writeBuf CMD_ACK_INTERVAL
        if r.1 ≠ 0 then return (ENOMEM, c)
        else do
          let q ← CircBuf.put r.2 (AckInterval.enc ⟨iv.first, iv.last⟩)
          if q.1 ≠ 0 then return (ENOMEM, setConn c i { c.cv.conns i with writeBuf := q.2 })
          else return (0, armWrite (ev c (.ack i iv.first iv.last)) i q.2) := by
    unfold writeAck
    dsimp only
    rw [if_neg (show ¬ (c.cv.conns i).mode ≠ .connected by rw [hu.2]; simp)]
  dsimp only
  rw [e0]
  by_cases ha : available (c.cv.conns i).writeBuf < 17
  · rw [if_pos ha, if_pos (show available (c.cv.conns i).writeBuf < 1 + ACK_LEN by omega)]
  · rw [if_neg ha, if_neg (show ¬ available (c.cv.conns i).writeBuf < 1 + ACK_LEN by omega)]
    by_cases hs : (c.cv.conns i).writeBuf.stop = (c.cv.conns i).writeBuf.size
    · rw [if_pos hs, Proto.C13_cmd_oob hw (by omega) hs CMD_ACK_INTERVAL]; rfl
    · rw [if_neg hs]
      have hlt : (c.cv.conns i).writeBuf.stop < (c.cv.conns i).writeBuf.size := by have := hw.stop_le; omega
      obtain ⟨b2, g1, g2, g3, g4, g5, g6⟩ := Proto.putCmd_ok hw (by omega) hlt CMD_ACK_INTERVAL
      have hav := avail_after hw g2 g3 g6
      rw [List.length_singleton] at hav
      have hlen : (AckInterval.enc ⟨iv.first, iv.last⟩).length = ACK_LEN := AckInterval.length_enc _
      obtain ⟨b3, k1, k2, k3, k4, k5, k6⟩ := put_full g2 (xs := AckInterval.enc ⟨iv.first, iv.last⟩) (by omega)
      rw [g1, Proto.ok_bind]
      dsimp only
      rw [if_neg (by simp), k1, Proto.ok_bind]
      dsimp only
      rw [if_neg (by simp)]
      refine ⟨b3, rfl, k2, k3.trans g3, k4.trans g4, ?_, ?_⟩
      · rw [k5]; unfold stopAfter
        rw [hlen, hA, g3, g5]
        split <;> split <;> omega
      · rw [k6, g6]; simp [ackFrame]

/-- Acknowledging goes wrong only by storing a byte behind a write buffer whose write position is at its end. -/
theorem ackAll_fault : ∀ (ivs : List Intv) {c : SubCtx} {i : Nat} {s : SubPub} {f : Fault}, Core c → i ∈ c.ackList →
    c.publishers i = some { s with intervals := ivs } → ackAll c i s ivs = .error f →
    f = .oob ∧ Up c i ∧ ∃ k, k < ivs.length ∧ (c.cv.conns i).writeBuf.stop + 17 * k = (c.cv.conns i).writeBuf.size ∧
      17 * (k + 1) ≤ available (c.cv.conns i).writeBuf := by
  intro ivs
  induction ivs with
  | nil => intro c i s f hc hi hs h; cases h
  | cons iv rest ih =>
    intro c i s f hc hi hs h
    have hu : Up c i := by
      by_cases hu : Up c i
      · exact hu
      · exact absurd (hc.idle i _ hs hu).2 (by simp)
    unfold ackAll at h
    have mt : Micro 1 c (ev (SubCtx.setPub c i { s with intervals := rest }) (.taken i iv)) :=
      Micro.taken (s := { s with intervals := iv :: rest }) hs rfl hi rfl
    have htk : iv ∈ (sess i (ev (SubCtx.setPub c i { s with intervals := rest }) (.taken i iv)).log).taken := by
      show iv ∈ (sess i (c.log ++ [_])).taken
      rw [sess_snoc]
      simp [Sess.step]
    obtain ⟨d, hd⟩ : ∃ d, d = ev (SubCtx.setPub c i { s with intervals := rest }) (.taken i iv) := ⟨_, rfl⟩
    dsimp only at h
    rw [← hd] at h mt htk
    have hdc : d.cv = c.cv := by rw [hd]; rfl
    have hud : Up d i := hu.congr hdc
    have hcd := hc.micro mt
    have hx := writeAck_exact hcd hud iv
    dsimp only at hx
    split at hx
    · rw [hx, Proto.ok_bind] at h
      dsimp only at h
      rw [if_pos (by decide)] at h
      cases h
    · rename_i hav
      split at hx
      · rename_i hst
        rw [hx] at h
        cases h
        rw [hdc] at hst hav
        exact ⟨rfl, hu, 0, by simp, by omega, by omega⟩
      · rename_i hst
        obtain ⟨b, hb, hw, hz, hs1, hs2, hbb⟩ := hx
        have hai : i ∈ d.ackList := by rw [hd]; exact hi
        have hdp : d.publishers i = some { s with intervals := rest } := by
          rw [hd]; show (if i = i then _ else _) = _; rw [if_pos rfl]
        have mm : Micro 1 d (armWrite (ev d (.ack i iv.first iv.last)) i b) :=
          .msg hud hw hz hbb (.inl ⟨iv, htk, rfl, rfl⟩)
        rw [hb, Proto.ok_bind] at h
        dsimp only at h
        rw [if_neg (by simp)] at h
        obtain ⟨e1, e2, k, e3, e4, e5⟩ := ih (hcd.micro mm) (show i ∈ d.ackList from hai) (show d.publishers i = _ from hdp) h
        have ec : ((armWrite (ev d (.ack i iv.first iv.last)) i b).cv.conns i).writeBuf = b := by
          rw [armWrite_conn]
        rw [ec] at e4 e5
        have hwd := (hcd.wb i hud.1).1
        have hava := avail_after hwd hw hz hbb
        have hfl : (ackFrame iv.first iv.last).length = 17 := by
          unfold ackFrame
          rw [List.length_cons, AckInterval.length_enc]; rfl
        rw [hfl] at hava
        rw [hdc] at hs2 hz hava hst hav hwd
        refine ⟨e1, hu, k + 1, by simp; omega, ?_, by omega⟩
        split at hs2
        · omega
        · exfalso
          have h2 := available_eq hwd
          have h3 := inUse_eq hwd
          obtain ⟨w1, w2, w3, w4, w5⟩ := hwd
          split at h3 <;> omega

theorem ackAll_frame : ∀ (ivs : List Intv) {c c' : SubCtx} {i r : Nat} {s : SubPub}, ackAll c i s ivs = .ok (r, c') →
    ∀ j, j ≠ i → c'.cv.conns j = c.cv.conns j ∧ c'.publishers j = c.publishers j := by
  intro ivs
  induction ivs with
  | nil => intro c c' i r s h j hj; cases h; exact ⟨rfl, rfl⟩
  | cons iv rest ih =>
    intro c c' i r s h j hj
    unfold ackAll at h
    obtain ⟨d, hd⟩ : ∃ d, d = ev (SubCtx.setPub c i { s with intervals := rest }) (.taken i iv) := ⟨_, rfl⟩
    dsimp only at h
    rw [← hd] at h
    have hdc : d.cv = c.cv := by rw [hd]; rfl
    have hdp : d.publishers j = c.publishers j := by rw [hd]; show (if j = i then _ else _) = _; rw [if_neg hj]
    obtain ⟨⟨r1, c1⟩, h1, h⟩ := bind_ok h
    have hw : c1.cv.conns j = c.cv.conns j ∧ c1.publishers j = c.publishers j := by
      unfold writeAck at h1
      dsimp only at h1
      split at h1
      · cases h1; exact ⟨by rw [hdc], hdp⟩
      · split at h1
        · cases h1; exact ⟨by rw [hdc], hdp⟩
        · obtain ⟨⟨r2, b2⟩, h2, h1⟩ := bind_ok h1
          dsimp only at h1
          split at h1
          · cases h1; exact ⟨by rw [hdc], hdp⟩
          · obtain ⟨⟨r3, b3⟩, h3, h1⟩ := bind_ok h1
            dsimp only at h1
            split at h1 <;> cases h1
            · refine ⟨?_, hdp⟩
              show (if j = i then _ else _) = _
              rw [if_neg hj, hdc]
            · refine ⟨?_, hdp⟩
              show (if j = i then _ else _) = _
              rw [if_neg hj]
              show d.cv.conns j = _
              rw [hdc]
    dsimp only at h
    split at h
    · cases h; exact hw
    · obtain ⟨k1, k2⟩ := ih h j hj
      exact ⟨k1.trans hw.1, k2.trans hw.2⟩

/-- Timeout processing goes wrong only by storing a byte behind a write buffer: one of the publishers to acknowledge has so many
intervals recorded that the write position of its connection comes to lie exactly at the end of the write buffer. -/
theorem timeoutLoop_fault {c0 : SubCtx} : ∀ (l : List Nat) {c : SubCtx} {now : Int} {f : Fault}, Core c → c.ackList = l →
    (∀ j ∈ l, (c.cv.conns j = c0.cv.conns j ∧ c.publishers j = c0.publishers j) ∨
      ∃ s, c.publishers j = some s ∧ s.intervals = []) →
    timeoutLoop c now l = .error f →
    f = .oob ∧ ∃ i s k, i ∈ l ∧ c0.publishers i = some s ∧ k < s.intervals.length ∧
      (c0.cv.conns i).writeBuf.stop + 17 * k = (c0.cv.conns i).writeBuf.size ∧
      17 * (k + 1) ≤ available (c0.cv.conns i).writeBuf := by
  intro l
  induction l with
  | nil => intro c now f hc hl hj h; cases h
  | cons i is ih =>
    intro c now f hc hl hj h
    unfold timeoutLoop at h
    obtain ⟨s, hs⟩ := hc.ackInit i (by rw [hl]; simp)
    rw [getPub_ok.2 hs, Proto.ok_bind] at h
    split at h
    · cases h
    · cases hx : ackAll c i s s.intervals with
      | error g =>
        rw [hx] at h
        cases h
        obtain ⟨e1, e2, k, e3, e4, e5⟩ := ackAll_fault s.intervals hc (by rw [hl]; simp) hs hx
        refine ⟨e1, i, s, k, by simp, ?_⟩
        rcases hj i (by simp) with ⟨q1, q2⟩ | ⟨s', q1, q2⟩
        · rw [← q2, ← q1]; exact ⟨hs, e3, e4, e5⟩
        · rw [hs] at q1; cases q1; rw [q2] at e3; simp at e3
      | ok x =>
        obtain ⟨r1, c1⟩ := x
        rw [hx, Proto.ok_bind] at h
        obtain ⟨g1, g2, g3⟩ := ackAll_steps s.intervals hc (by rw [hl]; simp) hs hx
        dsimp only at h
        split at h
        · cases h
        · rename_i hr
          have hr : r1 = 0 := by simpa using hr
          have hm : Micro 1 c1 { c1 with ackList := is } := .dropAck (g2.trans hl) (g3 hr) rfl
          have hc2 := hc.steps (g1.snoc hm)
          obtain ⟨e1, j, s', k, e2, e4⟩ := ih (c := { c1 with ackList := is }) hc2 rfl (by
            intro j hj'
            by_cases e : j = i
            · subst e; exact .inr ⟨_, g3 hr, rfl⟩
            · obtain ⟨q1, q2⟩ := ackAll_frame _ hx j e
              rcases hj j (by simp [hj']) with ⟨p1, p2⟩ | ⟨s', p1, p2⟩
              · exact .inl ⟨q1.trans p1, q2.trans p2⟩
              · exact .inr ⟨s', q2.trans p1, p2⟩) h
          exact ⟨e1, j, s', k, by simp [e2], e4⟩

end SubCtx
end Rmc
