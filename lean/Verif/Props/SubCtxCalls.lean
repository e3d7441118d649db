import Verif.Props.SubCtxReady
import Verif.Props.SubCtxAck

/-!
# C34 (acceptance), C54 (refusal and routing), C55: which calls on a subscriber can go wrong
-/

set_option linter.unusedVariables false
set_option linter.unusedSimpArgs false

namespace Rmc
namespace SubCtx
open SubPub CircBuf ConnVec

/-- Looking up the only connection to an address finds it. -/
theorem find_unique {c : SubCtx} (hc : Core c) {a p i : Nat} (hi : ConnTo c a p i) (hu : ∀ j, ConnTo c a p j → j = i) :
    findByAddress c.cv a p = some i := by
  obtain ⟨L, hL⟩ := hc.v
  cases hf : findByAddress c.cv a p with
  | none => exact absurd hi ((find_none hc a p).1 hf i)
  | some j =>
    obtain ⟨g1, g2, g3⟩ := findByAddress_mem hL hf
    rw [hu j ⟨(live_iff hL j).2 g1, g2, g3⟩]

/-- The same for a node id. -/
theorem find_node_unique {c : SubCtx} (hc : Core c) {n i : Nat} (hi : Live c i) (hn : (c.cv.conns i).nodeId = n)
    (hu : ∀ j, Live c j → (c.cv.conns j).nodeId = n → j = i) : findByNodeId c.cv n = some i := by
  obtain ⟨L, hL⟩ := hc.v
  have hiL := (live_iff hL i).1 hi
  cases hf : findByNodeId c.cv n with
  | none =>
    exfalso
    have hm := hL.maxLe i hiL
    unfold findByNodeId at hf
    rw [if_neg (by have := hm.1; have := hm.2; rcases hL.max with e | e <;> omega), List.find?_eq_none] at hf
    exact hf i (by rw [List.mem_range]; have := hm.1; omega) (by simp [(hL.desc i hi.1).2 hiL, hn])
  | some j =>
    obtain ⟨g1, g2⟩ := findByNodeId_mem hL hf
    rw [hu j ((live_iff hL j).2 g1) g2]

/-- C34: a well-formed datagram with a packet id other than 0 is taken in if there is a connection to the publisher it names, that
connection is set up and is the only one to that address: the packet, with the bytes that follow the header, is recorded as having
come in for that publisher at that time; no other packet is. -/
theorem C34_accepted {ops : List Op} {c : SubCtx} (h : Reaches ops c) {hd : PacketHeader} (hval : hd.Valid) {src : Nat}
    (h0 : hd.pid ≠ 0) {data : List UInt8} (hl : data.length = hd.payloadLen) {i : Nat} (hu : Up c i)
    (hi : ConnTo c (addrOf hd src) hd.listenPort i) (hun : ∀ j, ConnTo c (addrOf hd src) hd.listenPort j → j = i)
    (ts : Int) (ann : Option Bool) (sk : Except Nat Nat) (cr : ConnRes) :
    ∃ c', mcastPacket c src (hd.enc ++ data) ts ann sk cr = .ok (0, c') ∧
      arrives c'.log = arrives c.log ++ [(i, ⟨c.nextAddr, hd.pid, ⟨c.nextAddr, data, false⟩, i⟩, true, ts)] := by
  obtain ⟨e0, e1, e2, e3⟩ := mcastPacket_hdr hval hl
  have hc := h.inv.core
  obtain ⟨c', hc'⟩ := deliver_total hc hu hd.pid data true ts
  refine ⟨c', ?_, deliver_arrives hc'⟩
  have hf : findByAddress c.cv (if hd.listenIp = 0 then src else hd.listenIp) hd.listenPort = some i := find_unique hc hi hun
  have hdrop : ((hd.enc ++ data).drop HDR_LEN).take hd.payloadLen = data := by
    rw [List.drop_append_of_le_length (by rw [PacketHeader.length_enc]; exact Nat.le_refl _),
      List.drop_of_length_le (by rw [PacketHeader.length_enc]; exact Nat.le_refl _), List.nil_append, ← hl]
    exact List.take_of_length_le (Nat.le_refl _)
  unfold mcastPacket
  rw [if_neg (by omega)]
  dsimp only
  rw [e2, e3, if_neg (by omega), hf]
  dsimp only
  rw [if_neg (by rw [hu.2]; simp), if_neg h0, hdrop, hc', Proto.ok_bind]
  rfl

theorem userOps_mcast : ∀ (us : List UOp) (c : SubCtx), (us.foldl userOp c).mcast = c.mcast := by
  intro us
  induction us with
  | nil => intro c; rfl
  | cons u us ih =>
    intro c
    rw [List.foldl_cons, ih]
    cases u with
    | dispatched a => show (dispatched c a).2.mcast = _; unfold dispatched; split <;> rfl
    | keep a => show (dispatchedKeep c a).2.mcast = _; unfold dispatchedKeep; split <;> rfl

theorem runReadyCb_mcast (c : SubCtx) : (runReadyCb c).mcast = c.mcast := by
  unfold runReadyCb
  split
  · rfl
  · rw [userOps_mcast]; rfl

theorem deliver_mcast {c c' : SubCtx} {i pid : Nat} {data : List UInt8} {m : Bool} {ts : Int}
    (h : deliver c i pid data m ts = .ok c') : c'.mcast = c.mcast := by
  unfold deliver at h
  obtain ⟨s, hs, h⟩ := bind_ok h
  dsimp only at h
  split at h
  · cases h; rfl
  · cases m with
    | true =>
      rw [if_pos rfl] at h
      obtain ⟨c2, h2, h⟩ := bind_ok h
      have e2 : c2.mcast = c.mcast := by
        unfold noteAck at h2
        obtain ⟨o, ho, h2⟩ := bind_ok h2
        split at h2
        · cases h2; rfl
        · obtain ⟨l, hl, h2⟩ := bind_ok h2
          cases h2; rfl
      rw [← Except.ok.inj h]
      split
      · exact e2
      · rw [runReadyCb_mcast]; exact e2
    | false =>
      rw [if_neg (by simp)] at h
      obtain ⟨c2, h2, h⟩ := bind_ok h
      have e2 : c2.mcast = c.mcast := by cases h2; rfl
      rw [← Except.ok.inj h]
      split
      · exact e2
      · rw [runReadyCb_mcast]; exact e2

theorem announced_mcast (c : SubCtx) (hd : PacketHeader) (ann : Option Bool) (sk : Except Nat Nat) (cr : ConnRes) :
    (announced c hd ann sk cr).mcast = c.mcast := by
  unfold announced
  cases ann with
  | none =>
    dsimp only
    rw [if_neg (by simp)]
    split <;> rfl
  | some a =>
    dsimp only
    split
    · rfl
    · split <;> rfl

theorem mcastPacket_mcast {c c' : SubCtx} {src r : Nat} {bs : List UInt8} {ts : Int} {ann : Option Bool}
    {sk : Except Nat Nat} {cr : ConnRes} (hx : mcastPacket c src bs ts ann sk cr = .ok (r, c')) : c'.mcast = c.mcast := by
  unfold mcastPacket at hx
  split at hx
  · cases hx; rfl
  · dsimp only at hx
    split at hx
    · cases hx; rfl
    · split at hx
      · rw [← (Prod.mk.inj (Except.ok.inj hx)).2]
        split
        · rfl
        · exact announced_mcast _ _ _ _ _
      · split at hx
        · rw [← (Prod.mk.inj (Except.ok.inj hx)).2]
          split
          · rfl
          · exact announced_mcast _ _ _ _ _
        · split at hx
          · cases hx; rfl
          · obtain ⟨c2, h2, hx⟩ := bind_ok hx
            cases hx
            exact deliver_mcast h2

/-- C34: of several datagrams read in one call each is processed in turn (datagrams are cut off at 65400 bytes), until one is
malformed or empty, or recvfrom() fails. -/
theorem C34_batch {ops : List Op} {c c1 : SubCtx} (h : Reaches ops c) (hm : c.mcast ≠ none) {src : Nat} {bs : List UInt8} (h0 : bs ≠ [])
    {ts : Int} {ann : Option Bool} {sk : Except Nat Nat} {cr : ConnRes} (rs : List RecvRes)
    (hx : mcastPacket c src (bs.take RMC_MAX_PACKET) ts ann sk cr = .ok (0, c1)) :
    step c (.readMcast (.dgram src bs ts ann sk cr :: rs)) = step c1 (.readMcast rs) := by
  show readMcast c _ = readMcast c1 rs
  have hc := h.inv.core
  have hm1 : c1.mcast = c.mcast := by
    exact mcastPacket_mcast hx
  unfold readMcast
  rw [if_neg hm, if_neg (by rw [hm1]; exact hm)]
  conv => lhs; unfold mcastLoop
  rw [if_neg h0, hx, Proto.ok_bind, if_neg (by simp)]

/-- Non-vacuity of C34_accepted: the subscription of `exUp`, packet 5. -/
example : ∃ c rs, Reaches exUp c ∧ run exS0 exUp = .ok (rs, c) ∧
    decide (Up c 0 ∧ ConnTo c 77 4 0 ∧ c.cv.size = 2 ∧ ¬ Live c 1) = true :=
  reaches_of (P := fun rs c => decide _) (by decide +kernel)

/-! ## C54: refusal and routing -/

/-- C54: a control message is refused, and nothing changes: if it is empty; if there is no connection with that address (or node
id); if the connection found is still being set up; if there is not room for it (and one more byte) in the write buffer. -/
theorem C54_refused {ops : List Op} {c : SubCtx} (h : Reaches ops c) (a p n ptr : Nat) (bs : List UInt8) :
    (bs = [] → step c (.ctlAddr a p bs ptr) = .ok (EINVAL, c) ∧ step c (.ctlNode n bs ptr) = .ok (EINVAL, c)) ∧
    (bs ≠ [] → (∀ i, ConnTo c a p i → ¬ Up c i) → step c (.ctlAddr a p bs ptr) = .ok (ENOTCONN, c)) ∧
    (bs ≠ [] → (∀ i, Up c i → (c.cv.conns i).nodeId ≠ n) → step c (.ctlNode n bs ptr) = .ok (ENOTCONN, c)) ∧
    (∀ i, bs ≠ [] → Up c i → ConnTo c a p i → (∀ j, ConnTo c a p j → j = i) →
      available (c.cv.conns i).writeBuf < bs.length + 4 → step c (.ctlAddr a p bs ptr) = .ok (ENOMEM, c)) ∧
    (∀ i, bs ≠ [] → Up c i → (c.cv.conns i).nodeId = n → (∀ j, Live c j → (c.cv.conns j).nodeId = n → j = i) →
      available (c.cv.conns i).writeBuf < bs.length + 4 → step c (.ctlNode n bs ptr) = .ok (ENOMEM, c)) := by
  have hc := h.inv.core
  obtain ⟨L, hL⟩ := hc.v
  have hctl : CTL_LEN = 2 := rfl
  have wr : ∀ i, bs ≠ [] → Up c i → available (c.cv.conns i).writeBuf < bs.length + 4 → writeCtlTo c (some i) bs ptr = .ok (ENOMEM, c) := by
    intro i hn hu hav
    unfold writeCtlTo
    rw [if_neg hn]
    dsimp only
    rw [if_neg (by rw [hu.2]; simp)]
    unfold writeCtl
    dsimp only
    rw [if_neg hn, if_neg (by rw [hu.2]; simp), if_pos (by omega)]
  refine ⟨?_, ?_, ?_, ?_, ?_⟩
  · rintro rfl
    exact ⟨rfl, rfl⟩
  · intro hn hx
    show writeCtlTo c _ bs ptr = _
    unfold writeCtlTo
    rw [if_neg hn]
    split
    · rfl
    · rename_i i hf
      obtain ⟨g1, g2, g3⟩ := findByAddress_mem hL hf
      rw [if_pos (fun hm => hx i ⟨(live_iff hL i).2 g1, g2, g3⟩ ⟨hL.lt i g1, hm⟩)]
  · intro hn hx
    show writeCtlTo c _ bs ptr = _
    unfold writeCtlTo
    rw [if_neg hn]
    split
    · rfl
    · rename_i i hf
      obtain ⟨g1, g2⟩ := findByNodeId_mem hL hf
      rw [if_pos (fun hm => hx i ⟨hL.lt i g1, hm⟩ g2)]
  · intro i hn hu hi hun hav
    show writeCtlTo c _ bs ptr = _
    rw [find_unique hc hi hun]
    exact wr i hn hu hav
  · intro i hn hu hi hun hav
    show writeCtlTo c _ bs ptr = _
    rw [find_node_unique hc ⟨hu.1, by rw [hu.2]; simp⟩ hi hun]
    exact wr i hn hu hav

/-- C54: otherwise the message goes to the connection with that address (or node id), as `C54_cases` says. -/
theorem C54_routed {ops : List Op} {c : SubCtx} (h : Reaches ops c) {a p n i : Nat} (ptr : Nat) {bs : List UInt8} (hn : bs ≠ [])
    (hu : Up c i) :
    (ConnTo c a p i → (∀ j, ConnTo c a p j → j = i) → step c (.ctlAddr a p bs ptr) = writeCtl c i bs ptr) ∧
    ((c.cv.conns i).nodeId = n → (∀ j, Live c j → (c.cv.conns j).nodeId = n → j = i) →
      step c (.ctlNode n bs ptr) = writeCtl c i bs ptr) := by
  have hc := h.inv.core
  constructor
  · intro hi hun
    exact step_ctlAddr hn (find_unique hc hi hun) hu
  · intro hi hun
    show writeCtlTo c _ bs ptr = _
    rw [find_node_unique hc ⟨hu.1, by rw [hu.2]; simp⟩ hi hun]
    unfold writeCtlTo
    rw [if_neg hn]
    dsimp only
    rw [if_neg (by rw [hu.2]; simp)]

/-- Non-vacuity of C54_refused: after the control message of 65390 bytes there is no room for one of four bytes. -/
example : ∃ ops c, Reaches ops c ∧ Up c 0 ∧ ConnTo c 77 4 0 ∧ available (c.cv.conns 0).writeBuf < [1, 2, 3, (4 : UInt8)].length + 4 := by
  obtain ⟨c, h1, hu, g1, g2, g3, g4, g5, g6, g7⟩ := exFull_ok
  have hw := (h1.inv.core.wb 0 hu.1).1
  obtain ⟨L, hL⟩ := h1.inv.core.v
  obtain ⟨k1, k2, k3⟩ := findByAddress_mem hL g7
  refine ⟨_, c, h1, hu, ⟨⟨hu.1, by rw [hu.2]; simp⟩, k2, k3⟩, ?_⟩
  rw [available_eq hw, inUse_eq hw, g1, g2, g3]; decide

/-! ## C55: what can go wrong -/

/-- C55: after any history these calls return: reading the multicast socket, whatever datagrams come in; writing on any connection;
marking packets dispatched; setting the callback; activating. -/
theorem C55_no_fault {ops : List Op} {c : SubCtx} (h : Reaches ops c) (op : Op) (hop : match op with
    | .read _ _ _ => False | .timeout _ => False | .close _ => False | .ctlAddr _ _ _ _ => False | .ctlNode _ _ _ => False
    | .deactivate => False | _ => True) : ∃ r c', step c op = .ok (r, c') := by
  cases op with
  | readMcast rs => exact readMcast_total h.inv.core rs
  | write i so nd wv => exact writeConn_total h.inv.core i so nd wv
  | dispatched a => exact ⟨_, _, rfl⟩
  | keep a => exact ⟨_, _, rfl⟩
  | setReadyCb f => exact ⟨_, _, rfl⟩
  | activate r => exact ⟨_, _, rfl⟩
  | _ => exact absurd hop id

/-- C55: timeout processing returns, or stores one byte behind the end of a write buffer; the latter only if the acknowledgements to be
put on a connection make its write position come to lie exactly at the end of its write buffer, with another one to follow. -/
theorem C55_timeout {ops : List Op} {c : SubCtx} (h : Reaches ops c) (now : Int) :
    (∃ r c', step c (.timeout now) = .ok (r, c')) ∨
    (step c (.timeout now) = .error .oob ∧ ∃ i s k, i ∈ c.ackList ∧ Up c i ∧ c.publishers i = some s ∧ k < s.intervals.length ∧
      (c.cv.conns i).writeBuf.stop + 17 * k = (c.cv.conns i).writeBuf.size ∧ 17 * (k + 1) ≤ available (c.cv.conns i).writeBuf) := by
  cases hx : step c (.timeout now) with
  | ok x => exact .inl ⟨x.1, x.2, rfl⟩
  | error f =>
    obtain ⟨e1, i, s, k, e2, e3, e4, e5⟩ := timeoutLoop_fault (c0 := c) c.ackList h.inv.core rfl (fun j _ => .inl ⟨rfl, rfl⟩) hx
    subst e1
    refine .inr ⟨rfl, i, s, k, e2, ?_, e3, e4, e5⟩
    by_cases hu : Up c i
    · exact hu
    · have := (h.inv.core.idle i s e3 hu).2
      rw [this] at e4; simp at e4

/-- It happens: packet 5 is to be acknowledged; a control message of 65390 bytes is put on the connection, 65000 bytes of it leave,
and another of 4 bytes fills the buffer up to its end. -/
theorem C55_timeout_oob : ∃ ops c, Reaches ops c ∧ step c (.timeout 60000) = .error .oob := by
  obtain ⟨ops, c, h1, hu, g1, g2, g3, g4, g5, ⟨s, g6, g7⟩, g8⟩ := exWrap_ok
  obtain ⟨e1, e2⟩ := exWrap_av (h1.inv.core.wb 0 hu.1).1 g1 g2 g3
  have := writeCtl_exact (ptr := 0) h1.inv.core hu (bs := [1, 2, 3, 4]) (by simp) (by rw [e1]; decide)
  dsimp only at this
  rw [e2, g2, g3, if_neg (by decide), if_pos (by decide)] at this
  obtain ⟨b, k1, k2, k3, k4, k5, k6⟩ := this
  have hs : step c (.ctlAddr 77 4 [1, 2, 3, 4] 0) = .ok (0, armWrite (ev c (.ctl 0 [1, 2, 3, 4] [1, 2, 3, 4])) 0 b) := by
    rw [step_ctlAddr (by simp) g4 hu]; exact k1
  obtain ⟨d, hd⟩ : ∃ d, d = armWrite (ev c (.ctl 0 [1, 2, 3, 4] [1, 2, 3, 4])) 0 b := ⟨_, rfl⟩
  rw [← hd] at hs
  have hr := h1.snoc hs
  have ec : (d.cv.conns 0).writeBuf = b := by rw [hd, armWrite_conn]
  have hud : Up d 0 := by
    refine ⟨by rw [hd]; exact hu.1, ?_⟩
    rw [hd, armWrite_conn]; exact hu.2
  refine ⟨_, d, hr, ?_⟩
  have hal : d.ackList = [0] := by rw [hd]; exact g5
  have hp : d.publishers 0 = some s := by rw [hd]; exact g6
  have hT : d.ackTimeout = 50000 := by rw [hd]; exact g8
  obtain ⟨d2, hd2⟩ : ∃ d2, d2 = ev (setPub d 0 { s with intervals := [] }) (.taken 0 ⟨5, 5, 1000⟩) := ⟨_, rfl⟩
  have hu2 : Up d2 0 := by rw [hd2]; exact hud
  have hc2 : Core d2 := by
    rw [hd2]
    exact hr.inv.core.micro (Micro.taken (tm := 1) hp g7 (by rw [hal]; simp) rfl)
  have hx := writeAck_exact hc2 hu2 ⟨5, 5, 1000⟩
  have ec2 : (d2.cv.conns 0).writeBuf = b := by rw [hd2]; exact ec
  dsimp only at hx
  have hb : b.stop = 65400 := by rw [k5]; rfl
  rw [ec2, if_neg (by rw [available_eq k2, inUse_eq k2, k3, k4, hb, g1]; decide), if_pos (by rw [hb, k3])] at hx
  show timeoutLoop d 60000 d.ackList = _
  rw [hal]
  unfold timeoutLoop
  have ho : oldest s = 1000 := by unfold oldest; rw [g7]
  rw [getPub_ok.2 hp, Proto.ok_bind, ho, hT, if_neg (by decide), g7]
  have ha : ackAll d 0 s [⟨5, 5, 1000⟩] = .error .oob := by
    unfold ackAll
    dsimp only
    rw [← hd2, hx]; rfl
  rw [ha]; rfl

/-- C55: so timeout processing returns if on every connection that is set up all that was ever put into the write buffer since the
connection came up still starts at the beginning of the buffer. -/
theorem C55_timeout_start {ops : List Op} {c : SubCtx} (h : Reaches ops c) (now : Int)
    (hs : ∀ i, Up c i → (c.cv.conns i).writeBuf.start = 0) : ∃ r c', step c (.timeout now) = .ok (r, c') := by
  rcases C55_timeout h now with g | ⟨-, i, s, k, g1, g2, g3, g4, g5, g6⟩
  · exact g
  · exfalso
    have hw := (h.inv.core.wb i g2.1).1
    have h1 := available_eq hw
    have h2 := inUse_eq hw
    have h3 := hs i g2
    obtain ⟨w1, w2, w3, w4, w5⟩ := hw
    rw [if_pos (by omega)] at h2
    omega

/-- C55: a control message is put on the connection or refused, or memory beyond the write buffer or the pointer variable is accessed;
the latter only if the write position is at the end of the buffer, or the message wraps around and is longer than 8 bytes. -/
theorem C55_ctl {ops : List Op} {c : SubCtx} (h : Reaches ops c) {op : Op} {bs : List UInt8} {ptr : Nat}
    (hop : (∃ a p, op = .ctlAddr a p bs ptr) ∨ ∃ n, op = .ctlNode n bs ptr) :
    (∃ r c', step c op = .ok (r, c')) ∨
    (step c op = .error .oob ∧ ∃ i, Up c i ∧ bs.length + 4 ≤ available (c.cv.conns i).writeBuf ∧
      ((c.cv.conns i).writeBuf.stop = (c.cv.conns i).writeBuf.size ∨
        (8 < bs.length ∧ (c.cv.conns i).writeBuf.size < ctlStop (c.cv.conns i).writeBuf + bs.length))) := by
  have hc := h.inv.core
  obtain ⟨L, hL⟩ := hc.v
  have hctl : CTL_LEN = 2 := rfl
  have main : ∀ o, (∀ i, o = some i → i < c.cv.size) → (∃ r c', writeCtlTo c o bs ptr = .ok (r, c')) ∨
      (writeCtlTo c o bs ptr = .error .oob ∧ ∃ i, Up c i ∧ bs.length + 4 ≤ available (c.cv.conns i).writeBuf ∧
      ((c.cv.conns i).writeBuf.stop = (c.cv.conns i).writeBuf.size ∨
        (8 < bs.length ∧ (c.cv.conns i).writeBuf.size < ctlStop (c.cv.conns i).writeBuf + bs.length))) := by
    intro o ho
    unfold writeCtlTo
    split
    · exact .inl ⟨_, _, rfl⟩
    · rename_i hn
      split
      · exact .inl ⟨_, _, rfl⟩
      · rename_i i
        split
        · exact .inl ⟨_, _, rfl⟩
        · rename_i hm
          have hu : Up c i := ⟨ho i rfl, Decidable.not_not.1 hm⟩
          by_cases hav : available (c.cv.conns i).writeBuf < bs.length + 4
          · left
            unfold writeCtl
            dsimp only
            rw [if_neg hn, if_neg (by rw [hu.2]; simp), if_pos (by omega)]
            exact ⟨_, _, rfl⟩
          · have := C54_cases h hu hn ptr (by omega)
            dsimp only at this
            split at this
            · rename_i hs; exact .inr ⟨this, i, hu, by omega, .inl hs⟩
            · split at this
              · obtain ⟨c', k, -⟩ := this; exact .inl ⟨_, _, k⟩
              · split at this
                · obtain ⟨c', k, -⟩ := this; exact .inl ⟨_, _, k⟩
                · exact .inr ⟨this, i, hu, by omega, .inr ⟨by omega, by omega⟩⟩
  rcases hop with ⟨a, p, rfl⟩ | ⟨n, rfl⟩
  · exact main _ (fun i hi => hL.lt i (findByAddress_mem hL hi).1)
  · exact main _ (fun i hi => hL.lt i (findByNodeId_mem hL hi).1)

end SubCtx
end Rmc
