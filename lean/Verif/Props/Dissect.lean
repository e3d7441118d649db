import Verif.Dissect

/-!
# C67: the dissector shows what is on the wire
-/

namespace Rmc
namespace Dissect

/-! ## Specification -/

/-- What is to be shown of a packet. -/
def packetItems (h : PacketHeader) (pay : List UInt8) : List Item :=
  [.packetId h.pid, .nodeId h.nodeId, .payloadLen h.payloadLen, .controlIp h.listenIp, .controlPort h.listenPort, .packetPayload pay]

def packetPiece (h : PacketHeader) : Piece :=
  let ip := if h.listenIp = 0 then none else some h.listenIp
  if h.pid = 0 then .announce h.nodeId ip h.listenPort h.payloadLen else .data h.nodeId ip h.listenPort h.payloadLen h.pid

/-- A command a subscriber sends. -/
inductive Cmd where
  | ack (a : AckInterval)
  | ctl (xs : List UInt8)
  deriving DecidableEq, Repr

def Cmd.Valid : Cmd → Prop
  | .ack a => a.Valid
  | .ctl xs => xs.length < 65536

/-- Its bytes. -/
def Cmd.bytes : Cmd → List UInt8
  | .ack a => CMD_ACK_INTERVAL :: a.enc
  | .ctl xs => CMD_CONTROL_MESSAGE :: (ctlEnc xs.length ++ xs)

def Cmd.items : Cmd → List Item
  | .ack a => [.command 2, .ackFirst a.first, .ackLast a.last]
  | .ctl xs => [.command 3, .ctlLen xs.length, .ctlPayload xs]

/-- The pieces of the column for the commands of a segment. -/
def Cmd.first : Cmd → Piece
  | .ack a => .subAck a.first a.last
  | .ctl xs => .ctlMsg xs.length

def Cmd.more : Cmd → Piece
  | .ack a => .ack a.first a.last
  | .ctl xs => .ctlNsg xs.length

def column : List Cmd → List Piece
  | [] => []
  | c :: cs => c.first :: cs.map Cmd.more

/-! ## Proofs -/

theorem get_ok {s : View} {tvb : List UInt8} {off n : Nat} (a x b : List UInt8) (h : tvb = a ++ (x ++ b)) (ha : a.length = off) (hx : x.length = n) :
    get s tvb off n = .ok x := by
  subst h; subst ha; subst hx
  unfold get
  rw [if_pos (by simp), List.drop_left, List.take_left]

theorem ok_bind {α β : Type} (a : α) (f : α → Except View β) : ((.ok a : Except View α) >>= f) = f a := rfl

theorem packetOffset_spec {h : PacketHeader} (hv : h.Valid) {pay pre : List UInt8} (hp : pay.length = h.payloadLen) (s : View) :
    ∃ s', packetOffset s (pre ++ (h.enc ++ pay)) pre.length = .ok (s', pre.length + 20) ∧ s'.items = s.items ++ packetItems h pay ∧
      s'.col = [packetPiece h] ∧ s'.unknown = s.unknown ∧
      s'.ports = (if h.pid = 0 ∧ h.listenPort ∉ s.ports then s.ports ++ [h.listenPort] else s.ports) := by
  obtain ⟨h1, h2, h3, h4, h5⟩ := hv
  obtain ⟨pid, nid, pl, ip, port⟩ := h
  simp only at h1 h2 h3 h4 h5 hp
  have e1 : leDec (leEnc 8 pid) = pid := leDec_leEnc 8 pid (by simp only [U64] at h1; omega)
  have e2 : leDec (leEnc 4 nid) = nid := leDec_leEnc 4 nid (by simp only [U32] at h2; omega)
  have e3 : leDec (leEnc 2 pl) = pl := leDec_leEnc 2 pl (by omega)
  have e4 : leDec (leEnc 4 ip) = ip := leDec_leEnc 4 ip (by simp only [U32] at h4; omega)
  have e5 : leDec (leEnc 2 port) = port := leDec_leEnc 2 port (by omega)
  unfold packetOffset
  have E : PacketHeader.enc ⟨pid, nid, pl, ip, port⟩ =
    leEnc 8 pid ++ (leEnc 4 nid ++ (leEnc 2 pl ++ (leEnc 4 ip ++ leEnc 2 port))) := rfl
  rw [E]
  rw [get_ok pre (leEnc 8 pid) (leEnc 4 nid ++ leEnc 2 pl ++ leEnc 4 ip ++ leEnc 2 port ++ pay) (by simp) rfl (by simp), ok_bind]
  dsimp only
  rw [get_ok (pre ++ leEnc 8 pid) (leEnc 4 nid) (leEnc 2 pl ++ leEnc 4 ip ++ leEnc 2 port ++ pay) (by simp) (by simp) (by simp), ok_bind]
  rw [get_ok (pre ++ leEnc 8 pid ++ leEnc 4 nid) (leEnc 2 pl) (leEnc 4 ip ++ leEnc 2 port ++ pay) (by simp) (by simp) (by simp), ok_bind]
  rw [get_ok (pre ++ leEnc 8 pid ++ leEnc 4 nid ++ leEnc 2 pl) (leEnc 4 ip) (leEnc 2 port ++ pay) (by simp) (by simp) (by simp), ok_bind]
  rw [get_ok (pre ++ leEnc 8 pid ++ leEnc 4 nid ++ leEnc 2 pl ++ leEnc 4 ip) (leEnc 2 port) pay (by simp) (by simp) (by simp), ok_bind]
  rw [e1, e2, e3, e4, e5]
  rw [get_ok (pre ++ leEnc 8 pid ++ leEnc 4 nid ++ leEnc 2 pl ++ leEnc 4 ip ++ leEnc 2 port) pay [] (by simp) (by simp) hp, ok_bind]
  by_cases h0 : pid = 0
  · refine ⟨_, rfl, ?_, ?_, ?_, ?_⟩
    · simp [h0, View.add, packetItems]
    · simp [h0, View.add, packetPiece]
    · simp [h0, View.add]
    · by_cases hm : port ∈ s.ports
      · simp [h0, View.add, hm]
      · simp [h0, View.add, hm]
  · refine ⟨_, rfl, ?_, ?_, ?_, ?_⟩
    · simp [h0, View.add, packetItems]
    · simp [h0, View.add, packetPiece]
    · simp [h0, View.add]
    · simp [h0, View.add]

/-- C67: of every datagram the library multicasts (a header and its payload) the dissector shows exactly the fields and the payload; the
port of an announcement is handed to the TCP dissector. -/
theorem C67_datagram {h : PacketHeader} (hv : h.Valid) {pay : List UInt8} (hp : pay.length = h.payloadLen) (s : View) :
    ∃ s', multicast s (h.enc ++ pay) = .ok (s', 20) ∧ s'.items = s.items ++ packetItems h pay ∧ s'.col = [packetPiece h] ∧
      s'.unknown = s.unknown ∧ (h.pid = 0 → h.listenPort ∈ s'.ports) ∧ (∀ p ∈ s'.ports, p ∈ s.ports ∨ (h.pid = 0 ∧ p = h.listenPort)) := by
  obtain ⟨s', e1, e2, e3, e4, e5⟩ := packetOffset_spec hv (pre := []) hp s
  refine ⟨s', e1, e2, e3, e4, ?_, ?_⟩
  · intro h0
    rw [e5]
    by_cases hm : h.listenPort ∈ s.ports
    · rw [if_neg (by simp [hm])]; exact hm
    · rw [if_pos ⟨h0, hm⟩]; simp
  · intro p hp'
    rw [e5] at hp'
    split at hp'
    · rename_i hc
      rw [List.mem_append, List.mem_singleton] at hp'
      rcases hp' with h | h
      · exact .inl h
      · exact .inr ⟨hc.1, h⟩
    · exact .inl hp'

example : multicast ⟨[], [], [], []⟩ ((PacketHeader.mk 7 3 2 0 4000).enc ++ [9, 8]) =
    .ok (⟨[.packetId 7, .nodeId 3, .payloadLen 2, .controlIp 0, .controlPort 4000, .packetPayload [9, 8]], [.data 3 none 4000 2 7], [], []⟩, 20) := by
  decide +kernel

/-! ### From subscriber to publisher -/

theorem loop_ack {a : AckInterval} (ha : a.Valid) (fuel : Nat) (s : View) (pre rest : List UInt8) (f l res count : Nat) (d : Option Nat) :
    tcpLoop (fuel + 1) s (pre ++ ((Cmd.ack a).bytes ++ rest)) pre.length f l res count d =
      tcpLoop fuel { s with items := s.items ++ (Cmd.ack a).items, col := if s.col = [] then [.subAck a.first a.last] else s.col ++ [.ack a.first a.last] }
        (pre ++ ((Cmd.ack a).bytes ++ rest)) (pre.length + 17) a.first a.last 16 count d := by
  obtain ⟨tvb, ht⟩ : ∃ t, t = pre ++ ((Cmd.ack a).bytes ++ rest) := ⟨_, rfl⟩
  rw [← ht]
  have hb : tvb = pre ++ (CMD_ACK_INTERVAL :: (leEnc 8 a.first ++ (leEnc 8 a.last ++ rest))) := by
    rw [ht]; simp [Cmd.bytes, AckInterval.enc]
  have hlen : tvb.length = pre.length + 17 + rest.length := by rw [hb]; simp; omega
  have ef : leDec (leEnc 8 a.first) = a.first := leDec_leEnc 8 _ (by have := ha.first; simp only [U64] at this; omega)
  have el : leDec (leEnc 8 a.last) = a.last := leDec_leEnc 8 _ (by have := ha.last; simp only [U64] at this; omega)
  rw [tcpLoop.eq_2]
  rw [if_neg (by omega), get_ok (tvb := tvb) (n := 1) pre [CMD_ACK_INTERVAL] (leEnc 8 a.first ++ (leEnc 8 a.last ++ rest)) (by rw [hb]; simp) rfl rfl, ok_bind]
  dsimp only [List.headD]
  rw [if_pos rfl]
  unfold ackInterval
  rw [if_neg (by omega), get_ok (pre ++ [CMD_ACK_INTERVAL]) (leEnc 8 a.first) (leEnc 8 a.last ++ rest) (by rw [hb]; simp) (by simp) (by simp), ok_bind]
  dsimp only
  rw [get_ok (pre ++ [CMD_ACK_INTERVAL] ++ leEnc 8 a.first) (leEnc 8 a.last) rest (by rw [hb]; simp) (by simp) (by simp), ok_bind, ef, el]
  show tcpLoop fuel _ tvb _ _ _ _ _ _ = _
  have : ((s.add (.command CMD_ACK_INTERVAL)).add (.ackFirst a.first)).add (.ackLast a.last) =
    { s with items := s.items ++ (Cmd.ack a).items } := by
    simp [View.add, Cmd.items, CMD_ACK_INTERVAL]
  rw [this]
  rfl

theorem loop_ctl {xs : List UInt8} (hx : xs.length < 65536) (fuel : Nat) (s : View) (pre rest : List UInt8) (f l res count : Nat) (d : Option Nat) :
    tcpLoop (fuel + 1) s (pre ++ ((Cmd.ctl xs).bytes ++ rest)) pre.length f l res count d =
      tcpLoop fuel { s with items := s.items ++ (Cmd.ctl xs).items, col := if s.col = [] then [.ctlMsg xs.length] else s.col ++ [.ctlNsg xs.length] }
        (pre ++ ((Cmd.ctl xs).bytes ++ rest)) (pre.length + (3 + xs.length)) f l (2 + xs.length) count d := by
  obtain ⟨tvb, ht⟩ : ∃ t, t = pre ++ ((Cmd.ctl xs).bytes ++ rest) := ⟨_, rfl⟩
  rw [← ht]
  have hb : tvb = pre ++ (CMD_CONTROL_MESSAGE :: (leEnc 2 xs.length ++ (xs ++ rest))) := by
    rw [ht]; simp [Cmd.bytes, ctlEnc]
  have hlen : tvb.length = pre.length + 3 + xs.length + rest.length := by rw [hb]; simp; omega
  have ef : leDec (leEnc 2 xs.length) = xs.length := leDec_leEnc 2 _ (by omega)
  rw [tcpLoop.eq_2]
  rw [if_neg (by omega), get_ok (tvb := tvb) (n := 1) pre [CMD_CONTROL_MESSAGE] (leEnc 2 xs.length ++ (xs ++ rest)) (by rw [hb]; simp) rfl rfl, ok_bind]
  dsimp only [List.headD]
  rw [if_neg (by decide), if_neg (by decide), if_pos rfl]
  unfold ctlMsg
  rw [if_neg (by omega), get_ok (pre ++ [CMD_CONTROL_MESSAGE]) (leEnc 2 xs.length) (xs ++ rest) (by rw [hb]; simp) (by simp) (by simp), ok_bind, ef]
  dsimp only
  rw [if_neg (by omega),
    get_ok (pre ++ [CMD_CONTROL_MESSAGE] ++ leEnc 2 xs.length) xs rest (by rw [hb]; simp) (by simp) (by simp), ok_bind]
  have hz : ¬ (2 + xs.length = 0) := by omega
  show (if 2 + xs.length = 0 then _ else tcpLoop fuel _ tvb (pre.length + 1 + (2 + xs.length)) _ _ _ _ _) = _
  rw [if_neg hz]
  have : ((s.add (.command CMD_CONTROL_MESSAGE)).add (.ctlLen xs.length)).add (.ctlPayload xs) =
    { s with items := s.items ++ (Cmd.ctl xs).items } := by
    simp [View.add, Cmd.items, CMD_CONTROL_MESSAGE]
  rw [this, show pre.length + 1 + (2 + xs.length) = pre.length + (3 + xs.length) by omega]

theorem loop_cmds : ∀ (cs : List Cmd), (∀ c ∈ cs, c.Valid) → ∀ (fuel : Nat) (s : View) (pre : List UInt8) (f l res : Nat), cs.length < fuel →
    tcpLoop fuel s (pre ++ (cs.map Cmd.bytes).flatten) pre.length f l res 0 none =
      .ok ⟨{ s with items := s.items ++ (cs.map Cmd.items).flatten, col := if s.col = [] then column cs else s.col ++ cs.map Cmd.more },
        (pre ++ (cs.map Cmd.bytes).flatten).length, none⟩ := by
  intro cs
  induction cs with
  | nil =>
    intro _ fuel s pre f l res hf
    obtain ⟨n, rfl⟩ : ∃ n, fuel = n + 1 := ⟨fuel - 1, by simp at hf; omega⟩
    unfold tcpLoop
    rw [if_pos (by simp)]
    have : (if s.col = [] then column [] else s.col ++ [].map Cmd.more) = s.col := by
      split
      · rename_i h; rw [h]; rfl
      · simp
    rw [this]
    simp
  | cons c cs ih =>
    intro hv fuel s pre f l res hf
    obtain ⟨n, rfl⟩ : ∃ n, fuel = n + 1 := ⟨fuel - 1, by simp at hf; omega⟩
    have hl : cs.length < n := by simp at hf; omega
    have hcat : pre ++ ((c :: cs).map Cmd.bytes).flatten = pre ++ (c.bytes ++ (cs.map Cmd.bytes).flatten) := by simp
    have hcat2 : pre ++ (c.bytes ++ (cs.map Cmd.bytes).flatten) = (pre ++ c.bytes) ++ (cs.map Cmd.bytes).flatten := by simp
    rw [hcat]
    cases c with
    | ack a =>
      rw [loop_ack (a := a) (hv (.ack a) (by simp)), hcat2, show pre.length + 17 = (pre ++ (Cmd.ack a).bytes).length by simp [Cmd.bytes, ACK_LEN],
        ih (fun c hc => hv c (by simp [hc])) _ _ _ _ _ _ hl]
      by_cases h0 : s.col = []
      · simp [h0, column, Cmd.first]
      · simp [h0, Cmd.more]
    | ctl xs =>
      rw [loop_ctl (hv (.ctl xs) (by simp)), hcat2, show pre.length + (3 + xs.length) = (pre ++ (Cmd.ctl xs).bytes).length by simp [Cmd.bytes, CTL_LEN]; omega,
        ih (fun c hc => hv c (by simp [hc])) _ _ _ _ _ _ hl]
      by_cases h0 : s.col = []
      · simp [h0, column, Cmd.first]
      · simp [h0, Cmd.more]

theorem bytes_pos (c : Cmd) : 1 ≤ c.bytes.length := by cases c <;> simp [Cmd.bytes]

theorem length_cmds (cs : List Cmd) : cs.length ≤ ((cs.map Cmd.bytes).flatten).length := by
  induction cs with
  | nil => simp
  | cons c cs ih => have := bytes_pos c; simp at ih ⊢; omega

/-- C67: of a segment of whole commands from a subscriber, the dissector shows exactly these, in order, whatever was shown before. -/
theorem C67_commands_partial (cs : List Cmd) (hv : ∀ c ∈ cs, c.Valid) (s : View) :
    tcp s (cs.map Cmd.bytes).flatten =
      .ok ⟨{ s with items := s.items ++ (cs.map Cmd.items).flatten, col := column cs }, ((cs.map Cmd.bytes).flatten).length, none⟩ := by
  have := loop_cmds cs hv (((cs.map Cmd.bytes).flatten).length + 1) { s with col := [] } [] 0 0 0 (by have := length_cmds cs; omega)
  unfold tcp
  simpa using this

/-- Specification: the last acknowledgement among some commands (0-0 if there is none). -/
def lastAck : Nat × Nat → List Cmd → Nat × Nat
  | fl, [] => fl
  | _, .ack a :: cs => lastAck (a.first, a.last) cs
  | fl, .ctl _ :: cs => lastAck fl cs

theorem loop_cmds_tail : ∀ (cs : List Cmd), (∀ c ∈ cs, c.Valid) → ∀ (n : Nat) (s : View) (pre rest : List UInt8) (f l res : Nat),
    ∃ res', tcpLoop (cs.length + n) s (pre ++ ((cs.map Cmd.bytes).flatten ++ rest)) pre.length f l res 0 none =
      tcpLoop n { s with items := s.items ++ (cs.map Cmd.items).flatten, col := if s.col = [] then column cs else s.col ++ cs.map Cmd.more }
        (pre ++ ((cs.map Cmd.bytes).flatten ++ rest)) (pre ++ (cs.map Cmd.bytes).flatten).length (lastAck (f, l) cs).1 (lastAck (f, l) cs).2 res' 0 none := by
  intro cs
  induction cs with
  | nil =>
    intro _ n s pre rest f l res
    have : (if s.col = [] then column [] else s.col ++ [].map Cmd.more) = s.col := by
      split
      · rename_i h; rw [h]; rfl
      · simp
    refine ⟨res, ?_⟩
    rw [this]
    simp [lastAck]
  | cons c cs ih =>
    intro hv n s pre rest f l res
    have hcat : pre ++ (((c :: cs).map Cmd.bytes).flatten ++ rest) = pre ++ (c.bytes ++ ((cs.map Cmd.bytes).flatten ++ rest)) := by simp
    have hcat2 : pre ++ (c.bytes ++ ((cs.map Cmd.bytes).flatten ++ rest)) = (pre ++ c.bytes) ++ ((cs.map Cmd.bytes).flatten ++ rest) := by simp
    rw [hcat, show (c :: cs).length + n = (cs.length + n) + 1 by rw [List.length_cons]; omega]
    cases c with
    | ack a =>
      obtain ⟨res', e⟩ := ih (fun c hc => hv c (by simp [hc])) n { s with items := s.items ++ (Cmd.ack a).items, col := if s.col = [] then [.subAck a.first a.last] else s.col ++ [.ack a.first a.last] }
        (pre ++ (Cmd.ack a).bytes) rest a.first a.last 16
      refine ⟨res', ?_⟩
      rw [loop_ack (a := a) (hv (.ack a) (by simp)), hcat2, show pre.length + 17 = (pre ++ (Cmd.ack a).bytes).length by simp [Cmd.bytes, ACK_LEN], e]
      by_cases h0 : s.col = []
      · simp [h0, column, Cmd.first, lastAck]
      · simp [h0, Cmd.more, lastAck]
    | ctl xs =>
      obtain ⟨res', e⟩ := ih (fun c hc => hv c (by simp [hc])) n { s with items := s.items ++ (Cmd.ctl xs).items, col := if s.col = [] then [.ctlMsg xs.length] else s.col ++ [.ctlNsg xs.length] }
        (pre ++ (Cmd.ctl xs).bytes) rest f l (2 + xs.length)
      refine ⟨res', ?_⟩
      rw [loop_ctl (hv (.ctl xs) (by simp)), hcat2, show pre.length + (3 + xs.length) = (pre ++ (Cmd.ctl xs).bytes).length by simp [Cmd.bytes, CTL_LEN]; omega, e]
      by_cases h0 : s.col = []
      · simp [h0, column, Cmd.first, lastAck]
      · simp [h0, Cmd.more, lastAck]

/-- The byte after the commands is looked at. -/
theorem loop_head (n : Nat) (s : View) (pre xs : List UInt8) (c : UInt8) (f l res : Nat) :
    tcpLoop (n + 1) s (pre ++ (c :: xs)) pre.length f l res 0 none =
      (if c = CMD_ACK_INTERVAL then do
        let r ← ackInterval (s.add (.command c)) (pre ++ (c :: xs)) (pre.length + 1) f l
        let s := { r.1 with col := if r.1.col = [] then [.subAck r.2.2.1 r.2.2.2] else r.1.col ++ [.ack r.2.2.1 r.2.2.2] }
        if r.2.1 = 0 then return ⟨s, (pre ++ (c :: xs)).length, none⟩
        tcpLoop n s (pre ++ (c :: xs)) (pre.length + 1 + r.2.1) r.2.2.1 r.2.2.2 r.2.1 0 none
      else if c = CMD_PACKET then
        let r := pdus ((pre ++ (c :: xs)).length + 1) s (pre ++ (c :: xs)) 0 0
        if res = 0 then return ⟨if r.2.1 ≠ 0 then { r.1 with col := [.resend r.2.1] } else r.1, (pre ++ (c :: xs)).length, r.2.2⟩
        else tcpLoop n r.1 (pre ++ (c :: xs)) (pre.length + 1 + res) f l res r.2.1 r.2.2
      else if c = CMD_CONTROL_MESSAGE then do
        let r ← ctlMsg (s.add (.command c)) (pre ++ (c :: xs)) (pre.length + 1)
        let s := { r.1 with col := if r.1.col = [] then [.ctlMsg r.2.2] else r.1.col ++ [.ctlNsg r.2.2] }
        if r.2.1 = 0 then return ⟨s, (pre ++ (c :: xs)).length, none⟩
        tcpLoop n s (pre ++ (c :: xs)) (pre.length + 1 + r.2.1) f l r.2.1 0 none
      else .ok ⟨{ s with unknown := s.unknown ++ [c] }, 0, none⟩) := by
  rw [tcpLoop.eq_2]
  rw [if_neg (by simp), get_ok (tvb := pre ++ (c :: xs)) (n := 1) pre [c] xs (by simp) rfl rfl, ok_bind]
  rfl

/-- Specification: the text in the column for a command of which not all is in the segment, after some whole ones. -/
def cutPiece : List Cmd → Cmd → Piece
  | [], .ack _ => .subAck 0 0
  | d :: ds, .ack _ => .ack (lastAck (0, 0) (d :: ds)).1 (lastAck (0, 0) (d :: ds)).2
  | [], .ctl _ => .ctlMsg 0
  | _ :: _, .ctl _ => .ctlNsg 0

/-- C67, segments that end within a command of a subscriber, exactly: all the whole commands are shown; then the code of the cut one,
and in the column the previous acknowledgement once more (0-0 if there is none), or a control message of length 0; the rest of the segment
counts as dissected and is not asked for. -/
theorem C67_cut (cs : List Cmd) (hv : ∀ c ∈ cs, c.Valid) {c : Cmd} (hc : c.Valid) {k : Nat} (hk0 : 0 < k) (hk : k < c.bytes.length) (s : View) :
    tcp s ((cs.map Cmd.bytes).flatten ++ c.bytes.take k) =
      .ok ⟨{ s with
          items := s.items ++ (cs.map Cmd.items).flatten ++ [.command (c.bytes.headD 0)]
          col := column cs ++ [cutPiece cs c] },
        ((cs.map Cmd.bytes).flatten ++ c.bytes.take k).length, none⟩ := by
  obtain ⟨j, rfl⟩ : ∃ j, k = j + 1 := ⟨k - 1, by omega⟩
  obtain ⟨n, hn⟩ : ∃ n, ((cs.map Cmd.bytes).flatten ++ c.bytes.take (j + 1)).length + 1 = cs.length + (n + 1) := by
    have := length_cmds cs
    refine ⟨((cs.map Cmd.bytes).flatten ++ c.bytes.take (j + 1)).length - cs.length, ?_⟩
    rw [List.length_append]; omega
  obtain ⟨res, e⟩ := loop_cmds_tail cs hv (n + 1) { s with col := [] } [] (c.bytes.take (j + 1)) 0 0 0
  unfold tcp
  rw [hn]
  simp only [List.nil_append, List.length_nil, if_true] at e
  rw [e]
  cases c with
  | ack a =>
    have hb : (Cmd.ack a).bytes.take (j + 1) = CMD_ACK_INTERVAL :: a.enc.take j := rfl
    have hl : j < 16 := by
      have : (Cmd.ack a).bytes.length = 17 := by simp [Cmd.bytes, ACK_LEN]
      omega
    rw [hb, loop_head, if_pos rfl]
    unfold ackInterval
    rw [if_pos (by simp; omega), ok_bind]
    dsimp only
    rw [if_pos rfl]
    cases cs with
    | nil => rfl
    | cons d ds =>
      simp [View.add, column, Cmd.bytes]; rfl
  | ctl xs =>
    have hb : (Cmd.ctl xs).bytes.take (j + 1) = CMD_CONTROL_MESSAGE :: (ctlEnc xs.length ++ xs).take j := rfl
    have hl : j < 2 + xs.length := by
      have : (Cmd.ctl xs).bytes.length = 3 + xs.length := by simp [Cmd.bytes, CTL_LEN]; omega
      omega
    have key : ∀ (t : View) (pre : List UInt8), ctlMsg t (pre ++ (CMD_CONTROL_MESSAGE :: (ctlEnc xs.length ++ xs).take j)) (pre.length + 1) = .ok (t, 0, 0) := by
      intro t pre
      unfold ctlMsg
      by_cases h2 : j < 2
      · rw [if_pos (by simp; omega)]
      · rw [if_neg (by
          have h3 : ((ctlEnc xs.length ++ xs).take j).length = j := by
            rw [List.length_take, List.length_append]
            have : (ctlEnc xs.length).length = 2 := by simp [ctlEnc]
            omega
          rw [List.length_append, List.length_cons, h3]; omega)]
        have hcut : (ctlEnc xs.length ++ xs).take j = leEnc 2 xs.length ++ xs.take (j - 2) := by
          have he : (ctlEnc xs.length).length = 2 := by simp [ctlEnc]
          rw [List.take_append, List.take_of_length_le (by omega), he]; rfl
        have ef : leDec (leEnc 2 xs.length) = xs.length := leDec_leEnc 2 _ (by have : xs.length < 65536 := hc; omega)
        rw [hcut, get_ok (pre ++ [CMD_CONTROL_MESSAGE]) (leEnc 2 xs.length) (xs.take (j - 2)) (by simp) (by simp) (by simp), ok_bind, ef]
        dsimp only
        rw [if_pos (by simp; omega)]
        rfl
    rw [hb, loop_head, if_neg (by decide), if_neg (by decide), if_pos rfl, key, ok_bind]
    dsimp only
    rw [if_pos rfl]
    cases cs with
    | nil => rfl
    | cons d ds =>
      simp [View.add, column, Cmd.bytes]; rfl

/-- C67: bytes that are no command end the dissection: what comes before is shown, and Wireshark is told that the segment is not of this
protocol (0). -/
theorem C67_unknown (cs : List Cmd) (hv : ∀ c ∈ cs, c.Valid) {c : UInt8} (hc : c ≠ 1 ∧ c ≠ 2 ∧ c ≠ 3) (xs : List UInt8) (s : View) :
    tcp s ((cs.map Cmd.bytes).flatten ++ (c :: xs)) =
      .ok ⟨{ s with items := s.items ++ (cs.map Cmd.items).flatten, col := column cs, unknown := s.unknown ++ [c] }, 0, none⟩ := by
  obtain ⟨n, hn⟩ : ∃ n, ((cs.map Cmd.bytes).flatten ++ (c :: xs)).length + 1 = cs.length + (n + 1) := by
    have := length_cmds cs
    refine ⟨((cs.map Cmd.bytes).flatten ++ (c :: xs)).length - cs.length, ?_⟩
    rw [List.length_append]; omega
  obtain ⟨res, e⟩ := loop_cmds_tail cs hv (n + 1) { s with col := [] } [] (c :: xs) 0 0 0
  unfold tcp
  rw [hn]
  simp only [List.nil_append, List.length_nil, if_true] at e
  rw [e, loop_head, if_neg (show ¬ c = CMD_ACK_INTERVAL from hc.2.1), if_neg (show ¬ c = CMD_PACKET from hc.1), if_neg (show ¬ c = CMD_CONTROL_MESSAGE from hc.2.2)]

/-- Non-vacuity: a control message cut after its length, behind an acknowledgement; and an unknown command behind one. -/
example : (Cmd.ctl [7, 8, 9]).Valid ∧ 3 < (Cmd.ctl [7, 8, 9]).bytes.length ∧
    tcp ⟨[], [], [], []⟩ ((Cmd.ack ⟨5, 6⟩).bytes ++ (Cmd.ctl [7, 8, 9]).bytes.take 4) =
      .ok ⟨⟨[.command 2, .ackFirst 5, .ackLast 6, .command 3], [.subAck 5 6, .ctlNsg 0], [], []⟩, 21, none⟩ ∧
    tcp ⟨[], [], [], []⟩ ((Cmd.ack ⟨5, 6⟩).bytes ++ [9, 3, 2]) =
      .ok ⟨⟨[.command 2, .ackFirst 5, .ackLast 6], [.subAck 5 6], [], [9]⟩, 0, none⟩ := by
  refine ⟨by unfold Cmd.Valid; decide, by decide, by decide +kernel, by decide +kernel⟩

/-! ### From publisher to subscriber -/

/-- The bytes of a resent packet. -/
def frame (h : PacketHeader) (pay : List UInt8) : List UInt8 := CMD_PACKET :: (h.enc ++ pay)

theorem pdus_frame {h : PacketHeader} (hv : h.Valid) {pay : List UInt8} (hp : pay.length = h.payloadLen) (fuel : Nat) (s : View) (pre rest : List UInt8) (n : Nat) :
    ∃ s', pdus (fuel + 1) s (pre ++ (frame h pay ++ rest)) pre.length n = pdus fuel s' (pre ++ (frame h pay ++ rest)) (pre ++ frame h pay).length (n + 1) ∧
      s'.items = s.items ++ (.command 1 :: packetItems h pay) ∧ s'.unknown = s.unknown := by
  obtain ⟨tvb, ht⟩ : ∃ t, t = pre ++ (frame h pay ++ rest) := ⟨_, rfl⟩
  rw [← ht]
  have hfl : (frame h pay).length = 21 + pay.length := by simp [frame, HDR_LEN]; omega
  have hlen : tvb.length = pre.length + 21 + pay.length + rest.length := by rw [ht]; simp [hfl]; omega
  have e3 : leDec (leEnc 2 h.payloadLen) = h.payloadLen := leDec_leEnc 2 _ (by have := hv.payloadLen; omega)
  have hpl : packetLen s tvb pre.length = .ok (h.payloadLen + 21) := by
    unfold packetLen
    rw [get_ok (pre ++ (CMD_PACKET :: (leEnc 8 h.pid ++ leEnc 4 h.nodeId))) (leEnc 2 h.payloadLen) (leEnc 4 h.listenIp ++ leEnc 2 h.listenPort ++ pay ++ rest)
      (by rw [ht]; simp [frame, PacketHeader.enc]) (by simp) (by simp), ok_bind, e3]; rfl
  have hsub : (tvb.drop pre.length).take (h.payloadLen + 21) = frame h pay := by
    rw [ht, List.drop_left]
    exact List.take_left' (by rw [hfl]; omega)
  obtain ⟨s', e1, e2, _, e4, _⟩ := packetOffset_spec hv (pre := [CMD_PACKET]) hp (s.add (.command CMD_PACKET))
  have hr : rmcPacket s (frame h pay) n = (s', n + 1) := by
    unfold rmcPacket
    rw [get_ok (s := s) (tvb := frame h pay) (off := 0) (n := 1) [] [CMD_PACKET] (h.enc ++ pay) (by simp [frame]) rfl rfl]
    dsimp only [List.headD]
    have : frame h pay = [CMD_PACKET] ++ (h.enc ++ pay) := rfl
    rw [this]
    have e1' : packetOffset (s.add (.command CMD_PACKET)) ([CMD_PACKET] ++ (h.enc ++ pay)) 1 = .ok (s', 1 + 20) := e1
    rw [e1']
  refine ⟨s', ?_, ?_, ?_⟩
  · have := pdus.eq_2 s tvb pre.length n fuel
    rw [this, if_neg (by omega), if_neg (by omega), hpl]
    dsimp only
    rw [if_neg (by omega), hsub, hr]
    dsimp only
    rw [show pre.length + (h.payloadLen + 21) = (pre ++ frame h pay).length by rw [List.length_append, hfl]; omega]
  · rw [e2]; simp [View.add, CMD_PACKET]
  · rw [e4]; rfl

/-- An incomplete packet. -/
def Partial (xs : List UInt8) : Prop :=
  xs = [] ∨ ∃ h pay, PacketHeader.Valid h ∧ pay.length = h.payloadLen ∧ ∃ k, 0 < k ∧ k < (frame h pay).length ∧ xs = (frame h pay).take k

theorem pdus_tail {xs : List UInt8} (hx : Partial xs) (fuel : Nat) (s : View) (pre : List UInt8) (n : Nat) :
    pdus (fuel + 1) s (pre ++ xs) pre.length n = (s, n, if xs = [] then none else some pre.length) := by
  rw [pdus.eq_2]
  rcases hx with rfl | ⟨h, pay, hv, hp, k, hk0, hk, rfl⟩
  · rw [if_pos (by simp)]; simp
  · have hfl : (frame h pay).length = 21 + pay.length := by simp [frame, HDR_LEN]; omega
    have hxl : ((frame h pay).take k).length = k := by rw [List.length_take]; omega
    have hne : (frame h pay).take k ≠ [] := by intro e; rw [e] at hxl; simp at hxl; omega
    have hlen : (pre ++ (frame h pay).take k).length - pre.length = k := by rw [List.length_append, hxl]; omega
    rw [hlen, if_neg (by omega), if_neg hne]
    by_cases h15 : k < 15
    · rw [if_pos h15]
    · rw [if_neg h15]
      have e3 : leDec (leEnc 2 h.payloadLen) = h.payloadLen := leDec_leEnc 2 _ (by have := hv.payloadLen; omega)
      have hf : frame h pay = (CMD_PACKET :: (leEnc 8 h.pid ++ leEnc 4 h.nodeId ++ leEnc 2 h.payloadLen)) ++ (leEnc 4 h.listenIp ++ leEnc 2 h.listenPort ++ pay) := by
        simp [frame, PacketHeader.enc]
      have hcut : (frame h pay).take k = (CMD_PACKET :: (leEnc 8 h.pid ++ leEnc 4 h.nodeId)) ++ (leEnc 2 h.payloadLen ++
          (leEnc 4 h.listenIp ++ leEnc 2 h.listenPort ++ pay).take (k - 15)) := by
        rw [hf, List.take_append, List.take_of_length_le (by simp; omega)]
        simp
      have hpl : packetLen s (pre ++ (frame h pay).take k) pre.length = .ok (h.payloadLen + 21) := by
        unfold packetLen
        rw [get_ok (pre ++ (CMD_PACKET :: (leEnc 8 h.pid ++ leEnc 4 h.nodeId))) (leEnc 2 h.payloadLen) ((leEnc 4 h.listenIp ++ leEnc 2 h.listenPort ++ pay).take (k - 15))
          (by rw [hcut]; simp) (by simp) (by simp), ok_bind, e3]; rfl
      rw [hpl]
      dsimp only
      rw [if_pos (by omega)]

theorem pdus_frames {xs : List UInt8} (hx : Partial xs) : ∀ (ps : List (PacketHeader × List UInt8)),
    (∀ p ∈ ps, p.1.Valid ∧ p.2.length = p.1.payloadLen) → ∀ (fuel : Nat) (s : View) (pre : List UInt8) (n : Nat), ps.length < fuel →
    ∃ s', pdus fuel s (pre ++ ((ps.map fun p => frame p.1 p.2).flatten ++ xs)) pre.length n =
        (s', n + ps.length, if xs = [] then none else some (pre ++ (ps.map fun p => frame p.1 p.2).flatten).length) ∧
      s'.items = s.items ++ (ps.map fun p => Item.command 1 :: packetItems p.1 p.2).flatten ∧ s'.unknown = s.unknown := by
  intro ps
  induction ps with
  | nil =>
    intro _ fuel s pre n hf
    obtain ⟨m, rfl⟩ : ∃ m, fuel = m + 1 := ⟨fuel - 1, by simp at hf; omega⟩
    exact ⟨s, by simpa using pdus_tail hx m s pre n, by simp, rfl⟩
  | cons p ps ih =>
    intro hv fuel s pre n hf
    obtain ⟨m, rfl⟩ : ∃ m, fuel = m + 1 := ⟨fuel - 1, by simp at hf; omega⟩
    obtain ⟨hp1, hp2⟩ := hv p (by simp)
    obtain ⟨s1, e1, e2, e3⟩ := pdus_frame hp1 hp2 m s pre ((ps.map fun p => frame p.1 p.2).flatten ++ xs) n
    obtain ⟨s2, k1, k2, k3⟩ := ih (fun q hq => hv q (by simp [hq])) m s1 (pre ++ frame p.1 p.2) (n + 1) (by simp at hf; omega)
    have c1 : pre ++ (((p :: ps).map fun p => frame p.1 p.2).flatten ++ xs) = pre ++ (frame p.1 p.2 ++ ((ps.map fun p => frame p.1 p.2).flatten ++ xs)) := by
      simp
    have c2 : pre ++ (frame p.1 p.2 ++ ((ps.map fun p => frame p.1 p.2).flatten ++ xs)) = (pre ++ frame p.1 p.2) ++ ((ps.map fun p => frame p.1 p.2).flatten ++ xs) := by
      simp
    refine ⟨s2, ?_, ?_, ?_⟩
    · rw [c1, e1, c2, k1]
      simp; omega
    · rw [k2, e2]; simp
    · rw [k3, e3]

theorem length_frames (ps : List (PacketHeader × List UInt8)) : ps.length ≤ ((ps.map fun p => frame p.1 p.2).flatten).length := by
  induction ps with
  | nil => simp
  | cons p ps ih => simp [frame] at ih ⊢; omega

/-- C67: of a segment from a publisher (whole resent packets, maybe the beginning of one more) the dissector shows exactly the whole ones, in
order, and their number; if something is left, Wireshark is told exactly where it begins. -/
theorem C67_resent (ps : List (PacketHeader × List UInt8)) (hv : ∀ p ∈ ps, p.1.Valid ∧ p.2.length = p.1.payloadLen) {xs : List UInt8}
    (hx : Partial xs) (hne : ps ≠ [] ∨ xs ≠ []) (s : View) :
    ∃ s', tcp s ((ps.map fun p => frame p.1 p.2).flatten ++ xs) =
        .ok ⟨s', ((ps.map fun p => frame p.1 p.2).flatten ++ xs).length,
          if xs = [] then none else some ((ps.map fun p => frame p.1 p.2).flatten).length⟩ ∧
      s'.items = s.items ++ (ps.map fun p => Item.command 1 :: packetItems p.1 p.2).flatten ∧ s'.unknown = s.unknown ∧
      s'.col = (if ps = [] then [] else [.resend ps.length]) := by
  obtain ⟨tvb, ht⟩ : ∃ t, t = (ps.map fun p => frame p.1 p.2).flatten ++ xs := ⟨_, rfl⟩
  obtain ⟨s', k1, k2, k3⟩ := pdus_frames hx ps hv (tvb.length + 1) { s with col := [] } [] 0
    (by rw [ht]; have := length_frames ps; simp only [List.length_append]; omega)
  have hhead : ∃ ys, tvb = CMD_PACKET :: ys := by
    rw [ht]
    cases ps with
    | cons p ps => exact ⟨_, rfl⟩
    | nil =>
      rcases hx with h | ⟨h, pay, _, _, k, hk0, hk, rfl⟩
      · exact absurd h (hne.resolve_left (by simp))
      · obtain ⟨j, rfl⟩ : ∃ j, k = j + 1 := ⟨k - 1, by omega⟩
        exact ⟨(h.enc ++ pay).take j, rfl⟩
  obtain ⟨ys, hys⟩ := hhead
  rw [← ht]
  have hcol : ps = [] → s'.col = [] := by
    intro e
    subst e
    have h2 := pdus_tail hx tvb.length { s with col := [] } [] 0
    rw [List.map_nil, List.flatten_nil, List.nil_append, List.nil_append] at k1
    rw [List.nil_append, List.length_nil] at h2
    have h3 := k1
    rw [List.length_nil, h2] at h3
    have : ({ s with col := [] } : View) = s' := congrArg Prod.fst h3
    rw [← this]
  refine ⟨if ps.length ≠ 0 then { s' with col := [.resend ps.length] } else s', ?_, ?_, ?_, ?_⟩
  · unfold tcp tcpLoop
    rw [if_neg (by rw [hys]; simp), get_ok (tvb := tvb) (off := 0) (n := 1) [] [CMD_PACKET] ys (by rw [hys]; simp) rfl rfl, ok_bind]
    dsimp only [List.headD]
    rw [if_neg (by decide), if_pos rfl]
    rw [List.nil_append, ← ht, List.length_nil, Nat.zero_add, List.nil_append] at k1
    rw [k1, if_pos rfl]
    rfl
  · split <;> simpa using k2
  · split <;> simpa using k3
  · by_cases hp : ps = []
    · rw [if_neg (by simp [hp]), if_pos hp]; exact hcol hp
    · rw [if_pos (by simp [hp]), if_neg hp]

/-- C67 is false for a segment that ends within a command of a subscriber (missing in `C67_commands_partial`): the dissector shows an
acknowledgement that is not there, the one before it a second time or 0-0, does not ask for the rest, and takes the rest, at the beginning of the next segment, as commands. -/
theorem C67_false (s : View) (hs : s = ⟨[], [], [], []⟩) :
    let x := (Cmd.ack ⟨5, 6⟩).bytes ++ (Cmd.ack ⟨770, 8⟩).bytes
    (∃ r, tcp s (x.take 18) = .ok r ∧ r.view.col = [.subAck 5 6, .ack 5 6] ∧ r.deseg = none ∧ r.ret = 18) ∧
    (∃ r, tcp s (x.take 1) = .ok r ∧ r.view.col = [.subAck 0 0]) ∧
    (∃ r, tcp s (x.drop 18) = .ok r ∧ r.view.items = [.command 2] ∧ r.view.col = [.subAck 0 0]) := by
  subst hs
  have h : ∀ {y : List UInt8} {P : Result → Bool}, (match tcp ⟨[], [], [], []⟩ y with | .ok r => P r | .error _ => false) = true →
      ∃ r, tcp ⟨[], [], [], []⟩ y = .ok r ∧ P r = true := by
    intro y P h
    cases ht : tcp ⟨[], [], [], []⟩ y with
    | error e => rw [ht] at h; cases h
    | ok r => rw [ht] at h; exact ⟨r, rfl, h⟩
  refine ⟨?_, ?_, ?_⟩
  · obtain ⟨r, e, p⟩ := h (y := ((Cmd.ack ⟨5, 6⟩).bytes ++ (Cmd.ack ⟨770, 8⟩).bytes).take 18)
      (P := fun r => decide (r.view.col = [.subAck 5 6, .ack 5 6] ∧ r.deseg = none ∧ r.ret = 18)) (by decide +kernel)
    exact ⟨r, e, of_decide_eq_true p⟩
  · obtain ⟨r, e, p⟩ := h (y := ((Cmd.ack ⟨5, 6⟩).bytes ++ (Cmd.ack ⟨770, 8⟩).bytes).take 1)
      (P := fun r => decide (r.view.col = [.subAck 0 0])) (by decide +kernel)
    exact ⟨r, e, of_decide_eq_true p⟩
  · obtain ⟨r, e, p⟩ := h (y := ((Cmd.ack ⟨5, 6⟩).bytes ++ (Cmd.ack ⟨770, 8⟩).bytes).drop 18)
      (P := fun r => decide (r.view.items = [.command 2] ∧ r.view.col = [.subAck 0 0])) (by decide +kernel)
    exact ⟨r, e, of_decide_eq_true p⟩

example : (∀ c ∈ [Cmd.ack ⟨5, 6⟩, .ctl [1, 2]], c.Valid) ∧
    tcp ⟨[], [], [], []⟩ ([Cmd.ack ⟨5, 6⟩, .ctl [1, 2]].map Cmd.bytes).flatten =
      .ok ⟨⟨[.command 2, .ackFirst 5, .ackLast 6, .command 3, .ctlLen 2, .ctlPayload [1, 2]], [.subAck 5 6, .ctlNsg 2], [], []⟩, 22, none⟩ := by
  constructor
  · intro c hc
    simp at hc
    rcases hc with rfl | rfl
    · exact ⟨by decide, by decide⟩
    · show [1, 2].length < 65536; decide
  · decide +kernel

end Dissect
end Rmc
