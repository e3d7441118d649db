import Verif.SubLang
import Verif.Props.SubCtxConn

/-!
# C12, C14, C15 for the packets resent to a subscriber over TCP
-/

set_option linter.unusedSimpArgs false
set_option linter.unusedVariables false

namespace Rmc
namespace SubCtx
open SubPub CircBuf ConnVec Proto

/-! ## Specification -/

/-- Specification: the complete commands at the front of a byte stream. -/
abbrev commandsOf (xs : List UInt8) : List (List UInt8) := (subLang 0 0).commands xs
/-- Specification: what is left of a byte stream behind them. -/
abbrev restOf (xs : List UInt8) : List UInt8 := (subLang 0 0).rest xs
/-- Specification: whether it is nothing (0), part of a command (EAGAIN) or not a command (EPROTO). -/
abbrev statusOf (xs : List UInt8) : Nat := (subLang 0 0).status xs

/-- Specification: a packet with a header as it is resent. -/
def frameOf (hd : PacketHeader) (data : List UInt8) : List UInt8 := CMD_PACKET :: (hd.enc ++ data)

/-- Specification: reading chunk after chunk of a TCP connection. -/
def readOps (i : Nat) (xs : List (List UInt8 × Int)) : List Op := xs.map fun x => .read i (some x.1) x.2

/-- The chunks that are read correctly: see `ChunksSafe`. -/
abbrev SafeReads (c : SubCtx) (i : Nat) (xs : List (List UInt8)) : Prop :=
  WF (c.cv.conns i).readBuf ∧ (c.cv.conns i).readBuf.size = RMC_MAX_PACKET ∧
  ChunksSafe (subLang 0 0) RMC_MAX_PACKET (c.cv.conns i).readBuf.start (bytes (c.cv.conns i).readBuf) xs

theorem status_bad {L : Lang SubCtx} (hL : L.OK) : ∀ (k : Nat) (xs : List UInt8), xs.length ≤ k → L.status xs = EPROTO →
    L.rest xs ≠ [] ∧ L.frame (L.rest xs) = .bad := by
  intro k
  induction k with
  | zero =>
    intro xs h hs
    have : xs = [] := List.length_eq_zero_iff.1 (by omega)
    subst this
    rw [Lang.status_nil] at hs; cases hs
  | succ k ih =>
    intro xs h hs
    by_cases h0 : xs = []
    · subst h0; rw [Lang.status_nil] at hs; cases hs
    · cases hf : L.frame xs with
      | more => rw [(Lang.split_more h0 hf).2.1] at hs; cases hs
      | bad => rw [(Lang.split_bad h0 hf).2.2]; exact ⟨h0, hf⟩
      | cmd n =>
        obtain ⟨p1, p2⟩ := hL.pos xs n hf
        obtain ⟨_, e2, e3⟩ := Lang.split_cmd hL hf
        rw [e3]
        rw [e2] at hs
        exact ih _ (by rw [List.length_drop]; omega) hs

theorem status_append {L : Lang SubCtx} (hL : L.OK) {xs : List UInt8} (ys : List UInt8) (h : L.status xs = EPROTO) :
    L.status (xs ++ ys) = EPROTO := by
  obtain ⟨h1, h2⟩ := status_bad hL _ xs (Nat.le_refl _) h
  rw [(Lang.split_append hL _ xs ys (Nat.le_refl _)).2.1]
  exact (Lang.split_bad (by simp [h1]) (hL.bad_append _ ys h1 h2)).2.1

theorem afterRead_self (c : SubCtx) (i : Nat) (b : CircBuf) : ((afterRead c i b).cv.conns i).readBuf = b := by
  show (if i = i then _ else _ : Conn).readBuf = b
  rw [if_pos rfl]

theorem afterRead_micro {c : SubCtx} {i : Nat} (hu : Up c i) (b : CircBuf) : Micro (3 + i) c (afterRead c i b) :=
  Micro.io (a := (c.cv.conns i).action) hu b [.modify i (c.cv.conns i).desc .R .R] rfl (.inr ⟨_, rfl⟩) rfl

theorem Up.afterRead {c d : SubCtx} {i : Nat} (hu : Up c i) (e : d.cv = c.cv) (b : CircBuf) : Up (afterRead d i b) i := by
  refine ⟨?_, ?_⟩
  · show i < d.cv.size; rw [e]; exact hu.1
  · show (if i = i then _ else _ : Conn).mode = _
    rw [if_pos rfl]
    show (d.cv.conns i).mode = _; rw [e]; exact hu.2

theorem run_cons_ok {c c1 c2 : SubCtx} {op : Op} {ops : List Op} {r : Nat} {rs : List Nat} (h1 : step c op = .ok (r, c1))
    (h2 : run c1 ops = .ok (rs, c2)) : run c (op :: ops) = .ok (r :: rs, c2) := by
  rw [run_cons, h1]
  show (run c1 ops >>= _) = _
  rw [h2]; rfl

theorem split3 (xs ys : List UInt8) : commandsOf (xs ++ ys) = commandsOf xs ++ commandsOf (restOf xs ++ ys) ∧
    statusOf (xs ++ ys) = statusOf (restOf xs ++ ys) ∧ restOf (xs ++ ys) = restOf (restOf xs ++ ys) :=
  Lang.split_append (subLang_ok 0 0) _ xs ys (Nat.le_refl _)

theorem dec_enc' {hd : PacketHeader} (hv : hd.Valid) : PacketHeader.dec hd.enc = hd := by
  have := PacketHeader.dec_enc hv []
  rw [List.append_nil] at this; exact this

theorem reads_lang (i : Nat) : ∀ (xs : List (List UInt8 × Int)) {c : SubCtx}, Core c → Up c i → xs ≠ [] →
    SafeReads c i (xs.map (·.1)) →
    statusOf (bytes (c.cv.conns i).readBuf ++ (xs.map (·.1)).flatten) ≠ EPROTO →
    ∃ rs c', run c (readOps i xs) = .ok (rs, c') ∧ Steps (3 + i) c c' ∧ Up c' i ∧
      came c'.log = came c.log ++
        (commandsOf (bytes (c.cv.conns i).readBuf ++ (xs.map (·.1)).flatten)).map (fun x => (i, (pktOf x).1, (pktOf x).2, false)) ∧
      bytes (c'.cv.conns i).readBuf = restOf (bytes (c.cv.conns i).readBuf ++ (xs.map (·.1)).flatten) ∧
      rs.getLast? = some (statusOf (bytes (c.cv.conns i).readBuf ++ (xs.map (·.1)).flatten)) := by
  intro xs
  induction xs with
  | nil => intro c hc hu h0; exact absurd rfl h0
  | cons x xs ih =>
    obtain ⟨x, ts⟩ := x
    intro c hc hu _ hs hst
    obtain ⟨hw, hsz, ⟨hxne, hfit, htrim, _⟩, hrest⟩ := hs
    rw [List.map_cons, List.flatten_cons, ← List.append_assoc] at hst ⊢
    dsimp only at hst hxne hfit htrim ⊢
    have hb := length_bytes (c.cv.conns i).readBuf
    have hiu := inUse_lt hw
    have hmp : RMC_MAX_PACKET = 65400 := rfl
    have hU : U32 = 4294967296 := rfl
    obtain ⟨d, b', e0, e1, e2, e3, k1, k2, k3, k4, k5, _⟩ := readConn_lang hc hu hw (by omega) (xs := x) ts hxne
      (by rw [available_eq hw]; omega) (by unfold ReadSafe; rw [← hb, hsz]; exact htrim)
    obtain ⟨sp1, sp2, sp3⟩ := split3 (bytes (c.cv.conns i).readBuf ++ x) (xs.map (·.1)).flatten
    have hne : statusOf (bytes (c.cv.conns i).readBuf ++ x) ≠ EPROTO := fun e => hst (status_append (subLang_ok 0 0) _ e)
    have hstep : step c (.read i (some x) ts) = .ok (statusOf (bytes (c.cv.conns i).readBuf ++ x), afterRead d i b') := k5 hne
    have hm := afterRead_micro (hu.congr e2) b'
    have hu' := Up.afterRead hu e2 b'
    have hS : Steps (3 + i) c (afterRead d i b') := e1.snoc hm
    cases xs with
    | nil =>
      rw [List.map_nil, List.flatten_nil, List.append_nil] at *
      refine ⟨[_], afterRead d i b', run_cons_ok hstep rfl, hS, hu', e3, ?_, rfl⟩
      rw [afterRead_self]; exact k3
    | cons y ys =>
      have hrb := afterRead_self d i b'
      have hmpos : (0:Nat) < RMC_MAX_PACKET := by decide
      obtain ⟨rs, c', g1, g2, g3, g4, g5, g6⟩ := ih (c := afterRead d i b') (hc.steps hS) hu' (by simp) ⟨by rw [hrb]; exact k1,
        by rw [hrb, k2]; exact hsz, by
          rw [hrb, k3]
          have e : b'.start = posAfter (subLang 0 0) RMC_MAX_PACKET (c.cv.conns i).readBuf.start
              (bytes (c.cv.conns i).readBuf ++ x) := by
            unfold posAfter; rw [k4, k3, hsz]; rfl
          rw [e]; exact hrest⟩ (by rw [hrb, k3]; rw [sp2] at hst; exact hst)
      rw [hrb, k3] at g4 g5 g6
      refine ⟨_ :: rs, c', run_cons_ok hstep g1, hS.trans g2, g3, ?_, ?_, ?_⟩
      · rw [sp1, List.map_append, ← List.append_assoc, g4]
        congr 1
      · rw [sp3]; exact g5
      · rw [sp2]
        refine Eq.trans ?_ g6
        cases rs with
        | nil => cases g6
        | cons r rs => rw [List.getLast?_cons_cons]

/-! ## The theorems -/

/-- C12 for the subscriber (partial: for chunkings in the safe class, see C12_sub_false): however the bytes from a publisher are cut
into reads, the packets the stream contains arrive in order, each once and only when it is complete, and what is left behind the last
complete command stays buffered; the last read says whether there is any (EAGAIN) or not (0). -/
theorem C12_subscriber_partial {ops : List Op} {c : SubCtx} (h : Reaches ops c) {i : Nat} (hu : Up c i)
    {xs : List (List UInt8 × Int)} (hne : xs ≠ []) (hs : SafeReads c i (xs.map (·.1)))
    (hp : statusOf (bytes (c.cv.conns i).readBuf ++ (xs.map (·.1)).flatten) ≠ EPROTO) :
    ∃ rs c', run c (readOps i xs) = .ok (rs, c') ∧ Up c' i ∧
      came c'.log = came c.log ++
        (commandsOf (bytes (c.cv.conns i).readBuf ++ (xs.map (·.1)).flatten)).map (fun x => (i, (pktOf x).1, (pktOf x).2, false)) ∧
      bytes (c'.cv.conns i).readBuf = restOf (bytes (c.cv.conns i).readBuf ++ (xs.map (·.1)).flatten) ∧
      rs.getLast? = some (statusOf (bytes (c.cv.conns i).readBuf ++ (xs.map (·.1)).flatten)) := by
  obtain ⟨rs, c', h1, _, h2⟩ := reads_lang i xs h.inv.core hu hne hs hp
  exact ⟨rs, c', h1, h2⟩

theorem frameOf_len (hd : PacketHeader) (data : List UInt8) : (frameOf hd data).length = 21 + data.length := by
  unfold frameOf
  rw [List.length_cons, List.length_append, PacketHeader.length_enc]
  unfold HDR_LEN; omega

theorem frameOf_frame {hd : PacketHeader} (hv : hd.Valid) {data : List UInt8} (hl : data.length = hd.payloadLen) (more : List UInt8) :
    subFrame (frameOf hd data ++ more) = .cmd (frameOf hd data).length := by
  have he := PacketHeader.length_enc hd
  have e20 : HDR_LEN = 20 := rfl
  unfold frameOf subFrame
  rw [List.cons_append]
  dsimp only
  have ht : (hd.enc ++ data ++ more).take 20 = hd.enc := by
    rw [List.append_assoc, List.take_append_of_le_length (by omega), List.take_of_length_le (by omega)]
  rw [if_pos rfl, ht, dec_enc' hv, if_neg (by rw [List.length_append, List.length_append]; omega),
    if_neg (by rw [List.length_append, List.length_append]; omega), List.length_cons, List.length_append]
  congr 1; omega

theorem frameOf_pkt {hd : PacketHeader} (hv : hd.Valid) (data : List UInt8) : pktOf (frameOf hd data) = (hd.pid, data) := by
  have he := PacketHeader.length_enc hd
  have e20 : HDR_LEN = 20 := rfl
  unfold pktOf frameOf
  rw [List.drop_succ_cons, List.drop_zero, List.take_append_of_le_length (by omega), List.take_of_length_le (by omega),
    dec_enc' hv, List.drop_succ_cons, List.drop_append, List.drop_of_length_le (by omega), List.nil_append,
    show 20 - hd.enc.length = 0 by omega, List.drop_zero]

/-- Specification: packets a publisher can send: the fields of the header fit and the length is right. -/
def WellFormed (ps : List (PacketHeader × List UInt8)) : Prop := ∀ p ∈ ps, p.1.Valid ∧ p.2.length = p.1.payloadLen

theorem commands_frames : ∀ (ps : List (PacketHeader × List UInt8)) (part : List UInt8), WellFormed ps →
    commandsOf ((ps.map fun p => frameOf p.1 p.2).flatten ++ part) = (ps.map fun p => frameOf p.1 p.2) ++ commandsOf part ∧
    statusOf ((ps.map fun p => frameOf p.1 p.2).flatten ++ part) = statusOf part ∧
    restOf ((ps.map fun p => frameOf p.1 p.2).flatten ++ part) = restOf part := by
  intro ps
  induction ps with
  | nil => intro part _; exact ⟨rfl, rfl, rfl⟩
  | cons p ps ih =>
    intro part hw
    obtain ⟨h1, h2⟩ := hw p (by simp)
    obtain ⟨i1, i2, i3⟩ := ih part (fun q hq => hw q (by simp [hq]))
    rw [List.map_cons, List.flatten_cons, List.append_assoc]
    obtain ⟨e1, e2, e3⟩ := Lang.split_cmd (subLang_ok 0 0) (xs := frameOf p.1 p.2 ++ ((ps.map fun p => frameOf p.1 p.2).flatten ++ part))
      (n := (frameOf p.1 p.2).length) (frameOf_frame h1 h2 _)
    rw [List.take_left] at e1
    rw [List.drop_left] at e1 e2 e3
    refine ⟨?_, e2.trans i2, e3.trans i3⟩
    refine e1.trans ?_
    show _ :: commandsOf _ = _
    rw [i1]; rfl

theorem reads_stream {ops : List Op} {c : SubCtx} (h : Reaches ops c) {i : Nat} (hu : Up c i)
    {xs : List (List UInt8 × Int)} (hne : xs ≠ []) (hs : SafeReads c i (xs.map (·.1))) {z : List UInt8}
    (hz : bytes (c.cv.conns i).readBuf ++ (xs.map (·.1)).flatten = z) (hp : statusOf z ≠ EPROTO) :
    ∃ rs c', run c (readOps i xs) = .ok (rs, c') ∧ Up c' i ∧
      came c'.log = came c.log ++ (commandsOf z).map (fun x => (i, (pktOf x).1, (pktOf x).2, false)) ∧
      bytes (c'.cv.conns i).readBuf = restOf z ∧ rs.getLast? = some (statusOf z) := by
  subst hz
  exact C12_subscriber_partial h hu hne hs hp

theorem part_frame {part : List UInt8} (hpart : part = [] ∨ ∃ hd data, hd.Valid ∧ data.length = hd.payloadLen ∧
      part.length < (frameOf hd data).length ∧ part <+: frameOf hd data) :
    commandsOf part = [] ∧ statusOf part = (if part = [] then 0 else EAGAIN) ∧ restOf part = part := by
  by_cases h0 : part = []
  · subst h0; rw [if_pos rfl]; exact ⟨rfl, rfl, rfl⟩
  · rw [if_neg h0]
    obtain ⟨hd, data, hv, hl, hlt, more, hm⟩ := hpart.resolve_left h0
    refine Lang.split_more (L := subLang 0 0) h0 ?_
    have hf := frameOf_frame hv hl []
    rw [List.append_nil] at hf
    cases hb : (subLang 0 0).frame part with
    | more => rfl
    | bad =>
      have := (subLang_ok 0 0).bad_append part more h0 hb
      rw [hm] at this
      have hf' : (subLang 0 0).frame (frameOf hd data) = .cmd _ := hf
      rw [hf'] at this; cases this
    | cmd n =>
      have h1 := (subLang_ok 0 0).cmd_append part more n hb
      have h2 := ((subLang_ok 0 0).pos part n hb).2
      rw [hm] at h1
      have hf' : (subLang 0 0).frame (frameOf hd data) = .cmd _ := hf
      rw [hf'] at h1
      have := Frame.cmd.inj h1
      omega

/-- C12 for packets resent over TCP (partial: safe chunkings): if what is buffered and read is the frames of the packets `ps`, one after
the other, followed by a proper part of another frame or nothing, then exactly the packets `ps` arrive, in order, with the ids and the
bytes they were sent with, on the connection they were read from; the part stays buffered. -/
theorem C12_resent_partial {ops : List Op} {c : SubCtx} (h : Reaches ops c) {i : Nat} (hu : Up c i)
    {xs : List (List UInt8 × Int)} (hne : xs ≠ []) (hs : SafeReads c i (xs.map (·.1)))
    {ps : List (PacketHeader × List UInt8)} (hps : WellFormed ps) {part : List UInt8}
    (hpart : part = [] ∨ ∃ hd data, hd.Valid ∧ data.length = hd.payloadLen ∧ part.length < (frameOf hd data).length ∧
      part <+: frameOf hd data)
    (he : bytes (c.cv.conns i).readBuf ++ (xs.map (·.1)).flatten = (ps.map fun p => frameOf p.1 p.2).flatten ++ part) :
    ∃ rs c', run c (readOps i xs) = .ok (rs, c') ∧ Up c' i ∧
      came c'.log = came c.log ++ ps.map (fun p => (i, p.1.pid, p.2, false)) ∧
      bytes (c'.cv.conns i).readBuf = part ∧ rs.getLast? = some (if part = [] then 0 else EAGAIN) := by
  have hp := part_frame hpart
  obtain ⟨f1, f2, f3⟩ := commands_frames ps part hps
  obtain ⟨z, hz⟩ : ∃ z, z = (ps.map fun p => frameOf p.1 p.2).flatten ++ part := ⟨_, rfl⟩
  rw [← hz] at f1 f2 f3 he
  obtain ⟨rs, c', g1, g2, g3, g4, g5⟩ := reads_stream h hu hne hs he (by
    rw [f2, hp.2.1]
    by_cases h0 : part = []
    · rw [if_pos h0]; decide
    · rw [if_neg h0]; decide)
  rw [f1, hp.1, List.append_nil, List.map_map] at g3
  rw [f3, hp.2.2] at g4
  rw [f2, hp.2.1] at g5
  refine ⟨rs, c', g1, g2, ?_, g4, g5⟩
  rw [g3]
  refine congrArg (came c.log ++ ·) (List.map_congr_left ?_)
  intro p hpm
  show (i, (pktOf (frameOf p.1 p.2)).1, (pktOf (frameOf p.1 p.2)).2, false) = _
  rw [frameOf_pkt (hps p hpm).1]

theorem close_size (v : ConnVec) (i : Nat) : (ConnVec.close v i).2.size = v.size := by
  have : ∀ w : ConnVec, (ConnVec.resetMax w).size = w.size := by
    intro w; unfold ConnVec.resetMax; split <;> rfl
  unfold ConnVec.close
  split
  · rfl
  · split
    · rfl
    · dsimp only; split
      · exact this _
      · rfl

theorem shut_up {d : SubCtx} (hc : Core d) {i : Nat} (hu : Up d i) (b' : CircBuf) :
    ∃ c', closeConnection (setConn d i { d.cv.conns i with readBuf := b' }) i = .ok (0, c') ∧ (c'.cv.conns i).mode = .closed ∧
      came c'.log = came d.log := by
  have m2 : Micro (3 + i) d (setConn d i { d.cv.conns i with readBuf := b' }) := by
    have : Micro (3 + i) d { d with cv := { d.cv.set i { d.cv.conns i with readBuf := b' } with polls := d.cv.polls ++ [] } } :=
      Micro.io (a := (d.cv.conns i).action) hu b' [] rfl (.inl rfl) rfl
    rw [List.append_nil] at this; exact this
  have hc2 := hc.micro m2
  obtain ⟨s, hss⟩ := hc.recd i hu
  have hcl : ∃ x, closeConnection (setConn d i { d.cv.conns i with readBuf := b' }) i = .ok (0, x) := by
    unfold closeConnection
    dsimp only
    rw [if_neg (by rw [close_size]; show ¬ i ≥ d.cv.size; have := hu.1; omega)]
    have : getPub { setConn d i { d.cv.conns i with readBuf := b' } with
        cv := (ConnVec.close (setConn d i { d.cv.conns i with readBuf := b' }).cv i).2 } i = .ok s := getPub_ok.2 hss
    rw [this, ok_bind]
    exact ⟨_, rfl⟩
  obtain ⟨c', hcl⟩ := hcl
  obtain ⟨_, s', hs', _, rfl⟩ := closeConnection_micro hc2 hcl
  refine ⟨_, hcl, ?_, ?_⟩
  · obtain ⟨L, hL⟩ := hc2.v
    have hi : i ∈ L := (hL.mode i (show i < d.cv.size from hu.1)).1 (by
      show (if i = i then _ else _ : Conn).mode ≠ _
      rw [if_pos rfl]
      show (d.cv.conns i).mode ≠ _
      rw [hu.2]; simp)
    have hcc := ((close_spec hL i).1 hi).2.2.2.2.2.1
    show ((ConnVec.close (setConn d i { d.cv.conns i with readBuf := b' }).cv i).2.conns i).mode = _
    rw [hcc]; rfl
  · unfold came
    congr 1
    show arrives ((d.log ++ [_]) ++ _) = _
    rw [arrives_append, arrives_append]
    have z : ∀ l : List SPkt, arrives (l.map fun p => SEv.free p.payload.ptr p.payload.data.length (.u32 p.slot)) = [] := by
      intro l
      unfold arrives; rw [List.filterMap_eq_nil_iff]; intro e he
      obtain ⟨p, _, rfl⟩ := List.mem_map.1 he; rfl
    rw [z, List.append_nil]
    exact List.append_nil _

/-- C14 for the subscriber (partial: reads in the safe class): if the bytes buffered and read are complete commands followed by a byte
that is no command, then exactly those packets arrive, EPROTO is returned and the connection is closed. -/
theorem C14_subscriber_unknown_partial {ops : List Op} {c : SubCtx} (h : Reaches ops c) {i : Nat} (hu : Up c i) {x : List UInt8}
    (hs : SafeReads c i [x]) {good ys : List UInt8} {y : UInt8} (he : bytes (c.cv.conns i).readBuf ++ x = good ++ y :: ys)
    (hg : restOf good = []) (hy : y ≠ CMD_PACKET) (ts : Int) :
    ∃ c', step c (.read i (some x) ts) = .ok (EPROTO, c') ∧ (c'.cv.conns i).mode = .closed ∧
      came c'.log = came c.log ++ (commandsOf good).map (fun x => (i, (pktOf x).1, (pktOf x).2, false)) := by
  obtain ⟨hw, hsz, ⟨hxne, hfit, htrim, _⟩, _⟩ := hs
  have hb := length_bytes (c.cv.conns i).readBuf
  have hmp : RMC_MAX_PACKET = 65400 := rfl
  have hU : U32 = 4294967296 := rfl
  have hc := h.inv.core
  obtain ⟨d, b', e0, e1, e2, e3, k1, k2, k3, k4, _, k5⟩ := readConn_lang hc hu hw (by omega) (xs := x) ts hxne
      (by rw [available_eq hw]; omega) (by unfold ReadSafe; rw [← hb, hsz]; exact htrim)
  obtain ⟨sp1, sp2, sp3⟩ := Lang.split_append (subLang_ok 0 0) _ good (y :: ys) (Nat.le_refl _)
  have hbad : (subLang 0 0).frame (y :: ys) = .bad := by
    show subFrame (y :: ys) = .bad
    unfold subFrame; dsimp only; rw [if_neg hy]
  obtain ⟨d1, d2, d3⟩ := Lang.split_bad (L := subLang 0 0) (List.cons_ne_nil y ys) hbad
  have hg' : (subLang 0 0).rest good = [] := hg
  rw [hg', List.nil_append] at sp1 sp2
  have hk := k5 (by rw [he]; exact sp2.trans d2)
  have hud := hu.congr e2
  have hcd := hc.steps e1
  obtain ⟨c', g1, g2, g3⟩ := shut_up hcd hud b'
  refine ⟨c', by show readConn c i (some x) ts = _; rw [hk, g1]; rfl, g2, ?_⟩
  rw [g3, e3, he]
  refine congrArg (fun l => came c.log ++ List.map _ l) ?_
  exact sp1.trans (by rw [d1, List.append_nil])

/-- C15 for the subscriber (partial: reads in the safe class): whatever bytes a publisher sends, reading them returns 0, EAGAIN or
EPROTO; there is no crash. -/
theorem C15_subscriber_partial {ops : List Op} {c : SubCtx} (h : Reaches ops c) {i : Nat} (hu : Up c i) {x : List UInt8}
    (hs : SafeReads c i [x]) (ts : Int) :
    ∃ r c', step c (.read i (some x) ts) = .ok (r, c') ∧ (r = 0 ∨ r = EAGAIN ∨ r = EPROTO) := by
  by_cases hp : statusOf (bytes (c.cv.conns i).readBuf ++ x) = EPROTO
  · obtain ⟨h1, h2⟩ := status_bad (subLang_ok 0 0) _ _ (Nat.le_refl _) hp
    have hL := subLang_ok 0 0
    -- the stream is complete commands followed by what is left
    have key : ∀ (k : Nat) (xs : List UInt8), xs.length ≤ k → ∃ good, xs = good ++ restOf xs ∧ restOf good = [] := by
      intro k
      induction k with
      | zero =>
        intro xs h
        have : xs = [] := List.length_eq_zero_iff.1 (by omega)
        subst this
        exact ⟨[], rfl, rfl⟩
      | succ k ih =>
        intro xs h
        by_cases h0 : xs = []
        · subst h0; exact ⟨[], rfl, rfl⟩
        · cases hf : (subLang 0 0).frame xs with
          | more => exact ⟨[], by rw [show restOf xs = xs from (Lang.split_more h0 hf).2.2]; rfl, rfl⟩
          | bad => exact ⟨[], by rw [show restOf xs = xs from (Lang.split_bad h0 hf).2.2]; rfl, rfl⟩
          | cmd n =>
            obtain ⟨p1, p2⟩ := hL.pos xs n hf
            have e3 := (Lang.split_cmd hL hf).2.2
            obtain ⟨g, g1, g2⟩ := ih (xs.drop n) (by rw [List.length_drop]; omega)
            refine ⟨xs.take n ++ g, ?_, ?_⟩
            · show xs = _ ++ (subLang 0 0).rest xs
              rw [e3, List.append_assoc]
              have g1' : xs.drop n = g ++ (subLang 0 0).rest (xs.drop n) := g1
              rw [← g1', List.take_append_drop]
            · have hf' : (subLang 0 0).frame (xs.take n ++ g) = .cmd n := by
                have hfx : subFrame xs = .cmd n := hf
                show subFrame (xs.take n ++ g) = .cmd n
                exact frame_take hfx g
              have := (Lang.split_cmd hL hf').2.2
              show (subLang 0 0).rest _ = []
              rw [this]
              have hdn : (xs.take n ++ g).drop n = g := by
                have hl : (xs.take n).length = n := by rw [List.length_take]; omega
                rw [List.drop_append, List.drop_of_length_le (by omega), hl, Nat.sub_self]; rfl
              rw [hdn]; exact g2
    obtain ⟨good, g1, g2⟩ := key _ (bytes (c.cv.conns i).readBuf ++ x) (Nat.le_refl _)
    cases hr : restOf (bytes (c.cv.conns i).readBuf ++ x) with
    | nil => exact absurd hr h1
    | cons y ys =>
      rw [hr] at g1
      have hy : y ≠ CMD_PACKET := by
        intro e
        have hr' : (subLang 0 0).rest (bytes (c.cv.conns i).readBuf ++ x) = y :: ys := hr
        rw [hr'] at h2
        have h2' : subFrame (y :: ys) = .bad := h2
        unfold subFrame at h2'
        dsimp only at h2'
        rw [if_pos e] at h2'
        split at h2'
        · cases h2'
        · split at h2' <;> cases h2'
      obtain ⟨c', h3, _⟩ := C14_subscriber_unknown_partial h hu hs g1 g2 hy ts
      exact ⟨_, c', h3, .inr (.inr rfl)⟩
  · obtain ⟨rs, c', h1, h2, h3, h4, h5⟩ := C12_subscriber_partial h hu (xs := [(x, ts)]) (by simp) hs (by simpa using hp)
    have h1' : run c [.read i (some x) ts] = .ok (rs, c') := h1
    rw [run_cons] at h1'
    obtain ⟨⟨r, c1⟩, e1, e2⟩ := bind_ok h1'
    refine ⟨r, c1, e1, ?_⟩
    have e3 : (Except.ok ([r], c1) : M (List Nat × SubCtx)) = .ok (rs, c') := e2
    have : rs = [r] := (congrArg Prod.fst (Except.ok.inj e3)).symm
    rw [this] at h5
    have h6 : r = statusOf (bytes (c.cv.conns i).readBuf ++ [x].flatten) := Option.some.inj h5
    rw [h6]
    exact sub_status _
where
  frame_take {xs : List UInt8} {n : Nat} (h : subFrame xs = .cmd n) (g : List UInt8) : subFrame (xs.take n ++ g) = .cmd n := by
    cases xs with
    | nil => cases h
    | cons c cs =>
      unfold subFrame at h
      dsimp only at h
      split at h
      · rename_i hc
        split at h
        · cases h
        · rename_i h20
          split at h
          · cases h
          · rename_i hl
            have hn := Frame.cmd.inj h
            rw [← hn]
            obtain ⟨len, hle⟩ : ∃ len, len = (PacketHeader.dec (cs.take 20)).payloadLen := ⟨_, rfl⟩
            rw [← hle] at hl ⊢
            rw [show 21 + len = (20 + len) + 1 by omega, List.take_succ_cons, List.cons_append]
            unfold subFrame
            dsimp only
            have ht : (cs.take (20 + len) ++ g).take 20 = cs.take 20 := by
              rw [List.take_append_of_le_length (by rw [List.length_take]; omega), List.take_take]; congr 1; omega
            rw [if_pos hc, ht, ← hle, if_neg (by rw [List.length_append, List.length_take]; omega),
              if_neg (by rw [List.length_append, List.length_take]; omega), show 21 + len = (20 + len) + 1 by omega]
      · cases h

/-- C15: the end of the stream, or a failing recv, closes the connection and returns 0, whatever has been buffered; a connection whose
buffer is full is left alone and ENOMEM is returned. -/
theorem C15_subscriber_eof {ops : List Op} {c : SubCtx} (h : Reaches ops c) {i : Nat} (hu : Up c i)
    (hw : WF (c.cv.conns i).readBuf) (ts : Int) :
    ∃ r c', step c (.read i none ts) = .ok (r, c') ∧ came c'.log = came c.log ∧
      ((available (c.cv.conns i).readBuf ≠ 0 → r = 0 ∧ (c'.cv.conns i).mode = .closed) ∧
       (available (c.cv.conns i).readBuf = 0 → r = ENOMEM ∧ (c'.cv.conns i).mode = .connected)) := by
  have hc := h.inv.core
  have hf : ¬ (findByIndex c.cv i = none ∨ (c.cv.conns i).mode ≠ .connected) := by
    rintro (h | h)
    · unfold findByIndex at h
      rw [if_neg (by have := hu.1; omega), if_neg (by rw [hu.2]; simp)] at h
      cases h
    · exact h hu.2
  obtain ⟨t, ht⟩ : ∃ t, t = tcpRead (table i ts) U32 c (c.cv.conns i).readBuf none := ⟨_, rfl⟩
  show ∃ r c', readConn c i none ts = .ok (r, c') ∧ _
  unfold readConn
  rw [if_neg hf, ← ht]
  unfold tcpRead at ht
  dsimp only at ht
  by_cases ha : available (c.cv.conns i).readBuf = 0
  · rw [if_pos ha] at ht
    rw [ht, ok_bind]
    dsimp only
    rw [if_pos rfl]
    refine ⟨ENOMEM, _, rfl, rfl, fun hn => absurd ha hn, fun _ => ⟨rfl, ?_⟩⟩
    show (if i = i then _ else _ : Conn).mode = _
    rw [if_pos rfl]
    exact hu.2
  · rw [if_neg ha] at ht
    rw [if_neg (by rw [alloc_ok hw (Nat.le_refl (available (c.cv.conns i).readBuf))]; split <;> simp)] at ht
    rw [if_pos (by simp)] at ht
    rw [ht, ok_bind]
    dsimp only
    rw [if_neg (by decide), if_pos rfl]
    obtain ⟨b', hb'⟩ : ∃ b', b' = (CircBuf.alloc (c.cv.conns i).readBuf (available (c.cv.conns i).readBuf)).2.2.2.trim
            (available (c.cv.conns i).readBuf) := ⟨_, rfl⟩
    rw [← hb']
    obtain ⟨c', g1, g2, g3⟩ := shut_up hc hu b'
    rw [g1, ok_bind]
    exact ⟨0, c', rfl, g3, fun _ => ⟨rfl, g2⟩, fun e => absurd e ha⟩

/-! ## Non-vacuity, and the defect -/

/-- Five packets as they are resent. -/
def exResent : List UInt8 := exTcp 5 [50] ++ exTcp 6 [60] ++ exTcp 7 [70] ++ exTcp 8 [80] ++ exTcp 9 [90]

/-- Non-vacuity: a set up connection with an empty read buffer. -/
example : ∃ c rs, Reaches exUp c ∧ run exS0 exUp = .ok (rs, c) ∧
    decide (Up c 0 ∧ (c.cv.conns 0).readBuf.size = RMC_MAX_PACKET ∧ (c.cv.conns 0).readBuf.start = 0 ∧
      bytes (c.cv.conns 0).readBuf = []) = true :=
  reaches_of (P := fun _ c => decide (Up c 0 ∧ (c.cv.conns 0).readBuf.size = RMC_MAX_PACKET ∧
    (c.cv.conns 0).readBuf.start = 0 ∧ bytes (c.cv.conns 0).readBuf = [])) (by decide +kernel)

/-- Non-vacuity: a safe way to cut them into reads, … -/
example : ChunksSafe (subLang 0 0) RMC_MAX_PACKET 0 [] [exResent.take 30, exResent.drop 30] := by
  refine ⟨⟨by decide, by decide, by decide, safeFrom_true _ _ _ _ _ _⟩, ⟨by decide +kernel, by decide +kernel, by decide +kernel,
    safeFrom_true _ _ _ _ _ _⟩, trivial⟩

/-- … and what comes of it: the packets, in order, with their bytes. -/
example : holdsAfter (exUp ++ [.read 0 (some (exResent.take 30)) 1, .read 0 (some (exResent.drop 30)) 2]) (fun rs c =>
    decide (rs = [0, 0, 0, EAGAIN, 0] ∧
      came c.log = [(0, 5, [50], false), (0, 6, [60], false), (0, 7, [70], false), (0, 8, [80], false), (0, 9, [90], false)])) = true := by
  decide +kernel

/-- Non-vacuity of C14: a good packet and then a byte that is no command. -/
example : restOf (exTcp 5 [50]) = [] ∧ commandsOf (exTcp 5 [50]) = [exTcp 5 [50]] ∧ (9 : UInt8) ≠ CMD_PACKET ∧
    holdsAfter (exUp ++ [.read 0 (some (exTcp 5 [50] ++ 9 :: exTcp 6 [60])) 1]) (fun rs c =>
      decide (rs = [0, 0, 0, EPROTO] ∧ came c.log = [(0, 5, [50], false)] ∧ (c.cv.conns 0).mode = .closed)) = true := by
  refine ⟨by decide +kernel, by decide +kernel, by decide, by decide +kernel⟩

/-- C12 is false for other ways to cut the stream: five honest packets, of which the first three and a byte come in one
read and three more bytes in the next. The reader takes what has not come yet for read: packet 8 arrives without its payload, and the
connection, on which nothing is wrong, is closed with a protocol error. -/
theorem C12_subscriber_false :
    holdsAfter (exUp ++ [.read 0 (some (exResent.take 67)) 1, .read 0 (some ((exResent.drop 67).take 3)) 2]) (fun rs c =>
      decide (rs = [0, 0, 0, EAGAIN, EPROTO] ∧ (c.cv.conns 0).mode = .closed ∧
        came c.log = [(0, 5, [50], false), (0, 6, [60], false), (0, 7, [70], false), (0, 8, [], false)])) = true ∧
    commandsOf exResent = [exTcp 5 [50], exTcp 6 [60], exTcp 7 [70], exTcp 8 [80], exTcp 9 [90]] ∧
    exResent.take 67 ++ (exResent.drop 67).take 3 ++ exResent.drop 70 = exResent := by
  refine ⟨by decide +kernel, by decide +kernel, by decide +kernel⟩

end SubCtx
end Rmc
