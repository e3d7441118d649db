import Verif.SubCtxFaults
import Verif.Props.SubCtxDeliver
import Verif.Props.Proto

/-! # The command language of a subscriber's TCP connection, and reading it -/

set_option linter.unusedSimpArgs false
set_option linter.unusedVariables false

namespace Rmc
namespace SubCtx
open SubPub CircBuf ConnVec Proto

/-- Specification: how the commands a publisher sends are delimited: the only command is a resent packet: the command byte, a header of
20 bytes and as many bytes as the header says. -/
def subFrame (xs : List UInt8) : Frame :=
  match xs with
  | [] => .more
  | c :: cs =>
    if c = CMD_PACKET then
      (if cs.length < 20 then .more
       else if cs.length < 20 + (PacketHeader.dec (cs.take 20)).payloadLen then .more
       else .cmd (21 + (PacketHeader.dec (cs.take 20)).payloadLen))
    else .bad

/-- What a complete command from the peer of connection `i` does: the packet arrives. -/
def subEff (i : Nat) (ts : Int) (c : SubCtx) (xs : List UInt8) : M SubCtx :=
  match xs with
  | [] => .ok c
  | _ :: cs => deliver c i (PacketHeader.dec (cs.take 20)).pid (cs.drop 20) false ts

/-- The language of the commands from the peer of connection `i`. -/
def subLang (i : Nat) (ts : Int) : Lang SubCtx := ⟨subFrame, subEff i ts, fun _ _ _ => True⟩

theorem subLang_ok (i : Nat) (ts : Int) : (subLang i ts).OK := by
  refine ⟨?_, ?_, ?_⟩
  · intro xs n h
    have h' : subFrame xs = .cmd n := h
    unfold subFrame at h'
    split at h'
    · cases h'
    · rename_i c cs
      split at h'
      · split at h'
        · cases h'
        · split at h'
          · cases h'
          · cases h'; rw [List.length_cons]; omega
      · cases h'
  · intro xs ys n h
    have h' : subFrame xs = .cmd n := h
    show subFrame (xs ++ ys) = .cmd n
    cases xs with
    | nil => cases h'
    | cons c cs =>
      rw [List.cons_append]
      unfold subFrame at h' ⊢
      dsimp only at h' ⊢
      split at h'
      · rename_i e
        rw [if_pos e]
        split at h'
        · cases h'
        · rw [List.take_append_of_le_length (by omega : 20 ≤ cs.length)]
          split at h'
          · cases h'
          · rw [if_neg (by rw [List.length_append]; omega), if_neg (by rw [List.length_append]; omega)]; exact h'
      · cases h'
  · intro xs ys hn h
    have h' : subFrame xs = .bad := h
    show subFrame (xs ++ ys) = .bad
    cases xs with
    | nil => cases h'
    | cons c cs =>
      rw [List.cons_append]
      unfold subFrame at h' ⊢
      dsimp only at h' ⊢
      split at h'
      · split at h'
        · cases h'
        · split at h' <;> cases h'
      · rename_i e
        rw [if_neg e]

/-- The dispatch table of rmc_sub_read.c implements the language. -/
theorem subLang_implements (i : Nat) (ts : Int) : Implements (table i ts) (subLang i ts) := by
  intro s b c cs hw hb hs
  have hlen : inUse b = cs.length + 1 := by rw [← length_bytes, hb]; rfl
  dsimp only [subLang]
  rw [hb]
  unfold subFrame
  dsimp only
  by_cases h1 : c = CMD_PACKET
  · rw [if_pos h1]
    have hl : lookup (table i ts) c = some (processPacket i ts) := by rw [h1]; rfl
    by_cases h2 : cs.length < 20
    · rw [if_pos h2]
      refine ⟨_, hl, ?_⟩
      unfold processPacket
      rw [if_pos (by rw [hlen]; unfold HDR_LEN; omega)]
    · rw [if_neg h2]
      have hrd : readOffset b 1 HDR_LEN = .ok (0, cs.take 20) := by
        rw [readOffset_ok hw (by omega) offsetSafe_one, hb]; rfl
      obtain ⟨len, hle⟩ : ∃ len, len = (PacketHeader.dec (cs.take 20)).payloadLen := ⟨_, rfl⟩
      rw [← hle]
      by_cases h3 : cs.length < 20 + len
      · rw [if_pos h3]
        refine ⟨_, hl, ?_⟩
        unfold processPacket
        rw [if_neg (by rw [hlen]; unfold HDR_LEN; omega), hrd, ok_bind]
        dsimp only
        rw [if_pos (by rw [hlen, ← hle]; unfold HDR_LEN; omega)]; rfl
      · rw [if_neg h3]
        refine ⟨_, hl, ?_⟩
        have ht : (c :: cs).take (21 + len) = c :: cs.take (20 + len) := by
          rw [show 21 + len = (20 + len) + 1 by omega]; rfl
        have hhd : (cs.take (20 + len)).take 20 = cs.take 20 := by rw [List.take_take]; congr 1; omega
        have hpay : (cs.take (20 + len)).drop 20 = (cs.drop 20).take len := by rw [List.drop_take]; congr 1; omega
        obtain ⟨f1, f2, f3, f4⟩ := free_case' hw
        rw [hb] at f3
        have f3' : bytes (free b 21).1 = cs.drop 20 := f3
        have hread : CircBuf.read (free b 21).1 len = .ok (0, (cs.drop 20).take len) := by
          unfold CircBuf.read
          rw [readOffset_ok f1 (Nat.zero_le _) offsetSafe_zero, f3']; rfl
        rw [ht]
        unfold subEff processPacket
        dsimp only
        rw [if_neg (by rw [hlen]; unfold HDR_LEN; omega), hrd, ok_bind]
        dsimp only
        rw [if_neg (by rw [hlen, ← hle]; unfold HDR_LEN; omega)]
        rw [show 1 + HDR_LEN = 21 from rfl, ← hle, hread, ok_bind, hhd, hpay]
        dsimp only
        cases hA : deliver s i (PacketHeader.dec (cs.take 20)).pid ((cs.drop 20).take len) false ts with
        | error f => rfl
        | ok s' =>
          refine ⟨(free (free b 21).1 len).1, rfl, ?_⟩
          obtain ⟨g1, g2, g3, _⟩ := free_spec f1 len
          have gb : bytes (free (free b 21).1 len).1 = (c :: cs).drop (21 + len) := by
            rw [g3, f3', show 21 + len = (20 + len) + 1 by omega, List.drop_succ_cons, List.drop_drop]
          refine ⟨g1, g2.trans f2, gb, ?_⟩
          by_cases h0 : len = 0
          · subst h0
            have : (free (free b 21).1 0).1 = (free b 21).1 := by unfold free; rw [if_pos rfl]
            rw [this, f4]
          · rw [free_start f1 len h0]
            by_cases he : bytes (free (free b 21).1 len).1 = []
            · rw [if_pos he, if_pos he]
            · rw [if_neg he, if_neg he, f2]
              have hne : bytes (free b 21).1 ≠ [] := by
                intro e; apply he; rw [g3, e, List.drop_nil]
              rw [f4, if_neg hne, Nat.mod_add_mod, Nat.add_assoc]
  · rw [if_neg h1]
    dsimp only
    show (if c = CMD_PACKET then _ else none) = none
    rw [if_neg h1]
where
  free_case' {b : CircBuf} (h : WF b) :
      WF (free b 21).1 ∧ (free b 21).1.size = b.size ∧ bytes (free b 21).1 = (bytes b).drop 21 ∧
        (free b 21).1.start = if bytes (free b 21).1 = [] then 0 else (b.start + 21) % b.size := by
    obtain ⟨h1, h2, h3, _⟩ := free_spec h 21
    exact ⟨h1, h2, h3, free_start h 21 (by omega)⟩

theorem safeFrom_true (i : Nat) (ts : Int) (size : Nat) : ∀ (f pos : Nat) (xs : List UInt8), (subLang i ts).safeFrom size f pos xs := by
  intro f
  induction f with
  | zero => intro pos xs; trivial
  | succ f ih =>
    intro pos xs
    unfold Lang.safeFrom
    split
    · trivial
    · refine ⟨trivial, ?_⟩
      split
      · exact ih _ _
      · trivial

/-! ## What the commands do -/

/-- Specification: the packet in a command. -/
def pktOf (cmd : List UInt8) : Nat × List UInt8 := ((PacketHeader.dec ((cmd.drop 1).take 20)).pid, cmd.drop 21)

/-- Specification: the packets that arrived, without the clock and the addresses of the copies. -/
def came (log : List SEv) : List (Nat × Nat × List UInt8 × Bool) :=
  (arrives log).map fun a => (a.1, a.2.1.pid, a.2.1.payload.data, a.2.2.1)

theorem effects_steps {i : Nat} {ts : Int} : ∀ (cs : List (List UInt8)) {c : SubCtx}, Core c → Up c i → (∀ x ∈ cs, x ≠ []) →
    ∃ d, effects (subLang i ts) c cs = .ok d ∧ Steps (3 + i) c d ∧ d.cv = c.cv ∧
      came d.log = came c.log ++ cs.map fun x => (i, (pktOf x).1, (pktOf x).2, false) := by
  intro cs
  induction cs with
  | nil => intro c hc hu _; exact ⟨c, rfl, .nil, rfl, by simp⟩
  | cons x cs ih =>
    intro c hc hu hx
    cases x with
    | nil => exact absurd rfl (hx [] (by simp))
    | cons y ys =>
      obtain ⟨c1, h1⟩ := deliver_total hc hu (PacketHeader.dec (ys.take 20)).pid (ys.drop 20) false ts
      obtain ⟨s1, e1⟩ := deliver_steps hu (.inr ⟨rfl, rfl⟩) h1
      have a1 := deliver_arrives h1
      obtain ⟨d, g1, g2, g3, g4⟩ := ih (hc.steps s1) (hu.congr e1) (fun x hx' => hx x (by simp [hx']))
      refine ⟨d, ?_, s1.trans g2, g3.trans e1, ?_⟩
      · rw [effects_cons]
        show (deliver _ _ _ _ _ _ >>= _) = _
        rw [h1, ok_bind]; exact g1
      · rw [g4]
        unfold came
        rw [a1, List.map_append, List.map_cons, List.append_assoc]
        rfl

theorem commands_ne {L : Lang SubCtx} (hL : L.OK) : ∀ (k : Nat) (xs : List UInt8), xs.length ≤ k → ∀ x ∈ L.commands xs, x ≠ [] := by
  intro k
  induction k with
  | zero =>
    intro xs h x hx
    have : xs = [] := List.length_eq_zero_iff.1 (by omega)
    subst this
    rw [Lang.commands_nil] at hx; cases hx
  | succ k ih =>
    intro xs h x hx
    by_cases h0 : xs = []
    · subst h0; rw [Lang.commands_nil] at hx; cases hx
    · cases hf : L.frame xs with
      | more => rw [(Lang.split_more h0 hf).1] at hx; cases hx
      | bad => rw [(Lang.split_bad h0 hf).1] at hx; cases hx
      | cmd n =>
        obtain ⟨p1, p2⟩ := hL.pos xs n hf
        rw [(Lang.split_cmd hL hf).1] at hx
        rcases List.mem_cons.1 hx with rfl | hx
        · intro e
          have := congrArg List.length e
          rw [List.length_take, List.length_nil] at this
          omega
        · exact ih _ (by rw [List.length_drop]; omega) x hx

theorem sub_status {L : Lang SubCtx} (xs : List UInt8) : L.status xs = 0 ∨ L.status xs = EAGAIN ∨ L.status xs = EPROTO := by
  have : ∀ (f : Nat) (xs : List UInt8), (Lang.split L.frame f xs).2.1 = 0 ∨
      (Lang.split L.frame f xs).2.1 = EAGAIN ∨ (Lang.split L.frame f xs).2.1 = EPROTO := by
    intro f
    induction f with
    | zero => intro xs; exact .inl rfl
    | succ f ih =>
      intro xs
      unfold Lang.split
      split
      · exact .inl rfl
      · split
        · exact .inr (.inl rfl)
        · exact .inr (.inr rfl)
        · exact ih _
  exact this _ xs

/-- A connection after a read: new read buffer, event loop asked for reading. -/
def afterRead (c : SubCtx) (i : Nat) (b : CircBuf) : SubCtx :=
  pollModify (setConn c i { c.cv.conns i with readBuf := b }) i (c.cv.conns i).desc .R .R

/-- `rmc_sub_read` on a connection, for reads outside the trim defect. -/
theorem readConn_lang {c : SubCtx} (hc : Core c) {i : Nat} (hu : Up c i) (hw : WF (c.cv.conns i).readBuf)
    (hsz : (c.cv.conns i).readBuf.size ≤ U32) {xs : List UInt8} (ts : Int)
    (hx : xs ≠ []) (hlen : xs.length ≤ available (c.cv.conns i).readBuf) (hrs : ReadSafe (c.cv.conns i).readBuf xs.length) :
    ∃ d b', effects (subLang i ts) c ((subLang i ts).commands (bytes (c.cv.conns i).readBuf ++ xs)) = .ok d ∧
      Steps (3 + i) c d ∧ d.cv = c.cv ∧
      came d.log = came c.log ++
        ((subLang i ts).commands (bytes (c.cv.conns i).readBuf ++ xs)).map (fun x => (i, (pktOf x).1, (pktOf x).2, false)) ∧
      WF b' ∧ b'.size = (c.cv.conns i).readBuf.size ∧ bytes b' = (subLang i ts).rest (bytes (c.cv.conns i).readBuf ++ xs) ∧
      (b'.start = if bytes b' = [] then 0 else
          ((c.cv.conns i).readBuf.start + ((bytes (c.cv.conns i).readBuf ++ xs).length - (bytes b').length)) %
            (c.cv.conns i).readBuf.size) ∧
      ((subLang i ts).status (bytes (c.cv.conns i).readBuf ++ xs) ≠ EPROTO → readConn c i (some xs) ts =
          .ok ((subLang i ts).status (bytes (c.cv.conns i).readBuf ++ xs), afterRead d i b')) ∧
      ((subLang i ts).status (bytes (c.cv.conns i).readBuf ++ xs) = EPROTO → readConn c i (some xs) ts =
          (closeConnection (setConn d i { d.cv.conns i with readBuf := b' }) i >>= fun x => .ok (EPROTO, x.2))) := by
  have key := tcpRead_spec (s := c) (subLang_ok i ts) (subLang_implements i ts) hw hx hlen hrs hsz
    (safeFrom_true i ts _ _ _ _)
  obtain ⟨d, h1, h2, h3, h4⟩ := effects_steps (ts := ts) ((subLang i ts).commands (bytes (c.cv.conns i).readBuf ++ xs)) hc hu
    (commands_ne (subLang_ok i ts) _ _ (Nat.le_refl _))
  unfold Outcome at key
  rw [h1] at key
  obtain ⟨b', k1, k2, k3, k4, k5⟩ := key
  have hud := hu.congr h3
  have hcd := hc.steps h2
  have m2 : Micro (3 + i) d (setConn d i { d.cv.conns i with readBuf := b' }) := by
    have : Micro (3 + i) d { d with cv := { d.cv.set i { d.cv.conns i with readBuf := b' } with polls := d.cv.polls ++ [] } } :=
      Micro.io (a := (d.cv.conns i).action) hud b' [] rfl (.inl rfl) rfl
    rw [List.append_nil] at this; exact this
  have hc2 := hcd.micro m2
  have hpa : processAt (setConn d i { d.cv.conns i with readBuf := b' }) i = .ok (setConn d i { d.cv.conns i with readBuf := b' }) := by
    obtain ⟨s, hs⟩ := hcd.recd i hud
    have : ∃ x, processAt (setConn d i { d.cv.conns i with readBuf := b' }) i = .ok x := by
      unfold processAt
      rw [getPub_ok.2 (show (setConn d i { d.cv.conns i with readBuf := b' }).publishers i = some s from hs), ok_bind]
      exact ⟨_, rfl⟩
    obtain ⟨x, hx'⟩ := this
    rw [hx', processAt_id hc2 hx']
  have hf : ¬ (findByIndex c.cv i = none ∨ (c.cv.conns i).mode ≠ .connected) := by
    rintro (h | h)
    · unfold findByIndex at h
      rw [if_neg (by have := hu.1; omega), if_neg (by rw [hu.2]; simp)] at h
      cases h
    · exact h hu.2
  have hst := sub_status (L := subLang i ts) (bytes (c.cv.conns i).readBuf ++ xs)
  refine ⟨d, b', h1, h2, h3, h4, k2, k3, k4, by rw [k4]; exact k5, ?_, ?_⟩
  · intro hp
    unfold readConn
    rw [if_neg hf, k1, ok_bind]
    dsimp only
    rw [if_neg (by rcases hst with e | e | e <;> rw [e] <;> decide), if_neg (by rcases hst with e | e | e <;> rw [e] <;> decide), hpa,
      ok_bind]
    rw [if_neg hp]
    show Except.ok (_, pollModify _ i ((setConn d i { d.cv.conns i with readBuf := b' }).cv.conns i).desc .R .R) = _
    unfold afterRead
    have : ((setConn d i { d.cv.conns i with readBuf := b' }).cv.conns i).desc = (d.cv.conns i).desc := by
      show (if i = i then _ else _ : Conn).desc = _
      rw [if_pos rfl]
    rw [this]
  · intro hp
    unfold readConn
    rw [if_neg hf, k1, ok_bind]
    dsimp only
    rw [if_neg (by rw [hp]; decide), if_neg (by rw [hp]; decide), hpa, ok_bind, if_pos hp]
    rfl

end SubCtx
end Rmc
