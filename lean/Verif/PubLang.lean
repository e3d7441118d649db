import Verif.PubCtxRun

/-! # The command language of a publisher's TCP connection, and that the dispatch table implements it -/

set_option linter.unusedSimpArgs false
set_option linter.unusedVariables false

namespace Rmc
namespace PubCtx
open CircBuf Proto

/-- How the commands a subscriber sends are delimited: an acknowledgement is 17 bytes, a control message is 3 bytes and
the payload whose length the 2 bytes after the command hold, anything else is no command. -/
def pubFrame (xs : List UInt8) : Frame :=
  match xs with
  | [] => .more
  | c :: cs =>
    if c = CMD_ACK_INTERVAL then (if cs.length < 16 then .more else .cmd 17)
    else if c = CMD_CONTROL_MESSAGE then
      (if cs.length < 2 then .more else if cs.length < 2 + ctlDec (cs.take 2) then .more else .cmd (3 + ctlDec (cs.take 2)))
    else .bad

/-- What a complete command from the peer of connection `i` does. -/
def pubEff (i : Nat) (c : PubCtx) (xs : List UInt8) : M PubCtx :=
  match xs with
  | [] => .ok c
  | x :: cs =>
    if x = CMD_ACK_INTERVAL then ackInterval c i (AckInterval.dec cs)
    else match c.ctlCb with
      | none => .error .uninit
      | some false => .ok c
      | some true => .ok (ev c (.ctl i (cs.drop 2)))

/-- Where a command can be read: anywhere, except that the payload of a control message must not start one or two bytes
before the end of the ring and run over it. -/
def pubSafe (size pos : Nat) (xs : List UInt8) : Prop :=
  match xs with
  | [] => True
  | c :: cs => c = CMD_CONTROL_MESSAGE → ¬ (pos + 3 < size ∧ size < pos + 3 + ctlDec (cs.take 2) ∧ size < pos + 6)

/-- The language of the commands from the peer of connection `i`. -/
def pubLang (i : Nat) : Lang PubCtx := ⟨pubFrame, pubEff i, pubSafe⟩

theorem take_append_le {xs ys : List UInt8} {n : Nat} (h : n ≤ xs.length) : (xs ++ ys).take n = xs.take n := by
  rw [List.take_append_of_le_length h]

theorem pubLang_ok (i : Nat) : (pubLang i).OK := by
  refine ⟨?_, ?_, ?_⟩
  · intro xs n h
    have h' : pubFrame xs = .cmd n := h
    unfold pubFrame at h'
    split at h'
    · cases h'
    · rename_i c cs
      split at h'
      · split at h'
        · cases h'
        · cases h'; simp; omega
      · split at h'
        · split at h'
          · cases h'
          · split at h'
            · cases h'
            · cases h'; simp; omega
        · cases h'
  · intro xs ys n h
    have h' : pubFrame xs = .cmd n := h
    show pubFrame (xs ++ ys) = .cmd n
    cases xs with
    | nil => cases h'
    | cons c cs =>
      rw [List.cons_append]
      unfold pubFrame at h' ⊢
      dsimp only at h' ⊢
      split at h'
      · rename_i e
        rw [if_pos e]
        split at h'
        · cases h'
        · rw [if_neg (by rw [List.length_append]; omega)]; exact h'
      · rename_i e
        rw [if_neg e]
        split at h'
        · rename_i e2
          rw [if_pos e2]
          split at h'
          · cases h'
          · rw [take_append_le (by omega)]
            split at h'
            · cases h'
            · rw [if_neg (by rw [List.length_append]; omega), if_neg (by rw [List.length_append]; omega)]; exact h'
        · cases h'
  · intro xs ys hn h
    have h' : pubFrame xs = .bad := h
    show pubFrame (xs ++ ys) = .bad
    cases xs with
    | nil => cases h'
    | cons c cs =>
      rw [List.cons_append]
      unfold pubFrame at h' ⊢
      dsimp only at h' ⊢
      split at h'
      · split at h' <;> cases h'
      · rename_i e
        rw [if_neg e]
        split at h'
        · split at h'
          · cases h'
          · split at h' <;> cases h'
        · rename_i e2
          rw [if_neg e2]

theorem free_case {b : CircBuf} (h : WF b) {n : Nat} (hn : n ≠ 0) :
    WF (free b n).1 ∧ (free b n).1.size = b.size ∧ bytes (free b n).1 = (bytes b).drop n ∧
      (free b n).1.start = if bytes (free b n).1 = [] then 0 else (b.start + n) % b.size := by
  obtain ⟨h1, h2, h3, _⟩ := free_spec h n
  exact ⟨h1, h2, h3, free_start h n hn⟩

/-- The dispatch table of rmc_pub_read.c implements the language. -/
theorem pubLang_implements (i : Nat) : Implements (table i) (pubLang i) := by
  intro s b c cs hw hb hs
  have hlen : inUse b = cs.length + 1 := by rw [← length_bytes, hb]; rfl
  have hs' : pubSafe b.size b.start (bytes b) := hs
  dsimp only [pubLang]
  rw [hb] at hs' ⊢
  unfold pubFrame
  dsimp only
  by_cases h1 : c = CMD_ACK_INTERVAL
  · rw [if_pos h1]
    have hl : lookup (table i) c = some (processAck i) := by rw [h1]; rfl
    by_cases h2 : cs.length < 16
    · rw [if_pos h2]
      refine ⟨_, hl, ?_⟩
      unfold processAck
      rw [if_pos (by rw [hlen]; unfold ACK_LEN; omega)]
    · rw [if_neg h2]
      refine ⟨_, hl, ?_⟩
      have ht : (c :: cs).take 17 = c :: cs.take 16 := rfl
      rw [ht]
      unfold pubEff processAck
      dsimp only
      rw [if_pos h1, if_neg (by rw [hlen]; unfold ACK_LEN; omega),
        readOffset_ok hw (by omega) offsetSafe_one, ok_bind, hb]
      dsimp only
      rw [show (List.drop 1 (c :: cs)).take ACK_LEN = cs.take 16 from rfl]
      cases hA : ackInterval s i (AckInterval.dec (cs.take 16)) with
      | error f => rfl
      | ok s' =>
        have := free_case hw (n := 17) (by omega)
        rw [hb] at this
        exact ⟨_, rfl, this⟩
  · rw [if_neg h1]
    by_cases h2 : c = CMD_CONTROL_MESSAGE
    · rw [if_pos h2]
      have hl : lookup (table i) c = some (processCtl i) := by rw [h2]; rfl
      by_cases h3 : cs.length < 2
      · rw [if_pos h3]
        refine ⟨_, hl, ?_⟩
        unfold processCtl
        rw [if_pos (by rw [hlen]; unfold CTL_LEN; omega)]
      · rw [if_neg h3]
        obtain ⟨len, hlen'⟩ : ∃ len, len = ctlDec (cs.take 2) := ⟨_, rfl⟩
        have hrd : readOffset b 1 CTL_LEN = .ok (0, cs.take 2) := by
          rw [readOffset_ok hw (by omega) offsetSafe_one, hb]; rfl
        by_cases h4 : cs.length < 2 + ctlDec (cs.take 2)
        · rw [if_pos h4]
          refine ⟨_, hl, ?_⟩
          unfold processCtl
          rw [if_neg (by rw [hlen]; unfold CTL_LEN; omega), hrd, ok_bind]
          dsimp only
          rw [if_pos (by rw [hlen]; unfold CTL_LEN; omega)]; rfl
        · rw [if_neg h4]
          refine ⟨_, hl, ?_⟩
          have ht : (c :: cs).take (3 + ctlDec (cs.take 2)) = c :: cs.take (2 + ctlDec (cs.take 2)) := by
            rw [show 3 + ctlDec (cs.take 2) = (2 + ctlDec (cs.take 2)) + 1 by omega]; rfl
          have hpay : (cs.take (2 + ctlDec (cs.take 2))).drop 2 = (cs.drop 2).take (ctlDec (cs.take 2)) := by
            rw [List.drop_take]; congr 1; omega
          have hfree := free_case hw (n := 3 + ctlDec (cs.take 2)) (by omega)
          rw [hb] at hfree
          rw [ht]
          unfold pubEff processCtl
          dsimp only
          rw [if_neg h1, if_neg (by rw [hlen]; unfold CTL_LEN; omega), hrd, ok_bind]
          dsimp only
          rw [if_neg (by rw [hlen]; unfold CTL_LEN; omega), hpay]
          rw [show CTL_LEN + 1 + ctlDec (cs.take 2) = 3 + ctlDec (cs.take 2) by unfold CTL_LEN; omega]
          cases hcb : s.ctlCb with
          | none => rfl
          | some x =>
            cases x with
            | false => exact ⟨_, rfl, hfree⟩
            | true =>
              dsimp only
              have hos : OffsetSafe b (1 + CTL_LEN) (ctlDec (cs.take 2)) := by
                have h5 := hs' h2
                unfold OffsetSafe CTL_LEN
                intro ⟨q1, q2, q3, q4⟩
                omega
              rw [readOffset_ok hw (by rw [hlen]; unfold CTL_LEN; omega) hos, hb]
              exact ⟨_, rfl, hfree⟩
    · rw [if_neg h2]
      dsimp only
      show (if c = CMD_ACK_INTERVAL then _ else if c = CMD_CONTROL_MESSAGE then _ else none) = none
      rw [if_neg h1, if_neg h2]

end PubCtx
end Rmc
