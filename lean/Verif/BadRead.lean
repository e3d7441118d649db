import Verif.ProtoLemmas

/-! # What becomes of a read that runs into the defect of circ_buf_trim

The buffer is left with an end beyond its size; the commands that are read from it are never incomplete, and the reader goes on
until it meets a byte that is no command. -/

set_option linter.unusedSimpArgs false
set_option linter.unusedVariables false

namespace Rmc
namespace Proto
open CircBuf

variable {σ : Type}

/-- A buffer spoilt by circ_buf_trim (circular_buffer.c:104-142). -/
structure Bad (b : CircBuf) : Prop where
  size : b.size ≤ 65536
  start : b.start < b.size
  stop : U32 - 65536 ≤ b.stop ∧ b.stop < U32

theorem Bad.inUse {b : CircBuf} (h : Bad b) : U32 - 131072 ≤ inUse b := by
  obtain ⟨h1, h2, h3, h4⟩ := h
  unfold CircBuf.inUse
  rw [if_pos (by simp only [U32] at *; omega)]
  simp only [sub32, U32] at *
  omega

theorem Bad.free {b : CircBuf} (h : Bad b) {n : Nat} (hn : n < 131072) : Bad (free b n).1 := by
  have hi := h.inUse
  obtain ⟨h1, h2, h3, h4⟩ := h
  unfold CircBuf.free
  split
  · exact ⟨h1, h2, h3, h4⟩
  · dsimp only
    rw [if_neg (by simp only [U32] at *; omega)]
    exact ⟨h1, Nat.mod_lt _ (by omega), h3, h4⟩

theorem Bad.read {b : CircBuf} (h : Bad b) {off n r : Nat} {xs : List UInt8} (ho : off < 65536)
    (hr : readOffset b off n = .ok (r, xs)) : r = 0 := by
  have hi := h.inUse
  obtain ⟨h1, h2, h3, h4⟩ := h
  unfold readOffset at hr
  dsimp only at hr
  rw [if_neg (by simp only [U32] at *; omega), if_pos (by
    have : (add32 b.start off) % b.size < b.size := Nat.mod_lt _ (by omega)
    simp only [U32] at *; omega)] at hr
  cases hx : loadN b ((add32 b.start off) % b.size) (min n (sub32 (CircBuf.inUse b) off)) with
  | error f => rw [hx] at hr; cases hr
  | ok ys => rw [hx] at hr; cases hr; rfl

/-- A dispatch function that on a spoilt buffer neither waits for more bytes nor fails. -/
def KeepsBad (h : Handler σ) : Prop :=
  ∀ s b r s' b', Bad b → h s b = .ok (r, s', b') → r = 0 ∧ Bad b'

theorem processLoop_bad {t : Table σ} (ht : ∀ c h, lookup t c = some h → KeepsBad h) : ∀ (fuel : Nat) {s s' : σ} {b b' : CircBuf}
    {c : UInt8} {r : Nat}, Bad b → processLoop t fuel s b c = .ok (r, s', b') → r = EPROTO := by
  intro fuel
  induction fuel with
  | zero => intro s s' b b' c r _ h; cases h
  | succ fuel ih =>
    intro s s' b b' c r hb h
    unfold processLoop at h
    cases hl : lookup t c with
    | none => rw [hl] at h; cases h; rfl
    | some f =>
      rw [hl] at h
      dsimp only at h
      cases hf : f s b with
      | error e => rw [hf] at h; cases h
      | ok x =>
        obtain ⟨r1, s1, b1⟩ := x
        rw [hf] at h
        obtain ⟨q1, q2⟩ := ht c f hl s b r1 s1 b1 hb hf
        subst q1
        simp only [bind, Except.bind, pure, Except.pure] at h
        rw [if_neg (by simp), if_neg (by have := q2.inUse; simp only [U32] at this; omega)] at h
        cases hr : CircBuf.read b1 1 with
        | error e => rw [hr] at h; cases h
        | ok y =>
          obtain ⟨r2, xs⟩ := y
          rw [hr] at h
          have := q2.read (by decide) hr
          subst this
          dsimp only at h
          rw [if_neg (by simp)] at h
          exact ih q2 h

theorem tcpRead_bad {t : Table σ} (ht : ∀ c h, lookup t c = some h → KeepsBad h) {fuel : Nat} {s s' : σ} {b b' : CircBuf} {r : Nat}
    (hw : WF b) (hsz : b.size ≤ 65536) {xs : List UInt8} (hx : xs ≠ []) (hlen : xs.length ≤ available b)
    (hrs : ¬ ReadSafe b xs.length) (h : tcpRead t fuel s b (some xs) = .ok (r, s', b')) : r = EPROTO := by
  have ha : available b ≠ 0 := by
    have : 0 < xs.length := List.length_pos_iff.mpr hx
    omega
  generalize hA : alloc b (available b) = r at *
  obtain ⟨e, s1, s2, c⟩ := r
  have hal := alloc_ok hw (Nat.le_refl (available b))
  rw [hA] at hal
  have he : e = 0 := by
    split at hal <;> simp only [Prod.mk.injEq] at hal <;> exact hal.1
  subst he
  obtain ⟨d, k1, k2, k3, k4, k5, k6, k7⟩ := alloc_scatter hw (Nat.le_refl _) hA hlen
  have hlt := inUse_lt hw
  have hav := available_eq hw
  have hle := hw.le
  have hadd : add32 xs.length (inUse b) = xs.length + inUse b := add32_eq (by simp only [U32]; omega)
  have hts : ¬ TrimSafe d (xs.length + inUse b) := fun hc => hrs ((trimSafe_iff hw hA ha k3 k4 k5 xs.length).mp hc)
  have hbad : Bad (trim d (xs.length + inUse b)) := by
    unfold TrimSafe at hts
    rw [Classical.not_not] at hts
    obtain ⟨t1, t2, t3⟩ := hts
    have hiu := inUse_eq k2
    rw [if_neg (by omega)] at hiu
    unfold trim
    dsimp only
    have hst := k2.start_lt
    rw [if_neg (by omega), if_pos t2]
    refine ⟨by show d.size ≤ _; omega, hst, ?_⟩
    show U32 - 65536 ≤ sub32 d.stop (sub32 (inUse d) (xs.length + inUse b)) ∧ _
    simp only [sub32, U32]
    omega
  have htk : xs.take (available b) = xs := List.take_of_length_le hlen
  unfold tcpRead at h
  dsimp only at h
  rw [if_neg ha, hA] at h
  dsimp only at h
  rw [if_neg (by simp), Option.getD_some, htk, if_neg hx, k1, hadd] at h
  change processTcpRead t fuel s (trim d (xs.length + inUse b)) = _ at h
  unfold processTcpRead at h
  cases hr : CircBuf.read (trim d (xs.length + inUse b)) 1 with
  | error e => rw [hr] at h; cases h
  | ok y =>
    obtain ⟨r2, zs⟩ := y
    rw [hr] at h
    have := hbad.read (by decide) hr
    subst this
    simp only [bind, Except.bind, pure, Except.pure] at h
    rw [if_neg (by simp)] at h
    exact processLoop_bad ht fuel hbad h

/-! ## What a call is offered -/

/-- What readv() puts into the buffer: it is offered the room there is. -/
def offered (b : CircBuf) (rv : Option (List UInt8)) : List UInt8 := (rv.getD []).take (available b)

theorem tcpRead_offered {σ : Type} (t : Table σ) (f : Nat) (s : σ) (b : CircBuf) (rv : Option (List UInt8)) :
    tcpRead t f s b rv = tcpRead t f s b (some (offered b rv)) := by
  have e : ((some (offered b rv)).getD []).take (available b) = (rv.getD []).take (available b) := by
    unfold offered
    rw [Option.getD_some, List.take_take, Nat.min_self]
  unfold tcpRead
  dsimp only
  rw [e]

theorem tcpRead_nothing {σ : Type} (t : Table σ) (f : Nat) (s : σ) {b : CircBuf} (hw : WF b) (h0 : available b ≠ 0) :
    tcpRead t f s b (some []) = .ok (EPIPE, s, (CircBuf.alloc b (available b)).2.2.2.trim (available b)) := by
  unfold tcpRead
  dsimp only
  rw [if_neg h0, if_neg (by rw [alloc_ok hw (Nat.le_refl (available b))]; split <;> simp), if_pos (by simp)]

theorem tcpRead_full {σ : Type} (t : Table σ) (f : Nat) (s : σ) {b : CircBuf} (h0 : available b = 0) (rv : Option (List UInt8)) :
    tcpRead t f s b rv = .ok (ENOMEM, s, b) := by
  unfold tcpRead
  dsimp only
  rw [if_pos h0]

end Proto
end Rmc
