import Verif.ProtoLemmas
import Verif.Props.CircBuf

/-!
# Properties C10, C12, C13, C14: wire formats, TCP command streams in and out

The specification of the input side is a *command language* (`Proto.Lang`): how a byte stream is cut into
commands and what each command does. `Lang.commands`, `Lang.status` and `Lang.rest` do not mention buffers
or reads. `Implements t L` says that the handlers of a dispatch table realise the language one command at a
time; it is proved for the publisher's table and for the subscriber's table in
`Verif.PubCtxLemmas` / `Verif.SubCtxLemmas`.
-/

set_option linter.unusedSimpArgs false

namespace Rmc

/-! ## C10: wire formats -/

/-- C10: a packet header written to the wire is read back unchanged, whatever follows it. -/
theorem C10_header_roundtrip {h : PacketHeader} (hv : h.Valid) (rest : List UInt8) :
    PacketHeader.dec (h.enc ++ rest) = h ∧ h.enc.length = 20 :=
  ⟨PacketHeader.dec_enc hv rest, h.length_enc⟩

/-- C10: an acknowledgement interval is read back unchanged. -/
theorem C10_ack_roundtrip {a : AckInterval} (hv : a.Valid) (rest : List UInt8) :
    AckInterval.dec (a.enc ++ rest) = a ∧ a.enc.length = 16 :=
  ⟨AckInterval.dec_enc hv rest, a.length_enc⟩

/-- C10: a control message header is read back unchanged. -/
theorem C10_ctl_roundtrip {n : Nat} (h : n < 65536) (rest : List UInt8) :
    ctlDec (ctlEnc n ++ rest) = n ∧ (ctlEnc n).length = 2 :=
  ⟨ctlDec_enc h rest, length_ctlEnc n⟩

/-- C10: the encodings are injective. -/
theorem C10_injective :
    (∀ h k : PacketHeader, h.Valid → k.Valid → h.enc = k.enc → h = k) ∧
    (∀ a b : AckInterval, a.Valid → b.Valid → a.enc = b.enc → a = b) ∧
    (∀ m n : Nat, m < 65536 → n < 65536 → ctlEnc m = ctlEnc n → m = n) := by
  refine ⟨fun h k hh hk e => ?_, fun a b ha hb e => ?_, fun m n hm hn e => ?_⟩
  · have h1 := PacketHeader.dec_enc hh []
    rw [e, PacketHeader.dec_enc hk []] at h1; exact h1.symm
  · have h1 := AckInterval.dec_enc ha []
    rw [e, AckInterval.dec_enc hb []] at h1; exact h1.symm
  · have h1 := ctlDec_enc hm []
    rw [e, ctlDec_enc hn []] at h1; exact h1.symm

/-- C10: every 20 bytes are the encoding of what they decode to, which is within the C types: the receiver
never sees a header the sender's structs could not hold. -/
theorem C10_header_surjective (xs : List UInt8) (h : xs.length = 20) :
    (PacketHeader.dec xs).Valid ∧ (PacketHeader.dec xs).enc = xs := by
  refine ⟨PacketHeader.valid_dec xs, ?_⟩
  have e8 := leEnc_leDec (xs.take 8)
  have e4 := leEnc_leDec ((xs.drop 8).take 4)
  have e2 := leEnc_leDec ((xs.drop 12).take 2)
  have f4 := leEnc_leDec ((xs.drop 14).take 4)
  have f2 := leEnc_leDec ((xs.drop 18).take 2)
  rw [show (xs.take 8).length = 8 by simp; omega] at e8
  rw [show ((xs.drop 8).take 4).length = 4 by simp; omega] at e4
  rw [show ((xs.drop 12).take 2).length = 2 by simp; omega] at e2
  rw [show ((xs.drop 14).take 4).length = 4 by simp; omega] at f4
  rw [show ((xs.drop 18).take 2).length = 2 by simp; omega] at f2
  unfold PacketHeader.enc PacketHeader.dec
  simp only [e8, e4, e2, f4, f2]
  rw [List.take_of_length_le (l := xs.drop 18) (by simp; omega)]
  have a : ∀ k m, (xs.drop k).take m ++ xs.drop (k + m) = xs.drop k := by
    intro k m
    rw [← List.drop_drop, List.take_append_drop]
  rw [a 14 4, a 12 2, a 8 4, List.take_append_drop]

example : (PacketHeader.mk 7 1234 3 0x7f000001 4723).Valid ∧
    PacketHeader.enc ⟨7, 1234, 3, 0x7f000001, 4723⟩ =
      [7, 0, 0, 0, 0, 0, 0, 0, 0xd2, 4, 0, 0, 3, 0, 1, 0, 0, 0x7f, 0x73, 0x12] := by
  refine ⟨⟨by decide, by decide, by decide, by decide, by decide⟩, by decide +kernel⟩

example : (AckInterval.mk 5 9).Valid ∧ AckInterval.enc ⟨5, 9⟩ = [5,0,0,0,0,0,0,0,9,0,0,0,0,0,0,0] :=
  ⟨⟨by decide, by decide⟩, by decide +kernel⟩

namespace Proto
open CircBuf

variable {σ : Type}

/-! ## C12 -/

/-- Where the unread bytes start in the ring after a read that consumed all complete commands of `xs`, the
first of which sat at index `pos`. An emptied buffer is reset to index 0. -/
def posAfter (L : Lang σ) (size pos : Nat) (xs : List UInt8) : Nat :=
  if L.rest xs = [] then 0 else (pos + (xs.length - (L.rest xs).length)) % size

/-- The chunkings on which the code is right, in terms of lengths and positions only: each chunk is non-empty
and fits behind the `pend` bytes still unread (which start at ring index `pos`); the trim done after the
read is not in the broken class of C05; every command sits where it can be read (C04). -/
def ChunksSafe (L : Lang σ) (size : Nat) : Nat → List UInt8 → List (List UInt8) → Prop
  | _, _, [] => True
  | pos, pend, x :: xs =>
    (x ≠ [] ∧ pend.length + x.length < size ∧
      ¬ (pend.length + x.length + 1 < pos ∧ pos + pend.length + x.length < size) ∧
      L.safeFrom size ((pend ++ x).length + 1) pos (pend ++ x)) ∧
    ChunksSafe L size (posAfter L size pos (pend ++ x)) (L.rest (pend ++ x)) xs

theorem readAll_cons (t : Table σ) (fuel r : Nat) (s : σ) (b : CircBuf) (x : List UInt8)
    (xs : List (List UInt8)) : readAll t fuel r s b (x :: xs) =
      (tcpRead t fuel s b (some x) >>= fun p => readAll t fuel p.1 p.2.1 p.2.2 xs) := rfl

theorem C12_gen {t : Table σ} {L : Lang σ} (hL : L.OK) (hT : Implements t L) {fuel : Nat} :
    ∀ (xs : List (List UInt8)) (r : Nat) (s : σ) (b : CircBuf), WF b → b.size ≤ fuel → xs ≠ [] →
      ChunksSafe L b.size b.start (bytes b) xs →
      match effects L s (L.commands (bytes b ++ xs.flatten)) with
      | .error f => readAll t fuel r s b xs = .error f
      | .ok s' => ∃ b', readAll t fuel r s b xs = .ok (L.status (bytes b ++ xs.flatten), s', b') ∧ WF b' ∧
          b'.size = b.size ∧ bytes b' = L.rest (bytes b ++ xs.flatten) := by
  intro xs
  induction xs with
  | nil => intro r s b _ _ h; exact absurd rfl h
  | cons x xs ih =>
    intro r s b hw hf _ hc
    obtain ⟨⟨c1, c2, c3, c4⟩, c5⟩ := hc
    have hlb := length_bytes b
    have hav := available_eq hw
    have hlt := inUse_lt hw
    have h1 := tcpRead_spec hL hT (s := s) hw c1 (by omega)
      (by unfold ReadSafe; rw [hlb] at c3; exact c3) hf c4
    obtain ⟨a1, a2, a3⟩ := Lang.split_append hL _ (bytes b ++ x) xs.flatten (Nat.le_refl _)
    unfold Outcome at h1
    rw [List.flatten_cons, ← List.append_assoc, a1, a2, a3, effects_append]
    cases he : effects L s (L.commands (bytes b ++ x)) with
    | error f =>
      rw [he] at h1
      simp only at h1
      rw [readAll_cons, h1]
      rfl
    | ok s1 =>
      rw [he] at h1
      obtain ⟨b1, g1, g2, g3, g4, g5⟩ := h1
      simp only [bind, Except.bind]
      have e : readAll t fuel r s b (x :: xs) = readAll t fuel (L.status (bytes b ++ x)) s1 b1 xs := by
        rw [readAll_cons, g1]; rfl
      rw [e]
      by_cases hx : xs = []
      · subst hx
        simp only [List.flatten_nil, List.append_nil, readAll]
        obtain ⟨b1', b2', b3'⟩ := Lang.split_append hL _ (bytes b ++ x) [] (Nat.le_refl _)
        simp only [List.append_nil] at b1' b2' b3'
        have e1 : L.commands (L.rest (bytes b ++ x)) = [] := List.self_eq_append_right.mp b1'
        rw [e1, ← b2', ← b3']
        simp only [effects, List.foldlM_nil, pure, Except.pure]
        exact ⟨b1, rfl, g2, g3, g4⟩
      · have h2 := ih (L.status (bytes b ++ x)) s1 b1 g2 (by omega) hx (by rw [g3, g4, g5]; exact c5)
        rw [g4, g3] at h2
        exact h2

/-- C12 (partial: for chunkings in the safe class; `PubCtx.C12_false` shows that the class cannot be
dropped): reading a stream in any number of chunks dispatches exactly the commands of the concatenated
stream, in order, reports the status of the concatenated stream (0, incomplete, unknown command) and
keeps exactly its unread tail buffered. If a command faults, so does the reading. -/
theorem C12_chunking_partial {t : Table σ} {L : Lang σ} (hL : L.OK) (hT : Implements t L)
    (mem : Nat → UInt8) (size : Nat) (h0 : 0 < size) (h1 : size ≤ 2147483648)
    (xs : List (List UInt8)) (s : σ) (hne : xs ≠ []) (hc : ChunksSafe L size 0 [] xs) :
    match effects L s (L.commands xs.flatten) with
    | .error f => readAll t size 0 s (CircBuf.init mem size) xs = .error f
    | .ok s' => ∃ b', readAll t size 0 s (CircBuf.init mem size) xs = .ok (L.status xs.flatten, s', b') ∧
        bytes b' = L.rest xs.flatten := by
  have hw := init_WF mem size h0 h1
  have hb : bytes (CircBuf.init mem size) = [] := by
    rw [← inUse_zero_iff, inUse_eq hw]; rfl
  have := C12_gen hL hT (fuel := size) xs 0 s (CircBuf.init mem size) hw (Nat.le_refl _) hne
    (by rw [hb]; exact hc)
  rw [hb, List.nil_append] at this
  split <;> rename_i heq <;> rw [heq] at this
  · exact this
  · obtain ⟨b', e1, _, _, e4⟩ := this
    exact ⟨b', e1, e4⟩

/-- Two chunkings in the safe class of the same stream have the same effect: the same commands dispatched,
the same status, the same bytes left. -/
theorem C12_independent_partial {t : Table σ} {L : Lang σ} (hL : L.OK) (hT : Implements t L)
    (mem mem' : Nat → UInt8) (size : Nat) (h0 : 0 < size) (h1 : size ≤ 2147483648)
    (xs ys : List (List UInt8)) (s : σ) (hx : xs ≠ []) (hy : ys ≠ []) (he : xs.flatten = ys.flatten)
    (hcx : ChunksSafe L size 0 [] xs) (hcy : ChunksSafe L size 0 [] ys) :
    (readAll t size 0 s (CircBuf.init mem size) xs).map (fun r => (r.1, r.2.1, bytes r.2.2)) =
    (readAll t size 0 s (CircBuf.init mem' size) ys).map (fun r => (r.1, r.2.1, bytes r.2.2)) := by
  have a := C12_chunking_partial hL hT mem size h0 h1 xs s hx hcx
  have b := C12_chunking_partial hL hT mem' size h0 h1 ys s hy hcy
  rw [he] at a
  cases hE : effects L s (L.commands ys.flatten) with
  | error f => rw [hE] at a b; simp only at a b; rw [a, b]
  | ok s' =>
    rw [hE] at a b
    obtain ⟨b1, e1, e2⟩ := a
    obtain ⟨b2, e3, e4⟩ := b
    rw [e1, e3]
    simp only [Except.map, e2, e4]

/-- A chunking in which every chunk ends on a command boundary is always in the safe class: nothing is left
over between reads. -/
theorem C12_boundaries_safe {L : Lang σ} (size : Nat) (hsafe : ∀ a b c, L.safe a b c) :
    ∀ xs : List (List UInt8), (∀ x ∈ xs, x ≠ [] ∧ x.length < size ∧ L.rest x = []) →
      ChunksSafe L size 0 [] xs := by
  intro xs
  induction xs with
  | nil => intro _; trivial
  | cons x xs ih =>
    intro h
    obtain ⟨h1, h2, h3⟩ := h x (by simp)
    refine ⟨⟨h1, by simpa using h2, by omega, safeFrom_of_true hsafe _ _ _ _⟩, ?_⟩
    have e : posAfter L size 0 ([] ++ x) = 0 := by simp [posAfter, h3]
    rw [e, List.nil_append, h3]
    exact ih (fun y hy => h y (by simp [hy]))

/-! ## C13 -/

/-- What happens on the sending side of a connection: bytes are queued, or the socket takes some. -/
inductive WOp where
  | queue (xs : List UInt8)      -- alloc + copy of `xs`
  | write (wv : Except Nat Nat)  -- socket writable; what writev answers
  deriving Repr

/-- Execute the operations; the accumulator is what went out on the socket and what was accepted for
sending so far. A `queue` that does not fit is refused as a whole. -/
def runW : CircBuf → List UInt8 → List UInt8 → List WOp → M (CircBuf × List UInt8 × List UInt8)
  | b, out, acc, [] => .ok (b, out, acc)
  | b, out, acc, .queue xs :: ops => do
    let r ← put b xs
    runW r.2 out (if r.1 = 0 then acc ++ xs else acc) ops
  | b, out, acc, .write wv :: ops => do
    let r ← tcpWrite b wv
    runW r.2.2.1 (out ++ r.2.2.2) acc ops

theorem runW_queue (b : CircBuf) (out acc xs : List UInt8) (ops : List WOp) :
    runW b out acc (.queue xs :: ops) =
      (put b xs >>= fun r => runW r.2 out (if r.1 = 0 then acc ++ xs else acc) ops) := rfl

theorem runW_write (b : CircBuf) (out acc : List UInt8) (wv : Except Nat Nat) (ops : List WOp) :
    runW b out acc (.write wv :: ops) =
      (tcpWrite b wv >>= fun r => runW r.2.2.1 (out ++ r.2.2.2) acc ops) := rfl

theorem ok_bind {α β : Type} (a : α) (f : α → M β) : ((.ok a : M α) >>= f) = f a := rfl

/-- One socket write: a prefix of the pending bytes goes out, exactly the rest stays, the count reported is
exact; with nothing pending the result is ENODATA. -/
theorem tcpWrite_spec {b : CircBuf} (h : WF b) (hs : b.size ≤ RMC_MAX_PACKET) (wv : Except Nat Nat) :
    ∃ code left b' out, tcpWrite b wv = .ok (code, left, b', out) ∧ WF b' ∧ b'.size = b.size ∧
      bytes b = out ++ bytes b' ∧ left = (bytes b').length ∧
      code = (if bytes b = [] then ENODATA else match wv with | .error e => e | .ok _ => 0) ∧
      out = (match wv with | .error _ => [] | .ok n => (bytes b).take n) ∧
      (b'.start = b.start ∧ b'.stop = b.stop ∨ (out ≠ [] ∧ (bytes b' = [] → b'.start = 0))) := by
  have hlt := inUse_lt h
  have hlb := length_bytes b
  obtain ⟨r1, r2, r3, r4, r5⟩ := readSegment_spec h RMC_MAX_PACKET
  have hmin : min RMC_MAX_PACKET (inUse b) = inUse b := by omega
  rw [List.take_of_length_le (by omega)] at r5
  have hl1 : (readSegment b RMC_MAX_PACKET).2.1.len = 0 ↔ inUse b = 0 := by
    constructor
    · intro h0
      have hiu := inUse_eq h
      obtain ⟨w1, w2, w3, w4, w5⟩ := h
      have e1 : sub32 b.size b.start = b.size - b.start := sub32_eq (by omega) (by simp only [U32]; omega)
      unfold readSegment at h0
      by_cases hss : b.stop = b.start
      · rw [hiu]; simp [hss]
      · simp only [hss, if_false, e1] at h0
        have : min (min (inUse b) RMC_MAX_PACKET) (b.size - b.start) = 0 := by
          split at h0 <;> exact h0
        omega
    · intro h0; omega
  generalize hR : readSegment b RMC_MAX_PACKET = R at *
  obtain ⟨e, s1, s2⟩ := R
  simp only at *
  by_cases hz : inUse b = 0
  · have hb : bytes b = [] := inUse_zero_iff.mp hz
    refine ⟨ENODATA, 0, b, [], ?_, h, rfl, by simp, by simp [hb], by simp [hb], ?_, Or.inl ⟨rfl, rfl⟩⟩
    · unfold tcpWrite; rw [hR]; simp only; rw [if_pos (hl1.mpr hz)]
    · cases wv <;> simp [hb]
  · have hb : bytes b ≠ [] := fun e => hz (inUse_zero_iff.mpr e)
    have hs1 : s1.len ≠ 0 := fun e => hz (hl1.mp e)
    cases wv with
    | error er =>
      refine ⟨er, inUse b, b, [], ?_, h, rfl, by simp, by omega, by simp [hb], rfl, Or.inl ⟨rfl, rfl⟩⟩
      unfold tcpWrite; rw [hR]; simp only; rw [if_neg hs1]
    | ok n =>
      by_cases hn : min n (bytes b).length = 0
      · have hn0 : n = 0 := by omega
        refine ⟨0, inUse b, b, [], ?_, h, rfl, by simp, by omega, by simp [hb], by simp [hn0], Or.inl ⟨rfl, rfl⟩⟩
        unfold tcpWrite; rw [hR]; simp only; rw [if_neg hs1, r5]
        simp only [bind, Except.bind]
        rw [if_pos hn]; rfl
      · obtain ⟨f1, f2, f3, f4⟩ := free_spec h (min n (bytes b).length)
        have e1 : (bytes b).take (min n (bytes b).length) = (bytes b).take n := by
          rw [List.take_eq_take_iff]; omega
        have e2 : (bytes b).drop (min n (bytes b).length) = (bytes b).drop n := by
          by_cases hle : n ≤ (bytes b).length
          · rw [Nat.min_eq_left hle]
          · rw [List.drop_of_length_le (by omega), List.drop_of_length_le (by omega)]
        refine ⟨0, (free b (min n (bytes b).length)).2, (free b (min n (bytes b).length)).1,
          (bytes b).take n, ?_, f1, f2, ?_, ?_, by simp [hb], rfl, Or.inr ?_⟩
        · unfold tcpWrite; rw [hR]; simp only; rw [if_neg hs1, r5]
          simp only [bind, Except.bind]
          rw [if_neg hn, e1]; rfl
        · rw [f3, e2, List.take_append_drop]
        · rw [f4, f3, List.length_drop]; omega
        · refine ⟨?_, ?_⟩
          · intro e0
            have := congrArg List.length e0
            rw [List.length_take, List.length_nil] at this
            omega
          · intro e0
            rw [free_start h _ hn, if_pos]
            have := congrArg List.length e0
            rw [f3, List.length_drop, List.length_nil] at this
            omega

/-- C13: for every history of queueing and socket writes, whatever the socket accepts each time, nothing
faults, and what went out followed by what is pending is exactly what was accepted, in order. -/
theorem C13_fifo_out (ops : List WOp) : ∀ (b : CircBuf) (out acc : List UInt8), WF b → b.size ≤ RMC_MAX_PACKET →
    out ++ bytes b = acc → ∃ b' out' acc', runW b out acc ops = .ok (b', out', acc') ∧ WF b' ∧
      b'.size = b.size ∧ out' ++ bytes b' = acc' ∧ ∃ more, acc' = acc ++ more := by
  induction ops with
  | nil => intro b out acc h hs he; exact ⟨b, out, acc, rfl, h, rfl, he, [], by simp⟩
  | cons op ops ih =>
    intro b out acc h hs he
    cases op with
    | queue xs =>
      by_cases hx : xs.length ≤ available b
      · obtain ⟨b', e1, e2, e3, _, e5⟩ := put_ok h hx
        obtain ⟨b2, o2, a2, q1, q2, q3, q4, m, q5⟩ := ih b' out (acc ++ xs) e2 (by omega)
          (by rw [e5, ← List.append_assoc, he])
        refine ⟨b2, o2, a2, ?_, q2, by omega, q4, xs ++ m, by rw [q5, List.append_assoc]⟩
        rw [runW_queue, e1, ok_bind]; exact q1
      · obtain ⟨b2, o2, a2, q1, q2, q3, q4, m, q5⟩ := ih b out acc h hs he
        refine ⟨b2, o2, a2, ?_, q2, q3, q4, m, q5⟩
        rw [runW_queue, put_enomem (show available b < xs.length by omega), ok_bind, if_neg (show ENOMEM ≠ 0 by decide)]
        exact q1
    | write wv =>
      obtain ⟨code, left, b', o, t1, t2, t3, t4, _⟩ := tcpWrite_spec h hs wv
      obtain ⟨b2, o2, a2, q1, q2, q3, q4, m, q5⟩ := ih b' (out ++ o) acc t2 (by omega)
        (by rw [List.append_assoc, ← t4, he])
      refine ⟨b2, o2, a2, ?_, q2, by omega, q4, m, q5⟩
      rw [runW_write, t1, ok_bind]; exact q1

/-- C13: the return code, the count of bytes left and the bytes written by one socket write. -/
theorem C13_report {b : CircBuf} (h : WF b) (hs : b.size ≤ RMC_MAX_PACKET) (wv : Except Nat Nat) :
    ∃ code left b' out, tcpWrite b wv = .ok (code, left, b', out) ∧
      bytes b = out ++ bytes b' ∧ left = (bytes b').length ∧
      code = (if bytes b = [] then ENODATA else match wv with | .error e => e | .ok _ => 0) ∧
      out = (match wv with | .error _ => [] | .ok n => (bytes b).take n) := by
  obtain ⟨c, l, b', o, e1, _, _, e4, e5, e6, e7, _⟩ := tcpWrite_spec h hs wv
  exact ⟨c, l, b', o, e1, e4, e5, e6, e7⟩

example : WF exWrapped ∧ exWrapped.size ≤ RMC_MAX_PACKET ∧ bytes exWrapped = [6, 7, 0, 1, 2] :=
  ⟨by decide, by decide, by decide +kernel⟩

/-! ### The command byte -/

/-- Appending a command byte the way the library does is right as long as the write position is not at the
very end of the array. -/
theorem putCmd_ok {b : CircBuf} (h : WF b) (ha : 1 ≤ available b) (hst : b.stop < b.size) (c : UInt8) :
    ∃ b', putCmd b c = .ok (0, b') ∧ WF b' ∧ b'.size = b.size ∧ b'.start = b.start ∧
      b'.stop = b.stop + 1 ∧ bytes b' = bytes b ++ [c] := by
  have hal := alloc_ok h ha
  have hle : 1 ≤ b.size - b.stop := by omega
  rw [if_pos hle] at hal
  obtain ⟨b', e1, e2, e3, e4, e5⟩ := put_ok h (xs := [c]) ha
  unfold put at e1
  simp only [List.length_singleton] at e1
  rw [hal] at e1
  simp only [if_true] at e1
  have e1' : scatter { b with stop := b.stop + 1 } ⟨b.stop, 1⟩ ⟨0, 0⟩ [c] = .ok b' := by
    cases hsc : scatter { b with stop := b.stop + 1 } ⟨b.stop, 1⟩ ⟨0, 0⟩ [c] with
    | error f => rw [hsc] at e1; cases e1
    | ok x => rw [hsc] at e1; cases e1; rfl
  have e1'' : store { b with stop := b.stop + 1 } b.stop c = .ok b' := by
    have : store { b with stop := b.stop + 1 } b.stop c =
        scatter { b with stop := b.stop + 1 } ⟨b.stop, 1⟩ ⟨0, 0⟩ [c] := by
      simp only [scatter, List.take_succ_cons, List.take_zero, List.drop_succ_cons, List.drop_nil,
        List.take_nil, storeN, bind, Except.bind]
      cases store { b with stop := b.stop + 1 } b.stop c <;> rfl
    rw [this, e1']
  refine ⟨b', ?_, e2, e3, e4, ?_, e5⟩
  · unfold putCmd; rw [hal]; simp only [ne_eq, not_true_eq_false, if_false, bind, Except.bind, e1'']; rfl
  · unfold store at e1''
    simp only at e1''
    rw [if_pos hst] at e1''
    cases e1''; rfl

/-- The defect: if the bytes queued end exactly at the end of the array (`stop = size`), the command byte is
stored one past the end of the buffer. -/
theorem C13_cmd_oob {b : CircBuf} (h : WF b) (ha : 1 ≤ available b) (hst : b.stop = b.size) (c : UInt8) :
    putCmd b c = .error .oob := by
  have hal := alloc_ok h ha
  rw [if_neg (by omega)] at hal
  unfold putCmd
  rw [hal]
  simp only [ne_eq, not_true_eq_false, if_false, store]
  rw [if_neg (by simp; omega)]
  rfl

example : WF ⟨8, 3, 8, fun _ => 0⟩ ∧ available ⟨8, 3, 8, fun _ => 0⟩ = 2 := ⟨by decide, by decide +kernel⟩

/-! ## C14 -/

/-- C14: a byte that is not a command: everything before it is dispatched, the result is EPROTO, and the byte
with everything behind it stays buffered. -/
theorem C14_unknown_partial {t : Table σ} {L : Lang σ} (hL : L.OK) (hT : Implements t L) {fuel : Nat} {s s' : σ}
    {b : CircBuf} (hw : WF b) {xs : List UInt8} (hx : xs ≠ []) (hlen : xs.length ≤ available b)
    (hrs : ReadSafe b xs.length) (hf : b.size ≤ fuel)
    (hs : L.safeFrom b.size ((bytes b ++ xs).length + 1) b.start (bytes b ++ xs))
    {good bad : List UInt8} (he : bytes b ++ xs = good ++ bad) (hg : L.rest good = [])
    (hbn : bad ≠ []) (hb : L.frame bad = .bad) (heff : effects L s (L.commands good) = .ok s') :
    ∃ b', tcpRead t fuel s b (some xs) = .ok (EPROTO, s', b') ∧ bytes b' = bad := by
  have h := tcpRead_spec hL hT (s := s) hw hx hlen hrs hf hs
  unfold Outcome at h
  obtain ⟨a1, a2, a3⟩ := Lang.split_append hL _ good bad (Nat.le_refl _)
  obtain ⟨d1, d2, d3⟩ := Lang.split_bad hbn hb
  rw [hg, List.nil_append] at a1 a2 a3
  rw [he, a1, a2, a3, d1, d2, d3, List.append_nil, heff] at h
  obtain ⟨b', e1, _, _, e4, _⟩ := h
  exact ⟨b', e1, e4⟩

/-- C14: a command whose bytes have not all arrived has no effect at all: the state is that after the complete
commands before it, and its bytes stay buffered untouched. -/
theorem C14_incomplete_partial {t : Table σ} {L : Lang σ} (hL : L.OK) (hT : Implements t L) {fuel : Nat}
    {s s' : σ} {b : CircBuf} (hw : WF b) {xs : List UInt8} (hx : xs ≠ []) (hlen : xs.length ≤ available b)
    (hrs : ReadSafe b xs.length) (hf : b.size ≤ fuel)
    (hs : L.safeFrom b.size ((bytes b ++ xs).length + 1) b.start (bytes b ++ xs))
    {good part : List UInt8} (he : bytes b ++ xs = good ++ part) (hg : L.rest good = [])
    (hbn : part ≠ []) (hb : L.frame part = .more) (heff : effects L s (L.commands good) = .ok s') :
    ∃ b', tcpRead t fuel s b (some xs) = .ok (EAGAIN, s', b') ∧ bytes b' = part := by
  have h := tcpRead_spec hL hT (s := s) hw hx hlen hrs hf hs
  unfold Outcome at h
  obtain ⟨a1, a2, a3⟩ := Lang.split_append hL _ good part (Nat.le_refl _)
  obtain ⟨d1, d2, d3⟩ := Lang.split_more hbn hb
  rw [hg, List.nil_append] at a1 a2 a3
  rw [he, a1, a2, a3, d1, d2, d3, List.append_nil, heff] at h
  obtain ⟨b', e1, _, _, e4, _⟩ := h
  exact ⟨b', e1, e4⟩

end Proto
end Rmc
