import Verif.PubLang

/-! # Reading a connection, in terms of the command language -/

set_option linter.unusedSimpArgs false
set_option linter.unusedVariables false

namespace Rmc
namespace PubCtx
open CircBuf Proto

/-! ## Acknowledgements and control messages do not touch the connections -/

/-- Replace the connection vector. -/
def withCv (c : PubCtx) (v : ConnVec) : PubCtx := { c with cv := v }

theorem packetAck_cv (c : PubCtx) (v : ConnVec) (i pid : Nat) :
    packetAck (c.withCv v) i pid = (packetAck c i pid).map (·.withCv v) := by
  unfold packetAck
  show (Pub.packetAck c.pub i pid >>= _) = _
  cases Pub.packetAck c.pub i pid with
  | error f => rfl
  | ok s =>
    simp only [Pub.ok_bind]
    show (Except.ok (if c.suspended = true ∧ s.unackedCount ≤ c.resumeThr then _ else _) : M PubCtx) =
      Except.ok (withCv (if c.suspended = true ∧ s.unackedCount ≤ c.resumeThr then _ else _) v)
    split <;> rfl

theorem map_bind {α β γ : Type} (x : M α) (f : α → M β) (g : β → γ) :
    (x >>= f).map g = x >>= fun a => (f a).map g := by
  cases x <;> rfl

theorem map_bind' {α β γ : Type} (x : M α) (g : α → β) (f : β → M γ) :
    (x.map g >>= f) = x >>= fun a => f (g a) := by
  cases x <;> rfl

theorem ackRange_cv (v : ConnVec) (i : Nat) : ∀ (n pid : Nat) (c : PubCtx),
    ackRange (c.withCv v) i pid n = (ackRange c i pid n).map (·.withCv v) := by
  intro n
  induction n with
  | zero => intro pid c; rfl
  | succ n ih =>
    intro pid c
    show (packetAck (c.withCv v) i pid >>= fun c => ackRange c i (pid + 1) n) =
      (packetAck c i pid >>= fun c => ackRange c i (pid + 1) n).map (·.withCv v)
    rw [packetAck_cv, map_bind, map_bind']
    congr 1; funext a; exact ih _ a

theorem eff_cv (v : ConnVec) (i : Nat) (c : PubCtx) (xs : List UInt8) :
    pubEff i (c.withCv v) xs = (pubEff i c xs).map (·.withCv v) := by
  unfold pubEff
  cases xs with
  | nil => rfl
  | cons x cs =>
    dsimp only
    split
    · unfold ackInterval
      split
      · rfl
      · exact ackRange_cv v i _ _ c
    · show (match c.ctlCb with | none => _ | some false => _ | some true => _ : M PubCtx) = _
      cases c.ctlCb with
      | none => rfl
      | some b => cases b <;> rfl

theorem effects_cv (v : ConnVec) (i : Nat) : ∀ (cs : List (List UInt8)) (c : PubCtx),
    effects (pubLang i) (c.withCv v) cs = (effects (pubLang i) c cs).map (·.withCv v) := by
  intro cs
  induction cs with
  | nil => intro c; rfl
  | cons x cs ih =>
    intro c
    rw [effects_cons, effects_cons, map_bind]
    show (pubEff i (c.withCv v) x >>= _) = (pubEff i c x >>= _)
    rw [eff_cv, map_bind']
    congr 1; funext a; exact ih a

theorem effects_cv_eq {i : Nat} {cs : List (List UInt8)} {c d : PubCtx} (h : effects (pubLang i) c cs = .ok d) :
    d.cv = c.cv := by
  have h1 := effects_cv c.cv i cs c
  rw [show c.withCv c.cv = c from rfl, h] at h1
  have := Except.ok.inj h1
  rw [this]; rfl

/-- The effect of commands on a good context. -/
theorem eff_good {c d : PubCtx} {pops : List POp} {L : List Nat} (h : Good c pops L) {i : Nat} {xs : List UInt8}
    (hx : pubEff i c xs = .ok d) : ReadRel c pops L i d := by
  unfold pubEff at hx
  cases xs with
  | nil => cases hx; exact ⟨[], [], by simpa using h, .refl _, by simp, rfl, by simp, by simp⟩
  | cons x cs =>
    dsimp only at hx
    split at hx
    · by_cases hl : (AckInterval.dec cs).last = U64 - 1
      · unfold ackInterval at hx; rw [if_pos hl] at hx; cases hx
      · obtain ⟨c', g1, g2, g3, g4, g5⟩ := ackInterval_spec h i _ hl
        rw [g1] at hx; cases hx
        refine ⟨_, [], g2, g3, ?_, g4, by simpa using g5, by simp⟩
        intro y hy
        obtain ⟨pid, _, e⟩ := List.mem_map.mp hy
        exact ⟨pid, e.symm⟩
    · split at hx
      · cases hx
      · cases hx; exact ⟨[], [], by simpa using h, .refl _, by simp, rfl, by simp, by simp⟩
      · cases hx
        exact ⟨[], [.ctl i (cs.drop 2)], by rw [List.append_nil]; exact h.congr rfl rfl, ⟨.nil, rfl⟩, by simp, rfl, rfl,
          by simp⟩

theorem effects_good {i : Nat} : ∀ (cs : List (List UInt8)) {c d : PubCtx} {pops : List POp} {L : List Nat},
    Good c pops L → effects (pubLang i) c cs = .ok d → ReadRel c pops L i d := by
  intro cs
  induction cs with
  | nil =>
    intro c d pops L h hx
    cases hx
    exact ⟨[], [], by simpa using h, .refl _, by simp, rfl, by simp, by simp⟩
  | cons x cs ih =>
    intro c d pops L h hx
    rw [effects_cons] at hx
    obtain ⟨c1, h1, h2⟩ := bind_ok hx
    obtain ⟨ys, ds, g1, g2, g3, g4, g5, g6⟩ := eff_good h h1
    obtain ⟨zs, es, k1, k2, k3, k4, k5, k6⟩ := ih g1 h2
    refine ⟨ys ++ zs, ds ++ es, by rw [← List.append_assoc]; exact k1, g2.trans k2, ?_, by rw [k4, g4],
      by rw [k5, g5, List.append_assoc], ?_⟩
    · intro y hy; rcases List.mem_append.mp hy with hy | hy
      · exact g3 y hy
      · exact k3 y hy
    · intro y hy; rcases List.mem_append.mp hy with hy | hy
      · exact g6 y hy
      · exact k6 y hy

/-! ## rmc_pub_read on a connection -/

/-- The connection after a read: new read buffer, event loop asked for reading, and for writing if bytes are pending. -/
def afterRead (c : PubCtx) (i : Nat) (b : CircBuf) : ConnVec :=
  let act : Act := ⟨true, decide (0 < (bytes (c.cv.conns i).writeBuf).length)⟩
  (c.cv.set i { c.cv.conns i with readBuf := b, action := act }).poll
    (.modify i (c.cv.conns i).desc (c.cv.conns i).action act)

theorem readConn_eq {c : PubCtx} {pops : List POp} {L : List Nat} (h : Good c pops L) {i : Nat} (hi : i ∈ L)
    (rv : Option (List UInt8)) :
    readConn c i rv = (tcpRead (table i) U32 c (c.cv.conns i).readBuf rv >>= fun r =>
      if r.1 = EPIPE then (do
        let x ← closeConnection (setConn r.2.1 i { r.2.1.cv.conns i with readBuf := r.2.2 }) i
        return (0, x.2))
      else
        let c := setConn r.2.1 i { r.2.1.cv.conns i with readBuf := r.2.2 }
        let x := c.cv.conns i
        let act : Act := ⟨true, decide (ConnVec.pendingLen c.cv i > 0)⟩
        .ok (r.1, pollModify (setConn c i { x with action := act }) i x.desc x.action act)) := by
  unfold readConn
  rw [ConnVec.findByIndex_spec h.v, if_pos hi, if_neg (by simp [h.conn i hi])]
  rfl

theorem split_status {L : Lang PubCtx} : ∀ (f : Nat) (xs : List UInt8), (Lang.split L.frame f xs).2.1 = 0 ∨
    (Lang.split L.frame f xs).2.1 = EAGAIN ∨ (Lang.split L.frame f xs).2.1 = EPROTO := by
  intro f
  induction f with
  | zero => intro xs; exact .inl rfl
  | succ f ih =>
    intro xs
    unfold Lang.split
    split
    · exact .inl rfl
    · split
      · exact .inr (.inl rfl)
      · exact .inr (.inr rfl)
      · exact ih _

theorem status_ne {L : Lang PubCtx} (xs : List UInt8) : L.status xs ≠ EPIPE := by
  unfold Lang.status
  rcases split_status (L := L) (xs.length + 1) xs with e | e | e <;> rw [e] <;> decide

theorem readConn_lang {c : PubCtx} {pops : List POp} {L : List Nat} (h : Good c pops L) {i : Nat} (hi : i ∈ L)
    (hw : WF (c.cv.conns i).readBuf) {xs : List UInt8} (hsz : (c.cv.conns i).readBuf.size ≤ U32)
    (hx : xs ≠ []) (hlen : xs.length ≤ available (c.cv.conns i).readBuf)
    (hrs : ReadSafe (c.cv.conns i).readBuf xs.length)
    (hs : (pubLang i).safeFrom (c.cv.conns i).readBuf.size ((bytes (c.cv.conns i).readBuf ++ xs).length + 1)
      (c.cv.conns i).readBuf.start (bytes (c.cv.conns i).readBuf ++ xs)) :
    match effects (pubLang i) c ((pubLang i).commands (bytes (c.cv.conns i).readBuf ++ xs)) with
    | .error f => readConn c i (some xs) = .error f
    | .ok d => ∃ b', readConn c i (some xs) =
          .ok ((pubLang i).status (bytes (c.cv.conns i).readBuf ++ xs), d.withCv (afterRead c i b')) ∧ WF b' ∧
        b'.size = (c.cv.conns i).readBuf.size ∧ bytes b' = (pubLang i).rest (bytes (c.cv.conns i).readBuf ++ xs) ∧
        b'.start = if bytes b' = [] then 0 else
          ((c.cv.conns i).readBuf.start + ((bytes (c.cv.conns i).readBuf ++ xs).length - (bytes b').length)) %
            (c.cv.conns i).readBuf.size := by
  have key := tcpRead_spec (s := c) (pubLang_ok i) (pubLang_implements i) hw hx hlen hrs hsz hs
  rw [readConn_eq h hi]
  unfold Outcome at key
  split at key
  · rename_i f hf
    rw [hf]; dsimp only
    rw [key]; rfl
  · rename_i d hd
    rw [hd]; dsimp only
    obtain ⟨b', k1, k2, k3, k4, k5⟩ := key
    refine ⟨b', ?_, k2, k3, k4, by rw [k4]; exact k5⟩
    rw [k1, Pub.ok_bind]
    dsimp only
    rw [if_neg (status_ne _)]
    have hcv := effects_cv_eq hd
    have hci : (setConn d i { d.cv.conns i with readBuf := b' }).cv.conns i = { c.cv.conns i with readBuf := b' } := by
      show (if i = i then _ else _ : Conn) = _
      rw [if_pos rfl, hcv]
    have hpl : ConnVec.pendingLen (setConn d i { d.cv.conns i with readBuf := b' }).cv i =
        (bytes (c.cv.conns i).writeBuf).length := by
      rw [← pendingLen_eq h hi]
      unfold ConnVec.pendingLen
      rw [hci]
    rw [hci, hpl]
    unfold withCv afterRead pollModify ConnVec.poll setConn
    dsimp only
    rw [set_set, hcv]

/-- Reading chunk after chunk; the return code of the last read is kept. -/
def reads (i : Nat) : Nat → PubCtx → List (List UInt8) → M (Nat × PubCtx)
  | r, c, [] => .ok (r, c)
  | _, c, x :: xs => do
    let r ← readConn c i (some x)
    reads i r.1 r.2 xs

theorem reads_cons (i r : Nat) (c : PubCtx) (x : List UInt8) (xs : List (List UInt8)) :
    reads i r c (x :: xs) = (readConn c i (some x) >>= fun r => reads i r.1 r.2 xs) := rfl

theorem good_afterRead {c d : PubCtx} {pops : List POp} {L : List Nat} (h : Good d pops L) (hcv : d.cv = c.cv) {i : Nat}
    (hi : i ∈ L) (b : CircBuf) : Good (d.withCv (afterRead c i b)) pops L := by
  have hw := h.wb i hi
  have hz := h.zero i hi
  rw [hcv] at hw hz
  refine (h.setConn hi (x := { c.cv.conns i with
      readBuf := b, action := ⟨true, decide (0 < (bytes (c.cv.conns i).writeBuf).length)⟩ })
    (es := [.modify i (c.cv.conns i).desc (c.cv.conns i).action ⟨true, decide (0 < (bytes (c.cv.conns i).writeBuf).length)⟩])
    (by rw [hcv]) (by rw [hcv]) (by have := h.v.idx i; rw [hcv] at this; exact this) hw.1 (by rw [hcv]; exact hw.2)
    ?_ hz (.inr ⟨_, by rw [hcv]⟩)).congr rfl ?_
  · exact ⟨rfl, decide_eq_true_iff.trans List.length_pos_iff⟩
  · unfold withCv afterRead; rw [hcv]; rfl

theorem afterRead_self (c : PubCtx) (i : Nat) (b : CircBuf) :
    ((afterRead c i b).conns i).readBuf = b := by
  show (if i = i then _ else _ : Conn).readBuf = b
  rw [if_pos rfl]

theorem reads_lang (i : Nat) : ∀ (xs : List (List UInt8)) (r : Nat) {c : PubCtx} {pops : List POp} {L : List Nat},
    Good c pops L → i ∈ L → WF (c.cv.conns i).readBuf → (c.cv.conns i).readBuf.size ≤ U32 → xs ≠ [] →
    ChunksSafe (pubLang i) (c.cv.conns i).readBuf.size (c.cv.conns i).readBuf.start (bytes (c.cv.conns i).readBuf) xs →
    match effects (pubLang i) c ((pubLang i).commands (bytes (c.cv.conns i).readBuf ++ xs.flatten)) with
    | .error f => reads i r c xs = .error f
    | .ok d => ∃ v, reads i r c xs =
        .ok ((pubLang i).status (bytes (c.cv.conns i).readBuf ++ xs.flatten), d.withCv v) ∧
        bytes (v.conns i).readBuf = (pubLang i).rest (bytes (c.cv.conns i).readBuf ++ xs.flatten) := by
  intro xs
  induction xs with
  | nil => intro _ _ _ _ _ _ _ _ h _; exact absurd rfl h
  | cons x xs ih =>
    intro r c pops L h hi hw hsz _ hc
    obtain ⟨⟨hxne, hfit, htrim, hsafe⟩, hrest⟩ := hc
    have hb := length_bytes (c.cv.conns i).readBuf
    have hav := available_eq hw
    have hiu := inUse_lt hw
    have key := readConn_lang h hi hw (xs := x) hsz hxne (by rw [hav]; omega)
      (by unfold ReadSafe; rw [← hb]; exact htrim) hsafe
    obtain ⟨sp1, sp2, sp3⟩ := Lang.split_append (pubLang_ok i) _ (bytes (c.cv.conns i).readBuf ++ x) xs.flatten (Nat.le_refl _)
    rw [reads_cons, List.flatten_cons, ← List.append_assoc, sp1, effects_append]
    cases he : effects (pubLang i) c ((pubLang i).commands (bytes (c.cv.conns i).readBuf ++ x)) with
    | error f =>
      rw [he] at key
      dsimp only at key
      rw [key]; rfl
    | ok d =>
      rw [he] at key
      dsimp only at key
      obtain ⟨b', k1, k2, k3, k4, k5⟩ := key
      rw [k1, Pub.ok_bind, Pub.ok_bind]
      dsimp only
      cases xs with
      | nil =>
        rw [List.flatten_nil, List.append_nil, List.append_nil] at *
        have hc2 : (pubLang i).commands ((pubLang i).rest (bytes (c.cv.conns i).readBuf ++ x)) = [] := by
          have h2 := congrArg List.length sp1
          rw [List.length_append] at h2
          exact List.length_eq_zero_iff.mp (by omega)
        rw [hc2]
        show ∃ v, (Except.ok _ : M (Nat × PubCtx)) = _ ∧ _
        exact ⟨afterRead c i b', rfl, by rw [afterRead_self]; exact k4⟩
      | cons y ys =>
        obtain ⟨zs, ds, g1, _⟩ := effects_good _ h he
        have hcv := effects_cv_eq he
        have hg := good_afterRead (c := c) g1 hcv hi b'
        have hrb : ((d.withCv (afterRead c i b')).cv.conns i).readBuf = b' := afterRead_self c i b'
        have := ih ((pubLang i).status (bytes (c.cv.conns i).readBuf ++ x)) hg hi (by rw [hrb]; exact k2)
          (by rw [hrb, k3]; exact hsz) (by simp) (by
            rw [hrb, k3, k4]
            have e : b'.start = posAfter (pubLang i) (c.cv.conns i).readBuf.size (c.cv.conns i).readBuf.start
                (bytes (c.cv.conns i).readBuf ++ x) := by
              unfold posAfter; rw [k5, k4]
            rw [e]; exact hrest)
        rw [hrb, k4, effects_cv] at this
        rw [sp2, sp3]
        cases he2 : effects (pubLang i) d ((pubLang i).commands
            ((pubLang i).rest (bytes (c.cv.conns i).readBuf ++ x) ++ (y :: ys).flatten)) with
        | error f => rw [he2] at this; exact this
        | ok d2 =>
          rw [he2] at this
          obtain ⟨v, t1, t2⟩ := this
          exact ⟨v, t1, t2⟩

end PubCtx
end Rmc
