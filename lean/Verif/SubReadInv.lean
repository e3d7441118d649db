import Verif.SysLemmas

/-!
# The read buffers of the subscriber, and which reads can fault

The subscriber closes a connection whose read buffer has been spoilt by `circ_buf_trim` (the protocol error it leads to closes
it), so every connection that is up has a read buffer in good order, after any history.
-/

set_option linter.unusedSimpArgs false
set_option linter.unusedVariables false

namespace Rmc
namespace SubCtx
open SubPub CircBuf ConnVec Proto

/-- Bytes that are the beginning of one command. -/
def Left (xs : List UInt8) : Prop := commandsOf xs = [] ∧ restOf xs = xs ∧ statusOf xs ≠ EPROTO

/-- The read buffer of slot `i` is in good order, holds the beginning of one command, and is at its start position if empty. -/
def RbOK (c : SubCtx) (i : Nat) : Prop :=
  WF (c.cv.conns i).readBuf ∧ (c.cv.conns i).readBuf.size = RMC_MAX_PACKET ∧ Left (bytes (c.cv.conns i).readBuf) ∧
    (bytes (c.cv.conns i).readBuf = [] → (c.cv.conns i).readBuf.start = 0)

theorem left_nil : Left [] := ⟨rfl, rfl, by show (0 : Nat) ≠ EPROTO; decide⟩

theorem left_rest {xs : List UInt8} (h : statusOf xs ≠ EPROTO) : Left (restOf xs) := by
  obtain ⟨h1, h2, h3⟩ := split3 xs []
  rw [List.append_nil, List.append_nil] at h1 h2 h3
  refine ⟨?_, h3.symm, by rw [← h2]; exact h⟩
  exact (List.append_cancel_left (by rw [List.append_nil]; exact h1)).symm

theorem fresh_rb {b : CircBuf} (h : Fresh b RMC_MAX_PACKET) : WF b ∧ b.size = RMC_MAX_PACKET ∧ Left (bytes b) ∧ (bytes b = [] → b.start = 0) :=
  ⟨(fresh_WF h).1, (fresh_WF h).2, by rw [fresh_bytes h (by decide)]; exact left_nil, fun _ => h.2.1⟩

theorem Micro.rb {tm i : Nat} {c c' : SubCtx} (m : Micro tm c c') (hc : Core c) (ht : tm ≠ 3 + i) (h : Up c i → RbOK c i)
    (hu : Up c' i) : RbOK c' i := by
  have key : Live c i → RbOK c i → RbOK c' i := by
    intro hl hr
    rcases m.slot hc hl ht with h1 | ⟨es, h1⟩
    · exact absurd ⟨hu.1, by rw [hu.2]; simp⟩ h1.1
    · unfold RbOK; rw [h1.rb]; exact hr
  rcases m.up hc hu with h1 | ⟨l, _, _, _, h4, h5, h6⟩
  · exact key ⟨h1.1, by rw [h1.2]; simp⟩ (h h1)
  · exact key ⟨h5, by rw [h6]; simp⟩ (fresh_rb (hc.fresh i h5 (by rw [h6]; simp)).1)

theorem Steps.rb {tm i : Nat} {c c' : SubCtx} (m : Steps tm c c') (hc : Core c) (ht : tm ≠ 3 + i) (h : Up c i → RbOK c i) :
    Up c' i → RbOK c' i :=
  (Steps.both (P := Core) (Q := fun d => Up d i → RbOK d i) (fun _ _ m h => h.micro m) (fun _ _ m h1 h2 => m.rb h1 ht h2) m hc h).2

theorem readConn_offered (c : SubCtx) (i : Nat) (rv : Option (List UInt8)) (ts : Int) :
    readConn c i rv ts = readConn c i (some (offered (c.cv.conns i).readBuf rv)) ts := by
  unfold readConn
  rw [tcpRead_offered]

theorem Up.found {c : SubCtx} {i : Nat} (hu : Up c i) : ¬ (findByIndex c.cv i = none ∨ (c.cv.conns i).mode ≠ .connected) := by
  rintro (h | h)
  · unfold findByIndex at h
    rw [if_neg (by have := hu.1; omega), if_neg (by rw [hu.2]; simp)] at h
    cases h
  · exact h hu.2

/-- A read on a connection that is up, after which it is still up: either the buffer was full and nothing happened, or
bytes came in, outside the defect of `circ_buf_trim`. -/
theorem read_up {c c' : SubCtx} {i r : Nat} {rv : Option (List UInt8)} {ts : Int} (hu : Up c i) (hr : RbOK c i)
    (hs : readConn c i rv ts = .ok (r, c')) (hu' : Up c' i) :
    (available (c.cv.conns i).readBuf = 0 ∧ r = ENOMEM ∧ c' = pollModify (setConn c i (c.cv.conns i)) i (c.cv.conns i).desc .R .R) ∨
    (offered (c.cv.conns i).readBuf rv ≠ [] ∧ ReadSafe (c.cv.conns i).readBuf (offered (c.cv.conns i).readBuf rv).length) := by
  by_cases h0 : available (c.cv.conns i).readBuf = 0
  · left
    unfold readConn at hs
    rw [if_neg hu.found, tcpRead_full _ _ _ h0, Proto.ok_bind] at hs
    dsimp only at hs
    rw [if_pos rfl] at hs
    have e : _ = c' := congrArg Prod.snd (Except.ok.inj hs)
    have e1 : _ = r := congrArg Prod.fst (Except.ok.inj hs)
    dsimp only at e e1
    refine ⟨h0, e1.symm, ?_⟩
    rw [← e]
    have : ((setConn c i (c.cv.conns i)).cv.conns i).desc = (c.cv.conns i).desc := by
      show (if i = i then _ else _ : Conn).desc = _
      rw [if_pos rfl]
    show pollModify (setConn c i (c.cv.conns i)) i ((setConn c i (c.cv.conns i)).cv.conns i).desc .R .R = _
    rw [this]
  · right
    rw [readConn_offered] at hs
    have hne : offered (c.cv.conns i).readBuf rv ≠ [] := by
      intro he
      rw [he] at hs
      unfold readConn at hs
      rw [if_neg hu.found, tcpRead_nothing _ _ _ hr.1 h0, Proto.ok_bind] at hs
      dsimp only at hs
      rw [if_neg (by decide), if_pos rfl] at hs
      obtain ⟨⟨r3, c3⟩, h5, h6⟩ := bind_ok hs
      have e : c3 = c' := congrArg Prod.snd (Except.ok.inj h6)
      subst e
      exact closeConnection_down h5 hu'
    refine ⟨hne, ?_⟩
    exact read_safe hu hr.1 (by rw [hr.2.1]; decide) hne (by unfold offered; rw [List.length_take]; omega) hs hu'

theorem setConn_self (c : SubCtx) (i : Nat) : setConn c i (c.cv.conns i) = c := by
  unfold setConn
  have : (c.cv.set i (c.cv.conns i)) = c.cv := by
    unfold ConnVec.set
    have : (fun j => if j = i then c.cv.conns i else c.cv.conns j) = c.cv.conns := by
      funext j; split
      · rename_i e; rw [e]
      · rfl
    rw [this]
  rw [this]

theorem read_rb {c c' : SubCtx} {i r : Nat} {rv : Option (List UInt8)} {ts : Int} (hc : Core c) (hu : Up c i) (hr : RbOK c i)
    (hs : readConn c i rv ts = .ok (r, c')) (hu' : Up c' i) : RbOK c' i := by
  rcases read_up hu hr hs hu' with ⟨_, _, e⟩ | ⟨h1, h2⟩
  · rw [setConn_self] at e
    rw [e]; exact hr
  · rw [readConn_offered] at hs
    obtain ⟨d, b', g1, g2, g3, g4, g5, g6, g7, g8, g9, g10⟩ := readConn_lang hc hu hr.1 (by rw [hr.2.1]; decide) ts h1
      (by unfold offered; rw [List.length_take]; omega) h2
    have hst : (subLang i ts).status (bytes (c.cv.conns i).readBuf ++ offered (c.cv.conns i).readBuf rv) ≠ EPROTO := by
      intro e
      rw [g10 e] at hs
      obtain ⟨⟨r3, c3⟩, h5, h6⟩ := bind_ok hs
      have e : c3 = c' := congrArg Prod.snd (Except.ok.inj h6)
      subst e
      exact closeConnection_down h5 hu'
    rw [g9 hst] at hs
    have e : _ = c' := congrArg Prod.snd (Except.ok.inj hs)
    dsimp only at e
    unfold RbOK
    rw [← e, afterRead_self]
    exact ⟨g5, by rw [g6]; exact hr.2.1, by rw [g7]; exact left_rest hst, fun e => by rw [g8, if_pos e]⟩

/-- After any history the read buffer of every connection that is up is in good order. -/
theorem Reaches.rb {ops : List Op} {c : SubCtx} (h : Reaches ops c) : ∀ i, Up c i → RbOK c i := by
  refine Reaches.induct (P := fun _ c => ∀ i, Up c i → RbOK c i) ?_ ?_ h
  · intro mem n nid hn i hu
    exact absurd hu.2 (by
      show (_ : Conn).mode ≠ _
      simp [init, ConnVec.init, ConnVec.resetConn])
  · intro ops c op r c' hr ih hs i hu'
    have hi := hr.inv
    by_cases hop : op = .deactivate
    · subst hop
      exact absurd hu' (notUp_of_find (deactivate_closed hi.core hi.mem hs).1 i)
    · have hst := step_steps hi.core hi.mem hop hs
      by_cases hk : op.kind = 3 + i
      · obtain ⟨rv, ts, rfl⟩ : ∃ rv ts, op = .read i rv ts := by
          apply Classical.byContradiction
          intro hne
          exact kind_ne (fun rv ts e => hne ⟨rv, ts, e⟩) hk
        have hs' : readConn c i rv ts = .ok (r, c') := hs
        by_cases hu : Up c i
        · exact read_rb hi.core hu (ih i hu) hs' hu'
        · exfalso
          unfold readConn at hs'
          split at hs'
          · have e : c = c' := congrArg Prod.snd (Except.ok.inj hs')
            rw [← e] at hu'; exact hu hu'
          · rename_i hf
            exact hu (Up.of_find hi.core (fun e => hf (.inl e)) (by
              apply Classical.byContradiction; intro e; exact hf (.inr e)))
      · exact hst.rb hi.core hk (ih i) hu'

/-! ## Which reads can fault -/

theorem loadN_fault {b : CircBuf} {f : Fault} : ∀ (n off : Nat), loadN b off n = .error f → f = .oob := by
  intro n
  induction n with
  | zero => intro off h; cases h
  | succ n ih =>
    intro off h
    unfold loadN at h
    cases hx : load b off with
    | error g =>
      rw [hx] at h
      have e : g = f := Except.error.inj h
      subst e
      unfold load at hx
      split at hx
      · cases hx
      · exact (Except.error.inj hx).symm
    | ok x =>
      rw [hx] at h
      change (loadN b (off + 1) n >>= fun xs => Except.ok (x :: xs)) = _ at h
      cases hy : loadN b (off + 1) n with
      | error g =>
        rw [hy] at h
        have e : g = f := Except.error.inj h
        subst e
        exact ih _ hy
      | ok y => rw [hy] at h; cases h

theorem readOffset_fault {b : CircBuf} {f : Fault} {o n : Nat} (h : readOffset b o n = .error f) : f = .oob := by
  unfold readOffset at h
  dsimp only at h
  split at h
  · cases h
  · split at h
    · cases hx : loadN b ((add32 b.start o) % b.size) (min n (sub32 (inUse b) o)) with
      | error g => rw [hx] at h; have e : g = f := Except.error.inj h; subst e; exact loadN_fault _ _ hx
      | ok x => rw [hx] at h; cases h
    · cases hx : loadN b ((add32 b.start o) % b.size)
          (min (sub32 b.size ((add32 b.start o) % b.size)) (min n (sub32 (inUse b) o))) with
      | error g => rw [hx] at h; have e : g = f := Except.error.inj h; subst e; exact loadN_fault _ _ hx
      | ok x =>
        rw [hx, Proto.ok_bind] at h
        split at h
        · cases h
        · revert h
          generalize (if o > _ then _ else _ : Nat) = oo
          generalize (min _ b.stop : Nat) = nn
          intro h
          cases hy : loadN b oo nn with
          | error g => rw [hy] at h; have e : g = f := Except.error.inj h; subst e; exact loadN_fault _ _ hy
          | ok y => rw [hy] at h; cases h

theorem processPacket_fault {c : SubCtx} {i : Nat} {ts : Int} {b : CircBuf} {f : Fault} (hc : Core c) (hu : Up c i)
    (h : processPacket i ts c b = .error f) : f = .oob := by
  unfold processPacket at h
  split at h
  · cases h
  · cases hx : readOffset b 1 HDR_LEN with
    | error g => rw [hx] at h; have e : g = f := Except.error.inj h; subst e; exact readOffset_fault hx
    | ok x =>
      rw [hx, Proto.ok_bind] at h
      dsimp only at h
      split at h
      · cases h
      · cases hy : CircBuf.read (free b (1 + HDR_LEN)).1 (PacketHeader.dec x.2).payloadLen with
        | error g => rw [hy] at h; have e : g = f := Except.error.inj h; subst e; exact readOffset_fault hy
        | ok y =>
          rw [hy, Proto.ok_bind] at h
          obtain ⟨c', hc'⟩ := deliver_total hc hu (PacketHeader.dec x.2).pid y.2 false ts
          rw [hc'] at h; cases h

theorem processLoop_fault {i : Nat} {ts : Int} {f : Fault} : ∀ (fuel : Nat) {c : SubCtx} {b : CircBuf} {cmd : UInt8}, Core c → Up c i →
    Proto.processLoop (table i ts) fuel c b cmd = .error f → f = .oob ∨ f = .diverge := by
  intro fuel
  induction fuel with
  | zero => intro c b cmd _ _ h; exact .inr (Except.error.inj h).symm
  | succ fuel ih =>
    intro c b cmd hc hu h
    unfold Proto.processLoop at h
    by_cases h1 : cmd = CMD_PACKET
    · have hl : lookup (table i ts) cmd = some (processPacket i ts) := by rw [h1]; rfl
      rw [hl] at h
      dsimp only at h
      cases hx : processPacket i ts c b with
      | error g => rw [hx] at h; have e : g = f := Except.error.inj h; subst e; exact .inl (processPacket_fault hc hu hx)
      | ok x =>
        obtain ⟨r, c1, b1⟩ := x
        obtain ⟨hst, hcv⟩ := processPacket_steps hu hx
        rw [hx, Proto.ok_bind] at h
        dsimp only at h
        split at h
        · cases h
        · split at h
          · cases h
          · cases hy : CircBuf.read b1 1 with
            | error g => rw [hy] at h; have e : g = f := Except.error.inj h; subst e; exact .inl (readOffset_fault hy)
            | ok y =>
              obtain ⟨r2, ys⟩ := y
              rw [hy, Proto.ok_bind] at h
              dsimp only at h
              split at h
              · cases h
              · exact ih (hc.steps hst) (hu.congr hcv) h
    · have hl : lookup (table i ts) cmd = none := by
        show (if cmd = CMD_PACKET then _ else none) = none
        rw [if_neg h1]
      rw [hl] at h; cases h

/-- The part of a read that takes in bytes faults only by an access beyond the buffer, or by not ending. -/
theorem tcpRead_fault {c : SubCtx} {i : Nat} {ts : Int} {f : Fault} {rv : Option (List UInt8)} (hc : Core c) (hu : Up c i)
    (hr : RbOK c i) (h : tcpRead (table i ts) U32 c (c.cv.conns i).readBuf rv = .error f) : f = .oob ∨ f = .diverge := by
  obtain ⟨b, hb⟩ : ∃ b, b = (c.cv.conns i).readBuf := ⟨_, rfl⟩
  have hw : WF b := by rw [hb]; exact hr.1
  rw [← hb] at h
  by_cases h0 : available b = 0
  · rw [tcpRead_full _ _ _ h0] at h; cases h
  · rw [tcpRead_offered] at h
    by_cases h1 : offered b rv = []
    · rw [h1, tcpRead_nothing _ _ _ hw h0] at h; cases h
    · obtain ⟨xs, hxs⟩ : ∃ xs, xs = offered b rv := ⟨_, rfl⟩
      rw [← hxs] at h h1
      have hlen : xs.length ≤ available b := by rw [hxs]; unfold offered; rw [List.length_take]; omega
      generalize hA : alloc b (available b) = q at *
      obtain ⟨e, s1, s2, d0⟩ := q
      have hal := alloc_ok hw (Nat.le_refl (available b))
      rw [hA] at hal
      have he : e = 0 := by
        split at hal <;> simp only [Prod.mk.injEq] at hal <;> exact hal.1
      subst he
      obtain ⟨d, k1, k2, k3, k4, k5, k6, k7⟩ := alloc_scatter hw (Nat.le_refl _) hA hlen
      have htk : xs.take (available b) = xs := List.take_of_length_le hlen
      unfold tcpRead at h
      dsimp only at h
      rw [if_neg h0, hA] at h
      dsimp only at h
      rw [if_neg (by simp), Option.getD_some, htk, if_neg h1, k1] at h
      change processTcpRead (table i ts) U32 c (trim d (add32 xs.length (inUse b))) = _ at h
      revert h
      generalize trim d (add32 xs.length (inUse b)) = b2
      intro h
      unfold processTcpRead at h
      cases hy : CircBuf.read b2 1 with
      | error g => rw [hy] at h; have e : g = f := Except.error.inj h; subst e; exact .inl (readOffset_fault hy)
      | ok y =>
        obtain ⟨r2, ys⟩ := y
        rw [hy, Proto.ok_bind] at h
        dsimp only at h
        split at h
        · cases h
        · exact processLoop_fault _ hc hu h

theorem processAt_total {c : SubCtx} (hc : Core c) {i : Nat} (hu : Up c i) : ∃ c', processAt c i = .ok c' := by
  obtain ⟨s, hs⟩ := hc.recd i hu
  unfold processAt
  rw [getPub_ok.2 hs, Proto.ok_bind]
  exact ⟨_, rfl⟩

theorem closeConnection_up {c : SubCtx} (hc : Core c) {i : Nat} (hu : Up c i) : ∃ c', closeConnection c i = .ok (0, c') := by
  obtain ⟨c', h, _⟩ := shut_up hc hu (c.cv.conns i).readBuf
  have : setConn c i { c.cv.conns i with readBuf := (c.cv.conns i).readBuf } = c := setConn_self c i
  rw [this] at h
  exact ⟨c', h⟩

/-- A read returns, or an access goes beyond the buffer, or it does not end. -/
theorem readConn_fault {c : SubCtx} {i : Nat} {rv : Option (List UInt8)} {ts : Int} {f : Fault} (hc : Core c)
    (hr : Up c i → RbOK c i) (h : readConn c i rv ts = .error f) :
    (f = .oob ∨ f = .diverge) ∧ Up c i ∧ ¬ ReadSafe (c.cv.conns i).readBuf (offered (c.cv.conns i).readBuf rv).length := by
  have hcopy := h
  unfold readConn at h
  split at h
  · cases h
  · rename_i hf
    have hu : Up c i := Up.of_find hc (fun e => hf (.inl e)) (by
      apply Classical.byContradiction; intro e; exact hf (.inr e))
    have hb := hr hu
    cases hx : tcpRead (table i ts) U32 c (c.cv.conns i).readBuf rv with
    | error g =>
      rw [hx] at h; have e : g = f := Except.error.inj h; subst e
      refine ⟨tcpRead_fault hc hu hb hx, hu, ?_⟩
      intro hrs
      by_cases h0 : available (c.cv.conns i).readBuf = 0
      · rw [tcpRead_full _ _ _ h0] at hx; cases hx
      · by_cases h1 : offered (c.cv.conns i).readBuf rv = []
        · rw [tcpRead_offered, h1, tcpRead_nothing _ _ _ hb.1 h0] at hx; cases hx
        · obtain ⟨d, b', g1, g2, g3, g4, g5, g6, g7, g8, g9, g10⟩ := readConn_lang hc hu hb.1 (by rw [hb.2.1]; decide) ts h1
            (by unfold offered; rw [List.length_take]; omega) hrs
          rw [readConn_offered] at hcopy
          by_cases hst : (subLang i ts).status (bytes (c.cv.conns i).readBuf ++ offered (c.cv.conns i).readBuf rv) = EPROTO
          · obtain ⟨c2, k1, _⟩ := shut_up (hc.steps g2) (hu.congr g3) b'
            rw [g10 hst, k1] at hcopy; cases hcopy
          · rw [g9 hst] at hcopy; cases hcopy
    | ok x =>
      exfalso
      obtain ⟨r, c1, b1⟩ := x
      obtain ⟨hst, hcv⟩ := readTcp_steps hu hx
      rw [hx, Proto.ok_bind] at h
      dsimp only at h
      have hc1 := hc.steps hst
      have hu1 := hu.congr hcv
      have m2 : Micro (3 + i) c1 (setConn c1 i { c1.cv.conns i with readBuf := b1 }) := by
        have : Micro (3 + i) c1 { c1 with cv := { c1.cv.set i { c1.cv.conns i with readBuf := b1 } with polls := c1.cv.polls ++ [] } } :=
          Micro.io (a := (c1.cv.conns i).action) hu1 b1 [] rfl (.inl rfl) rfl
        rw [List.append_nil] at this; exact this
      have hc2 := hc1.micro m2
      have hu2 : Up (setConn c1 i { c1.cv.conns i with readBuf := b1 }) i := by
        refine ⟨hu1.1, ?_⟩
        show (if i = i then _ else _ : Conn).mode = _
        rw [if_pos rfl]; exact hu1.2
      split at h
      · cases h
      · split at h
        · obtain ⟨c3, h3⟩ := closeConnection_up hc2 hu2
          rw [h3] at h; cases h
        · obtain ⟨c3, h3⟩ := processAt_total hc2 hu2
          have := processAt_id hc2 h3
          subst this
          rw [h3, Proto.ok_bind] at h
          split at h
          · obtain ⟨c4, h4⟩ := closeConnection_up hc2 hu2
            rw [h4] at h; cases h
          · cases h

end SubCtx
end Rmc
