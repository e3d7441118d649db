import Verif.SubReadInv

/-!
# C55 (reading), C59: the TCP stream of a connection that stays up
-/

set_option linter.unusedSimpArgs false
set_option linter.unusedVariables false

namespace Rmc
namespace SubCtx
open SubPub CircBuf ConnVec Proto

/-! ## C55: what reading can do -/

/-- C55: after any history a read on any connection index returns, or accesses memory beyond the read buffer, or never ends; the latter
two only on a connection that is up, and only if bytes are read behind bytes still buffered in the way that `circ_buf_trim` gets
wrong (C05): more than one byte is free before the buffered bytes and behind the new ones. -/
theorem C55_read {ops : List Op} {c : SubCtx} (h : Reaches ops c) (i : Nat) (rv : Option (List UInt8)) (ts : Int) :
    (∃ r c', step c (.read i rv ts) = .ok (r, c')) ∨
    ((step c (.read i rv ts) = .error .oob ∨ step c (.read i rv ts) = .error .diverge) ∧ Up c i ∧
      inUse (c.cv.conns i).readBuf + (offered (c.cv.conns i).readBuf rv).length + 1 < (c.cv.conns i).readBuf.start ∧
      (c.cv.conns i).readBuf.start + inUse (c.cv.conns i).readBuf + (offered (c.cv.conns i).readBuf rv).length <
        (c.cv.conns i).readBuf.size) := by
  cases hx : step c (.read i rv ts) with
  | ok x => exact .inl ⟨x.1, x.2, rfl⟩
  | error f =>
    obtain ⟨h1, h2, h3⟩ := readConn_fault h.inv.core (h.rb i) (show readConn c i rv ts = .error f from hx)
    refine .inr ⟨?_, h2, ?_⟩
    · rcases h1 with rfl | rfl
      · exact .inl rfl
      · exact .inr rfl
    · unfold ReadSafe at h3
      rw [Classical.not_not] at h3
      exact h3

/-! ## C59: specification -/

/-- Specification: what a call reads from the socket of connection `i`: what recv() has, up to the room there is. -/
def opIn (i : Nat) (c : SubCtx) : Op → List UInt8
  | .read j rv _ => if j = i then offered (c.cv.conns i).readBuf rv else []
  | _ => []

/-- Specification: the bytes that the reads on connection `i` among these calls took from its socket: each what recv() had, up to the
room there was. -/
def bytesIn (i : Nat) (c : SubCtx) : List Op → List UInt8
  | [] => []
  | op :: ops =>
    match step c op with
    | .error _ => []
    | .ok (_, c') => opIn i c op ++ bytesIn i c' ops

/-- Specification: the connection is up after each of these calls. -/
def staysUp (i : Nat) (c : SubCtx) : List Op → Bool
  | [] => true
  | op :: ops =>
    match step c op with
    | .error _ => false
    | .ok (_, c') => decide (Up c' i) && staysUp i c' ops

/-- Specification: the packets (id and bytes) that came in over connection `i`, as opposed to multicast. -/
def resent (i : Nat) (log : List SEv) : List (Nat × List UInt8) :=
  log.filterMap fun
    | .arrive j p m _ => if j = i ∧ m = false then some (p.pid, p.payload.data) else none
    | _ => none

theorem resent_append (i : Nat) (a b : List SEv) : resent i (a ++ b) = resent i a ++ resent i b := by
  unfold resent; rw [List.filterMap_append]

theorem resent_came (i : Nat) (log : List SEv) :
    resent i log = (came log).filterMap fun x => if x.1 = i ∧ x.2.2.2 = false then some (x.2.1, x.2.2.1) else none := by
  unfold resent came arrives
  rw [List.filterMap_map, List.filterMap_filterMap]
  congr 1
  funext e
  cases e <;> rfl

/-! ## Proof -/

/-- Which arrivals a small step can log. -/
theorem Micro.arrival {tm : Nat} {c c' : SubCtx} (m : Micro tm c c') : ∃ es, c'.log = c.log ++ es ∧
    ∀ j p b ts, SEv.arrive j p b ts ∈ es → (tm = 2 ∧ b = true) ∨ (tm = 3 + j ∧ b = false) := by
  cases m with
  | @user a p ps hx e he =>
    refine ⟨[e], rfl, ?_⟩
    intro j q b ts h
    rw [List.mem_singleton] at h
    rcases he with he | he <;> rw [he] at h <;> cases h
  | cb hk => exact ⟨[_], rfl, by simp⟩
  | setCb f hk => exact ⟨[], (List.append_nil _).symm, by simp⟩
  | annCb a => exact ⟨[_], rfl, by simp⟩
  | sock m es => exact ⟨[], (List.append_nil _).symm, by simp⟩
  | @dup i s hu hs p m ts hp hd hk =>
    refine ⟨[_], rfl, ?_⟩
    intro j q b ts h
    rw [List.mem_singleton] at h
    cases h; exact hk
  | @recv i s hu hs pid data m ts hd al ha hk =>
    refine ⟨[.arrive i ⟨c.nextAddr, pid, ⟨c.nextAddr, data, false⟩, i⟩ m ts] ++ [.alloc ⟨c.nextAddr, pid, ⟨c.nextAddr, data, false⟩, i⟩] ++
      (process (received' s ⟨c.nextAddr, pid, ⟨c.nextAddr, data, false⟩, i⟩ m ts)).2.map .ready, ?_, ?_⟩
    · show _ ++ _ ++ _ ++ _ = _
      rw [List.append_assoc, List.append_assoc, List.append_assoc]
    intro j q b ts h
    rcases List.mem_append.1 h with h | h
    · rcases List.mem_append.1 h with h | h
      · rw [List.mem_singleton] at h; cases h; exact hk
      · rw [List.mem_singleton] at h; cases h
    · obtain ⟨x, _, hx⟩ := List.mem_map.1 h; cases hx
  | io hu rb a es => exact ⟨[], (List.append_nil _).symm, by simp⟩
  | taken hs hi ha => exact ⟨[_], rfl, by simp⟩
  | dropAck ha hs hi => exact ⟨[], (List.append_nil _).symm, by simp⟩
  | @msg i hu b e xs hw hz hb he =>
    refine ⟨[e], rfl, ?_⟩
    intro j q b ts h
    rw [List.mem_singleton] at h
    rcases he with ⟨iv, _, he, _⟩ | ⟨bs, ds, he, _⟩ <;> rw [he] at h <;> cases h
  | out hu hw hz hb a es => exact ⟨[_], rfl, by simp⟩
  | connect addr port nid d hv hL hi hv' h1 h2 h3 h4 h5 => exact ⟨[_], rfl, by simp⟩
  | noConnect hv hv' h1 h2 h3 h4 => exact ⟨[], (List.append_nil _).symm, by simp⟩
  | complete hi hm => exact ⟨[_], rfl, by simp⟩
  | @noComplete i hi hm L hv v hv' h1 h2 h3 h4 xs hx =>
    refine ⟨xs, rfl, ?_⟩
    intro j q b ts h
    rcases hx with hx | hx <;> rw [hx] at h <;> simp at h
  | @close i s hi hs =>
    refine ⟨[.closed i] ++ _, by rw [← List.append_assoc]; rfl, ?_⟩
    intro j q b ts h
    rcases List.mem_append.1 h with h | h
    · rw [List.mem_singleton] at h; cases h
    · obtain ⟨x, _, hx⟩ := List.mem_map.1 h; cases hx

theorem Steps.arrival {tm : Nat} {c c' : SubCtx} (m : Steps tm c c') : ∃ es, c'.log = c.log ++ es ∧
    ∀ j p b ts, SEv.arrive j p b ts ∈ es → (tm = 2 ∧ b = true) ∨ (tm = 3 + j ∧ b = false) := by
  induction m with
  | nil => exact ⟨[], (List.append_nil _).symm, by simp⟩
  | cons m _ ih =>
    obtain ⟨e1, h1, h2⟩ := m.arrival
    obtain ⟨e2, h3, h4⟩ := ih
    refine ⟨e1 ++ e2, by rw [h3, h1, List.append_assoc], ?_⟩
    intro j p b ts h
    rcases List.mem_append.1 h with h | h
    · exact h2 j p b ts h
    · exact h4 j p b ts h

theorem resent_none {i : Nat} {es : List SEv} (h : ∀ p ts, SEv.arrive i p false ts ∉ es) : resent i es = [] := by
  unfold resent
  rw [List.filterMap_eq_nil_iff]
  intro e he
  cases e with
  | arrive j p m ts =>
    dsimp only
    rw [if_neg]
    rintro ⟨rfl, rfl⟩
    exact h p ts he
  | _ => rfl

theorem bytesIn_cons {i : Nat} {c c' : SubCtx} {op : Op} {ops : List Op} {r : Nat} (h : step c op = .ok (r, c')) :
    bytesIn i c (op :: ops) = opIn i c op ++ bytesIn i c' ops := by
  rw [bytesIn, h]

/-- The packet in a command. -/
abbrev pkts (xs : List UInt8) : List (Nat × List UInt8) := (commandsOf xs).map pktOf

theorem stream_step {c c' : SubCtx} {op : Op} {r i : Nat} (hi : Inv c) (hr : RbOK c i) (hu : Up c i) (hu' : Up c' i)
    (hs : step c op = .ok (r, c')) :
    resent i c'.log = resent i c.log ++ pkts (bytes (c.cv.conns i).readBuf ++ opIn i c op) ∧
    bytes (c'.cv.conns i).readBuf = restOf (bytes (c.cv.conns i).readBuf ++ opIn i c op) := by
  by_cases hop : op = .deactivate
  · subst hop
    exact absurd hu' (notUp_of_find (deactivate_closed hi.core hi.mem hs).1 i)
  by_cases hread : ∃ rv ts, op = .read i rv ts
  · obtain ⟨rv, ts, rfl⟩ := hread
    have hs' : readConn c i rv ts = .ok (r, c') := hs
    have hin : opIn i c (.read i rv ts) = offered (c.cv.conns i).readBuf rv := by
      show (if i = i then _ else _) = _
      rw [if_pos rfl]
    rw [hin]
    rcases read_up hu hr hs' hu' with ⟨g0, _, e⟩ | ⟨h1, h2⟩
    · rw [setConn_self] at e
      have e0 : offered (c.cv.conns i).readBuf rv = [] := by
        unfold offered; rw [g0]; exact List.take_zero
      rw [e0, List.append_nil]
      subst e
      obtain ⟨l1, l2, _⟩ := hr.2.2.1
      refine ⟨?_, l2.symm⟩
      show resent i c.log = _ ++ List.map pktOf (commandsOf _)
      rw [l1]
      exact (List.append_nil _).symm
    · rw [readConn_offered] at hs'
      obtain ⟨d, b', g1, g2, g3, g4, g5, g6, g7, g8, g9, g10⟩ := readConn_lang hi.core hu hr.1 (by rw [hr.2.1]; decide) ts h1
        (by unfold offered; rw [List.length_take]; omega) h2
      have hst : (subLang i ts).status (bytes (c.cv.conns i).readBuf ++ offered (c.cv.conns i).readBuf rv) ≠ EPROTO := by
        intro e
        rw [g10 e] at hs'
        obtain ⟨⟨r3, c3⟩, h5, h6⟩ := bind_ok hs'
        have e : c3 = c' := congrArg Prod.snd (Except.ok.inj h6)
        subst e
        exact closeConnection_down h5 hu'
      rw [g9 hst] at hs'
      have e : afterRead d i b' = c' := congrArg Prod.snd (Except.ok.inj hs')
      refine ⟨?_, ?_⟩
      · rw [resent_came, resent_came, ← e]
        have : came (afterRead d i b').log = came d.log := rfl
        rw [this, g4, List.filterMap_append]
        congr 1
        rw [List.filterMap_map]
        show _ = List.map pktOf (commandsOf _)
        rw [← List.filterMap_eq_map]
        have : ((fun x => if x.1 = i ∧ x.2.2.2 = false then some (x.2.1, x.2.2.1) else none) ∘
            fun x : List UInt8 => (i, (pktOf x).1, (pktOf x).2, false)) = some ∘ pktOf := by
          funext x
          show (if i = i ∧ _ then some ((pktOf x).1, (pktOf x).2) else none) = _
          rw [if_pos ⟨rfl, rfl⟩]; rfl
        rw [this]; rfl
      · rw [← e, afterRead_self]; exact g7
  · have hne : ∀ rv ts, op ≠ .read i rv ts := fun rv ts e => hread ⟨rv, ts, e⟩
    have hin : opIn i c op = [] := by
      cases op with
      | read j rv ts =>
        show (if j = i then _ else _) = _
        rw [if_neg]
        rintro rfl
        exact hne rv ts rfl
      | _ => rfl
    obtain ⟨es, hk⟩ := step_slot hi hs hne hop ⟨hu.1, by rw [hu.2]; simp⟩ ⟨hu'.1, by rw [hu'.2]; simp⟩
    obtain ⟨es', h1, h2⟩ := (step_steps hi.core hi.mem hop hs).arrival
    obtain ⟨l1, l2, _⟩ := hr.2.2.1
    rw [hin, List.append_nil, hk.rb]
    refine ⟨?_, l2.symm⟩
    rw [h1, resent_append]
    congr 1
    show _ = List.map pktOf (commandsOf _)
    rw [l1]
    apply resent_none
    intro p ts hp
    rcases h2 i p false ts hp with ⟨_, h3⟩ | ⟨h3, _⟩
    · cases h3
    · exact kind_ne hne h3

/-- C59: however the bytes that a publisher sends over a connection are cut into reads, and whatever other calls are made in between: as
long as the connection is up after every call, the packets that came in over it are exactly those of the complete commands in
the bytes read, each once, in order, with their bytes, and exactly the bytes behind the last complete command are kept for later. -/
theorem C59_stream {pre ops : List Op} {c c' : SubCtx} {rs : List Nat} (h : Reaches pre c) {i : Nat} (hu : Up c i)
    (hr : run c ops = .ok (rs, c')) (hs : staysUp i c ops = true) :
    resent i c'.log = resent i c.log ++ (commandsOf (bytes (c.cv.conns i).readBuf ++ bytesIn i c ops)).map pktOf ∧
    bytes (c'.cv.conns i).readBuf = restOf (bytes (c.cv.conns i).readBuf ++ bytesIn i c ops) := by
  induction ops generalizing pre c rs with
  | nil =>
    have e : c = c' := congrArg Prod.snd (Except.ok.inj hr)
    subst e
    obtain ⟨_, _, ⟨l1, l2, _⟩, _⟩ := h.rb i hu
    have : bytesIn i c [] = [] := rfl
    rw [this, List.append_nil, l1, l2]
    exact ⟨(List.append_nil _).symm, rfl⟩
  | cons op ops ih =>
    rw [run_cons] at hr
    obtain ⟨⟨r, c1⟩, h1, h2⟩ := bind_ok hr
    obtain ⟨⟨rs1, c2⟩, h3, h4⟩ := bind_ok h2
    have e : c2 = c' := congrArg Prod.snd (Except.ok.inj h4)
    subst e
    unfold staysUp at hs
    rw [h1] at hs
    dsimp only at hs
    rw [Bool.and_eq_true, decide_eq_true_iff] at hs
    obtain ⟨hu1, hs⟩ := hs
    obtain ⟨s1, s2⟩ := stream_step h.inv (h.rb i hu) hu hu1 h1
    obtain ⟨s3, s4⟩ := ih (h.snoc h1) hu1 h3 hs
    rw [bytesIn_cons h1, ← List.append_assoc]
    obtain ⟨p1, _, p3⟩ := split3 (bytes (c.cv.conns i).readBuf ++ opIn i c op) (bytesIn i c1 ops)
    rw [p1, p3, s3, s1, s4, s2, List.map_append, List.append_assoc]
    exact ⟨rfl, rfl⟩

/-- C59: a connection that has just been set up has read nothing: nothing is buffered. -/
theorem C59_start {pre : List Op} {op : Op} {c c' : SubCtx} {r i : Nat} (h : Reaches pre c) (hs : step c op = .ok (r, c')) (hn : ¬ Up c i)
    (hu : Up c' i) : bytes (c'.cv.conns i).readBuf = [] := by
  have hi := h.inv
  by_cases hop : op = .deactivate
  · subst hop
    exact absurd hu (notUp_of_find (deactivate_closed hi.core hi.mem hs).1 i)
  have hst := step_steps hi.core hi.mem hop hs
  have key : op.kind ≠ 3 + i := by
    intro hk
    obtain ⟨rv, ts, rfl⟩ : ∃ rv ts, op = .read i rv ts := by
      apply Classical.byContradiction
      intro hne
      exact kind_ne (fun rv ts e => hne ⟨rv, ts, e⟩) hk
    have hs' : readConn c i rv ts = .ok (r, c') := hs
    unfold readConn at hs'
    split at hs'
    · have e : c = c' := congrArg Prod.snd (Except.ok.inj hs')
      rw [← e] at hu; exact hn hu
    · rename_i hf
      exact hn (Up.of_find hi.core (fun e => hf (.inl e)) (by
        apply Classical.byContradiction; intro e; exact hf (.inr e)))
  have step1 : ∀ (a b : SubCtx), Micro op.kind a b → Core a → (Up a i → bytes (a.cv.conns i).readBuf = []) →
      Up b i → bytes (b.cv.conns i).readBuf = [] := by
    intro a b m hc ih hu
    have k : Live a i → bytes (a.cv.conns i).readBuf = [] → bytes (b.cv.conns i).readBuf = [] := by
      intro hl hr
      rcases m.slot hc hl key with h1 | ⟨es, h1⟩
      · exact absurd ⟨hu.1, by rw [hu.2]; simp⟩ h1.1
      · rw [h1.rb]; exact hr
    rcases m.up hc hu with h1 | ⟨l, _, _, _, h4, h5, h6⟩
    · exact k ⟨h1.1, by rw [h1.2]; simp⟩ (ih h1)
    · exact k ⟨h5, by rw [h6]; simp⟩ (fresh_bytes (hc.fresh i h5 (by rw [h6]; simp)).1 (by decide))
  exact (Steps.both (P := Core) (Q := fun d => Up d i → bytes (d.cv.conns i).readBuf = []) (fun _ _ m h => h.micro m)
    (fun a b m h1 h2 => step1 a b m h1 h2) hst hi.core (fun hu => absurd hu hn)).2 hu

/-- C59, for an honest publisher: if the bytes buffered and read are the packets `ps`, as they are resent, one after the other, and part
of another or nothing, then exactly the packets `ps` have come in over the connection, in order, with the ids and bytes they were
sent with; the part is kept. -/
theorem C59_packets {pre ops : List Op} {c c' : SubCtx} {rs : List Nat} (h : Reaches pre c) {i : Nat} (hu : Up c i)
    (hr : run c ops = .ok (rs, c')) (hs : staysUp i c ops = true)
    {ps : List (PacketHeader × List UInt8)} (hps : WellFormed ps) {part : List UInt8}
    (hpart : part = [] ∨ ∃ hd data, hd.Valid ∧ data.length = hd.payloadLen ∧ part.length < (frameOf hd data).length ∧
      part <+: frameOf hd data)
    (he : bytes (c.cv.conns i).readBuf ++ bytesIn i c ops = (ps.map fun p => frameOf p.1 p.2).flatten ++ part) :
    resent i c'.log = resent i c.log ++ ps.map (fun p => (p.1.pid, p.2)) ∧ bytes (c'.cv.conns i).readBuf = part := by
  obtain ⟨h1, h2⟩ := C59_stream h hu hr hs
  have hp := part_frame hpart
  obtain ⟨f1, f2, f3⟩ := commands_frames ps part hps
  obtain ⟨z, hz⟩ : ∃ z, z = (ps.map fun p => frameOf p.1 p.2).flatten ++ part := ⟨_, rfl⟩
  rw [← hz] at f1 f2 f3 he
  rw [he] at h1 h2
  rw [f1, hp.1, List.append_nil, List.map_map] at h1
  rw [f3, hp.2.2] at h2
  refine ⟨?_, h2⟩
  rw [h1]
  refine congrArg (resent i c.log ++ ·) (List.map_congr_left ?_)
  intro p hpm
  show pktOf (frameOf p.1 p.2) = _
  rw [frameOf_pkt (hps p hpm).1]

/-- C59: a read leaves a connection up exactly if its buffer was full (then nothing happens), or bytes came in, they do not end in
bytes that are no command, and `circ_buf_trim` gets them right (C05); else the connection is closed. -/
theorem C59_closes {pre : List Op} {c c' : SubCtx} {r i : Nat} {rv : Option (List UInt8)} {ts : Int} (h : Reaches pre c) (hu : Up c i)
    (hs : step c (.read i rv ts) = .ok (r, c')) :
    Up c' i ↔ available (c.cv.conns i).readBuf = 0 ∨
      (offered (c.cv.conns i).readBuf rv ≠ [] ∧
        statusOf (bytes (c.cv.conns i).readBuf ++ offered (c.cv.conns i).readBuf rv) ≠ EPROTO ∧
        ¬ (inUse (c.cv.conns i).readBuf + (offered (c.cv.conns i).readBuf rv).length + 1 < (c.cv.conns i).readBuf.start ∧
          (c.cv.conns i).readBuf.start + inUse (c.cv.conns i).readBuf + (offered (c.cv.conns i).readBuf rv).length <
            (c.cv.conns i).readBuf.size)) := by
  have hb := h.rb i hu
  have hs' : readConn c i rv ts = .ok (r, c') := hs
  constructor
  · intro hu'
    rcases read_up hu hb hs' hu' with ⟨h0, _⟩ | ⟨h1, h2⟩
    · exact .inl h0
    · refine .inr ⟨h1, ?_, h2⟩
      intro hst
      obtain ⟨d, b', g1, g2, g3, g4, g5, g6, g7, g8, g9, g10⟩ := readConn_lang h.inv.core hu hb.1 (by rw [hb.2.1]; decide) ts h1
        (by unfold offered; rw [List.length_take]; omega) h2
      rw [readConn_offered, g10 hst] at hs'
      obtain ⟨⟨r3, c3⟩, h5, h6⟩ := bind_ok hs'
      have e : c3 = c' := congrArg Prod.snd (Except.ok.inj h6)
      subst e
      exact closeConnection_down h5 hu'
  · rintro (h0 | ⟨h1, h2, h3⟩)
    · unfold readConn at hs'
      rw [if_neg hu.found, tcpRead_full _ _ _ h0, Proto.ok_bind] at hs'
      dsimp only at hs'
      rw [if_pos rfl, setConn_self] at hs'
      have e : _ = c' := congrArg Prod.snd (Except.ok.inj hs')
      rw [← e]; exact hu
    · obtain ⟨d, b', g1, g2, g3, g4, g5, g6, g7, g8, g9, g10⟩ := readConn_lang h.inv.core hu hb.1 (by rw [hb.2.1]; decide) ts h1
        (by unfold offered; rw [List.length_take]; omega) h3
      rw [readConn_offered, g9 h2] at hs'
      have e : afterRead d i b' = c' := congrArg Prod.snd (Except.ok.inj hs')
      rw [← e]; exact hu.afterRead g3 b'

/-! ## Non-vacuity -/

/-- Five packets resent, in reads of 30, 14, 10 and 55 bytes with other calls between, the last byte missing. -/
def exStream : List Op :=
  [.read 0 (some (exResent.take 30)) 1, .readMcast [exDg 4 3 [30] 1000], .timeout 100000,
   .read 0 (some ((exResent.drop 30).take 14)) 2, .write 0 (.ok 0) none (.ok 2), .read 1 (some [1]) 3,
   .read 0 (some ((exResent.drop 44).take 10)) 4, .read 0 (some ((exResent.drop 54).take 55)) 5]

example : ∃ c rs, Reaches exUp c ∧ run exS0 exUp = .ok (rs, c) ∧
    (decide (Up c 0) && staysUp 0 c exStream && decide (bytesIn 0 c exStream = exResent.take 109) &&
      (match run c exStream with
       | .ok x => decide (resent 0 x.2.log = [(5, [50]), (6, [60]), (7, [70]), (8, [80])] ∧
           bytes (x.2.cv.conns 0).readBuf = (exTcp 9 [90]).take 21)
       | .error _ => false)) = true :=
  reaches_of (P := fun _ c => decide (Up c 0) && staysUp 0 c exStream && decide (bytesIn 0 c exStream = exResent.take 109) &&
      (match run c exStream with
       | .ok x => decide (resent 0 x.2.log = [(5, [50]), (6, [60]), (7, [70]), (8, [80])] ∧
           bytes (x.2.cv.conns 0).readBuf = (exTcp 9 [90]).take 21)
       | .error _ => false)) (by decide +kernel)

end SubCtx
end Rmc
