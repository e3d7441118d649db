import Verif.PubCtxSteps

/-! # Writing, resending and timeouts of the publisher context -/

set_option linter.unusedSimpArgs false
set_option linter.unusedVariables false

namespace Rmc

/-! ## What a subscriber owes, with payloads and send times -/

/-- The packets on a subscriber's in-flight list, oldest first: id, payload, time sent. -/
def Pub.owedPkts (s : Pub) (k : Nat) : List (Nat × Payload × Int) :=
  (s.sinfl k).reverse.filterMap fun a => (s.pk a).map fun p => (p.pid, p.payload, p.sendTs)

theorem owedPkts_eq {s : Pub} {A : PSpec} (h : Pub.Rel s A) (k : Nat) :
    s.owedPkts k = (A.owes k).map fun r => (r.pid, r.payload, r.ts) := by
  obtain ⟨l, l1, l2, l3⟩ := Pub.Rel_sinfl h k
  unfold Pub.owedPkts
  rw [l1, l2, List.reverse_reverse, List.map_map]
  clear l1 l2
  induction l with
  | nil => rfl
  | cons e l ih =>
    rw [List.map_cons, List.filterMap_cons, l3 e (by simp)]
    simp only [Option.map_some, List.map_cons, Function.comp_apply]
    rw [ih (fun e he => l3 e (by simp [he]))]

theorem outstanding_owed {s : Pub} {A : PSpec} (h : Pub.Rel s A) (k : Nat) : s.outstanding k = (s.owedPkts k).map (·.1) := by
  rw [outstanding_eq h, owedPkts_eq h, List.map_map]; rfl

theorem owed_ack {s s' : Pub} {pops : List POp} {k pid : Nat} (h : PGood s pops) (h' : PGood s' (pops ++ [.ack k pid])) :
    s'.owedPkts k = (s.owedPkts k).filter (fun x => decide (x.1 ≠ pid)) ∧
    (∀ j, j ≠ k → s'.owedPkts j = s.owedPkts j) ∧ s'.unackedCount ≤ s.unackedCount := by
  have hr := h.reached
  have hr' := h'.reached
  unfold spec at hr hr'
  rw [PSpec.run_snoc] at hr'
  generalize PSpec.init.run pops = A at hr hr'
  refine ⟨?_, ?_, ?_⟩
  · rw [owedPkts_eq hr'.rel, owedPkts_eq hr.rel]
    unfold PSpec.owes PSpec.step PSpec.release
    simp only
    rw [PSpec.owes_filterMap k _ _ hr.inv.owedND, List.filter_map]
    congr 1
    apply List.filter_congr
    intro x _
    by_cases hx : x.pid = pid <;> simp [hx]
  · intro j hj
    rw [owedPkts_eq hr'.rel, owedPkts_eq hr.rel]
    exact PSpec.owes_other hj (fun q => q == pid) A.infl
  · obtain ⟨Q, N, I, r1, r2, r3, r4, r5, _⟩ := hr.rel
    obtain ⟨Q', N', I', t1, t2, t3, t4, t5, _⟩ := hr'.rel
    have e1 : s.unackedCount = A.infl.length := by unfold Pub.unackedCount; rw [r5, r3]; simp
    have e2 : s'.unackedCount = (A.step (.ack k pid)).infl.length := by unfold Pub.unackedCount; rw [t5, t3]; simp
    rw [e1, e2]
    exact List.length_filterMap_le _ _

theorem nodup_rev {α : Type} {l : List α} : l.reverse.Nodup ↔ l.Nodup := by
  unfold List.Nodup
  rw [List.pairwise_reverse]
  constructor <;> intro h <;> exact h.imp (fun h e => h e.symm)

/-- The packets in `l` (address, id, payload, time sent) are on subscriber `i`'s list. -/
structure Holds (s : Pub) (i : Nat) (l : List (Nat × (Nat × Payload × Int))) : Prop where
  nodup : (l.map (·.1)).Nodup
  mem : ∀ e ∈ l, e.1 ∈ s.sinfl i
  pk : ∀ e ∈ l, ∃ rc, s.pk e.1 = some ⟨e.2.1, rc, some .inflight, e.2.2.2, e.2.2.1⟩

theorem Holds_all {s : Pub} {pops : List POp} (h : PGood s pops) (i : Nat) :
    ∃ l, s.sinfl i = (l.map (·.1)).reverse ∧ s.owedPkts i = l.map (·.2) ∧ Holds s i l := by
  have hr := h.reached
  obtain ⟨l, l1, l2, l3⟩ := Pub.Rel_sinfl hr.rel i
  refine ⟨l.map fun e => (e.1, e.2.pid, e.2.payload, e.2.ts), ?_, ?_, ?_, ?_, ?_⟩
  · rw [l1, List.map_map]; rfl
  · rw [owedPkts_eq hr.rel, l2, List.map_map, List.map_map]; rfl
  · have : (s.sinfl i).Nodup := by
      obtain ⟨Q, N, I, r1, r2, r3, r4, r5, r6, r7, r8, r9, r10, _⟩ := hr.rel
      rw [r6 i, nodup_rev]
      rw [List.nodup_append] at r10
      exact r10.2.1.sublist (List.filter_sublist.map _)
    rw [l1, nodup_rev] at this
    rw [List.map_map]; exact this
  · intro e he
    obtain ⟨x, hx, rfl⟩ := List.mem_map.mp he
    rw [l1, List.mem_reverse]
    exact List.mem_map.mpr ⟨x, hx, rfl⟩
  · intro e he
    obtain ⟨x, hx, rfl⟩ := List.mem_map.mp he
    exact ⟨_, l3 x hx⟩

theorem Holds_ack {s s' : Pub} {pops : List POp} {i : Nat} (h : PGood s pops) {e : Nat × (Nat × Payload × Int)}
    {l : List (Nat × (Nat × Payload × Int))} (hl : Holds s i (e :: l)) (hs : Pub.step s (.ack i e.2.1) = .ok s') :
    Holds s' i l := by
  have hr := h.reached
  obtain ⟨x, l1, l2, l3⟩ := Pub.Rel_sinfl hr.rel i
  obtain ⟨rc, hpk⟩ := hl.pk e (by simp)
  have hmem := hl.mem e (by simp)
  have hfind := Pub.findPid_spec (pk := s.pk) (pid := e.2.1) Sent.pid x (fun e he => ⟨_, l3 e he, rfl⟩)
  have hasc := PSpec.owes_asc hr.inv i
  rw [l2, List.map_map] at hasc
  have hnd : (x.map (fun y => y.2.pid)).Nodup := hasc.imp (fun h => Nat.ne_of_lt h)
  rw [l1, List.mem_reverse] at hmem
  obtain ⟨y, hy, hye⟩ := List.mem_map.mp hmem
  have hypid : y.2.pid = e.2.1 := by
    have := l3 y hy
    rw [hye, hpk, Option.some.injEq, Pkt.mk.injEq] at this
    exact this.1.symm
  have hf : (x.find? (fun e' => decide (e'.2.pid = e.2.1))).map (·.1) = some e.1 := by
    cases hq : x.find? (fun e' => decide (e'.2.pid = e.2.1)) with
    | none =>
      rw [List.find?_eq_none] at hq
      exact absurd hypid (by simpa using hq y hy)
    | some z =>
      have h1 := List.mem_of_find?_eq_some hq
      have h2 := List.find?_some hq
      have : z = y := inj_of_nodup_map hnd h1 hy (by simpa [hypid] using h2)
      rw [this]; simp [hye]
  have hs' : Pub.ackCore (Pub.ev s (.ack i e.2.1)) i e.2.1 = .ok s' := hs
  unfold Pub.ackCore at hs'
  have e0 : Pub.findPid (Pub.ev s (.ack i e.2.1)).pk e.2.1 ((Pub.ev s (.ack i e.2.1)).sinfl i).reverse = .ok (some e.1) := by
    show Pub.findPid s.pk e.2.1 (s.sinfl i).reverse = _
    rw [l1, List.reverse_reverse, hfind, hf]
  rw [e0, Pub.ok_bind] at hs'
  dsimp only at hs'
  have e1 : Pub.deref (Pub.ev s (.ack i e.2.1)).pk e.1 = .ok ⟨e.2.1, rc, some .inflight, e.2.2.2, e.2.2.1⟩ := by
    show Pub.deref s.pk e.1 = _
    unfold Pub.deref; rw [hpk]
  rw [e1, Pub.ok_bind] at hs'
  dsimp only at hs'
  have key : (∀ a, a ≠ e.1 → s'.pk a = s.pk a) ∧ s'.sinfl i = (s.sinfl i).erase e.1 := by
    generalize (if rc = 0 then U32 - 1 else rc - 1) = rc' at hs'
    split at hs'
    · cases hs'
      constructor
      · intro a ha
        simp only [Pub.setPk, Pub.ev, Pub.setInfl]
        rw [if_neg ha, if_neg ha]
      · simp [Pub.setPk, Pub.ev, Pub.setInfl]
    · cases hs'
      constructor
      · intro a ha
        simp only [Pub.setPk, Pub.ev, Pub.setInfl]
        rw [if_neg ha]
      · simp [Pub.setPk, Pub.ev, Pub.setInfl]
  have hn := hl.nodup
  rw [List.map_cons, List.nodup_cons] at hn
  refine ⟨hn.2, ?_, ?_⟩
  · intro z hz
    rw [key.2]
    refine (List.mem_erase_of_ne ?_).mpr (hl.mem z (by simp [hz]))
    intro he; exact hn.1 (by rw [← he]; exact List.mem_map.mpr ⟨z, hz, rfl⟩)
  · intro z hz
    obtain ⟨r, hr⟩ := hl.pk z (by simp [hz])
    refine ⟨r, ?_⟩
    rw [key.1 z.1 ?_]
    · exact hr
    · intro he; exact hn.1 (by rw [← he]; exact List.mem_map.mpr ⟨z, hz, rfl⟩)

namespace PubCtx
open CircBuf

/-! ## Writing to a connection -/

theorem writeConn_spec {c : PubCtx} {pops : List POp} {L : List Nat} (h : Good c pops L) (i : Nat) (wv : Except Nat Nat) :
    (i ∉ L ∧ (writeConn c i wv = .ok (EINVAL, c) ∨ writeConn c i wv = .ok (ENOTCONN, c))) ∨
    (i ∈ L ∧ bytes (c.cv.conns i).writeBuf = [] ∧ writeConn c i wv = .ok (ENODATA, c)) ∨
    (i ∈ L ∧ bytes (c.cv.conns i).writeBuf ≠ [] ∧ ∃ r c' out, writeConn c i wv = .ok (r, c') ∧ Good c' pops L ∧
      cfg c' = cfg c ∧ c'.suspended = c.suspended ∧ c'.pub = c.pub ∧ c'.log = c.log ++ [.tcpOut i out] ∧
      bytes (c.cv.conns i).writeBuf = out ++ bytes (c'.cv.conns i).writeBuf ∧
      out = (match wv with | .error _ => [] | .ok n => (bytes (c.cv.conns i).writeBuf).take n) ∧
      (c'.cv.conns i).readBuf = (c.cv.conns i).readBuf ∧
      r = (match wv with | .error e => e | .ok _ => 0) ∧ ∀ j, j ≠ i → c'.cv.conns j = c.cv.conns j) := by
  unfold writeConn
  by_cases hi : i ∈ L
  · right
    have hlt := h.v.lt i hi
    rw [if_neg (by omega), ConnVec.findByIndex_spec h.v, if_pos hi, if_neg (by simp [h.conn i hi])]
    by_cases hb : bytes (c.cv.conns i).writeBuf = []
    · left
      refine ⟨hi, hb, ?_⟩
      rw [if_pos (inUse_zero_iff.mpr hb)]
    · right
      refine ⟨hi, hb, ?_⟩
      rw [if_neg (fun e => hb (inUse_zero_iff.mp e))]
      obtain ⟨w1, w2⟩ := h.wb i hi
      obtain ⟨code, left, b', out, t1, t2, t3, t4, t5, t6, t7, t8⟩ := Proto.tcpWrite_spec w1 (by rw [w2, h.buf]; exact Nat.le_refl _) wv
      rw [if_neg hb] at t6
      dsimp only
      rw [t1, Pub.ok_bind]
      obtain ⟨x, hx⟩ : ∃ x, x = { c.cv.conns i with
        writeBuf := b', action := if left = 0 then (c.cv.conns i).action.clearW else (c.cv.conns i).action.setW } := ⟨_, rfl⟩
      refine ⟨_, _, out, rfl, ?_, rfl, rfl, rfl, rfl, ?_, t7, ?_, t6, ?_⟩
      · refine (h.setConn hi (x := x) (es := [.modify i (c.cv.conns i).desc (c.cv.conns i).action x.action])
          (by rw [hx]) (by rw [hx]) (by rw [hx]; exact h.v.idx i) (by rw [hx]; exact t2) (by rw [hx]; exact t3.trans w2) ?_
          (by
            rw [hx]
            dsimp only
            intro hn
            rcases t8 with ⟨t8, t9⟩ | t8
            · refine absurd (inUse_zero_iff.mp ?_) hb
              have := inUse_zero_iff.mpr hn
              unfold inUse at this ⊢
              rw [t8, t9, t3] at this
              exact this
            · exact t8.2 hn) (.inr ⟨(c.cv.conns i).desc, rfl⟩)).congr rfl (by rw [hx]; rfl)
        rw [hx]
        dsimp only
        have hr := (h.arm i hi).1
        by_cases e : left = 0
        · rw [if_pos e]
          rw [e] at t5
          exact ⟨hr, fun hw => (by cases hw), fun hn => absurd (List.length_eq_zero_iff.mp t5.symm) hn⟩
        · rw [if_neg e]
          exact ⟨hr, fun _ hn => e (by rw [t5, hn]; rfl), fun _ => rfl⟩
      · show _ = out ++ bytes (if i = i then _ else _ : Conn).writeBuf
        rw [if_pos rfl]; exact t4
      · show (if i = i then _ else _ : Conn).readBuf = _
        rw [if_pos rfl]
      · intro j hj
        show (if j = i then _ else c.cv.conns j : Conn) = _
        rw [if_neg hj]
  · left
    refine ⟨hi, ?_⟩
    by_cases hs : i ≥ c.cv.size
    · left; rw [if_pos hs]
    · right; rw [if_neg hs, ConnVec.findByIndex_spec h.v, if_neg hi, if_pos (.inl rfl)]

/-! ## Resending -/

/-- What is put on a TCP connection to resend a packet. -/
def frame (c : Cfg) (pid : Nat) (p : Payload) : List UInt8 :=
  CMD_PACKET :: ((PacketHeader.mk pid c.nodeId p.data.length c.listenIp c.listenPort).enc ++ p.data)

theorem enc_length (h : PacketHeader) : h.enc.length = 20 := h.length_enc

theorem frame_length (c : Cfg) (pid : Nat) (p : Payload) : (frame c pid p).length = 21 + p.data.length := by
  unfold frame; rw [List.length_cons, List.length_append, enc_length]; omega

theorem resendFill_ok {c : PubCtx} {b : CircBuf} (hw : WF b) {p : Pkt} (ha : 1 + HDR_LEN + p.payload.data.length ≤ available b)
    (hst : b.stop < b.size) : ∃ b', resendFill c b p = .ok b' ∧ WF b' ∧ b'.size = b.size ∧
      bytes b' = bytes b ++ frame (cfg c) p.pid p.payload ∧ b'.start = b.start := by
  have h20 : HDR_LEN = 20 := rfl
  obtain ⟨b1, k1, k2, k3, k4, k5, k6⟩ := Proto.putCmd_ok hw (by omega) hst CMD_PACKET
  have hav : ∀ {x y : CircBuf} {zs : List UInt8}, WF x → WF y → y.size = x.size → bytes y = bytes x ++ zs →
      available y = available x - zs.length := by
    intro x y zs hx hy h1 h2
    have a1 := available_eq hx
    have a2 := available_eq hy
    have a3 := congrArg List.length h2
    rw [List.length_append, length_bytes, length_bytes] at a3
    omega
  have v1 := hav hw k2 k3 k6
  rw [List.length_singleton] at v1
  obtain ⟨b2, p1, p2, p3, p4, p5⟩ := put_ok k2 (xs := (header c p).enc) (by rw [enc_length]; omega)
  have v2 := hav k2 p2 p3 p5
  rw [enc_length] at v2
  obtain ⟨b3, q1, q2, q3, q4, q5⟩ := put_ok p2 (xs := p.payload.data) (by omega)
  refine ⟨b3, ?_, q2, by omega, ?_, by omega⟩
  · unfold resendFill
    rw [k1, Pub.ok_bind]; dsimp only; rw [if_neg (by decide), p1, Pub.ok_bind]; dsimp only
    rw [if_neg (by decide), q1, Pub.ok_bind]; rfl
  · rw [q5, p5, k6]; simp [frame, header, cfg]

theorem resendFill_oob {c : PubCtx} {b : CircBuf} (hw : WF b) {p : Pkt} (ha : 1 + HDR_LEN + p.payload.data.length ≤ available b)
    (hst : b.stop = b.size) : resendFill c b p = .error .oob := by
  unfold resendFill
  rw [Proto.C13_cmd_oob hw (by omega) hst]; rfl

/-- `rmc_pub_resend_packet`: a full buffer. -/
theorem resend_full {c : PubCtx} {pops : List POp} {L : List Nat} (h : Good c pops L) {i : Nat} (hi : i ∈ L) {p : Pkt}
    (ha : available (c.cv.conns i).writeBuf < 1 + HDR_LEN + p.payload.data.length) :
    ∃ c', resendPacket c i p = .ok (EAGAIN, c') ∧ (p.payload.data.length ≤ RMC_MAX_PAYLOAD → Good c' pops L) ∧ cfg c' = cfg c ∧
      c'.suspended = c.suspended ∧
      c'.pub = c.pub ∧ c'.log = c.log ∧ (c'.cv.conns i).writeBuf = (c.cv.conns i).writeBuf ∧
      (c'.cv.conns i).readBuf = (c.cv.conns i).readBuf ∧ (∀ j, j ≠ i → c'.cv.conns j = c.cv.conns j) := by
  unfold resendPacket
  dsimp only
  rw [if_pos ha]
  unfold armWrite
  dsimp only
  by_cases hw : (c.cv.conns i).action.w = true
  · rw [if_pos hw]; exact ⟨c, rfl, fun _ => h, rfl, rfl, rfl, rfl, rfl, rfl, fun _ _ => rfl⟩
  · rw [if_neg hw]
    obtain ⟨x, hx⟩ : ∃ x, x = { c.cv.conns i with action := (c.cv.conns i).action.setW } := ⟨_, rfl⟩
    obtain ⟨w1, w2⟩ := h.wb i hi
    refine ⟨_, rfl, ?_, rfl, rfl, rfl, rfl, ?_, ?_, ?_⟩
    · intro hlen
      have hne : bytes (c.cv.conns i).writeBuf ≠ [] := by
        intro hn
        have h1 := available_eq w1
        rw [inUse_zero_iff.mpr hn, w2, h.buf] at h1
        have h2 : RMC_MAX_PACKET = 65400 := rfl
        have h3 : RMC_MAX_PAYLOAD = 65312 := rfl
        have h4 : HDR_LEN = 20 := rfl
        omega
      exact (h.setConn hi (x := x) (es := [.modify i (c.cv.conns i).desc (c.cv.conns i).action x.action]) (by rw [hx])
        (by rw [hx]) (by rw [hx]; exact h.v.idx i) (by rw [hx]; exact w1) (by rw [hx]; exact w2)
        (by rw [hx]; exact ⟨(h.arm i hi).1, fun _ => hne, fun _ => rfl⟩) (by rw [hx]; exact h.zero i hi) (.inr ⟨(c.cv.conns i).desc, rfl⟩)).congr rfl (by rw [hx]; rfl)
    · show (if i = i then _ else _ : Conn).writeBuf = _
      rw [if_pos rfl]
    · show (if i = i then _ else _ : Conn).readBuf = _
      rw [if_pos rfl]
    · intro j hj
      show (if j = i then _ else c.cv.conns j : Conn) = _
      rw [if_neg hj]

/-- `rmc_pub_resend_packet`: enough room, and the write position is not at the end of the array. -/
theorem resend_ok {c : PubCtx} {pops : List POp} {L : List Nat} (h : Good c pops L) {i : Nat} (hi : i ∈ L) {p : Pkt}
    (ha : 1 + HDR_LEN + p.payload.data.length ≤ available (c.cv.conns i).writeBuf)
    (hst : (c.cv.conns i).writeBuf.stop < (c.cv.conns i).writeBuf.size) :
    ∃ c', resendPacket c i p = .ok (0, c') ∧ Good c' pops L ∧ cfg c' = cfg c ∧ c'.suspended = c.suspended ∧
      c'.pub = c.pub ∧ c'.log = c.log ∧
      bytes (c'.cv.conns i).writeBuf = bytes (c.cv.conns i).writeBuf ++ frame (cfg c) p.pid p.payload ∧
      (c'.cv.conns i).readBuf = (c.cv.conns i).readBuf ∧ (∀ j, j ≠ i → c'.cv.conns j = c.cv.conns j) ∧
      (c'.cv.conns i).writeBuf.start = (c.cv.conns i).writeBuf.start := by
  obtain ⟨w1, w2⟩ := h.wb i hi
  obtain ⟨b, k1, k2, k3, k4, k0⟩ := resendFill_ok (c := c) w1 ha hst
  unfold resendPacket
  dsimp only
  rw [if_neg (by omega), k1, Pub.ok_bind]
  obtain ⟨y, hy⟩ : ∃ y, y = { c.cv.conns i with writeBuf := b } := ⟨_, rfl⟩
  have hci : (setConn c i y).cv.conns i = y := by
    show (if i = i then y else _) = y; rw [if_pos rfl]
  rw [← hy]
  unfold armWrite
  dsimp only
  rw [hci]
  by_cases hw : y.action.w = true
  · rw [if_pos hw]
    refine ⟨_, rfl, ?_, rfl, rfl, rfl, rfl, ?_, ?_, ?_⟩
    · refine (h.setConn hi (x := y) (es := []) (by rw [hy]) (by rw [hy]) (by rw [hy]; exact h.v.idx i)
        (by rw [hy]; exact k2) (by rw [hy]; exact k3.trans w2)
        ⟨by rw [hy]; exact (h.arm i hi).1, fun _ => (by rw [hy]; dsimp only; rw [k4]; simp [frame]), fun _ => hw⟩
        (by rw [hy]; dsimp only; rw [k4]; intro e; exact absurd (List.append_eq_nil_iff.1 e).2 (by simp [frame]))
        (.inl ⟨rfl, by rw [hy]⟩)).congr rfl ?_
      show ConnVec.set c.cv i y = _
      rw [List.append_nil]; rfl
    · rw [hci, hy]; exact k4
    · rw [hci, hy]
    · refine ⟨?_, by rw [hci, hy]; exact k0⟩
      intro j hj
      show (if j = i then y else c.cv.conns j : Conn) = _
      rw [if_neg hj]
  · rw [if_neg hw]
    obtain ⟨x, hx⟩ : ∃ x, x = { y with action := y.action.setW } := ⟨_, rfl⟩
    have hc2 : (pollModify (setConn (setConn c i y) i x) i y.desc y.action y.action.setW).cv.conns i = x := by
      show (if i = i then x else _) = x; rw [if_pos rfl]
    rw [← hx]
    refine ⟨_, rfl, ?_, rfl, rfl, rfl, rfl, ?_, ?_, ?_⟩
    · refine (h.setConn hi (x := x) (es := [.modify i y.desc (c.cv.conns i).action x.action]) (by rw [hx, hy])
        (by rw [hx, hy]) (by rw [hx, hy]; exact h.v.idx i) (by rw [hx, hy]; exact k2) (by rw [hx, hy]; exact k3.trans w2)
        ⟨by rw [hx, hy]; exact (h.arm i hi).1, fun _ => (by rw [hx, hy]; dsimp only; rw [k4]; simp [frame]), fun _ => by rw [hx]; rfl⟩
        (by rw [hx, hy]; dsimp only; rw [k4]; intro e; exact absurd (List.append_eq_nil_iff.1 e).2 (by simp [frame]))
        (.inr ⟨y.desc, rfl⟩)).congr rfl ?_
      show ((ConnVec.set (ConnVec.set c.cv i y) i x).poll _) = _
      rw [set_set, hx, hy]; rfl
    · rw [hc2, hx, hy]; exact k4
    · rw [hc2, hx, hy]
    · refine ⟨?_, by rw [hc2, hx, hy]; exact k0⟩
      intro j hj
      show (if j = i then x else if j = i then y else c.cv.conns j : Conn) = _
      rw [if_neg hj, if_neg hj]

/-- `rmc_pub_resend_packet`: the write position is at the end of the array. -/
theorem resend_oob {c : PubCtx} {pops : List POp} {L : List Nat} (h : Good c pops L) {i : Nat} (hi : i ∈ L) {p : Pkt}
    (ha : 1 + HDR_LEN + p.payload.data.length ≤ available (c.cv.conns i).writeBuf)
    (hst : (c.cv.conns i).writeBuf.stop = (c.cv.conns i).writeBuf.size) : resendPacket c i p = .error .oob := by
  unfold resendPacket
  dsimp only
  rw [if_neg (by omega), resendFill_oob (h.wb i hi).1 ha hst]; rfl

/-! ## The resend loops -/

/-- A packet of `l`, as it is resent. -/
def frameOf (c : Cfg) (x : Nat × Payload × Int) : List UInt8 := frame c x.1 x.2.1

/-- A packet held for a subscriber is not too long. -/
theorem Holds.len {s : Pub} {pops : List POp} {i : Nat} (h : PGood s pops) {l : List (Nat × (Nat × Payload × Int))} (hl : Holds s i l)
    {e : Nat × (Nat × Payload × Int)} (he : e ∈ l) : e.2.2.1.data.length ≤ RMC_MAX_PAYLOAD := by
  obtain ⟨l', l1, l2, l3⟩ := Pub.Rel_sinfl h.reached.rel i
  have hm := hl.mem e he
  rw [l1, List.mem_reverse, List.mem_map] at hm
  obtain ⟨e', he', h1⟩ := hm
  obtain ⟨rc, h2⟩ := hl.pk e he
  have h3 := l3 e' he'
  rw [h1, h2] at h3
  have h4 : e.2.2.1 = e'.2.payload := congrArg Pkt.payload (Option.some.inj h3)
  have h5 : e'.2 ∈ (spec pops).owes i := by rw [l2]; exact List.mem_map.mpr ⟨e', he', rfl⟩
  rw [h4]
  exact h.size_le (.inl (h.spec_mem.2.2 _ (List.mem_filter.mp h5).1).1)

/-- One timed out packet. -/
theorem sentPacketTimeout_spec {c : PubCtx} {pops : List POp} {L : List Nat} (h : Good c pops L) {i : Nat} (hi : i ∈ L)
    {e : Nat × (Nat × Payload × Int)} {l : List (Nat × (Nat × Payload × Int))} (hl : Holds c.pub i (e :: l)) :
    (available (c.cv.conns i).writeBuf < 21 + e.2.2.1.data.length ∧
      ∃ c', sentPacketTimeout c i e.1 = .ok (EAGAIN, c') ∧ Good c' pops L ∧ cfg c' = cfg c ∧ c'.suspended = c.suspended ∧
      c'.pub = c.pub ∧ c'.log = c.log ∧ (c'.cv.conns i).writeBuf = (c.cv.conns i).writeBuf ∧
      (∀ j, j ≠ i → c'.cv.conns j = c.cv.conns j)) ∨
    (21 + e.2.2.1.data.length ≤ available (c.cv.conns i).writeBuf ∧
      (c.cv.conns i).writeBuf.stop < (c.cv.conns i).writeBuf.size ∧
      ∃ c', sentPacketTimeout c i e.1 = .ok (0, c') ∧ Good c' (pops ++ [.ack i e.2.1]) L ∧ AckStep c c' [.ack i e.2.1] ∧
      c'.log = c.log ∧ bytes (c'.cv.conns i).writeBuf = bytes (c.cv.conns i).writeBuf ++ frameOf (cfg c) e.2 ∧
      (∀ j, j ≠ i → c'.cv.conns j = c.cv.conns j) ∧ Holds c'.pub i l ∧
      (c'.cv.conns i).writeBuf.start = (c.cv.conns i).writeBuf.start) ∨
    ((c.cv.conns i).writeBuf.stop = (c.cv.conns i).writeBuf.size ∧ sentPacketTimeout c i e.1 = .error .oob) := by
  obtain ⟨rc, hpk⟩ := hl.pk e (by simp)
  have h21 : 1 + HDR_LEN = 21 := rfl
  obtain ⟨p, hp⟩ : ∃ p : Pkt, p = ⟨e.2.1, rc, some .inflight, e.2.2.2, e.2.2.1⟩ := ⟨_, rfl⟩
  rw [← hp] at hpk
  have hd : Pub.deref c.pub.pk e.1 = .ok p := by unfold Pub.deref; rw [hpk]
  have hpid : p.pid = e.2.1 := by rw [hp]
  have hpay : p.payload = e.2.2.1 := by rw [hp]
  unfold sentPacketTimeout
  rw [hd, Pub.ok_bind, if_neg (by simp [h.conn i hi])]
  by_cases ha : available (c.cv.conns i).writeBuf < 21 + e.2.2.1.data.length
  · left
    refine ⟨ha, ?_⟩
    obtain ⟨c1, k1, k2, k3, k4, k5, k6, k7, k8, k9⟩ := resend_full h hi (p := p) (by rw [h21, hpay]; exact ha)
    rw [k1, Pub.ok_bind, if_neg (by show ¬ EAGAIN = 0; decide)]
    exact ⟨c1, rfl, k2 (by rw [hpay]; exact Holds.len h.p hl (by simp)), k3, k4, k5, k6, k7, k9⟩
  · right
    have hst := (h.wb i hi).1.stop_le
    by_cases hs : (c.cv.conns i).writeBuf.stop < (c.cv.conns i).writeBuf.size
    · left
      refine ⟨by omega, hs, ?_⟩
      obtain ⟨c1, k1, k2, k3, k4, k5, k6, k7, k8, k9, k0⟩ := resend_ok h hi (p := p) (by rw [h21, hpay]; omega) hs
      obtain ⟨c2, g1, g2, g3, g4, g5⟩ := packetAck_spec k2 i p.pid
      rw [k1, Pub.ok_bind, if_pos rfl, g1, Pub.ok_bind]
      rw [hpid] at g1 g2 g3
      refine ⟨c2, rfl, g2, ?_, by rw [g5, k6], ?_, ?_, ?_, by rw [g4]; exact k0⟩
      · have e1 : c1.resumeThr = c.resumeThr := congrArg Cfg.resumeThr k3
        refine ⟨?_, g3.cfg.trans k3⟩
        have := g3.acks
        rw [e1, k5, k4] at this
        exact this
      · rw [g4, k7, hpid, hpay]; rfl
      · intro j hj; rw [g4, k9 j hj]
      · obtain ⟨s', q1, q2, q3, q4⟩ := ack_eq k2 i e.2.1
        rw [g1] at q4
        cases q4
        rw [k5] at q1
        exact Holds_ack h.p hl q1
    · right
      refine ⟨by omega, ?_⟩
      rw [resend_oob h hi (p := p) (by rw [h21, hpay]; omega) (by omega)]; rfl

theorem resendLoop_cons (c : PubCtx) (i a : Nat) (as : List Nat) :
    resendLoop c i (a :: as) = (sentPacketTimeout c i a >>= fun r => if r.1 ≠ 0 then .ok r else resendLoop r.2 i as) := rfl

/-- The acknowledgements the resend loop makes. -/
def ackOps (i : Nat) (l : List (Nat × Payload × Int)) : List POp := l.map fun x => .ack i x.1

theorem resendLoop_spec {i : Nat} {L : List Nat} (hi : i ∈ L) : ∀ (l : List (Nat × (Nat × Payload × Int))) {c c' : PubCtx}
    {pops : List POp} {r : Nat}, Good c pops L → Holds c.pub i l → resendLoop c i (l.map (·.1)) = .ok (r, c') →
    ∃ done rest, l.map (·.2) = done ++ rest ∧ Good c' (pops ++ ackOps i done) L ∧ AckStep c c' (ackOps i done) ∧
      c'.log = c.log ∧
      bytes (c'.cv.conns i).writeBuf = bytes (c.cv.conns i).writeBuf ++ (done.map (frameOf (cfg c))).flatten ∧
      (∀ j, j ≠ i → c'.cv.conns j = c.cv.conns j) ∧
      ((r = 0 ∧ rest = []) ∨ (r = EAGAIN ∧ ∃ x xs, rest = x :: xs ∧
        available (c'.cv.conns i).writeBuf < 21 + x.2.1.data.length)) := by
  intro l
  induction l with
  | nil =>
    intro c c' pops r h hl hx
    cases hx
    exact ⟨[], [], rfl, by simpa [ackOps] using h, .refl c, rfl, by simp, fun _ _ => rfl, .inl ⟨rfl, rfl⟩⟩
  | cons e l ih =>
    intro c c' pops r h hl hx
    rw [List.map_cons, resendLoop_cons] at hx
    rcases sentPacketTimeout_spec h hi hl with ⟨h1, c1, k1, k2, k3, k4, k5, k6, k7, k8⟩ |
      ⟨h1, h2, c1, k1, k2, k3, k4, k5, k6, k7, _⟩ | ⟨h1, k1⟩
    · rw [k1, Pub.ok_bind, if_pos (by show EAGAIN ≠ 0; decide)] at hx
      cases hx
      refine ⟨[], (e :: l).map (·.2), rfl, by simpa [ackOps] using k2, ⟨?_, k3⟩, k6, by rw [k7]; simp, k8,
        .inr ⟨rfl, e.2, l.map (·.2), rfl, by rw [k7]; exact h1⟩⟩
      rw [k5, k4]; exact .nil
    · rw [k1, Pub.ok_bind, if_neg (by simp)] at hx
      obtain ⟨done, rest, g1, g2, g3, g4, g5, g6, g7⟩ := ih k2 k7 hx
      refine ⟨e.2 :: done, rest, by rw [List.map_cons, g1]; rfl, ?_, k3.trans g3, by rw [g4, k4], ?_, ?_, g7⟩
      · rw [List.append_assoc] at g2; exact g2
      · have hc : cfg c1 = cfg c := k3.cfg
        rw [g5, k5, hc]; simp
      · intro j hj; rw [g6 j hj, k6 j hj]
    · rw [k1] at hx; cases hx

/-- Was the packet sent at least `to` ago? -/
def timedOut (now to : Int) (x : Nat × Payload × Int) : Bool := decide (x.2.2 + to ≤ now)

theorem timedOutPackets_spec {pk : Nat → Option Pkt} {now to : Int} : ∀ (l : List (Nat × (Nat × Payload × Int))),
    (∀ e ∈ l, ∃ rc, pk e.1 = some ⟨e.2.1, rc, some .inflight, e.2.2.2, e.2.2.1⟩) →
    Pub.timedOutPackets pk now to (l.map (·.1)) = .ok ((l.takeWhile fun e => timedOut now to e.2).map (·.1)) := by
  intro l
  induction l with
  | nil => intro _; rfl
  | cons e l ih =>
    intro h
    obtain ⟨rc, hr⟩ := h e (by simp)
    rw [List.map_cons, Pub.timedOutPackets]
    have : Pub.deref pk e.1 = .ok ⟨e.2.1, rc, some .inflight, e.2.2.2, e.2.2.1⟩ := by unfold Pub.deref; rw [hr]
    rw [this, Pub.ok_bind, List.takeWhile_cons]
    by_cases ht : e.2.2.2 + to ≤ now
    · rw [if_pos ht, ih (fun x hx => h x (by simp [hx])), Pub.ok_bind]
      rw [if_pos (by unfold timedOut; exact decide_eq_true ht)]
      rfl
    · rw [if_neg ht, if_neg (by unfold timedOut; simpa using ht)]; rfl

/-- The packets the loop tries to resend to a subscriber: those timed out, starting with the newest, up to the first that
is not. -/
def due (s : Pub) (k : Nat) (now to : Int) : List (Nat × Payload × Int) :=
  (s.owedPkts k).reverse.takeWhile (timedOut now to)

theorem takeWhile_reverse_holds {s : Pub} {pops : List POp} (h : PGood s pops) (i : Nat) (now to : Int) :
    ∃ l, Pub.timedOutPackets s.pk now to (s.sinfl i) = .ok (l.map (·.1)) ∧ l.map (·.2) = due s i now to ∧ Holds s i l := by
  obtain ⟨l, h1, h2, h3⟩ := Holds_all h i
  refine ⟨l.reverse.takeWhile fun e => timedOut now to e.2, ?_, ?_, ?_⟩
  · rw [h1, ← List.map_reverse]
    exact timedOutPackets_spec _ (fun e he => h3.pk e (List.mem_reverse.mp he))
  · unfold due
    rw [h2, ← List.map_reverse]
    rw [List.takeWhile_map]; rfl
  · have hsub : ∀ e ∈ l.reverse.takeWhile (fun e => timedOut now to e.2), e ∈ l :=
      fun e he => List.mem_reverse.mp ((List.takeWhile_prefix _).subset he)
    refine ⟨?_, fun e he => h3.mem e (hsub e he), fun e he => h3.pk e (hsub e he)⟩
    refine List.Nodup.sublist ((List.takeWhile_prefix _).sublist.map _) ?_
    rw [List.map_reverse, nodup_rev]; exact h3.nodup

theorem subscriberTimeout_spec {i : Nat} {L : List Nat} (hi : i ∈ L) {c c' : PubCtx} {pops : List POp} {r : Nat} {now : Int}
    (h : Good c pops L) (hx : subscriberTimeout c i now = .ok (r, c')) :
    ∃ done rest, due c.pub i now c.resendTimeout = done ++ rest ∧ Good c' (pops ++ ackOps i done) L ∧
      AckStep c c' (ackOps i done) ∧ c'.log = c.log ∧
      bytes (c'.cv.conns i).writeBuf = bytes (c.cv.conns i).writeBuf ++ (done.map (frameOf (cfg c))).flatten ∧
      (∀ j, j ≠ i → c'.cv.conns j = c.cv.conns j) ∧
      ((r = 0 ∧ rest = []) ∨ (r = EAGAIN ∧ ∃ x xs, rest = x :: xs ∧
        available (c'.cv.conns i).writeBuf < 21 + x.2.1.data.length)) := by
  obtain ⟨l, h1, h2, h3⟩ := takeWhile_reverse_holds h.p i now c.resendTimeout
  unfold subscriberTimeout at hx
  rw [h1, Pub.ok_bind] at hx
  rw [← h2]
  exact resendLoop_spec hi l h h3 hx

theorem owed_acks {i : Nat} : ∀ (l : List (Nat × Payload × Int)) {s s' : Pub} {pops : List POp}, PGood s pops →
    PGood s' (pops ++ ackOps i l) →
    s'.owedPkts i = (s.owedPkts i).filter (fun x => decide (x.1 ∉ l.map (·.1))) ∧
    (∀ j, j ≠ i → s'.owedPkts j = s.owedPkts j) ∧ s'.unackedCount ≤ s.unackedCount := by
  intro l
  induction l with
  | nil =>
    intro s s' pops h h'
    have h'' : PGood s' pops := by simpa [ackOps] using h'
    have : s' = s := by have := h''.run; rw [h.run] at this; cases this; rfl
    subst this
    exact ⟨(List.filter_eq_self.mpr (by simp)).symm, fun _ _ => rfl, Nat.le_refl _⟩
  | cons x l ih =>
    intro s s' pops h h'
    obtain ⟨s1, h1, h2⟩ := h.step (op := .ack i x.1) trivial trivial (by simpa [queueArgs] using h.bnd)
    obtain ⟨a1, a2, a3⟩ := owed_ack h h2
    have h3 : PGood s' ((pops ++ [.ack i x.1]) ++ ackOps i l) := by rw [List.append_assoc]; exact h'
    obtain ⟨b1, b2, b3⟩ := ih h2 h3
    refine ⟨?_, fun j hj => by rw [b2 j hj, a2 j hj], by omega⟩
    rw [b1, a1, List.filter_filter]
    apply List.filter_congr
    intro y _
    simp only [List.map_cons, List.mem_cons]
    by_cases h1 : y.1 = x.1 <;> by_cases h2 : y.1 ∈ l.map (·.1) <;> simp [h1, h2]

theorem subscribersTimeout_cons (c : PubCtx) (now : Int) (k : Nat) (ks : List Nat) :
    subscribersTimeout c now (k :: ks) =
      (subscriberTimeout c k now >>= fun r => if r.1 ≠ 0 then .ok r else subscribersTimeout r.2 now ks) := rfl

theorem subscribersTimeout_spec {L : List Nat} {now : Int} : ∀ (ks : List Nat), ks.Nodup → (∀ k ∈ ks, k ∈ L) →
    ∀ {c c' : PubCtx} {pops : List POp} {r : Nat}, Good c pops L → subscribersTimeout c now ks = .ok (r, c') →
    ∃ (done : Nat → List (Nat × Payload × Int)) (ys : List POp), Good c' (pops ++ ys) L ∧ AckStep c c' ys ∧
      c'.log = c.log ∧
      (∀ k ∈ ks, ∃ rest, due c.pub k now c.resendTimeout = done k ++ rest ∧ (r = 0 → rest = [])) ∧
      (∀ k, k ∉ ks → done k = [] ∧ c'.cv.conns k = c.cv.conns k) ∧
      (∀ k, bytes (c'.cv.conns k).writeBuf = bytes (c.cv.conns k).writeBuf ++ ((done k).map (frameOf (cfg c))).flatten) ∧
      (∀ k, c'.pub.owedPkts k = (c.pub.owedPkts k).filter (fun x => decide (x.1 ∉ (done k).map (·.1)))) ∧
      (r = 0 ∨ (r = EAGAIN ∧ ∃ k ∈ ks, ∃ x xs, due c.pub k now c.resendTimeout = done k ++ x :: xs ∧
        available (c'.cv.conns k).writeBuf < 21 + x.2.1.data.length)) := by
  intro ks
  induction ks with
  | nil =>
    intro _ _ c c' pops r h hx
    cases hx
    exact ⟨fun _ => [], [], by simpa using h, .refl c, rfl, by simp, fun _ _ => ⟨rfl, rfl⟩, by simp,
      fun k => (List.filter_eq_self.mpr (by simp)).symm, .inl rfl⟩
  | cons k ks ih =>
    intro hnd hL c c' pops r h hx
    rw [List.nodup_cons] at hnd
    rw [subscribersTimeout_cons] at hx
    cases hT : subscriberTimeout c k now with
    | error f => rw [hT] at hx; cases hx
    | ok x =>
      obtain ⟨r1, c1⟩ := x
      rw [hT, Pub.ok_bind] at hx
      obtain ⟨done, rest, g1, g2, g3, g4, g5, g6, g7⟩ := subscriberTimeout_spec (hL k (by simp)) h hT
      obtain ⟨o1, o2, o3⟩ := owed_acks done h.p g2.p
      by_cases h0 : r1 ≠ 0
      · rw [if_pos h0] at hx
        cases hx
        rcases g7 with ⟨g7, _⟩ | ⟨g7, x, xs, g8, g9⟩
        · exact absurd g7 h0
        obtain ⟨f, hf⟩ : ∃ f : Nat → List (Nat × Payload × Int), ∀ j, f j = if j = k then done else [] := ⟨_, fun _ => rfl⟩
        refine ⟨f, ackOps k done, g2, g3, g4, ?_, ?_, ?_, ?_,
          .inr ⟨g7, k, by simp, x, xs, by rw [hf, if_pos rfl, g1, g8], g9⟩⟩
        · intro j hj
          by_cases e : j = k
          · rw [hf, if_pos e, e]; exact ⟨rest, g1, fun h => absurd h h0⟩
          · rw [hf, if_neg e]; exact ⟨_, rfl, fun h => absurd h h0⟩
        · intro j hj
          have e : j ≠ k := fun e => hj (by simp [e])
          rw [hf, if_neg e]; exact ⟨rfl, g6 j e⟩
        · intro j
          by_cases e : j = k
          · rw [hf, if_pos e, e]; exact g5
          · rw [hf, if_neg e, g6 j e]; simp
        · intro j
          by_cases e : j = k
          · rw [hf, if_pos e, e]; exact o1
          · rw [hf, if_neg e, o2 j e]; exact (List.filter_eq_self.mpr (by simp)).symm
      · rw [if_neg h0] at hx
        have g7 : rest = [] := by
          rcases g7 with ⟨_, g7⟩ | ⟨g7, _⟩
          · exact g7
          · exact absurd (by rw [g7]; decide) h0
        subst g7
        rw [List.append_nil] at g1
        obtain ⟨d2, ys, k1, k2, k3, k4, k5, k6, k7, k8⟩ := ih hnd.2 (fun j hj => hL j (by simp [hj])) g2 hx
        have hcfg : cfg c1 = cfg c := g3.cfg
        have hto : c1.resendTimeout = c.resendTimeout := congrArg Cfg.resendTimeout hcfg
        have hdue : ∀ j, j ≠ k → due c1.pub j now c1.resendTimeout = due c.pub j now c.resendTimeout := by
          intro j hj; unfold due; rw [o2 j hj, hto]
        have hdk := k5 k hnd.1
        obtain ⟨f, hf⟩ : ∃ f : Nat → List (Nat × Payload × Int), ∀ j, f j = if j = k then done else d2 j := ⟨_, fun _ => rfl⟩
        refine ⟨f, ackOps k done ++ ys, by rw [← List.append_assoc]; exact k1,
          g3.trans k2, by rw [k3, g4], ?_, ?_, ?_, ?_, ?_⟩
        · intro j hj
          by_cases e : j = k
          · rw [hf, if_pos e, e]; exact ⟨[], by rw [g1, List.append_nil], fun _ => rfl⟩
          · rw [hf, if_neg e]
            obtain ⟨rest, q1, q2⟩ := k4 j (by simpa [e] using hj)
            exact ⟨rest, by rw [← hdue j e]; exact q1, q2⟩
        · intro j hj
          have e : j ≠ k := fun e => hj (by simp [e])
          have e2 : j ∉ ks := fun e => hj (by simp [e])
          rw [hf, if_neg e]
          exact ⟨(k5 j e2).1, by rw [(k5 j e2).2, g6 j e]⟩
        · intro j
          by_cases e : j = k
          · rw [hf, if_pos e, e, hdk.2]; exact g5
          · rw [hf, if_neg e, k6 j, g6 j e, hcfg]
        · intro j
          by_cases e : j = k
          · have := k7 k
            rw [hdk.1] at this
            rw [hf, if_pos e, e, this, o1]
            exact List.filter_eq_self.mpr (by simp)
          · rw [hf, if_neg e, k7 j, o2 j e]
        · rcases k8 with k8 | ⟨k8, j, hj, x, xs, q1, q2⟩
          · exact .inl k8
          · have e : j ≠ k := fun e => hnd.1 (e ▸ hj)
            exact .inr ⟨k8, j, by simp [hj], x, xs, by rw [hf, if_neg e, ← hdue j e]; exact q1, q2⟩

/-- Is the oldest packet subscriber `k` owes timed out? -/
def late (s : Pub) (k : Nat) (now to : Int) : Bool := ((s.owedPkts k).head?.map (timedOut now to)).getD false

theorem timedOutSubscribers_spec {s : Pub} {pops : List POp} (h : PGood s pops) (now to : Int) : ∀ ks : List Nat,
    Pub.timedOutSubscribers s now to ks = .ok (ks.filter fun k => late s k now to) := by
  intro ks
  induction ks with
  | nil => rfl
  | cons k ks ih =>
    obtain ⟨l, h1, h2, h3⟩ := Holds_all h k
    have e : Pub.tailTimedOut s now to (s.sinfl k) = .ok (late s k now to) := by
      unfold Pub.tailTimedOut late
      rw [h1, h2, List.getLast?_reverse, List.head?_map, List.head?_map]
      cases l with
      | nil => rfl
      | cons e l =>
        obtain ⟨rc, hr⟩ := h3.pk e (by simp)
        have : Pub.deref s.pk e.1 = .ok ⟨e.2.1, rc, some .inflight, e.2.2.2, e.2.2.1⟩ := by unfold Pub.deref; rw [hr]
        simp only [List.head?_cons, Option.map_some, Option.getD_some]
        rw [this, Pub.ok_bind]; rfl
    show (Pub.tailTimedOut s now to (s.sinfl k) >>= fun t => Pub.timedOutSubscribers s now to ks >>= fun r =>
      .ok (if t then k :: r else r)) = _
    rw [e, Pub.ok_bind, ih, Pub.ok_bind, List.filter_cons]

end PubCtx
end Rmc
