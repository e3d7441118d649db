import Verif.PubCtxTimeout

/-! # Histories of the publisher context keep the invariant -/

set_option linter.unusedSimpArgs false
set_option linter.unusedVariables false

namespace Rmc
namespace PubCtx
open CircBuf

theorem bind_ok {α β : Type} {x : M α} {f : α → M β} {y : β} (h : (x >>= f) = .ok y) : ∃ a, x = .ok a ∧ f a = .ok y := by
  cases x with
  | error e => cases h
  | ok a => exact ⟨a, rfl, h⟩

/-- Is an announcement due? -/
def annDue (c : PubCtx) (now : Int) : Prop := c.annInterval ≠ 0 ∧ c.annNext ≠ 0 ∧ c.annNext ≤ now

instance (c : PubCtx) (now : Int) : Decidable (annDue c now) := by unfold annDue; infer_instance

theorem annAnswer_len (cb : Option (Bool × List UInt8)) : (annAnswer cb).2.length ≤ RMC_MAX_PAYLOAD := by
  unfold annAnswer
  cases cb with
  | none => exact Nat.zero_le _
  | some x => exact List.length_take_le _ _

theorem queueNoAck_count {s s' : Pub} {p : Payload} (h : Pub.step s (qop p true) = .ok s') :
    s'.unackedCount = s.unackedCount := by
  have h1 : Pub.queueNoAck s p = .ok s' := h
  unfold Pub.queueNoAck at h1
  obtain ⟨l, _, h2⟩ := bind_ok h1
  cases h2
  rfl

/-- `rmc_pub_timeout_process` when an announcement is due. -/
theorem timeout_announce {c : PubCtx} {pops : List POp} {L : List Nat} (h : Good c pops L) {now : Int}
    (hd : annDue c now) (cb : Option (Bool × List UInt8)) (sp : Nat) (hb : (queueArgs pops).length + 2 < U64) :
    ∃ c', timeoutProcess c now cb sp = .ok (0, c') ∧
      c'.log = c.log ++ [.announce now c.annInterval] ∧ c'.annInterval = c.annInterval ∧
      c'.annNext = now + c.annInterval ∧ c'.suspendThr = c.suspendThr ∧ c'.resumeThr = c.resumeThr ∧
      (∀ i, c'.cv.conns i = c.cv.conns i) ∧ c'.cv.size = c.cv.size ∧
      (((annAnswer cb).1 = true ∧ c.suspended = false ∧ Good c' (pops ++ [.announce ⟨sp, (annAnswer cb).2, true⟩]) L ∧
        c'.suspended = decide (c.suspendThr > 0 ∧ Pub.unackedCount c'.pub ≥ c.suspendThr) ∧
        c'.pub.unackedCount = c.pub.unackedCount) ∨
       (((annAnswer cb).1 = false ∨ c.suspended = true) ∧ Good c' pops L ∧ c'.suspended = c.suspended ∧ c'.pub = c.pub)) := by
  unfold timeoutProcess
  rw [if_pos ⟨hd.1, hd.2.1, by have := hd.2.2; omega⟩]
  dsimp only
  cases ha : (annAnswer cb).1 with
  | false =>
    rw [if_neg (by simp), Pub.ok_bind]
    exact ⟨_, rfl, rfl, rfl, rfl, rfl, rfl, fun _ => rfl, rfl, .inr ⟨.inl rfl, h.congr rfl rfl, rfl, rfl⟩⟩
  | true =>
    rw [if_pos rfl]
    have h' : Good (ev c (.announce now c.annInterval)) pops L := h.congr rfl rfl
    rcases queue_cases h' ⟨sp, (annAnswer cb).2, true⟩ true hb with ⟨e1, _⟩ | ⟨_, e2, e⟩ | ⟨_, e2, s', g1, g2, g3, e⟩
    · have : (annAnswer cb).2.length ≤ RMC_MAX_PAYLOAD := annAnswer_len cb
      exact absurd e1 (Nat.not_lt.mpr this)
    · rw [e, Pub.ok_bind]
      exact ⟨_, rfl, rfl, rfl, rfl, rfl, rfl, fun _ => rfl, rfl, .inr ⟨.inr e2, h'.congr rfl rfl, rfl, rfl⟩⟩
    · have hg := good_queue h' hb e
      rw [if_pos rfl] at hg
      rw [e, Pub.ok_bind]
      refine ⟨_, rfl, rfl, rfl, rfl, rfl, rfl, fun _ => rfl, rfl, .inl ⟨rfl, e2, hg.congr rfl rfl, rfl, ?_⟩⟩
      show s'.unackedCount = c.pub.unackedCount
      exact queueNoAck_count g1

/-- `rmc_pub_timeout_process` when no announcement is due. -/
theorem timeout_resend {c c' : PubCtx} {pops : List POp} {L : List Nat} (h : Good c pops L) {now : Int}
    (hd : ¬ annDue c now) {cb : Option (Bool × List UInt8)} {sp r : Nat}
    (hx : timeoutProcess c now cb sp = .ok (r, c')) :
    subscribersTimeout c now (c.pub.subs.filter fun k => late c.pub k now c.resendTimeout) = .ok (r, c') := by
  unfold timeoutProcess at hx
  rw [if_neg (fun e => hd ⟨e.1, e.2.1, by omega⟩), timedOutSubscribers_spec h.p, Pub.ok_bind] at hx
  exact hx

theorem subs_nodup {c : PubCtx} {pops : List POp} {L : List Nat} (h : Good c pops L) : c.pub.subs.Nodup := by
  rw [h.p.subs]; exact h.p.reached.inv.subsND

theorem closeAll_spec : ∀ (is : List Nat) {c : PubCtx} {pops : List POp} {L : List Nat}, Good c pops L →
    ∃ c' ys L' ds, closeAll c is = .ok c' ∧ Good c' (pops ++ ys) L' ∧ cfg c' = cfg c ∧ c'.suspended = c.suspended ∧
      c'.log = c.log ++ ds ∧ (∀ d ∈ ds, ∃ i, d = .disconnectCb i) ∧ (∀ y ∈ ys, ∃ k, y = .close k) ∧
      (∀ k, k ∈ L' ↔ k ∈ L ∧ k ∉ is) ∧ c'.cv.size = c.cv.size := by
  intro is
  induction is with
  | nil => intro c pops L h; exact ⟨c, [], L, [], rfl, by simpa using h, rfl, rfl, by simp, by simp, by simp, by simp, rfl⟩
  | cons i is ih =>
    intro c pops L h
    unfold closeAll
    by_cases hi : i ∈ L
    · rw [ConnVec.findByIndex_spec h.v, if_pos hi, if_neg (by simp)]
      obtain ⟨c1, g1, g2, g3, g4, g5, _, g6⟩ := close_spec h hi
      rw [g1, Pub.ok_bind]
      obtain ⟨c', ys, L', ds, k1, k2, k3, k4, k5, k6, k7, k8, k9⟩ := ih g2
      refine ⟨c', .close i :: ys, L', .disconnectCb i :: ds, k1, by rw [List.append_assoc] at k2; exact k2,
        by rw [k3, g3], by rw [k4, g4], by rw [k5, g5, List.append_assoc]; rfl, ?_, ?_, ?_, by rw [k9, g6]⟩
      · intro d hd
        rcases List.mem_cons.mp hd with hd | hd
        · exact ⟨i, hd⟩
        · exact k6 d hd
      · intro d hd
        rcases List.mem_cons.mp hd with hd | hd
        · exact ⟨i, hd⟩
        · exact k7 d hd
      · intro k
        rw [k8, h.v.nodup.mem_erase_iff, List.mem_cons]
        grind
    · rw [ConnVec.findByIndex_spec h.v, if_neg hi, if_pos rfl]
      obtain ⟨c', ys, L', ds, k1, k2, k3, k4, k5, k6, k7, k8, k9⟩ := ih h
      refine ⟨c', ys, L', ds, k1, k2, k3, k4, k5, k6, k7, ?_, k9⟩
      intro k
      rw [k8, List.mem_cons]
      grind

theorem deactivate_spec {c : PubCtx} {pops : List POp} {L : List Nat} (h : Good c pops L) :
    ∃ c' ys ds, deactivate c = .ok (0, c') ∧ Good c' (pops ++ ys) [] ∧ c'.suspended = c.suspended ∧
      c'.log = c.log ++ ds ∧ (∀ d ∈ ds, ∃ i, d = .disconnectCb i) ∧ (∀ y ∈ ys, ∃ k, y = .close k) ∧
      cfg c' = { cfg c with mcast := none, listen := none } ∧ c'.cv.size = c.cv.size := by
  have h1 : Good { c with cv := (c.cv.poll (.remove MULTICAST_INDEX c.mcast)).poll (.remove LISTEN_INDEX c.listen) }
      pops L :=
    (h.pollOther (e := .remove MULTICAST_INDEX c.mcast) (by show LISTEN_INDEX ≤ MULTICAST_INDEX; decide)).pollOther
      (e := .remove LISTEN_INDEX c.listen) (by show LISTEN_INDEX ≤ LISTEN_INDEX; decide)
  unfold deactivate
  dsimp only
  by_cases hm : c.cv.maxInd = NIL_INDEX
  · rw [if_pos (by exact hm), Pub.ok_bind]
    have hL : L = [] := by
      cases L with
      | nil => rfl
      | cons i L => exact absurd hm (h.v.maxLe i (by simp)).2
    subst hL
    exact ⟨_, [], [], rfl, by rw [List.append_nil]; exact h1.fds rfl rfl, rfl, by simp, by simp, by simp, rfl, rfl⟩
  · rw [if_neg (by exact hm)]
    obtain ⟨c', ys, L', ds, k1, k2, k3, k4, k5, k6, k7, k8, k9⟩ := closeAll_spec (List.range (c.cv.maxInd + 1)) h1
    have hL : L' = [] := by
      cases L' with
      | nil => rfl
      | cons i L' =>
        have := (k8 i).1 (by simp)
        have h2 := (h.v.maxLe i this.1).1
        exact absurd (List.mem_range.mpr (by omega)) this.2
    subst hL
    show ∃ c'' ys ds, ((closeAll _ (List.range (c.cv.maxInd + 1)) >>= fun c => .ok (0, { c with mcast := none, listen := none, cv := c.cv.fdAll [.closed c.mcast, .closed c.listen] })) :
      M (Nat × PubCtx)) = .ok (0, c'') ∧ _
    rw [k1, Pub.ok_bind]
    refine ⟨_, ys, ds, rfl, k2.fds rfl rfl, k4, k5, k6, k7, ?_, k9⟩
    have : cfg c' = cfg c := k3
    show ({ cfg c' with mcast := none, listen := none } : Cfg) = _
    rw [this]

/-- Histories considered: what accept() answers is sane. -/
def Op.sane : Op → Prop
  | .readListen ar _ => saneAcc ar
  | _ => True

theorem queueArgs_of_not {ys : List POp} (h : ∀ y ∈ ys, ∀ p, y ≠ .queue p) : queueArgs ys = [] := by
  induction ys with
  | nil => rfl
  | cons y ys ih =>
    have h1 := h y (by simp)
    have h2 := ih (fun z hz => h z (by simp [hz]))
    unfold queueArgs at h2 ⊢
    cases y <;> first | exact absurd rfl (h1 _) | simpa using h2

/-- The datagrams multicast. -/
def dgrams (log : List CEv) : List (List UInt8) := log.filterMap fun e => match e with | .datagram bs => some bs | _ => none

theorem dgrams_append (xs ys : List CEv) : dgrams (xs ++ ys) = dgrams xs ++ dgrams ys := List.filterMap_append ..

theorem dgrams_none {ds : List CEv} (h : ∀ d ∈ ds, ∀ bs, d ≠ .datagram bs) : dgrams ds = [] := by
  unfold dgrams
  rw [List.filterMap_eq_nil_iff]
  intro d hd
  have := h d hd
  cases d <;> first | rfl | exact absurd rfl (this _)

theorem sendTs_none {ys : List POp} (h : ∀ y ∈ ys, ∀ ts, y ≠ .send ts) : sendTs ys = [] := by
  unfold sendTs
  rw [List.filterMap_eq_nil_iff]
  intro d hd
  have := h d hd
  cases d <;> first | rfl | exact absurd rfl (this _)

/-- The times at which sendmsg() calls of an API call may have succeeded. -/
def opTimes : Op → List Int
  | .writeMcast rs => resTimes rs
  | _ => []

/-- What an API call does to the logs. -/
structure LogStep (c c' : PubCtx) (op : Op) (ys : List POp) : Prop where
  times : (sendTs ys).Sublist (opTimes op)
  wire : ∃ ds, c'.log = c.log ++ ds ∧
    ((∃ es, Sends (cfg c) ys es ds ∧ c'.pub.log = c.pub.log ++ es) ∨ (sendTs ys = [] ∧ dgrams ds = []))
  queued : (queueArgs ys).length ≤ 1

theorem LogStep.quiet {c c' : PubCtx} {op : Op} {ys : List POp} {ds : List CEv} (h1 : ∀ y ∈ ys, ∀ ts, y ≠ .send ts)
    (h2 : c'.log = c.log ++ ds) (h3 : ∀ d ∈ ds, ∀ bs, d ≠ .datagram bs) (h4 : (queueArgs ys).length ≤ 1) :
    LogStep c c' op ys :=
  ⟨by rw [sendTs_none h1]; exact List.nil_sublist _, ⟨ds, h2, .inr ⟨sendTs_none h1, dgrams_none h3⟩⟩, h4⟩

theorem LogStep.same {c c' : PubCtx} {op : Op} (h2 : c'.log = c.log) : LogStep c c' op [] :=
  .quiet (ds := []) (by simp) (by simpa using h2) (by simp) (by simp [queueArgs])

/-- Every API call leaves a good context, if it returns at all. -/
theorem step_good {c c' : PubCtx} {pops : List POp} {L : List Nat} {op : Op} {r : Nat} (h : Good c pops L) (hs : op.sane)
    (hb : (queueArgs pops).length + 2 < U64) (hx : step c op = .ok (r, c')) :
    ∃ ys L', Good c' (pops ++ ys) L' ∧ LogStep c c' op ys := by
  cases op with
  | queue p ann =>
    refine ⟨_, L, good_queue h hb hx, .quiet (ds := []) ?_ ?_ (by simp) ?_⟩
    · intro y hy ts e
      split at hy
      · cases ann <;> simp [qop] at hy <;> rw [e] at hy <;> cases hy
      · simp at hy
    · have hx' : queuePacket c p ann = .ok (r, c') := hx
      rcases queue_cases h p ann hb with ⟨_, e⟩ | ⟨_, _, e⟩ | ⟨_, _, s', h1, h2, h3, e⟩ <;> rw [e] at hx' <;> cases hx' <;>
        simp
    · split
      · cases ann <;> simp [qop, queueArgs]
      · simp [queueArgs]
  | readListen ar cb =>
    obtain ⟨r', c'', ys, L', ds, g1, g2, _, _, g4, g5, g3⟩ := readListen_spec h hs cb
    have : step c (.readListen ar cb) = .ok (r', c'') := g1
    rw [this] at hx; cases hx
    refine ⟨ys, L', g2, .quiet (ds := ds) ?_ g4 ?_ ?_⟩
    rotate_left
    · intro d hd bs e
      obtain ⟨i, e2 | e2 | e2⟩ := g5 d hd <;> rw [e] at e2 <;> cases e2
    all_goals
      rcases g3 with ⟨e, _⟩ | ⟨_, i, _, _, ⟨e, _⟩ | ⟨e, _⟩⟩ <;> rw [e] <;> simp [queueArgs]
  | readMcast err =>
    have hx' : readMcast c err = (r, c') := Except.ok.inj hx
    suffices Good c' pops L ∧ c'.log = c.log from ⟨[], L, by rw [List.append_nil]; exact this.1, .same this.2⟩
    unfold readMcast at hx'
    split at hx'
    · cases hx'; exact ⟨h, rfl⟩
    · split at hx'
      · cases hx'; exact ⟨h, rfl⟩
      · cases hx'
        refine ⟨?_, rfl⟩
        exact h.pollOther (e := .modify MULTICAST_INDEX c.mcast .R .R) (by show LISTEN_INDEX ≤ MULTICAST_INDEX; decide)
  | read i rv =>
    rcases readConn_spec h hx with ⟨_, _, e⟩ | ⟨_, c1, ys, zs, ds, L', _, hy, g, _, _, _, hds, hds2, _, hz⟩
    · subst e; exact ⟨[], L, by simpa using h, .same rfl⟩
    · refine ⟨ys ++ zs, L', by rw [← List.append_assoc]; exact g, .quiet (ds := ds) ?_ hds ?_ ?_⟩
      · intro y hy' p e
        rcases List.mem_append.mp hy' with hy' | hy'
        · obtain ⟨_, e2⟩ := hy y hy'; rw [e] at e2; cases e2
        · rcases hz with ⟨e2, _⟩ | ⟨e2, _⟩ <;> rw [e2] at hy' <;> simp at hy'
          rw [e] at hy'; cases hy'
      · intro d hd bs e
        rcases hds2 d hd with ⟨_, e2⟩ | e2 <;> rw [e] at e2 <;> cases e2
      · rw [queueArgs_of_not]
        · exact Nat.zero_le _
        · intro y hy' p e
          rcases List.mem_append.mp hy' with hy' | hy'
          · obtain ⟨_, e2⟩ := hy y hy'; rw [e] at e2; cases e2
          · rcases hz with ⟨e2, _⟩ | ⟨e2, _⟩ <;> rw [e2] at hy' <;> simp at hy'
            rw [e] at hy'; cases hy'
  | writeMcast rs =>
    obtain ⟨r', c'', ys, es, ds, g1, g2, _, _, g3, g4, g5, _, g6⟩ := multicastWrite_spec rs h
    have : step c (.writeMcast rs) = .ok (r', c'') := g1
    rw [this] at hx; cases hx
    refine ⟨ys, L, g2, g6, ⟨ds, g5, .inl ⟨es, g3, g4⟩⟩, ?_⟩
    rw [queueArgs_of_not]
    · exact Nat.zero_le _
    · intro y hy p e
      obtain ⟨_, e2⟩ := g3.sends y hy; rw [e] at e2; cases e2
  | write i wv =>
    have hx' : writeConn c i wv = .ok (r, c') := hx
    rcases writeConn_spec h i wv with ⟨_, e | e⟩ | ⟨_, _, e⟩ | ⟨_, _, r', c'', out, e, g, _, _, _, g2, _⟩ <;> rw [e] at hx' <;>
      cases hx'
    · exact ⟨[], L, by simpa using h, .same rfl⟩
    · exact ⟨[], L, by simpa using h, .same rfl⟩
    · exact ⟨[], L, by simpa using h, .same rfl⟩
    · exact ⟨[], L, by simpa using g, .quiet (by simp) g2 (by simp) (by simp [queueArgs])⟩
  | timeout now cb sp =>
    have hx' : timeoutProcess c now cb sp = .ok (r, c') := hx
    by_cases hd : annDue c now
    · obtain ⟨c'', e, g0, _, _, _, _, _, _, g⟩ := timeout_announce h hd cb sp hb
      rw [e] at hx'; cases hx'
      rcases g with ⟨_, _, g, _⟩ | ⟨_, g, _⟩
      · exact ⟨_, L, g, .quiet (by simp) g0 (by simp) (by simp [queueArgs])⟩
      · exact ⟨[], L, by simpa using g, .quiet (by simp) g0 (by simp) (by simp [queueArgs])⟩
    · have ht := timeout_resend h hd hx'
      obtain ⟨_, ys, g1, g2, g3, _⟩ := subscribersTimeout_spec _ ((subs_nodup h).filter _)
        (fun k hk => (h.slots k).2 (List.mem_filter.mp hk).1) h ht
      refine ⟨ys, L, g1, .quiet (ds := []) ?_ (by simpa using g3) (by simp) ?_⟩
      · intro y hy p e
        obtain ⟨_, _, e2⟩ := g2.acks.acks y hy; rw [e] at e2; cases e2
      rw [queueArgs_of_not]
      · exact Nat.zero_le _
      · intro y hy p e
        obtain ⟨_, _, e2⟩ := g2.acks.acks y hy; rw [e] at e2; cases e2
  | close i =>
    have hx' : closeConnection c i = .ok (r, c') := hx
    by_cases hi : i ∈ L
    · obtain ⟨c'', e, g, _, _, g2, _⟩ := close_spec h hi
      rw [e] at hx'; cases hx'
      exact ⟨_, _, g, .quiet (by simp) g2 (by simp) (by simp [queueArgs])⟩
    · rw [close_none h hi] at hx'; cases hx'
      exact ⟨[], L, by simpa using h, .same rfl⟩
  | setAnnounce n now =>
    cases hx
    exact ⟨[], L, by rw [List.append_nil]; exact h.congr rfl rfl,
      .quiet (ds := [.setAnnounce now n]) (by simp) rfl (by simp) (by simp [queueArgs])⟩
  | throttling a b =>
    have hx' : throttling c a b = (r, c') := Except.ok.inj hx
    unfold throttling at hx'
    split at hx' <;> cases hx'
    · exact ⟨[], L, by simpa using h, .same rfl⟩
    · exact ⟨[], L, by rw [List.append_nil]; exact h.congr rfl rfl, .same rfl⟩
  | setCtlCb b =>
    cases hx
    exact ⟨[], L, by rw [List.append_nil]; exact h.congr rfl rfl, .same rfl⟩
  | activate x =>
    have hx' : activate c x = (r, c') := Except.ok.inj hx
    unfold activate at hx'
    split at hx' <;> cases hx'
    · exact ⟨[], L, by rw [List.append_nil]; exact h.fds rfl rfl, .same rfl⟩
    · rename_i md ld port
      refine ⟨[], L, ?_, .same rfl⟩
      rw [List.append_nil]
      have h := h.fds (c' := { c with cv := c.cv.fdAll [.opened md, .opened ld] }) rfl rfl
      exact ((h.pollOther (e := .add MULTICAST_INDEX (some md) .R) (by show LISTEN_INDEX ≤ MULTICAST_INDEX; decide)).pollOther
        (e := .add LISTEN_INDEX (some ld) .R) (by show LISTEN_INDEX ≤ LISTEN_INDEX; decide)).congr rfl rfl
  | deactivate =>
    obtain ⟨c'', ys, ds, e, g, _, hd, hd2, hy, _⟩ := deactivate_spec h
    have hx' : deactivate c = .ok (r, c') := hx
    rw [e] at hx'; cases hx'
    refine ⟨ys, [], g, .quiet (ds := ds) ?_ hd ?_ ?_⟩
    · intro y hy' p e
      obtain ⟨_, e2⟩ := hy y hy'; rw [e] at e2; cases e2
    · intro d hd' bs e
      obtain ⟨_, e2⟩ := hd2 d hd'; rw [e] at e2; cases e2
    rw [queueArgs_of_not]
    · exact Nat.zero_le _
    · intro y hy' p e
      obtain ⟨_, e2⟩ := hy y hy'; rw [e] at e2; cases e2

theorem run_cons (c : PubCtx) (op : Op) (ops : List Op) :
    run c (op :: ops) = (step c op >>= fun r => run r.2 ops >>= fun x => .ok (r.1 :: x.1, x.2)) := rfl

theorem run_snoc_inv : ∀ (ops : List Op) {c c' : PubCtx} {op : Op} {rs : List Nat}, run c (ops ++ [op]) = .ok (rs, c') →
    ∃ rs1 r c1, run c ops = .ok (rs1, c1) ∧ step c1 op = .ok (r, c') ∧ rs = rs1 ++ [r] := by
  intro ops
  induction ops with
  | nil =>
    intro c c' op rs h
    rw [List.nil_append, run_cons] at h
    obtain ⟨⟨r, c1⟩, h1, h2⟩ := bind_ok h
    cases h2
    exact ⟨[], r, c, rfl, h1, rfl⟩
  | cons o ops ih =>
    intro c c' op rs h
    rw [List.cons_append, run_cons] at h
    obtain ⟨⟨r0, c0⟩, h1, h2⟩ := bind_ok h
    obtain ⟨⟨rs2, c2⟩, h3, h4⟩ := bind_ok h2
    cases h4
    obtain ⟨rs1, r, c1, k1, k2, k3⟩ := ih h3
    refine ⟨r0 :: rs1, r, c1, ?_, k2, by rw [k3]; rfl⟩
    rw [run_cons, h1, Pub.ok_bind, k1]; rfl

/-- Every history that returns leaves a good context. -/
theorem run_good : ∀ (ops : List Op) {c c' : PubCtx} {pops : List POp} {L : List Nat} {rs : List Nat}, Good c pops L →
    (∀ op ∈ ops, op.sane) → (queueArgs pops).length + ops.length + 1 < U64 → run c ops = .ok (rs, c') →
    ∃ ys L', Good c' (pops ++ ys) L' ∧ (queueArgs ys).length ≤ ops.length ∧ (sendTs ys).Sublist (ops.flatMap opTimes) := by
  intro ops
  induction ops with
  | nil => intro c c' pops L rs h _ _ hx; cases hx; exact ⟨[], L, by simpa using h, by simp [queueArgs], List.nil_sublist _⟩
  | cons op ops ih =>
    intro c c' pops L rs h hs hb hx
    rw [run_cons] at hx
    obtain ⟨⟨r, c1⟩, h1, h2⟩ := bind_ok hx
    obtain ⟨⟨rs1, c2⟩, h3, h4⟩ := bind_ok h2
    cases h4
    rw [List.length_cons] at hb
    obtain ⟨ys, L', g1, gt, _, g2⟩ := step_good h (hs op (by simp)) (by omega) h1
    obtain ⟨zs, L'', g3, g4, g5⟩ := ih g1 (fun o ho => hs o (by simp [ho])) (by
      have : queueArgs (pops ++ ys) = queueArgs pops ++ queueArgs ys := List.filterMap_append ..
      rw [this, List.length_append]; omega) h3
    refine ⟨ys ++ zs, L'', by rw [← List.append_assoc]; exact g3, ?_, ?_⟩
    · have : queueArgs (ys ++ zs) = queueArgs ys ++ queueArgs zs := List.filterMap_append ..
      rw [this, List.length_append, List.length_cons]; omega
    · rw [sendTs_append, List.flatMap_cons]; exact gt.append g5

end PubCtx
end Rmc
