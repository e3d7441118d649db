import Verif.Props.PubCtxMisc
import Verif.PubCtxReads

/-! # What the calls of the publisher do to one connection -/

set_option linter.unusedSimpArgs false
set_option linter.unusedVariables false

namespace Rmc
namespace PubCtx
open PLog CircBuf

/-- Specification: the part of the history after subscriber `k` connected. -/
def since (k : Nat) (log : List PEv) : List PEv := (log.reverse.takeWhile fun e => decide (e ≠ .connect k)).reverse

/-- Specification: the ids of the packets multicast since subscriber `k` connected, in order. -/
def sentTo (k : Nat) (log : List PEv) : List Nat := (sentPkts (since k log)).map (·.1)

theorem since_append_of {k : Nat} {log es : List PEv} (h : PEv.connect k ∉ es) : since k (log ++ es) = since k log ++ es := by
  unfold since
  rw [List.reverse_append, List.takeWhile_append_of_pos (by
    intro e he
    simp only [decide_eq_true_eq]
    rintro rfl
    exact h (List.mem_reverse.1 he)), List.reverse_append, List.reverse_reverse]

theorem since_connect {k : Nat} {log e1 e2 : List PEv} (h : PEv.connect k ∉ e2) :
    since k (log ++ (e1 ++ .connect k :: e2)) = e2 := by
  rw [show log ++ (e1 ++ .connect k :: e2) = (log ++ e1 ++ [.connect k]) ++ e2 by simp, since_append_of h]
  have : since k (log ++ e1 ++ [.connect k]) = [] := by
    unfold since
    rw [List.reverse_append]
    simp
  rw [this, List.nil_append]

theorem sentTo_append_of {k : Nat} {log es : List PEv} (h : PEv.connect k ∉ es) :
    sentTo k (log ++ es) = sentTo k log ++ (sentPkts es).map (·.1) := by
  unfold sentTo
  rw [since_append_of h, sentPkts_append, List.map_append]

theorem since_sub (k : Nat) (log : List PEv) : ∀ e ∈ since k log, e ∈ log := by
  intro e he
  unfold since at he
  rw [List.mem_reverse] at he
  exact List.mem_reverse.1 ((List.takeWhile_sublist _).subset he)

/-- What becomes of the packets multicast to a connected subscriber. -/
theorem owed_fate {k : Nat} {log : List PEv} (h0 : (owed k log).1 = true) : ∀ (n : Nat) (es : List PEv), es.length = n →
    PEv.connect k ∉ es → PEv.close k ∉ es →
    (owed k (log ++ es)).1 = true ∧ ∀ pid ∈ sentTo k (log ++ es),
      pid ∈ (owed k (log ++ es)).2 ∨ PEv.ack k pid ∈ es ∨ (pid ∈ sentTo k log ∧ pid ∉ (owed k log).2) := by
  intro n
  induction n with
  | zero =>
    intro es hl h1 h2
    have : es = [] := List.length_eq_zero_iff.1 hl
    subst this
    rw [List.append_nil]
    refine ⟨h0, fun pid hp => ?_⟩
    by_cases h : pid ∈ (owed k log).2
    · exact .inl h
    · exact .inr (.inr ⟨hp, h⟩)
  | succ n ih =>
    intro es hl h1 h2
    rcases List.eq_nil_or_concat es with rfl | ⟨fs, e, rfl⟩
    · cases hl
    rw [List.concat_eq_append] at hl h1 h2 ⊢
    rw [List.length_append] at hl
    have h1' : PEv.connect k ∉ fs := fun h => h1 (List.mem_append_left _ h)
    have h2' : PEv.close k ∉ fs := fun h => h2 (List.mem_append_left _ h)
    obtain ⟨g1, g2⟩ := ih fs (by simpa using hl) h1' h2'
    rw [← List.append_assoc, owed_append]
    generalize ho : owed k (log ++ fs) = st at g1 g2
    have hs : sentTo k (log ++ fs ++ [e]) = sentTo k (log ++ fs) ++ (sentPkts [e]).map (·.1) :=
      sentTo_append_of (fun h => h1 (List.mem_append_right _ h))
    rw [hs, List.foldl_cons, List.foldl_nil]
    have keep : ∀ (st' : Bool × List Nat), st' = st → sentPkts [e] = [] → (st'.1 = true ∧
        ∀ pid ∈ sentTo k (log ++ fs) ++ (sentPkts [e]).map (·.1), pid ∈ st'.2 ∨ PEv.ack k pid ∈ fs ++ [e] ∨
          (pid ∈ sentTo k log ∧ pid ∉ (owed k log).2)) := by
      intro st' e1 e2
      rw [e1, e2]
      refine ⟨g1, fun pid hp => ?_⟩
      rw [List.map_nil, List.append_nil] at hp
      rcases g2 pid hp with h | h | h
      · exact .inl h
      · exact .inr (.inl (List.mem_append_left _ h))
      · exact .inr (.inr h)
    cases e with
    | connect j =>
      have : j ≠ k := by rintro rfl; exact h1 (by simp)
      exact keep _ (if_neg this) rfl
    | close j =>
      have : j ≠ k := by rintro rfl; exact h2 (by simp)
      exact keep _ (if_neg this) rfl
    | queue pid p => exact keep _ rfl rfl
    | free pid p => exact keep _ rfl rfl
    | send pid p ts =>
      by_cases hp : pid = 0
      · exact keep _ (if_neg (fun x => x.2 hp)) (by subst hp; rfl)
      · dsimp only
        rw [if_pos ⟨g1, hp⟩]
        refine ⟨g1, fun q hq => ?_⟩
        have : sentPkts [PEv.send pid p ts] = [(pid, p)] := by simp [sentPkts, hp]
        rw [this, List.map_cons, List.map_nil] at hq
        rcases List.mem_append.1 hq with hq | hq
        · rcases g2 q hq with h | h | h
          · exact .inl (List.mem_append_left _ h)
          · exact .inr (.inl (List.mem_append_left _ h))
          · exact .inr (.inr h)
        · exact .inl (List.mem_append_right _ hq)
    | ack j pid =>
      by_cases hj : j = k
      · subst hj
        dsimp only
        rw [if_pos rfl]
        refine ⟨g1, fun q hq => ?_⟩
        have : sentPkts [PEv.ack j pid] = [] := rfl
        rw [this, List.map_nil, List.append_nil] at hq
        by_cases hqp : q = pid
        · subst hqp; exact .inr (.inl (by simp))
        · rcases g2 q hq with h | h | h
          · exact .inl (List.mem_filter.2 ⟨h, by simpa using hqp⟩)
          · exact .inr (.inl (List.mem_append_left _ h))
          · exact .inr (.inr h)
      · exact keep _ (if_neg hj) rfl

/-- The events of a history of pub.c. -/
structure Evs (ys : List POp) (es : List PEv) : Prop where
  connect : ∀ k, PEv.connect k ∈ es → POp.connect k ∈ ys
  close : ∀ k, PEv.close k ∈ es → POp.close k ∈ ys
  ack : ∀ k pid, PEv.ack k pid ∈ es → POp.ack k pid ∈ ys
  send : ∀ pid p ts, PEv.send pid p ts ∈ es → POp.send ts ∈ ys

theorem Evs.append {ys zs : List POp} {es fs : List PEv} (h : Evs ys es) (g : Evs zs fs) : Evs (ys ++ zs) (es ++ fs) := by
  refine ⟨?_, ?_, ?_, ?_⟩
  · intro k hk; rcases List.mem_append.1 hk with hk | hk
    · exact List.mem_append_left _ (h.connect k hk)
    · exact List.mem_append_right _ (g.connect k hk)
  · intro k hk; rcases List.mem_append.1 hk with hk | hk
    · exact List.mem_append_left _ (h.close k hk)
    · exact List.mem_append_right _ (g.close k hk)
  · intro k pid hk; rcases List.mem_append.1 hk with hk | hk
    · exact List.mem_append_left _ (h.ack k pid hk)
    · exact List.mem_append_right _ (g.ack k pid hk)
  · intro pid p ts hk; rcases List.mem_append.1 hk with hk | hk
    · exact List.mem_append_left _ (h.send pid p ts hk)
    · exact List.mem_append_right _ (g.send pid p ts hk)

theorem freed_free (k : Nat) (c : Nat → Bool) (l : List Sent) : ∀ e ∈ PSpec.freed k c l, ∃ pid p, e = PEv.free pid p := by
  intro e he
  obtain ⟨r, _, h⟩ := List.mem_filterMap.1 he
  split at h
  · cases h; exact ⟨_, _, rfl⟩
  · cases h

theorem evs_of_free {ys : List POp} {es : List PEv} (h : ∀ e ∈ es, ∃ pid p, e = PEv.free pid p) : Evs ys es := by
  refine ⟨?_, ?_, ?_, ?_⟩ <;> intros <;> rename_i hk <;> obtain ⟨_, _, e⟩ := h _ hk <;> cases e

theorem step_events (A : PSpec) (y : POp) : ∃ es, (A.step y).log = A.log ++ es ∧ Evs [y] es := by
  cases y with
  | connect k => exact ⟨[.connect k], rfl, ⟨by simp, by simp, by simp, by simp⟩⟩
  | queue p => exact ⟨[.queue A.nextPid p], rfl, ⟨by simp, by simp, by simp, by simp⟩⟩
  | announce p => exact ⟨[.queue 0 p], rfl, ⟨by simp, by simp, by simp, by simp⟩⟩
  | send ts =>
    unfold PSpec.step
    dsimp only
    split
    · rename_i p _ _
      exact ⟨[.send 0 p ts], rfl, ⟨by simp, by simp, by simp, by simp⟩⟩
    · rename_i pid p _ _ _
      exact ⟨[.send pid p ts], rfl, ⟨by simp, by simp, by simp, by simp⟩⟩
    · exact ⟨[], by simp, ⟨by simp, by simp, by simp, by simp⟩⟩
  | ack k pid =>
    refine ⟨[.ack k pid] ++ PSpec.freed k (fun q => q == pid) A.infl, by rw [← List.append_assoc]; rfl, ?_⟩
    have h1 : Evs [POp.ack k pid] [PEv.ack k pid] := ⟨by simp, by simp, by simp, by simp⟩
    have := h1.append (evs_of_free (ys := []) (freed_free k (fun q => q == pid) A.infl))
    simpa using this
  | close k =>
    refine ⟨[.close k] ++ PSpec.freed k (fun _ => true) A.infl, by rw [← List.append_assoc]; rfl, ?_⟩
    have h1 : Evs [POp.close k] [PEv.close k] := ⟨by simp, by simp, by simp, by simp⟩
    have := h1.append (evs_of_free (ys := []) (freed_free k (fun _ => true) A.infl))
    simpa using this

theorem run_events : ∀ (ys : List POp) (A : PSpec), ∃ es, (A.run ys).log = A.log ++ es ∧ Evs ys es := by
  intro ys
  induction ys with
  | nil => intro A; exact ⟨[], by simp [PSpec.run], ⟨by simp, by simp, by simp, by simp⟩⟩
  | cons y ys ih =>
    intro A
    obtain ⟨e1, h1, h2⟩ := step_events A y
    obtain ⟨e2, h3, h4⟩ := ih (A.step y)
    refine ⟨e1 ++ e2, ?_, h2.append h4⟩
    show ((A.step y).run ys).log = _
    rw [h3, h1, List.append_assoc]

theorem good_events {c c' : PubCtx} {pops ys : List POp} {L L' : List Nat} (h : Good c pops L) (h' : Good c' (pops ++ ys) L') :
    ∃ es, c'.pub.log = c.pub.log ++ es ∧ Evs ys es := by
  obtain ⟨es, h1, h2⟩ := run_events ys (spec pops)
  refine ⟨es, ?_, h2⟩
  rw [h'.p.reached.log, h.p.reached.log, ← h1]
  show (PSpec.init.run (pops ++ ys)).log = _
  unfold PSpec.run
  rw [List.foldl_append]
  rfl

theorem Good.owed_log {c : PubCtx} {pops : List POp} {L : List Nat} (h : Good c pops L) (k : Nat) :
    owed k c.pub.log = (decide (k ∈ L), c.pub.outstanding k) := by
  have hr := h.p.reached
  rw [hr.log, hr.linv.owed, outstanding_eq hr.rel]
  congr 1
  rw [decide_eq_decide, h.slots k, h.p.subs]

/-- Histories in which subscriber `k` neither connects nor leaves nor acknowledges: every packet multicast to it is
outstanding, unless it was settled before. -/
theorem fate_ops {c c' : PubCtx} {pops ys : List POp} {L L' : List Nat} {k : Nat} (h : Good c pops L) (h' : Good c' (pops ++ ys) L')
    (hk : k ∈ L) (h1 : POp.connect k ∉ ys) (h2 : POp.close k ∉ ys) :
    k ∈ L' ∧ ∃ es, c'.pub.log = c.pub.log ++ es ∧ ∀ pid ∈ sentTo k c'.pub.log, pid ∈ c'.pub.outstanding k ∨ POp.ack k pid ∈ ys ∨
      (pid ∈ sentTo k c.pub.log ∧ pid ∉ c.pub.outstanding k) := by
  obtain ⟨es, e1, e2⟩ := good_events h h'
  have ho := h.owed_log k
  have ho' := h'.owed_log k
  obtain ⟨g1, g2⟩ := owed_fate (k := k) (log := c.pub.log) (by rw [ho]; simpa using hk) _ es rfl
    (fun x => h1 (e2.connect k x)) (fun x => h2 (e2.close k x))
  rw [← e1, ho'] at g1 g2
  refine ⟨by simpa using g1, es, e1, fun pid hp => ?_⟩
  rcases g2 pid hp with g | g | g
  · exact .inl g
  · exact .inr (.inl (e2.ack k pid g))
  · rw [ho] at g; exact .inr (.inr g)

/-! ## Reading buffers -/

theorem armWrite_rb (c : PubCtx) (i j : Nat) : ((armWrite c i).cv.conns j).readBuf = (c.cv.conns j).readBuf := by
  unfold armWrite
  dsimp only
  split
  · rfl
  · show Conn.readBuf (if j = i then _ else _) = _
    by_cases e : j = i
    · rw [if_pos e, e]
    · rw [if_neg e]

theorem resendPacket_rb {c c' : PubCtx} {i r : Nat} {p : Pkt} (h : resendPacket c i p = .ok (r, c')) (j : Nat) :
    (c'.cv.conns j).readBuf = (c.cv.conns j).readBuf := by
  unfold resendPacket at h
  dsimp only at h
  split at h
  · cases h; exact armWrite_rb c i j
  · obtain ⟨b, _, h2⟩ := bind_ok h
    cases h2
    rw [armWrite_rb]
    show Conn.readBuf (if j = i then _ else _) = _
    by_cases e : j = i
    · rw [if_pos e, e]
    · rw [if_neg e]

theorem packetAck_cv2 {c c' : PubCtx} {i pid : Nat} (h : packetAck c i pid = .ok c') : c'.cv = c.cv := by
  unfold packetAck at h
  obtain ⟨s, _, h2⟩ := bind_ok h
  have := Except.ok.inj h2
  rw [← this]
  split <;> rfl

theorem sentPacketTimeout_rb {c c' : PubCtx} {i a r : Nat} (h : sentPacketTimeout c i a = .ok (r, c')) (j : Nat) :
    (c'.cv.conns j).readBuf = (c.cv.conns j).readBuf := by
  unfold sentPacketTimeout at h
  obtain ⟨p, _, h2⟩ := bind_ok h
  split at h2
  · obtain ⟨d, h3, h4⟩ := bind_ok h2
    cases h4
    rw [packetAck_cv2 h3]
  · obtain ⟨⟨r1, d⟩, h3, h4⟩ := bind_ok h2
    dsimp only at h4
    split at h4
    · obtain ⟨d2, h5, h6⟩ := bind_ok h4
      cases h6
      rw [packetAck_cv2 h5, resendPacket_rb h3]
    · cases h4; exact resendPacket_rb h3 j

theorem resendLoop_rb {i : Nat} : ∀ (as : List Nat) {c c' : PubCtx} {r : Nat}, resendLoop c i as = .ok (r, c') → ∀ j,
    (c'.cv.conns j).readBuf = (c.cv.conns j).readBuf := by
  intro as
  induction as with
  | nil => intro c c' r h j; cases h; rfl
  | cons a as ih =>
    intro c c' r h j
    rw [resendLoop_cons] at h
    obtain ⟨⟨r1, d⟩, h1, h2⟩ := bind_ok h
    dsimp only at h2
    split at h2
    · cases h2; exact sentPacketTimeout_rb h1 j
    · rw [ih h2 j, sentPacketTimeout_rb h1 j]

theorem subscribersTimeout_rb {now : Int} : ∀ (ks : List Nat) {c c' : PubCtx} {r : Nat}, subscribersTimeout c now ks = .ok (r, c') →
    ∀ j, (c'.cv.conns j).readBuf = (c.cv.conns j).readBuf := by
  intro ks
  induction ks with
  | nil => intro c c' r h j; cases h; rfl
  | cons k ks ih =>
    intro c c' r h j
    rw [subscribersTimeout_cons] at h
    obtain ⟨⟨r1, d⟩, h1, h2⟩ := bind_ok h
    have h1' : (d.cv.conns j).readBuf = (c.cv.conns j).readBuf := by
      unfold subscriberTimeout at h1
      obtain ⟨as, _, h3⟩ := bind_ok h1
      exact resendLoop_rb as h3 j
    dsimp only at h2
    split at h2
    · cases h2; exact h1'
    · rw [ih h2 j, h1']

/-! ## One call -/

/-- Bytes that left on connection `k`. -/
def outs (k : Nat) (es : List CEv) : List UInt8 :=
  (es.filterMap fun e => match e with
    | .tcpOut j bs => if j = k then some bs else none
    | _ => none).flatten

theorem outs_append (k : Nat) (a b : List CEv) : outs k (a ++ b) = outs k a ++ outs k b := by
  unfold outs; rw [List.filterMap_append, List.flatten_append]

theorem outs_none {k : Nat} {es : List CEv} (h : ∀ e ∈ es, ∀ bs, e ≠ .tcpOut k bs) : outs k es = [] := by
  unfold outs
  have : es.filterMap (fun e => match e with
    | .tcpOut j bs => if j = k then some bs else none
    | _ => none) = [] := by
    rw [List.filterMap_eq_nil_iff]
    intro e he
    have := h e he
    cases e with
    | tcpOut j bs =>
      have hj : j ≠ k := by rintro rfl; exact this bs rfl
      simp [hj]
    | _ => rfl
  rw [this]; rfl

/-- Connection `k` before and after a call that does not read from it: `ps` are the packets put on it. -/
structure Kept (k : Nat) (c c' : PubCtx) (ds : List CEv) (ps : List (Nat × Payload × Int)) : Prop where
  conn : Connected c' k
  rb : (c'.cv.conns k).readBuf = (c.cv.conns k).readBuf
  log : c'.log = c.log ++ ds
  out : outs k ds ++ bytes (c'.cv.conns k).writeBuf = bytes (c.cv.conns k).writeBuf ++ (ps.map (frameOf (cfg c))).flatten
  owed : ∀ x ∈ ps, x ∈ c.pub.owedPkts k
  plog : ∃ es, c'.pub.log = c.pub.log ++ es ∧ PEv.connect k ∉ es
  fate : ∀ pid ∈ sentTo k c'.pub.log, pid ∈ c'.pub.outstanding k ∨ pid ∈ ps.map (·.1) ∨
    (pid ∈ sentTo k c.pub.log ∧ pid ∉ c.pub.outstanding k)
  once : (ps.map (·.1)).Nodup ∧ ∀ x ∈ ps, x.1 ∉ c'.pub.outstanding k

theorem Kept.quiet {k : Nat} {c c' : PubCtx} {pops ys : List POp} {L L' : List Nat} {ds : List CEv} (h : Good c pops L)
    (h' : Good c' (pops ++ ys) L') (hk : k ∈ L) (h1 : POp.connect k ∉ ys) (h2 : POp.close k ∉ ys) (h3 : ∀ pid, POp.ack k pid ∉ ys)
    (hl : c'.log = c.log ++ ds) (hd : ∀ e ∈ ds, ∀ bs, e ≠ .tcpOut k bs) (hc : c'.cv.conns k = c.cv.conns k) :
    Kept k c c' ds [] := by
  obtain ⟨g1, es, g2, g3⟩ := fate_ops h h' hk h1 h2
  obtain ⟨es', e1, e2⟩ := good_events h h'
  refine ⟨h'.connected.2 g1, by rw [hc], hl, by rw [outs_none hd, hc]; simp, by simp, ⟨es', e1, fun x => h1 (e2.connect k x)⟩, ?_, ⟨List.nodup_nil, by simp⟩⟩
  intro pid hp
  rcases g3 pid hp with g | g | g
  · exact .inl g
  · exact absurd g (h3 pid)
  · exact .inr (.inr g)

theorem Kept.same {k : Nat} {c c' : PubCtx} {pops : List POp} {L : List Nat} {ds : List CEv} (h : Good c pops L) (h' : Good c' pops L)
    (hk : k ∈ L) (hl : c'.log = c.log ++ ds) (hd : ∀ e ∈ ds, ∀ bs, e ≠ .tcpOut k bs) (hc : c'.cv.conns k = c.cv.conns k) :
    Kept k c c' ds [] :=
  .quiet (ys := []) h (by rw [List.append_nil]; exact h') hk (by simp) (by simp) (by simp) hl hd hc

theorem step_link {c c' : PubCtx} {pops : List POp} {L : List Nat} {op : Op} {r k : Nat} (h : Good c pops L) (hs : op.sane)
    (hb : (queueArgs pops).length + 2 < U64) (hx : step c op = .ok (r, c')) (hk : Connected c k) (h1 : ∀ rv, op ≠ .read k rv)
    (h2 : op ≠ .close k) (h3 : op ≠ .deactivate) : ∃ ds ps, Kept k c c' ds ps := by
  have hkL : k ∈ L := h.connected.1 hk
  cases op with
  | queue p ann =>
    have hx' : queuePacket c p ann = .ok (r, c') := hx
    rcases queue_cases h p ann hb with ⟨_, e⟩ | ⟨_, _, e⟩ | ⟨_, _, s', g1, g2, g3, e⟩
    · rw [e] at hx'; cases hx'
      exact ⟨[], [], .same h h hkL (by simp) (by simp) rfl⟩
    · rw [e] at hx'; cases hx'
      exact ⟨[], [], .same h h hkL (by simp) (by simp) rfl⟩
    · have hg := good_queue h hb hx
      have hl : c'.log = c.log ∧ c'.cv.conns k = c.cv.conns k := by rw [e] at hx'; cases hx'; exact ⟨rfl, rfl⟩
      refine ⟨[], [], .quiet h hg hkL ?_ ?_ ?_ (by rw [hl.1]; simp) (by simp) hl.2⟩
      all_goals
        split
        · cases ann <;> simp [qop]
        · simp
  | readListen ar cb =>
    obtain ⟨r', c'', ys, L', ds, g1, g2, _, _, g4, g5, g3⟩ := readListen_spec h hs cb
    have : step c (.readListen ar cb) = .ok (r', c'') := g1
    rw [this] at hx; cases hx
    have hd : ∀ d ∈ ds, ∀ bs, d ≠ .tcpOut k bs := by
      intro d hd bs e
      obtain ⟨i, e2 | e2 | e2⟩ := g5 d hd <;> rw [e] at e2 <;> cases e2
    rcases g3 with ⟨e, _, _, _, hr⟩ | ⟨_, i, hi, _, ⟨e, _, _, he, _⟩ | ⟨e, _, _, he⟩⟩
    · subst e
      exact ⟨ds, [], .quiet h g2 hkL (by simp) (by simp) (by simp) g4 hd (by rw [hr])⟩
    · subst e
      have : k ≠ i := by rintro rfl; exact hi hkL
      exact ⟨ds, [], .quiet h g2 hkL (by simp [this]) (by simp) (by simp) g4 hd (he k this)⟩
    · subst e
      have : k ≠ i := by rintro rfl; exact hi hkL
      exact ⟨ds, [], .quiet h g2 hkL (by simp [this]) (by simp [this]) (by simp) g4 hd (he k this)⟩
  | readMcast err =>
    have hx' : readMcast c err = (r, c') := Except.ok.inj hx
    obtain ⟨ys, L', hg, _⟩ := step_good h hs hb hx
    suffices Good c' pops L ∧ c'.log = c.log ∧ c'.cv.conns = c.cv.conns from
      ⟨[], [], .same h this.1 hkL (by rw [this.2.1]; simp) (by simp) (by rw [this.2.2])⟩
    unfold readMcast at hx'
    split at hx'
    · cases hx'; exact ⟨h, rfl, rfl⟩
    · split at hx'
      · cases hx'; exact ⟨h, rfl, rfl⟩
      · cases hx'
        refine ⟨?_, rfl, rfl⟩
        exact h.pollOther (e := .modify MULTICAST_INDEX c.mcast .R .R) (by show LISTEN_INDEX ≤ MULTICAST_INDEX; decide)
  | read i rv =>
    have hik : i ≠ k := by rintro rfl; exact h1 rv rfl
    rcases readConn_spec h hx with ⟨_, _, e⟩ | ⟨_, c1, ys, zs, ds, L', _, hy, g, _, _, _, hds, hds2, hcj, hz⟩
    · subst e; exact ⟨[], [], .same h h hkL (by simp) (by simp) rfl⟩
    · refine ⟨ds, [], .quiet (ys := ys ++ zs) h (by rw [← List.append_assoc]; exact g) hkL ?_ ?_ ?_ hds ?_ (hcj k (Ne.symm hik))⟩
      · intro hm
        rcases List.mem_append.mp hm with hy' | hy'
        · obtain ⟨_, e2⟩ := hy _ hy'; cases e2
        · rcases hz with ⟨e2, _⟩ | ⟨e2, _⟩ <;> rw [e2] at hy' <;> simp at hy'
      · intro hm
        rcases List.mem_append.mp hm with hy' | hy'
        · obtain ⟨_, e2⟩ := hy _ hy'; cases e2
        · rcases hz with ⟨e2, _⟩ | ⟨e2, _⟩ <;> rw [e2] at hy' <;> simp at hy'
          exact hik hy'.symm
      · intro pid hm
        rcases List.mem_append.mp hm with hy' | hy'
        · obtain ⟨_, e2⟩ := hy _ hy'
          have e3 := (POp.ack.inj e2).1
          exact hik e3.symm
        · rcases hz with ⟨e2, _⟩ | ⟨e2, _⟩ <;> rw [e2] at hy' <;> simp at hy'
      · intro d hd bs e
        rcases hds2 d hd with ⟨_, e2⟩ | e2 <;> rw [e] at e2 <;> cases e2
  | writeMcast rs =>
    obtain ⟨r', c'', ys, es, ds, g1, g2, _, _, g3, g4, g5, g6, _⟩ := multicastWrite_spec rs h
    have : step c (.writeMcast rs) = .ok (r', c'') := g1
    rw [this] at hx; cases hx
    refine ⟨ds, [], .quiet h g2 hkL ?_ ?_ ?_ g5 ?_ (by rw [g6])⟩
    · intro hm; obtain ⟨_, e⟩ := g3.sends _ hm; cases e
    · intro hm; obtain ⟨_, e⟩ := g3.sends _ hm; cases e
    · intro pid hm; obtain ⟨_, e⟩ := g3.sends _ hm; cases e
    · intro d hd bs e
      obtain ⟨_, e2⟩ := sends_no_ann g3 d hd
      rw [e] at e2; cases e2
  | write i wv =>
    have hx' : writeConn c i wv = .ok (r, c') := hx
    rcases writeConn_spec h i wv with ⟨_, e | e⟩ | ⟨_, _, e⟩ | ⟨_, _, r', c'', out, e, g, _, _, gp, g2, g3, _, g4, _, g5⟩
    · rw [e] at hx'; cases hx'; exact ⟨[], [], .same h h hkL (by simp) (by simp) rfl⟩
    · rw [e] at hx'; cases hx'; exact ⟨[], [], .same h h hkL (by simp) (by simp) rfl⟩
    · rw [e] at hx'; cases hx'; exact ⟨[], [], .same h h hkL (by simp) (by simp) rfl⟩
    · rw [e] at hx'; cases hx'
      by_cases hik : k = i
      · subst hik
        refine ⟨_, [], ⟨g.connected.2 hkL, g4, g2, ?_, by simp, ⟨[], by rw [gp]; simp, by simp⟩, ?_, ⟨List.nodup_nil, by simp⟩⟩⟩
        · rw [g3]; simp [outs]
        · intro pid hp
          rw [gp] at hp ⊢
          by_cases ho : pid ∈ c.pub.outstanding k
          · exact .inl ho
          · exact .inr (.inr ⟨hp, ho⟩)
      · refine ⟨_, [], .same h g hkL g2 ?_ (g5 k hik)⟩
        intro d hd bs e
        rw [List.mem_singleton] at hd
        rw [e] at hd; cases hd; exact hik rfl
  | timeout now cb sp =>
    have hx' : timeoutProcess c now cb sp = .ok (r, c') := hx
    by_cases hd : annDue c now
    · obtain ⟨c'', e, g0, _, _, _, _, gc, _, g⟩ := timeout_announce h hd cb sp hb
      rw [e] at hx'; cases hx'
      rcases g with ⟨_, _, g, _⟩ | ⟨_, g, _⟩
      · exact ⟨_, [], .quiet h g hkL (by simp) (by simp) (by simp) g0 (by simp) (gc k)⟩
      · exact ⟨_, [], .same h g hkL g0 (by simp) (gc k)⟩
    · have ht := timeout_resend h hd hx'
      obtain ⟨done, ys, g1, g2, g3, g4, g5, g6, g7, _⟩ := subscribersTimeout_spec _ ((subs_nodup h).filter _)
        (fun k hk => (h.slots k).2 (List.mem_filter.mp hk).1) h ht
      have hacks : ∀ y ∈ ys, ∃ k pid, y = .ack k pid := g2.acks.acks
      obtain ⟨es, e1, e2⟩ := good_events h g1
      refine ⟨[], done k, ⟨g1.connected.2 hkL, subscribersTimeout_rb _ ht k, by rw [g3]; simp, ?_, ?_, ⟨es, e1, ?_⟩, ?_, ?_⟩⟩
      · rw [g6 k]; simp [outs]
      · intro x hx
        by_cases hkk : k ∈ c.pub.subs.filter fun k => late c.pub k now c.resendTimeout
        · obtain ⟨rest, hr, _⟩ := g4 k hkk
          have : x ∈ due c.pub k now c.resendTimeout := by rw [hr]; exact List.mem_append_left _ hx
          unfold due at this
          exact List.mem_reverse.1 ((List.takeWhile_sublist _).subset this)
        · rw [(g5 k hkk).1] at hx; cases hx
      · intro hm
        obtain ⟨_, _, e⟩ := hacks _ (e2.connect k hm); cases e
      · intro pid hp
        have hse : sentTo k c'.pub.log = sentTo k c.pub.log := by
          rw [e1, sentTo_append_of (by intro hm; obtain ⟨_, _, e⟩ := hacks _ (e2.connect k hm); cases e)]
          have : sentPkts es = [] := by
            unfold sentPkts
            rw [List.filterMap_eq_nil_iff]
            intro e he
            cases e with
            | send pid p ts => obtain ⟨_, _, e⟩ := hacks _ (e2.send pid p ts he); cases e
            | _ => rfl
          rw [this]; simp
        rw [hse] at hp
        have hr := h.p.reached.rel
        have hr' := g1.p.reached.rel
        by_cases ho : pid ∈ c.pub.outstanding k
        · by_cases hdn : pid ∈ (done k).map (·.1)
          · exact .inr (.inl hdn)
          · refine .inl ?_
            rw [outstanding_owed hr', g7 k]
            rw [outstanding_owed hr] at ho
            obtain ⟨x, hx1, rfl⟩ := List.mem_map.1 ho
            exact List.mem_map.2 ⟨x, List.mem_filter.2 ⟨hx1, by simpa using hdn⟩, rfl⟩
        · exact .inr (.inr ⟨hp, ho⟩)
      · constructor
        · by_cases hkk : k ∈ c.pub.subs.filter fun k => late c.pub k now c.resendTimeout
          · obtain ⟨rest, hr, _⟩ := g4 k hkk
            have h1 : (done k).Sublist (c.pub.owedPkts k).reverse := by
              have : (done k).Sublist (due c.pub k now c.resendTimeout) := by rw [hr]; exact List.sublist_append_left _ _
              exact this.trans (by unfold due; exact List.takeWhile_sublist _)
            have h2 : ((c.pub.owedPkts k).reverse.map (·.1)).Nodup := by
              rw [List.map_reverse, nodup_rev, ← outstanding_owed h.p.reached.rel]
              have := PSpec.owes_asc h.p.reached.inv k
              rw [outstanding_eq h.p.reached.rel]
              exact this.imp (fun hlt => Nat.ne_of_lt hlt)
            exact h2.sublist (h1.map _)
          · rw [(g5 k hkk).1]; exact List.nodup_nil
        · intro x hx ho
          rw [outstanding_owed g1.p.reached.rel, g7 k] at ho
          obtain ⟨y, hy, e⟩ := List.mem_map.1 ho
          have := (List.mem_filter.1 hy).2
          simp only [decide_eq_true_eq] at this
          exact this (List.mem_map.2 ⟨x, hx, e.symm⟩)
  | close i =>
    have hik : i ≠ k := by rintro rfl; exact h2 rfl
    have hx' : closeConnection c i = .ok (r, c') := hx
    by_cases hi : i ∈ L
    · obtain ⟨c'', e, g, _, _, g2, gc, _⟩ := close_spec h hi
      rw [e] at hx'; cases hx'
      exact ⟨_, [], .quiet h g hkL (by simp) (by simp [Ne.symm hik]) (by simp) g2 (by simp) (gc k (Ne.symm hik))⟩
    · rw [close_none h hi] at hx'; cases hx'
      exact ⟨[], [], .same h h hkL (by simp) (by simp) rfl⟩
  | setAnnounce n now =>
    cases hx
    exact ⟨[.setAnnounce now n], [], .same h (h.congr rfl rfl) hkL rfl (by simp) rfl⟩
  | throttling a b =>
    have hx' : throttling c a b = (r, c') := Except.ok.inj hx
    unfold throttling at hx'
    split at hx' <;> cases hx'
    · exact ⟨[], [], .same h h hkL (by simp) (by simp) rfl⟩
    · exact ⟨[], [], .same h (h.congr rfl rfl) hkL (by simp) (by simp) rfl⟩
  | setCtlCb b =>
    cases hx
    exact ⟨[], [], .same h (h.congr rfl rfl) hkL (by simp [setCtlCb]) (by simp) rfl⟩
  | activate x =>
    have hx' : activate c x = (r, c') := Except.ok.inj hx
    unfold activate at hx'
    split at hx' <;> cases hx'
    · exact ⟨[], [], .same h (h.fds rfl rfl) hkL (by simp) (by simp) rfl⟩
    · rename_i md ld port
      refine ⟨[], [], .same h ?_ hkL (by simp) (by simp) rfl⟩
      have h := h.fds (c' := { c with cv := c.cv.fdAll [.opened md, .opened ld] }) rfl rfl
      exact ((h.pollOther (e := .add MULTICAST_INDEX (some md) .R) (by show LISTEN_INDEX ≤ MULTICAST_INDEX; decide)).pollOther
        (e := .add LISTEN_INDEX (some ld) .R) (by show LISTEN_INDEX ≤ LISTEN_INDEX; decide)).congr rfl rfl
  | deactivate => exact absurd rfl h3

end PubCtx
end Rmc
