import Verif.PubCtxHist
import Verif.Props.PubCtxRead

/-!
# Properties of the publisher context: throttling, resending, timers, reports (C25–C30)
-/

set_option linter.unusedSimpArgs false
set_option linter.unusedVariables false

namespace Rmc

theorem PGood.count {s : Pub} {pops : List POp} (h : PGood s pops) : s.unackedCount = (spec pops).infl.length := by
  obtain ⟨Q, N, I, r1, r2, r3, r4, r5, _⟩ := h.reached.rel
  unfold Pub.unackedCount; rw [r5, r3]; simp

/-- Acknowledging and closing never add a packet to those in flight. -/
theorem PGood.count_le {s s' : Pub} {pops ys : List POp} (h : PGood s pops) (h' : PGood s' (pops ++ ys))
    (hy : ∀ y ∈ ys, (∃ k pid, y = .ack k pid) ∨ ∃ k, y = .close k) : s'.unackedCount ≤ s.unackedCount := by
  rw [h.count, h'.count]
  unfold spec PSpec.run
  rw [List.foldl_append]
  generalize List.foldl PSpec.step PSpec.init pops = A
  clear h h'
  induction ys generalizing A with
  | nil => exact Nat.le_refl _
  | cons y ys ih =>
    rw [List.foldl_cons]
    refine Nat.le_trans (ih (fun z hz => hy z (by simp [hz])) (A.step y)) ?_
    rcases hy y (by simp) with ⟨k, pid, rfl⟩ | ⟨k, rfl⟩
    · exact List.length_filterMap_le _ _
    · exact List.length_filterMap_le _ _

namespace PubCtx
open CircBuf Proto

/-- What a run of acknowledgements does to the throttling flag. -/
theorem Acks.flag {thr : Nat} {s s' : Pub} {b b' : Bool} {ys pops : List POp} (h : Acks thr s b ys s' b') (hs : PGood s pops) :
    PGood s' (pops ++ ys) ∧ b' = (if ys = [] then b else b && decide (thr < s'.unackedCount)) := by
  induction h with
  | nil => exact ⟨by simpa using hs, by simp⟩
  | snoc h k pid hk ih =>
    rename_i zs s1 s2 b1
    obtain ⟨i1, i2⟩ := ih
    obtain ⟨s3, j1, j2⟩ := i1.step (op := .ack k pid) trivial trivial (by simpa [queueArgs] using i1.bnd)
    rw [hk] at j1; cases j1
    rw [← List.append_assoc]
    refine ⟨j2, ?_⟩
    rw [if_neg (by simp), i2]
    have hle := i1.count_le j2 (by intro y hy; left; exact ⟨k, pid, List.mem_singleton.mp hy⟩)
    split
    · rfl
    · rw [Bool.and_assoc]
      congr 1
      rw [← Bool.decide_and]
      apply decide_eq_decide.mpr
      omega

/-! ## C25: throttling -/

/-- C25: a payload that is not too long is refused, with EBUSY, exactly while `rmc_pub_traffic_suspended` says so, and
then nothing changes; otherwise it is accepted. -/
theorem C25_busy {ops : List Op} {c : PubCtx} (h : Reaches ops c) (hb : ops.length + 2 < U64) (p : Payload) (ann : Bool)
    (hl : p.data.length ≤ RMC_MAX_PAYLOAD) :
    (trafficSuspended c = EBUSY ∧ queuePacket c p ann = .ok (EBUSY, c)) ∨
    (trafficSuspended c = 0 ∧ ∃ c', queuePacket c p ann = .ok (0, c')) := by
  obtain ⟨pops, L, g, hq, _⟩ := h.good
  unfold trafficSuspended
  rcases queue_cases g p ann (by omega) with ⟨e, _⟩ | ⟨_, e1, e⟩ | ⟨_, e1, s', h1, h2, h3, e⟩
  · omega
  · exact .inl ⟨by rw [e1]; rfl, e⟩
  · exact .inr ⟨by rw [e1]; rfl, _, e⟩

/-- C25: traffic is suspended by queueing (a packet, or an announcement when its timer fires) and by nothing else, and
only when the number of unacknowledged packets has reached a threshold that is set. -/
theorem C25_suspend {ops : List Op} {c c' : PubCtx} (h : Reaches ops c) {op : Op} (hs : op.sane) (hb : ops.length + 2 < U64)
    {r : Nat} (hx : step c op = .ok (r, c')) (h0 : trafficSuspended c = 0) (h1 : trafficSuspended c' = EBUSY) :
    ((∃ p ann, op = .queue p ann) ∨ ∃ now cb sp, op = .timeout now cb sp) ∧
    0 < c.suspendThr ∧ c.suspendThr ≤ c'.pub.unackedCount := by
  obtain ⟨pops, L, g, hq, _⟩ := h.good
  have hb' : (queueArgs pops).length + 2 < U64 := by omega
  have h0' : c.suspended = false := by
    cases hh : c.suspended with
    | false => rfl
    | true => unfold trafficSuspended at h0; rw [hh] at h0; cases h0
  have h1' : c'.suspended = true := by
    cases hh : c'.suspended with
    | true => rfl
    | false => unfold trafficSuspended at h1; rw [hh] at h1; cases h1
  have same : c'.suspended ≠ c.suspended := by rw [h0', h1']; simp
  cases op with
  | queue p ann =>
    have hx' : queuePacket c p ann = .ok (r, c') := hx
    refine ⟨.inl ⟨p, ann, rfl⟩, ?_⟩
    rcases queue_cases g p ann hb' with ⟨_, e⟩ | ⟨_, _, e⟩ | ⟨_, _, s', k1, k2, k3, e⟩ <;> rw [e] at hx' <;> cases hx'
    · exact absurd rfl same
    · exact absurd rfl same
    · exact of_decide_eq_true h1'
  | readListen ar cb =>
    obtain ⟨r', c'', ys, L', ds, g1, g2, g3, g4, _⟩ := readListen_spec g hs cb
    have : step c (.readListen ar cb) = .ok (r', c'') := g1
    rw [this] at hx; cases hx
    exact absurd g4 same
  | readMcast err =>
    have hx' : readMcast c err = (r, c') := Except.ok.inj hx
    unfold readMcast at hx'
    split at hx'
    · cases hx'; exact absurd rfl same
    · split at hx' <;> cases hx' <;> exact absurd rfl same
  | read i rv =>
    rcases readConn_spec g hx with ⟨_, _, e⟩ | ⟨_, c1, ys, zs, ds, L', hst, hy, g', hcf, hss, _⟩
    · rw [e] at same; exact absurd rfl same
    · have := (hst.acks.flag g.p).2
      rw [← hss, h0', h1'] at this
      split at this <;> simp at this
  | writeMcast rs =>
    obtain ⟨r', c'', ys, es, ds, g1, g2, g3, g4, _⟩ := multicastWrite_spec rs g
    have : step c (.writeMcast rs) = .ok (r', c'') := g1
    rw [this] at hx; cases hx
    exact absurd g4 same
  | write i wv =>
    have hx' : writeConn c i wv = .ok (r, c') := hx
    rcases writeConn_spec g i wv with ⟨_, e | e⟩ | ⟨_, _, e⟩ | ⟨_, _, r', c'', out, e, g', g3, g4, _⟩ <;> rw [e] at hx' <;>
      cases hx'
    · exact absurd rfl same
    · exact absurd rfl same
    · exact absurd rfl same
    · exact absurd g4 same
  | timeout now cb sp =>
    refine ⟨.inr ⟨now, cb, sp, rfl⟩, ?_⟩
    have hx' : timeoutProcess c now cb sp = .ok (r, c') := hx
    by_cases hd : annDue c now
    · obtain ⟨c'', e, _, _, _, _, _, _, _, k⟩ := timeout_announce g hd cb sp hb'
      rw [e] at hx'; cases hx'
      rcases k with ⟨_, _, _, k, _⟩ | ⟨_, _, k, _⟩
      · rw [k] at h1'; exact of_decide_eq_true h1'
      · exact absurd k same
    · have ht := timeout_resend g hd hx'
      obtain ⟨_, ys, g1, g2, g3, _⟩ := subscribersTimeout_spec _ ((subs_nodup g).filter _)
        (fun k hk => (g.slots k).2 (List.mem_filter.mp hk).1) g ht
      have := (g2.acks.flag g.p).2
      rw [h0', h1'] at this
      split at this <;> simp at this
  | close i =>
    have hx' : closeConnection c i = .ok (r, c') := hx
    by_cases hi : i ∈ L
    · obtain ⟨c'', e, _, _, k, _⟩ := close_spec g hi
      rw [e] at hx'; cases hx'; exact absurd k same
    · rw [close_none g hi] at hx'; cases hx'
      exact absurd rfl same
  | setAnnounce n now => cases hx; exact absurd rfl same
  | throttling a b =>
    have hx' : throttling c a b = (r, c') := Except.ok.inj hx
    unfold throttling at hx'
    split at hx' <;> cases hx' <;> exact absurd rfl same
  | setCtlCb b => cases hx; exact absurd rfl same
  | activate x =>
    have hx' : activate c x = (r, c') := Except.ok.inj hx
    unfold activate at hx'
    split at hx' <;> cases hx' <;> exact absurd rfl same
  | deactivate =>
    obtain ⟨c'', ys, ds, e, _, k, _⟩ := deactivate_spec g
    have hx' : deactivate c = .ok (r, c') := hx
    rw [e] at hx'; cases hx'; exact absurd k same

/-- C25: after a packet has been accepted, traffic is suspended exactly if the number of unacknowledged packets has
reached the suspend threshold (0: no threshold). -/
theorem C25_suspend_at {ops : List Op} {c c' : PubCtx} (h : Reaches ops c) (hb : ops.length + 2 < U64) {p : Payload}
    {ann : Bool} (hx : queuePacket c p ann = .ok (0, c')) :
    trafficSuspended c' = EBUSY ↔ 0 < c.suspendThr ∧ c.suspendThr ≤ c'.pub.unackedCount := by
  obtain ⟨pops, L, g, hq, _⟩ := h.good
  rcases queue_cases g p ann (by omega) with ⟨_, e⟩ | ⟨_, _, e⟩ | ⟨_, _, s', k1, k2, k3, e⟩ <;> rw [e] at hx <;> cases hx
  unfold trafficSuspended
  dsimp only
  by_cases hh : c.suspendThr > 0 ∧ Pub.unackedCount s' ≥ c.suspendThr
  · rw [decide_eq_true hh]; simp; exact hh
  · rw [decide_eq_false hh]
    constructor
    · intro h; cases h
    · intro h; exact absurd h hh

/-- C25: suspension ends only while acknowledgements are read or resends are done, and only with the number of
unacknowledged packets not above the resume threshold. -/
theorem C25_resume_safe {ops : List Op} {c c' : PubCtx} (h : Reaches ops c) {op : Op} (hs : op.sane)
    (hb : ops.length + 2 < U64) {r : Nat} (hx : step c op = .ok (r, c')) (h0 : trafficSuspended c = EBUSY)
    (h1 : trafficSuspended c' = 0) :
    ((∃ i bs, op = .read i bs) ∨ ∃ now cb sp, op = .timeout now cb sp) ∧ c'.pub.unackedCount ≤ c.resumeThr := by
  obtain ⟨pops, L, g, hq, _⟩ := h.good
  have hb' : (queueArgs pops).length + 2 < U64 := by omega
  have h0' : c.suspended = true := by
    cases hh : c.suspended with
    | true => rfl
    | false => unfold trafficSuspended at h0; rw [hh] at h0; cases h0
  have h1' : c'.suspended = false := by
    cases hh : c'.suspended with
    | false => rfl
    | true => unfold trafficSuspended at h1; rw [hh] at h1; cases h1
  have same : c'.suspended ≠ c.suspended := by rw [h0', h1']; simp
  cases op with
  | queue p ann =>
    have hx' : queuePacket c p ann = .ok (r, c') := hx
    rcases queue_cases g p ann hb' with ⟨_, e⟩ | ⟨_, _, e⟩ | ⟨_, e1, s', k1, k2, k3, e⟩ <;> rw [e] at hx' <;> cases hx'
    · exact absurd rfl same
    · exact absurd rfl same
    · rw [e1] at h0'; cases h0'
  | readListen ar cb =>
    obtain ⟨r', c'', ys, L', ds, g1, g2, g3, g4, _⟩ := readListen_spec g hs cb
    have : step c (.readListen ar cb) = .ok (r', c'') := g1
    rw [this] at hx; cases hx
    exact absurd g4 same
  | readMcast err =>
    have hx' : readMcast c err = (r, c') := Except.ok.inj hx
    unfold readMcast at hx'
    split at hx'
    · cases hx'; exact absurd rfl same
    · split at hx' <;> cases hx' <;> exact absurd rfl same
  | read i rv =>
    refine ⟨.inl ⟨i, rv, rfl⟩, ?_⟩
    rcases readConn_spec g hx with ⟨_, _, e⟩ | ⟨_, c1, ys, zs, ds, L', hst, hy, g', hcf, hss, g1, _, _, _, hz⟩
    · rw [e] at same; exact absurd rfl same
    · have := (hst.acks.flag g.p).2
      rw [← hss, h0', h1'] at this
      have hle : c1.pub.unackedCount ≤ c.resumeThr := by
        split at this
        · cases this
        · rw [Bool.true_and] at this
          have := of_decide_eq_false this.symm
          omega
      refine Nat.le_trans ?_ hle
      refine g1.p.count_le g'.p ?_
      rcases hz with ⟨e, _⟩ | ⟨e, _⟩ <;> rw [e] <;> simp
  | writeMcast rs =>
    obtain ⟨r', c'', ys, es, ds, g1, g2, g3, g4, _⟩ := multicastWrite_spec rs g
    have : step c (.writeMcast rs) = .ok (r', c'') := g1
    rw [this] at hx; cases hx
    exact absurd g4 same
  | write i wv =>
    have hx' : writeConn c i wv = .ok (r, c') := hx
    rcases writeConn_spec g i wv with ⟨_, e | e⟩ | ⟨_, _, e⟩ | ⟨_, _, r', c'', out, e, g', g3, g4, _⟩ <;> rw [e] at hx' <;>
      cases hx'
    · exact absurd rfl same
    · exact absurd rfl same
    · exact absurd rfl same
    · exact absurd g4 same
  | timeout now cb sp =>
    refine ⟨.inr ⟨now, cb, sp, rfl⟩, ?_⟩
    have hx' : timeoutProcess c now cb sp = .ok (r, c') := hx
    by_cases hd : annDue c now
    · obtain ⟨c'', e, _, _, _, _, _, _, _, k⟩ := timeout_announce g hd cb sp hb'
      rw [e] at hx'; cases hx'
      rcases k with ⟨_, k, _⟩ | ⟨_, _, k, _⟩
      · rw [k] at h0'; cases h0'
      · exact absurd k same
    · have ht := timeout_resend g hd hx'
      obtain ⟨_, ys, g1, g2, g3, _⟩ := subscribersTimeout_spec _ ((subs_nodup g).filter _)
        (fun k hk => (g.slots k).2 (List.mem_filter.mp hk).1) g ht
      have := (g2.acks.flag g.p).2
      rw [h0', h1'] at this
      split at this
      · cases this
      · rw [Bool.true_and] at this
        have := of_decide_eq_false this.symm
        omega
  | close i =>
    have hx' : closeConnection c i = .ok (r, c') := hx
    by_cases hi : i ∈ L
    · obtain ⟨c'', e, _, _, k, _⟩ := close_spec g hi
      rw [e] at hx'; cases hx'; exact absurd k same
    · rw [close_none g hi] at hx'; cases hx'
      exact absurd rfl same
  | setAnnounce n now => cases hx; exact absurd rfl same
  | throttling a b =>
    have hx' : throttling c a b = (r, c') := Except.ok.inj hx
    unfold throttling at hx'
    split at hx' <;> cases hx' <;> exact absurd rfl same
  | setCtlCb b => cases hx; exact absurd rfl same
  | activate x =>
    have hx' : activate c x = (r, c') := Except.ok.inj hx
    unfold activate at hx'
    split at hx' <;> cases hx' <;> exact absurd rfl same
  | deactivate =>
    obtain ⟨c'', ys, ds, e, _, k, _⟩ := deactivate_spec g
    have hx' : deactivate c = .ok (r, c') := hx
    rw [e] at hx'; cases hx'; exact absurd k same

/-- C25 (partial: acknowledgements only, see `C25_stuck` for connections that are closed): after an acknowledgement
interval from any subscriber, traffic is suspended exactly if it was and the number of unacknowledged packets is still
above the resume threshold. -/
theorem C25_resume_partial {ops : List Op} {c : PubCtx} (h : Reaches ops c) (i : Nat) (a : AckInterval)
    (ha : a.last ≠ U64 - 1) (hne : a.first ≤ a.last) :
    ∃ c', ackInterval c i a = .ok c' ∧
      (trafficSuspended c' = EBUSY ↔ trafficSuspended c = EBUSY ∧ c.resumeThr < c'.pub.unackedCount) := by
  obtain ⟨pops, L, g, _⟩ := h.good
  obtain ⟨c', k1, k2, k3, _⟩ := ackInterval_spec g i a ha
  refine ⟨c', k1, ?_⟩
  have := (k3.acks.flag g.p).2
  rw [if_neg (by
    intro e
    have := congrArg List.length e
    simp at this
    omega)] at this
  unfold trafficSuspended
  rw [this]
  cases c.suspended <;> by_cases hc : c.resumeThr < c'.pub.unackedCount <;> simp [hc] <;> decide

/-- C25 (partial, as above): when timeout processing has resent at least one packet, and so no longer waits for its
acknowledgement, traffic is suspended exactly if it was and the number is still above the resume threshold. -/
theorem C25_resume_timeout_partial {ops : List Op} {c c' : PubCtx} (h : Reaches ops c) {now : Int}
    {cb : Option (Bool × List UInt8)} {sp r : Nat} (hd : ¬ annDue c now) (hx : timeoutProcess c now cb sp = .ok (r, c'))
    (hne : ∃ k, c'.pub.outstanding k ≠ c.pub.outstanding k) :
    trafficSuspended c' = EBUSY ↔ trafficSuspended c = EBUSY ∧ c.resumeThr < c'.pub.unackedCount := by
  obtain ⟨pops, L, g, _⟩ := h.good
  have ht := timeout_resend g hd hx
  obtain ⟨_, ys, g1, g2, g3, _⟩ := subscribersTimeout_spec _ ((subs_nodup g).filter _)
    (fun k hk => (g.slots k).2 (List.mem_filter.mp hk).1) g ht
  have hy : ys ≠ [] := by
    intro e
    subst e
    obtain ⟨k, hk⟩ := hne
    have h1 := g1.p.run
    rw [List.append_nil, g.p.run] at h1
    have h2 : c.pub = c'.pub := Except.ok.inj h1
    exact hk (by rw [h2])
  have := (g2.acks.flag g.p).2
  rw [if_neg hy] at this
  unfold trafficSuspended
  rw [this]
  cases c.suspended <;> by_cases hc : c.resumeThr < c'.pub.unackedCount <;> simp [hc] <;> decide

/-- Calls after which there is still no subscriber. -/
def noListen : Op → Prop
  | .readListen _ _ => False
  | _ => True

theorem stuck_step {c c' : PubCtx} {pops : List POp} (g : Good c pops []) (hsu : c.suspended = true)
    (hb : (queueArgs pops).length + 2 < U64) {op : Op} (hn : noListen op) {r : Nat} (hx : step c op = .ok (r, c')) :
    (∃ pops', Good c' pops' [] ∧ queueArgs pops' = queueArgs pops) ∧ c'.suspended = true ∧
    (∀ p ann, op = .queue p ann → r = EBUSY ∨ r = EMSGSIZE) := by
  have hsubs : c.pub.subs = [] := by
    cases hs : c.pub.subs with
    | nil => rfl
    | cons k ks => exact absurd ((g.slots k).2 (by rw [hs]; simp)) (by simp)
  cases op with
  | queue p ann =>
    have hx' : queuePacket c p ann = .ok (r, c') := hx
    rcases queue_cases g p ann hb with ⟨_, e⟩ | ⟨_, _, e⟩ | ⟨_, e1, s', k1, k2, k3, e⟩ <;> rw [e] at hx' <;> cases hx'
    · exact ⟨⟨pops, g, rfl⟩, hsu, fun _ _ _ => .inr rfl⟩
    · exact ⟨⟨pops, g, rfl⟩, hsu, fun _ _ _ => .inl rfl⟩
    · rw [e1] at hsu; cases hsu
  | readListen ar cb => exact hn.elim
  | readMcast err =>
    have hx' : readMcast c err = (r, c') := Except.ok.inj hx
    refine ⟨⟨pops, ?_, rfl⟩, ?_, by intro p ann e; cases e⟩ <;> unfold readMcast at hx' <;> split at hx'
    · cases hx'; exact g
    · split at hx' <;> cases hx'
      · exact g
      · exact g.pollOther (e := .modify MULTICAST_INDEX c.mcast .R .R) (by show LISTEN_INDEX ≤ MULTICAST_INDEX; decide)
    · cases hx'; exact hsu
    · split at hx' <;> cases hx' <;> exact hsu
  | read i rv =>
    rcases readConn_spec g hx with ⟨_, _, e⟩ | ⟨h0, _⟩
    · rw [e]; exact ⟨⟨pops, g, rfl⟩, hsu, by intro p ann e; cases e⟩
    · cases h0
  | writeMcast rs =>
    obtain ⟨r', c'', ys, es, ds, g1, g2, g3, g4, g5, _⟩ := multicastWrite_spec rs g
    have : step c (.writeMcast rs) = .ok (r', c'') := g1
    rw [this] at hx; cases hx
    refine ⟨⟨_, g2, ?_⟩, by rw [g4]; exact hsu, by intro p ann e; cases e⟩
    rw [Pub.queueArgs_append, queueArgs_of_not (ys := ys), List.append_nil]
    intro y hy p e
    obtain ⟨_, e2⟩ := g5.sends y hy; rw [e] at e2; cases e2
  | write i wv =>
    have hx' : writeConn c i wv = .ok (r, c') := hx
    rcases writeConn_spec g i wv with ⟨_, e | e⟩ | ⟨h0, _, e⟩ | ⟨h0, _⟩
    · rw [e] at hx'; cases hx'; exact ⟨⟨pops, g, rfl⟩, hsu, by intro p ann e; cases e⟩
    · rw [e] at hx'; cases hx'; exact ⟨⟨pops, g, rfl⟩, hsu, by intro p ann e; cases e⟩
    · cases h0
    · cases h0
  | timeout now cb sp =>
    have hx' : timeoutProcess c now cb sp = .ok (r, c') := hx
    by_cases hd : annDue c now
    · obtain ⟨c'', e, _, _, _, _, _, _, _, k⟩ := timeout_announce g hd cb sp hb
      rw [e] at hx'; cases hx'
      rcases k with ⟨_, k, _⟩ | ⟨_, k, k2, _⟩
      · rw [k] at hsu; cases hsu
      · exact ⟨⟨pops, k, rfl⟩, by rw [k2]; exact hsu, by intro p ann e; cases e⟩
    · have ht := timeout_resend g hd hx'
      rw [hsubs] at ht
      cases ht
      exact ⟨⟨pops, g, rfl⟩, hsu, by intro p ann e; cases e⟩
  | close i =>
    have hx' : closeConnection c i = .ok (r, c') := hx
    rw [close_none g (by simp)] at hx'; cases hx'
    exact ⟨⟨pops, g, rfl⟩, hsu, by intro p ann e; cases e⟩
  | setAnnounce n now => cases hx; exact ⟨⟨pops, g.congr rfl rfl, rfl⟩, hsu, by intro p ann e; cases e⟩
  | throttling a b =>
    have hx' : throttling c a b = (r, c') := Except.ok.inj hx
    unfold throttling at hx'
    split at hx' <;> cases hx'
    · exact ⟨⟨pops, g, rfl⟩, hsu, by intro p ann e; cases e⟩
    · exact ⟨⟨pops, g.congr rfl rfl, rfl⟩, hsu, by intro p ann e; cases e⟩
  | setCtlCb b => cases hx; exact ⟨⟨pops, g.congr rfl rfl, rfl⟩, hsu, by intro p ann e; cases e⟩
  | activate x =>
    have hx2 := hx
    have hx' : activate c x = (r, c') := Except.ok.inj hx
    obtain ⟨ys, L', k1, _⟩ := step_good g (op := .activate x) trivial hb hx2
    unfold activate at hx'
    split at hx' <;> cases hx'
    · exact ⟨⟨pops, g.fds rfl rfl, rfl⟩, hsu, by intro p ann e; cases e⟩
    · rename_i md ld port _
      refine ⟨⟨pops, ?_, rfl⟩, hsu, by intro p ann e; cases e⟩
      have g := g.fds (c' := { c with cv := c.cv.fdAll [.opened md, .opened ld] }) rfl rfl
      exact ((g.pollOther (e := .add MULTICAST_INDEX (some md) .R) (by show LISTEN_INDEX ≤ MULTICAST_INDEX; decide)).pollOther
        (e := .add LISTEN_INDEX (some ld) .R) (by show LISTEN_INDEX ≤ LISTEN_INDEX; decide)).congr rfl rfl
  | deactivate =>
    obtain ⟨c'', ys, ds, e, k1, k, _, _, k2, _⟩ := deactivate_spec g
    have hx' : deactivate c = .ok (r, c') := hx
    rw [e] at hx'; cases hx'
    refine ⟨⟨_, k1, ?_⟩, by rw [k]; exact hsu, by intro p ann e; cases e⟩
    rw [Pub.queueArgs_append, queueArgs_of_not (ys := ys), List.append_nil]
    intro y hy p e
    obtain ⟨_, e2⟩ := k2 y hy; rw [e] at e2; cases e2

/-- C25 is false: once traffic is suspended and the last subscriber is gone, then whatever is called afterwards (no new
subscriber being accepted) traffic stays suspended and every packet is refused, however few packets are unacknowledged
and whatever the thresholds are set to. -/
theorem C25_stuck : ∀ (more : List Op) {ops : List Op} {c c' : PubCtx} {rs : List Nat}, Reaches ops c →
    ops.length + 2 < U64 → trafficSuspended c = EBUSY → (∀ i, ¬ Connected c i) → (∀ op ∈ more, noListen op) → run c more = .ok (rs, c') →
    trafficSuspended c' = EBUSY ∧
    ∀ (k : Nat) p ann, more[k]? = some (Op.queue p ann) → rs[k]? = some EBUSY ∨ rs[k]? = some EMSGSIZE := by
  intro more ops c c' rs h hlen h0 hno hn hx
  obtain ⟨pops, L, g, hq, hb, _⟩ := h.good
  have hL : L = [] := by
    cases L with
    | nil => rfl
    | cons i L => exact absurd (g.connected.2 (by simp)) (hno i)
  subst hL
  have hsu : c.suspended = true := by
    cases hh : c.suspended with
    | true => rfl
    | false => unfold trafficSuspended at h0; rw [hh] at h0; cases h0
  have hb' : (queueArgs pops).length + 2 < U64 := by omega
  clear h h0 hno hq hb
  have key : ∀ (more : List Op) (c c' : PubCtx) (pops : List POp) (rs : List Nat), Good c pops [] → c.suspended = true →
      (queueArgs pops).length + 2 < U64 → (∀ op ∈ more, noListen op) → run c more = .ok (rs, c') →
      trafficSuspended c' = EBUSY ∧
      ∀ (k : Nat) p ann, more[k]? = some (Op.queue p ann) → rs[k]? = some EBUSY ∨ rs[k]? = some EMSGSIZE := by
    intro more
    induction more with
    | nil =>
      intro c c' pops rs g hsu _ _ hx
      cases hx
      exact ⟨by unfold trafficSuspended; rw [hsu]; rfl, by intro k p ann h; simp at h⟩
    | cons op more ih =>
      intro c c' pops rs g hsu hb hn hx
      rw [run_cons] at hx
      obtain ⟨⟨r, c1⟩, h1, h2⟩ := bind_ok hx
      obtain ⟨⟨rs1, c2⟩, h3, h4⟩ := bind_ok h2
      cases h4
      obtain ⟨⟨pops', k1, k2⟩, k3, k4⟩ := stuck_step g hsu hb (hn op (by simp)) h1
      obtain ⟨j1, j2⟩ := ih c1 c2 pops' rs1 k1 k3 (by rw [k2]; exact hb) (fun o ho => hn o (by simp [ho])) h3
      refine ⟨j1, ?_⟩
      intro k p ann hk
      cases k with
      | zero =>
        have hk' : op = .queue p ann := by simpa using hk
        rcases k4 p ann hk' with e | e <;> rw [e]
        · exact .inl rfl
        · exact .inr rfl
      | succ k => exact j2 k p ann (by simpa using hk)
  exact key more c c' pops rs g hsu hb' hn hx

/-- Throttling at one unacknowledged packet; one subscriber, two packets, the first multicast. -/
def exThr : List Op :=
  [.activate (.ok (7, 8, 9)), .throttling 1 0, .readListen (.ok 5 1) none, .queue (exPay 1) false,
   .writeMcast [⟨.ok 10, []⟩], .queue (exPay 2) false]

/-- Non-vacuity of `C25_suspend`, `C25_resume_*`: the second packet suspends traffic; the acknowledgement resumes it. -/
example : ∃ c rs, Reaches exThr c ∧ run exC0 exThr = .ok (rs, c) ∧
    decide (trafficSuspended c = EBUSY ∧ c.pub.unackedCount = 1) = true :=
  reaches_of (P := fun _ c => decide (trafficSuspended c = EBUSY ∧ c.pub.unackedCount = 1))
    (by simp [exThr, Op.sane, saneAcc]) (by decide) (by decide +kernel)
example : ∃ c rs, Reaches (exThr ++ [.read 0 (some (ackBytes 1 1))]) c ∧
    run exC0 (exThr ++ [.read 0 (some (ackBytes 1 1))]) = .ok (rs, c) ∧
    decide (trafficSuspended c = 0 ∧ c.pub.unackedCount = 0) = true :=
  reaches_of (P := fun _ c => decide (trafficSuspended c = 0 ∧ c.pub.unackedCount = 0))
    (by simp [exThr, Op.sane, saneAcc]) (by decide) (by decide +kernel)

/-- The state of `C25_stuck` is reached: the subscriber closes instead of acknowledging. No packet is unacknowledged,
nobody is connected, and traffic is suspended. -/
theorem C25_false : ∃ c rs, Reaches (exThr ++ [.read 0 none]) c ∧ run exC0 (exThr ++ [.read 0 none]) = .ok (rs, c) ∧
    trafficSuspended c = EBUSY ∧ c.pub.unackedCount = 0 ∧ c.resumeThr = 0 ∧ ∀ i, ¬ Connected c i := by
  obtain ⟨c, rs, h1, h2, h3⟩ := reaches_of (ops := exThr ++ [.read 0 none]) (P := fun _ c => decide
      (trafficSuspended c = EBUSY ∧ c.pub.unackedCount = 0 ∧ c.resumeThr = 0 ∧ c.cv.size = 2 ∧
       (c.cv.conns 0).mode = .closed ∧ (c.cv.conns 1).mode = .closed))
    (by simp [exThr, Op.sane, saneAcc]) (by decide) (by decide +kernel)
  obtain ⟨k1, k2, k3, k4, k5, k6⟩ := of_decide_eq_true h3
  refine ⟨c, rs, h1, h2, k1, k2, k3, ?_⟩
  intro i ⟨hi, hm⟩
  rw [k4] at hi
  have : i = 0 ∨ i = 1 := by omega
  rcases this with e | e <;> subst e
  · rw [k5] at hm; cases hm
  · rw [k6] at hm; cases hm

end PubCtx
end Rmc
