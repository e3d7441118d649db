import Verif.Props.PubCtxFlow
import Verif.Props.SubCtxPoll

/-!
# C25 (thresholds) and C56 (counts)
-/

set_option linter.unusedVariables false

namespace Rmc

/-! ## Counting connections -/

/-- The slots in use, by counting. -/
theorem ConnVec.VInv.count {v : ConnVec} {L : List Nat} (h : VInv v L) :
    v.active = (List.range v.size).countP (fun i => decide ((v.conns i).mode ≠ .closed)) := by
  rw [h.active, List.countP_eq_length_filter]
  refine (List.Perm.length_eq ?_)
  refine (List.perm_ext_iff_of_nodup h.nodup ((List.nodup_range).filter _)).2 ?_
  intro i
  rw [List.mem_filter, List.mem_range, decide_eq_true_iff]
  constructor
  · intro hi; exact ⟨h.lt i hi, (h.mode i (h.lt i hi)).2 hi⟩
  · rintro ⟨h1, h2⟩; exact (h.mode i h1).1 h2

namespace PubCtx
open CircBuf ConnVec

/-- C56 for the publisher: the subscriber count is the number of slots that hold a connection, all of which are connected and
known to the publisher core; the socket count is that plus the multicast and listen sockets that are open. -/
theorem C56_publisher {ops : List Op} {c : PubCtx} (h : Reaches ops c) :
    subscriberCount c = (List.range c.cv.size).countP (fun i => decide ((c.cv.conns i).mode = .connected)) ∧
    subscriberCount c = c.pub.subs.length ∧
    socketCount c = subscriberCount c + c.mcast.toList.length + c.listen.toList.length := by
  obtain ⟨pops, L, g, _⟩ := h.good
  refine ⟨?_, ?_, ?_⟩
  · unfold subscriberCount
    rw [g.v.count]
    refine List.countP_congr ?_
    intro i hi
    rw [decide_eq_true_iff, decide_eq_true_iff]
    rw [List.mem_range] at hi
    constructor
    · intro hm; exact g.conn i ((g.v.mode i hi).1 hm)
    · intro hm; rw [hm]; decide
  · unfold subscriberCount
    rw [g.v.active]
    exact List.Perm.length_eq ((List.perm_ext_iff_of_nodup g.v.nodup (subs_nodup g)).2 g.slots)
  · unfold socketCount
    cases c.mcast <;> cases c.listen <;> rfl

/-! ## The throttling thresholds -/

/-- Specification: the thresholds a history sets: the last call of `rmc_pub_throttling` whose suspend threshold is not below its
resume threshold counts; 0 (no throttling) before. -/
def thresholds (ops : List Op) : Nat × Nat :=
  ops.foldl (fun t op => match op with
    | .throttling s r => if r ≤ s then (s, r) else t
    | _ => t) (0, 0)

theorem step_thr {c c' : PubCtx} {pops : List POp} {L : List Nat} {op : Op} {r : Nat} (h : Good c pops L) (hs : op.sane)
    (hb : (queueArgs pops).length + 2 < U64) (hx : step c op = .ok (r, c')) :
    (c'.suspendThr, c'.resumeThr) = (match op with
      | .throttling s r => if r ≤ s then (s, r) else (c.suspendThr, c.resumeThr)
      | _ => (c.suspendThr, c.resumeThr)) := by
  have same : ∀ {d : PubCtx}, cfg d = cfg c → (d.suspendThr, d.resumeThr) = (c.suspendThr, c.resumeThr) := fun {d} e => by
    rw [show d.suspendThr = c.suspendThr from congrArg Cfg.suspendThr e,
      show d.resumeThr = c.resumeThr from congrArg Cfg.resumeThr e]
  cases op with
  | queue p ann =>
    have hx' : queuePacket c p ann = .ok (r, c') := hx
    rcases queue_cases h p ann hb with ⟨_, e⟩ | ⟨_, _, e⟩ | ⟨_, _, s', h1, h2, h3, e⟩ <;> rw [e] at hx' <;> cases hx' <;>
      exact same rfl
  | readListen ar cb =>
    obtain ⟨r', c'', ys, L', ds, g1, g2, g3, _, g4, g5, _⟩ := readListen_spec h hs cb
    have : step c (.readListen ar cb) = .ok (r', c'') := g1
    rw [this] at hx; cases hx; exact same g3
  | readMcast err =>
    have hx' : readMcast c err = (r, c') := Except.ok.inj hx
    unfold readMcast at hx'
    split at hx'
    · cases hx'; exact same rfl
    · split at hx' <;> cases hx' <;> exact same rfl
  | read i rv =>
    rcases readConn_spec h hx with ⟨_, _, e⟩ | ⟨_, c1, ys, zs, ds, L', hst, hy, g, hcf, _⟩
    · subst e; exact same rfl
    · exact same hcf
  | writeMcast rs =>
    obtain ⟨r', c'', ys, es, ds, g1, g2, g3, _⟩ := multicastWrite_spec rs h
    have : step c (.writeMcast rs) = .ok (r', c'') := g1
    rw [this] at hx; cases hx; exact same g3
  | write i wv =>
    have hx' : writeConn c i wv = .ok (r, c') := hx
    rcases writeConn_spec h i wv with ⟨_, e | e⟩ | ⟨_, _, e⟩ | ⟨_, _, r', c'', out, e, g, g3, _, _, g2, _⟩ <;> rw [e] at hx' <;>
      cases hx'
    · exact same rfl
    · exact same rfl
    · exact same rfl
    · exact same g3
  | timeout now cb sp =>
    have hx' : timeoutProcess c now cb sp = .ok (r, c') := hx
    by_cases hd : annDue c now
    · obtain ⟨c'', e, _, _, _, k1, k2, _⟩ := timeout_announce h hd cb sp hb
      rw [e] at hx'; cases hx'
      show (c'.suspendThr, c'.resumeThr) = _
      rw [k1, k2]
    · have ht := timeout_resend h hd hx'
      obtain ⟨_, ys, g1, g2, g3, _⟩ := subscribersTimeout_spec _ ((subs_nodup h).filter _)
        (fun k hk => (h.slots k).2 (List.mem_filter.mp hk).1) h ht
      exact same g2.cfg
  | close i =>
    have hx' : closeConnection c i = .ok (r, c') := hx
    by_cases hi : i ∈ L
    · obtain ⟨c'', e, g, g3, _, g2, _⟩ := close_spec h hi
      rw [e] at hx'; cases hx'; exact same g3
    · rw [close_none h hi] at hx'; cases hx'
      exact same rfl
  | setAnnounce n now => cases hx; rfl
  | throttling a b =>
    have hx' : throttling c a b = (r, c') := Except.ok.inj hx
    unfold throttling at hx'
    dsimp only
    split at hx' <;> rename_i hc <;> cases hx'
    · rw [if_neg (by omega)]
    · rw [if_pos (by omega)]
  | setCtlCb b => cases hx; rfl
  | activate x =>
    have hx' : activate c x = (r, c') := Except.ok.inj hx
    unfold activate at hx'
    split at hx' <;> cases hx' <;> rfl
  | deactivate =>
    obtain ⟨c'', ys, ds, e, g, _, hd, hd2, hy, g2, _⟩ := deactivate_spec h
    have hx' : deactivate c = .ok (r, c') := hx
    rw [e] at hx'; cases hx'
    show (c'.suspendThr, c'.resumeThr) = _
    rw [show c'.suspendThr = c.suspendThr from congrArg Cfg.suspendThr g2,
      show c'.resumeThr = c.resumeThr from congrArg Cfg.resumeThr g2]

/-- C25: the thresholds in force are the ones last set (0, that is no throttling, at first); a call whose suspend threshold is below
its resume threshold is refused with EINVAL and changes nothing, any other is accepted. -/
theorem C25_thresholds {ops : List Op} {c : PubCtx} (h : Reaches ops c) :
    (c.suspendThr, c.resumeThr) = thresholds ops ∧
    ∀ s r, step c (.throttling s r) = .ok (if s < r then EINVAL else 0, { c with
      suspendThr := (thresholds (ops ++ [.throttling s r])).1, resumeThr := (thresholds (ops ++ [.throttling s r])).2 }) := by
  have key : (c.suspendThr, c.resumeThr) = thresholds ops := by
    refine Reaches.induct (P := fun ops c => (c.suspendThr, c.resumeThr) = thresholds ops) ?_ ?_ h
    · intro mem n nid ip port hn; rfl
    · intro ops c op r c' hr ha hs hb hx
      obtain ⟨pops, L, g, hq, _⟩ := hr.good
      rw [step_thr g hs (by omega) hx]
      unfold thresholds at ha ⊢
      rw [List.foldl_append, ← ha]
      cases op <;> rfl
  refine ⟨key, fun s r => ?_⟩
  have e : thresholds (ops ++ [.throttling s r]) = if r ≤ s then (s, r) else (c.suspendThr, c.resumeThr) := by
    unfold thresholds at key ⊢
    rw [List.foldl_append, ← key]; rfl
  rw [e]
  show Except.ok (throttling c s r) = _
  unfold throttling
  by_cases hsr : s < r
  · rw [if_pos hsr, if_pos hsr, if_neg (by omega)]
  · rw [if_neg hsr, if_neg hsr, if_pos (by omega)]

/-- C25: if no call sets a suspend threshold other than 0, traffic is never suspended and no payload is refused for that reason. -/
theorem C25_off {ops : List Op} {c : PubCtx} (h : Reaches ops c) (hn : ∀ s r, Op.throttling s r ∈ ops → s = 0) :
    trafficSuspended c = 0 := by
  refine Reaches.induct (P := fun ops c => (∀ s r, Op.throttling s r ∈ ops → s = 0) → trafficSuspended c = 0) ?_ ?_ h hn
  · intro mem n nid ip port hn _; rfl
  · intro ops c op r c' hr ha hs hb hx hno
    have ha := ha (fun s r hm => hno s r (by simp [hm]))
    have hz : c.suspendThr = 0 := by
      have k := (C25_thresholds hr).1
      have z : ∀ (l : List Op) (t : Nat × Nat), t.1 = 0 → (∀ s r, Op.throttling s r ∈ l → s = 0) →
          (l.foldl (fun t op => match op with
            | .throttling s r => if r ≤ s then (s, r) else t
            | _ => t) t).1 = 0 := by
        intro l
        induction l with
        | nil => intro t ht _; exact ht
        | cons x l ih =>
          intro t ht hl
          rw [List.foldl_cons]
          refine ih _ ?_ (fun s r hm => hl s r (by simp [hm]))
          cases x with
          | throttling s r =>
            dsimp only
            split
            · exact hl s r (by simp)
            · exact ht
          | _ => exact ht
      have := z ops (0, 0) rfl (fun s r hm => hno s r (by simp [hm]))
      rw [show c.suspendThr = (thresholds ops).1 from congrArg Prod.fst k]
      exact this
    by_cases e : trafficSuspended c' = EBUSY
    · have := (C25_suspend hr hs hb hx ha e).2.1
      omega
    · unfold trafficSuspended at e ⊢
      cases hc : c'.suspended with
      | false => rfl
      | true => rw [hc] at e; exact absurd rfl e

/-- Non-vacuity: thresholds set, refused and overwritten; a subscriber is connected. -/
example : ∃ c rs, Reaches (exThr ++ [.throttling 3 4, .throttling 5 5]) c ∧ run exC0 (exThr ++ [.throttling 3 4, .throttling 5 5]) = .ok (rs, c) ∧
    decide (thresholds (exThr ++ [.throttling 3 4]) = (1, 0) ∧ c.suspendThr = 5 ∧ c.resumeThr = 5 ∧ rs.drop 6 = [EINVAL, 0] ∧
      subscriberCount c = 1 ∧ socketCount c = 3) = true :=
  reaches_of (P := fun rs c => decide _) (by simp [exThr, Op.sane, saneAcc]) (by decide) (by decide +kernel)

end PubCtx

namespace SubCtx
open CircBuf ConnVec

/-- C56 for the subscriber: the publisher count is the number of slots that hold a connection (connected or being set up); the
socket count is that plus the multicast socket if it is open. -/
theorem C56_subscriber {ops : List Op} {c : SubCtx} (h : Reaches ops c) :
    publisherCount c = (List.range c.cv.size).countP (fun i => decide (Live c i)) ∧
    socketCount c = publisherCount c + c.mcast.toList.length := by
  obtain ⟨L, hL⟩ := h.inv.core.v
  refine ⟨?_, ?_⟩
  · unfold publisherCount
    rw [hL.count]
    refine List.countP_congr ?_
    intro i hi
    rw [decide_eq_true_iff, decide_eq_true_iff]
    rw [List.mem_range] at hi
    exact ⟨fun x => ⟨hi, x⟩, fun x => x.2⟩
  · unfold socketCount
    cases c.mcast <;> rfl

example : ∃ c rs, Reaches (exUp ++ [.readMcast [exDg 5 0 [] 6]]) c ∧ run exS0 (exUp ++ [.readMcast [exDg 5 0 [] 6]]) = .ok (rs, c) ∧
    decide (publisherCount c = 2 ∧ socketCount c = 3 ∧ Up c 0 ∧ ¬ Up c 1 ∧ Live c 1) = true :=
  reaches_of (P := fun rs c => decide _) (by decide +kernel)

end SubCtx
end Rmc
