import Verif.Props.PubCtxFlow

/-!
# Properties of the publisher context: timers (C26, C27, C30)
-/

set_option linter.unusedSimpArgs false
set_option linter.unusedVariables false

namespace Rmc
namespace PubCtx
open CircBuf Proto

/-! ## C26: resending -/

theorem takeWhile_all {α : Type} {p : α → Bool} : ∀ {l : List α}, (∀ x ∈ l, p x = true) → l.takeWhile p = l := by
  intro l
  induction l with
  | nil => intro _; rfl
  | cons x l ih => intro h; rw [List.takeWhile_cons, if_pos (h x (by simp)), ih (fun y hy => h y (by simp [hy]))]

theorem filter_all_out {α β : Type} [DecidableEq β] (f : α → β) {l m : List α} (h : ∀ x ∈ l, x ∈ m) :
    l.filter (fun x => decide (f x ∉ m.map f)) = [] := by
  rw [List.filter_eq_nil_iff]
  intro x hx
  simp only [decide_eq_true_eq, Classical.not_not]
  exact List.mem_map.mpr ⟨x, h x hx, rfl⟩

/-- C26, exactly: timeout processing (no announcement being due) that succeeds looks, for every connected subscriber
whose oldest outstanding packet has timed out, at the outstanding packets from the newest on, up to the first that has
not timed out; these are put on its TCP connection in that order and are not outstanding any more. Nothing else
changes on any connection. -/
theorem C26_exact {ops : List Op} {c c' : PubCtx} (h : Reaches ops c) {now : Int} {cb : Option (Bool × List UInt8)} {sp : Nat}
    (hd : ¬ annDue c now) (hx : timeoutProcess c now cb sp = .ok (0, c')) {k : Nat} (hk : Connected c k) :
    let done := if late c.pub k now c.resendTimeout then due c.pub k now c.resendTimeout else []
    bytes (c'.cv.conns k).writeBuf = bytes (c.cv.conns k).writeBuf ++ (done.map (frameOf (cfg c))).flatten ∧
    c'.pub.owedPkts k = (c.pub.owedPkts k).filter (fun x => decide (x.1 ∉ done.map (·.1))) := by
  obtain ⟨pops, L, g, _⟩ := h.good
  have ht := timeout_resend g hd hx
  obtain ⟨done, ys, g1, g2, g3, g4, g5, g6, g7, g8⟩ := subscribersTimeout_spec _ ((subs_nodup g).filter _)
    (fun k hk => (g.slots k).2 (List.mem_filter.mp hk).1) g ht
  have hks : k ∈ c.pub.subs := (g.slots k).1 (g.connected.1 hk)
  have hdone : done k = if late c.pub k now c.resendTimeout then due c.pub k now c.resendTimeout else [] := by
    by_cases hl : late c.pub k now c.resendTimeout = true
    · rw [if_pos hl]
      obtain ⟨rest, e1, e2⟩ := g4 k (List.mem_filter.mpr ⟨hks, hl⟩)
      rw [e1, e2 rfl, List.append_nil]
    · rw [if_neg hl]
      exact (g5 k (fun hm => hl (List.mem_filter.mp hm).2)).1
  dsimp only
  rw [← hdone]
  exact ⟨g6 k, g7 k⟩

/-- C26 (partial: "all or none" instead of "every timed out packet"): with a clock that does not run backwards, if the
newest packet a connected subscriber owes has timed out, then every packet it owes is put on its TCP connection, newest
first, and if it has not, nothing is resent to that subscriber, however old the other packets are. -/
theorem C26_all_or_none_partial {ops : List Op} {c c' : PubCtx} (h : Reaches ops c) (hm : Monotone ops) {now : Int}
    {cb : Option (Bool × List UInt8)} {sp : Nat} (hd : ¬ annDue c now) (hx : timeoutProcess c now cb sp = .ok (0, c'))
    {k : Nat} (hk : Connected c k) {newest : Nat × Payload × Int} (hn : (c.pub.owedPkts k).getLast? = some newest) :
    (newest.2.2 + c.resendTimeout ≤ now →
      bytes (c'.cv.conns k).writeBuf =
        bytes (c.cv.conns k).writeBuf ++ ((c.pub.owedPkts k).reverse.map (frameOf (cfg c))).flatten ∧
      c'.pub.outstanding k = []) ∧
    (now < newest.2.2 + c.resendTimeout →
      bytes (c'.cv.conns k).writeBuf = bytes (c.cv.conns k).writeBuf ∧ c'.pub.outstanding k = c.pub.outstanding k) := by
  obtain ⟨e1, e2⟩ := C26_exact h hd hx hk
  have hs := owed_sorted h hm k
  obtain ⟨l, hl⟩ : ∃ l, c.pub.owedPkts k = l ++ [newest] := by
    rcases List.eq_nil_or_concat (c.pub.owedPkts k) with e | ⟨l, y, e⟩
    · rw [e] at hn; cases hn
    · rw [e] at hn
      simp at hn
      exact ⟨l, by rw [e, hn]; simp⟩
  obtain ⟨pops, L, g, _⟩ := h.good
  obtain ⟨ys, L', g', _⟩ : ∃ ys L', Good c' (pops ++ ys) L' ∧ True := by
    have ht := timeout_resend g hd hx
    obtain ⟨_, ys, g1, _⟩ := subscribersTimeout_spec _ ((subs_nodup g).filter _)
      (fun k hk => (g.slots k).2 (List.mem_filter.mp hk).1) g ht
    exact ⟨ys, L, g1, trivial⟩
  have o1 := outstanding_owed g.p.reached.rel k
  have o2 := outstanding_owed g'.p.reached.rel k
  constructor
  · intro ht
    have hall : ∀ x ∈ c.pub.owedPkts k, timedOut now c.resendTimeout x = true := by
      intro x hx
      unfold timedOut
      rw [decide_eq_true_eq]
      rw [hl] at hx hs
      rw [List.map_append, List.pairwise_append] at hs
      rcases List.mem_append.mp hx with hx | hx
      · have := hs.2.2 x.2.2 (List.mem_map.mpr ⟨x, hx, rfl⟩) newest.2.2 (by simp)
        omega
      · rw [List.mem_singleton.mp hx]; exact ht
    have hlate : late c.pub k now c.resendTimeout = true := by
      unfold late
      cases ho : c.pub.owedPkts k with
      | nil => rw [ho] at hn; cases hn
      | cons x xs => simp; exact hall x (by rw [ho]; simp)
    have hdue : due c.pub k now c.resendTimeout = (c.pub.owedPkts k).reverse := by
      unfold due; exact takeWhile_all (fun x hx => hall x (List.mem_reverse.mp hx))
    rw [if_pos hlate, hdue] at e1 e2
    refine ⟨e1, ?_⟩
    rw [o2, e2, filter_all_out (fun x : Nat × Payload × Int => x.1) (fun x hx => List.mem_reverse.mpr hx)]
    rfl
  · intro ht
    have hnone : due c.pub k now c.resendTimeout = [] := by
      unfold due
      rw [hl, List.reverse_append, List.reverse_singleton, List.singleton_append, List.takeWhile_cons, if_neg]
      unfold timedOut
      simp only [decide_eq_true_eq]
      omega
    have hz : (if late c.pub k now c.resendTimeout then due c.pub k now c.resendTimeout else []) = [] := by
      rw [hnone]; split <;> rfl
    rw [hz] at e1 e2
    refine ⟨by simpa using e1, ?_⟩
    rw [o1, o2, e2]
    congr 1
    exact List.filter_eq_self.mpr (by simp)

/-- C26: when timeout processing stops early (EAGAIN) it is because a packet did not fit in the write buffer of a
subscriber; what was put on each connection is a beginning of what was due there, and exactly that is not outstanding
any more. -/
theorem C26_partial_failure {ops : List Op} {c c' : PubCtx} (h : Reaches ops c) {now : Int}
    {cb : Option (Bool × List UInt8)} {sp r : Nat} (hd : ¬ annDue c now) (hx : timeoutProcess c now cb sp = .ok (r, c'))
    (hr : r ≠ 0) :
    r = EAGAIN ∧ ∃ done : Nat → List (Nat × Payload × Int),
      (∀ k, Connected c k → ∃ rest, due c.pub k now c.resendTimeout = done k ++ rest) ∧
      (∀ k, bytes (c'.cv.conns k).writeBuf = bytes (c.cv.conns k).writeBuf ++ ((done k).map (frameOf (cfg c))).flatten) ∧
      (∀ k, c'.pub.owedPkts k = (c.pub.owedPkts k).filter (fun x => decide (x.1 ∉ (done k).map (·.1)))) ∧
      ∃ k, Connected c k ∧ ∃ x xs, due c.pub k now c.resendTimeout = done k ++ x :: xs ∧
        available (c'.cv.conns k).writeBuf < 1 + HDR_LEN + x.2.1.data.length := by
  obtain ⟨pops, L, g, _⟩ := h.good
  have ht := timeout_resend g hd hx
  obtain ⟨done, ys, g1, g2, g3, g4, g5, g6, g7, g8⟩ := subscribersTimeout_spec _ ((subs_nodup g).filter _)
    (fun k hk => (g.slots k).2 (List.mem_filter.mp hk).1) g ht
  rcases g8 with g8 | ⟨g8, k, hk, x, xs, k1, k2⟩
  · exact absurd g8 hr
  · refine ⟨g8, done, ?_, g6, g7, k, g.connected.2 ((g.slots k).2 (List.mem_filter.mp hk).1), x, xs, k1, k2⟩
    intro j hj
    by_cases hl : j ∈ c.pub.subs.filter (fun k => late c.pub k now c.resendTimeout)
    · obtain ⟨rest, e, _⟩ := g4 j hl
      exact ⟨rest, e⟩
    · rw [(g5 j hl).1]; exact ⟨_, rfl⟩

/-- The packets of `exPre`, a fourth one multicast at time 150000. -/
def exLate : List Op := exPre ++ [.queue (exPay 4) false, .writeMcast [⟨.ok 150000, []⟩]]

/-- Non-vacuity, all: at time 250000 all four packets have timed out; the frames put on connection 0 are packets 4, 3, 2
and 1, in this order. -/
example : ∃ c rs, Reaches (exLate ++ [.timeout 250000 none 0]) c ∧
    run exC0 (exLate ++ [.timeout 250000 none 0]) = .ok (rs, c) ∧
    decide (rs.getLast? = some 0 ∧ c.pub.outstanding 0 = [] ∧ (bytes (c.cv.conns 0).writeBuf).length = 4 * 23 ∧
      (bytes (c.cv.conns 0).writeBuf)[1]? = some 4 ∧ (bytes (c.cv.conns 0).writeBuf)[24]? = some 3) = true :=
  reaches_of (P := fun rs c => decide (rs.getLast? = some 0 ∧ c.pub.outstanding 0 = [] ∧
    (bytes (c.cv.conns 0).writeBuf).length = 4 * 23 ∧
      (bytes (c.cv.conns 0).writeBuf)[1]? = some 4 ∧ (bytes (c.cv.conns 0).writeBuf)[24]? = some 3))
    (by simp [exLate, exPre, Op.sane, saneAcc]) (by decide) (by decide +kernel)

/-- C26 is false: at time 249999 packets 1, 2 and 3, multicast at times 10, 20 and 30, are more than twice the resend
timeout of 100000 old and still owed, there is room in the buffers, and timeout processing succeeds; nothing is resent
because packet 4 is younger. -/
theorem C26_false : ∃ c rs, Reaches (exLate ++ [.timeout 249999 none 0]) c ∧
    run exC0 (exLate ++ [.timeout 249999 none 0]) = .ok (rs, c) ∧ Monotone exLate ∧
    decide (rs.getLast? = some 0 ∧ c.resendTimeout = 100000 ∧
      (c.pub.owedPkts 0).map (fun x => (x.1, x.2.2)) = [(1, 10), (2, 20), (3, 30), (4, 150000)] ∧
      bytes (c.cv.conns 0).writeBuf = [] ∧ bytes (c.cv.conns 1).writeBuf = []) = true := by
  obtain ⟨c, rs, h1, h2, h3⟩ := reaches_of (ops := exLate ++ [.timeout 249999 none 0])
    (P := fun rs c => decide (rs.getLast? = some 0 ∧ c.resendTimeout = 100000 ∧
      (c.pub.owedPkts 0).map (fun x => (x.1, x.2.2)) = [(1, 10), (2, 20), (3, 30), (4, 150000)] ∧
      bytes (c.cv.conns 0).writeBuf = [] ∧ bytes (c.cv.conns 1).writeBuf = []))
    (by simp [exLate, exPre, Op.sane, saneAcc]) (by decide) (by decide +kernel)
  exact ⟨c, rs, h1, h2, by unfold Monotone; decide, h3⟩

/-! ## C27: the next deadline -/

theorem oldestUnacked_spec {s : Pub} {pops : List POp} (h : PGood s pops)
    (hn : ∀ k, ∀ x ∈ s.owedPkts k, 0 ≤ x.2.2) : ∀ (ks : List Nat) (o : Int), o = -1 ∨ 0 ≤ o →
    ∃ r, Pub.oldestUnacked s o ks = .ok r ∧
      ((r = -1 ∧ o = -1 ∧ ∀ k ∈ ks, s.owedPkts k = []) ∨
       (0 ≤ r ∧ (r = o ∨ ∃ k ∈ ks, ∃ x, (s.owedPkts k).head? = some x ∧ r = x.2.2) ∧ (o ≠ -1 → r ≤ o) ∧
        ∀ k ∈ ks, ∀ x, (s.owedPkts k).head? = some x → r ≤ x.2.2)) := by
  intro ks
  induction ks with
  | nil =>
    intro o ho
    refine ⟨o, rfl, ?_⟩
    rcases ho with ho | ho
    · exact .inl ⟨ho, ho, by simp⟩
    · exact .inr ⟨ho, .inl rfl, fun _ => Int.le_refl _, by simp⟩
  | cons k ks ih =>
    intro o ho
    obtain ⟨l, h1, h2, h3⟩ := Holds_all h k
    unfold Pub.oldestUnacked
    rw [h1, List.getLast?_reverse, List.head?_map]
    cases l with
    | nil =>
      obtain ⟨r, k1, k2⟩ := ih o ho
      have h2' : s.owedPkts k = [] := h2
      refine ⟨r, k1, ?_⟩
      rcases k2 with ⟨a, b, d⟩ | ⟨a, b, d, e⟩
      · left
        refine ⟨a, b, ?_⟩
        intro j hj
        rcases List.mem_cons.mp hj with e | e
        · rw [e]; exact h2'
        · exact d j e
      · right
        refine ⟨a, ?_, d, ?_⟩
        · rcases b with b | ⟨j, hj, b⟩
          · exact .inl b
          · exact .inr ⟨j, by simp [hj], b⟩
        · intro j hj x hx
          rcases List.mem_cons.mp hj with e2 | e2
          · rw [e2, h2'] at hx; cases hx
          · exact e j e2 x hx
    | cons e l =>
      obtain ⟨rc, hr⟩ := h3.pk e (by simp)
      have hde : Pub.deref s.pk e.1 = .ok ⟨e.2.1, rc, some .inflight, e.2.2.2, e.2.2.1⟩ := by unfold Pub.deref; rw [hr]
      simp only [List.head?_cons, Option.map_some]
      rw [hde, Pub.ok_bind]
      dsimp only
      have he : 0 ≤ e.2.2.2 := hn k e.2 (by rw [h2]; simp)
      obtain ⟨o', ho'⟩ : ∃ o', o' = if o = -1 ∨ e.2.2.2 < o then e.2.2.2 else o := ⟨_, rfl⟩
      rw [← ho']
      have ho2 : 0 ≤ o' ∧ o' ≤ e.2.2.2 ∧ (o ≠ -1 → o' ≤ o) ∧ (o' = o ∨ o' = e.2.2.2) := by
        rw [ho']; split <;> omega
      obtain ⟨r, k1, k2⟩ := ih o' (.inr ho2.1)
      refine ⟨r, k1, .inr ?_⟩
      have hhead : (s.owedPkts k).head? = some e.2 := by rw [h2]; rfl
      rcases k2 with ⟨a, b, d⟩ | ⟨a, b, d, e'⟩
      · omega
      · refine ⟨a, ?_, ?_, ?_⟩
        · rcases b with b | ⟨j, hj, b⟩
          · rcases ho2.2.2.2 with e3 | e3
            · exact .inl (b.trans e3)
            · exact .inr ⟨k, by simp, e.2, hhead, b.trans e3⟩
          · exact .inr ⟨j, by simp [hj], b⟩
        · intro h; have := d (by omega); have := ho2.2.2.1 h; omega
        · intro j hj x hx
          rcases List.mem_cons.mp hj with e2 | e2
          · rw [e2, hhead] at hx
            cases hx
            have := d (by omega); omega
          · exact e' j e2 x hx

/-- Specification: the times at which something is to be done: a packet still owed by a connected subscriber times
out, or the next announcement. -/
def Deadline (c : PubCtx) (t : Int) : Prop :=
  (∃ k x, Connected c k ∧ x ∈ c.pub.owedPkts k ∧ t = x.2.2 + c.resendTimeout) ∨ (annSpec c.log).2 = some t

/-- C27: with a clock that is not negative and does not run backwards, `rmc_pub_timeout_get_next` returns -1 if there is
no deadline, and else the earliest one. -/
theorem C27_next {ops : List Op} {c : PubCtx} (h : Reaches ops c) (hm : Monotone ops) (hk : ∀ op ∈ ops, clockOk op)
    (hn : ∀ t ∈ ops.flatMap opTimes, 0 ≤ t) (hto : 0 ≤ c.resendTimeout) :
    ∃ t, timeoutGetNext c = .ok t ∧
      ((t = -1 ∧ ∀ d, ¬ Deadline c d) ∨ (Deadline c t ∧ 0 ≤ t ∧ ∀ d, Deadline c d → t ≤ d)) := by
  have hann := h.ann hk
  obtain ⟨pops, L, g, _, _, hsub⟩ := h.good
  have hpos : ∀ k, ∀ x ∈ c.pub.owedPkts k, 0 ≤ x.2.2 := by
    intro k x hx
    exact hn _ (((owed_ts g.p k).trans hsub).subset (List.mem_map.mpr ⟨x, hx, rfl⟩))
  obtain ⟨o, e, ho⟩ := oldestUnacked_spec g.p hpos c.pub.subs (-1) (.inl rfl)
  have hconn : ∀ k, Connected c k ↔ k ∈ c.pub.subs := fun k => g.connected.trans (g.slots k)
  -- the earliest retransmission
  have hack : (o = -1 ∧ ∀ k x, Connected c k → x ∉ c.pub.owedPkts k) ∨
      (0 ≤ o ∧ (∃ k x, Connected c k ∧ x ∈ c.pub.owedPkts k ∧ o = x.2.2) ∧
        ∀ k x, Connected c k → x ∈ c.pub.owedPkts k → o ≤ x.2.2) := by
    rcases ho with ⟨a, _, b⟩ | ⟨a, b, _, d⟩
    · left
      refine ⟨a, ?_⟩
      intro k x hc hx
      rw [b k ((hconn k).1 hc)] at hx; cases hx
    · right
      refine ⟨a, ?_, ?_⟩
      · rcases b with b | ⟨k, hk, x, hx, b⟩
        · omega
        · exact ⟨k, x, (hconn k).2 hk, List.mem_of_mem_head? hx, b⟩
      · intro k x hc hx
        cases hl : c.pub.owedPkts k with
        | nil => rw [hl] at hx; cases hx
        | cons y ys =>
          have h1 := d k ((hconn k).1 hc) y (by rw [hl]; rfl)
          have hs := owed_sorted h hm k
          rw [hl, List.map_cons, List.pairwise_cons] at hs
          rw [hl] at hx
          rcases List.mem_cons.mp hx with e | e
          · rw [e]; exact h1
          · have := hs.1 x.2.2 (List.mem_map.mpr ⟨x, e, rfl⟩)
            omega
  have hannd : (c.annNext = 0 ∧ (annSpec c.log).2 = none) ∨ (0 < c.annNext ∧ (annSpec c.log).2 = some c.annNext) := by
    unfold AnnInv at hann
    cases hs : (annSpec c.log).2 with
    | none => rw [hs] at hann; exact .inl ⟨hann.2.2, rfl⟩
    | some d => rw [hs] at hann; refine .inr ⟨?_, ?_⟩ <;> rw [hann.2.2.1]; exact hann.2.2.2
  unfold timeoutGetNext
  rw [e, Pub.ok_bind]
  dsimp only
  unfold Deadline
  rcases hack with ⟨a1, a2⟩ | ⟨a1, ⟨k, x, a2, a3, a4⟩, a5⟩
  · rcases hannd with ⟨b1, b2⟩ | ⟨b1, b2⟩
    · refine ⟨-1, by simp [a1, b1]; rfl, .inl ⟨rfl, ?_⟩⟩
      intro d hd
      rcases hd with ⟨k, x, h1, h2, _⟩ | hd
      · exact a2 k x h1 h2
      · rw [b2] at hd; cases hd
    · refine ⟨c.annNext, ?_, .inr ⟨.inr b2, by omega, ?_⟩⟩
      · have h1 : c.annNext ≠ 0 := by omega
        have h2 : c.annNext ≠ -1 := by omega
        simp [a1, h1, h2]; rfl
      · intro d hd
        rcases hd with ⟨k, x, h1, h2, _⟩ | hd
        · exact absurd h2 (a2 k x h1)
        · rw [b2] at hd; cases hd; exact Int.le_refl _
  · have h1 : o ≠ -1 := by omega
    have h2 : o + c.resendTimeout ≠ -1 := by omega
    rcases hannd with ⟨b1, b2⟩ | ⟨b1, b2⟩
    · refine ⟨o + c.resendTimeout, by simp [h1, h2, b1]; rfl, .inr ⟨.inl ⟨k, x, a2, a3, by rw [a4]⟩, by omega, ?_⟩⟩
      intro d hd
      rcases hd with ⟨j, y, g1, g2, g3⟩ | hd
      · have := a5 j y g1 g2; omega
      · rw [b2] at hd; cases hd
    · have h3 : c.annNext ≠ 0 := by omega
      have h4 : c.annNext ≠ -1 := by omega
      by_cases hlt : o + c.resendTimeout < c.annNext
      · refine ⟨o + c.resendTimeout, by simp [h1, h2, h3, h4, hlt]; rfl,
          .inr ⟨.inl ⟨k, x, a2, a3, by rw [a4]⟩, by omega, ?_⟩⟩
        intro d hd
        rcases hd with ⟨j, y, g1, g2, g3⟩ | hd
        · have := a5 j y g1 g2; omega
        · rw [b2] at hd; cases hd; omega
      · refine ⟨c.annNext, by simp [h1, h2, h3, h4, hlt]; rfl, .inr ⟨.inr b2, by omega, ?_⟩⟩
        intro d hd
        rcases hd with ⟨j, y, g1, g2, g3⟩ | hd
        · have := a5 j y g1 g2; omega
        · rw [b2] at hd; cases hd; exact Int.le_refl _

/-- The resend timeout is the default: there is no call that changes it. -/
theorem resendTimeout_const {ops : List Op} {c : PubCtx} (h : Reaches ops c) : c.resendTimeout = 100000 := by
  refine Reaches.induct (P := fun _ c => c.resendTimeout = 100000) (fun _ _ _ _ _ _ => rfl) ?_ h
  intro ops c op r c' h ih hs hb hx
  obtain ⟨pops, L, g, hq, _⟩ := h.good
  have hb' : (queueArgs pops).length + 2 < U64 := by omega
  have same : cfg c' = cfg c → c'.resendTimeout = 100000 := fun e => (congrArg Cfg.resendTimeout e).trans ih
  cases op with
  | queue p ann =>
    have hx' : queuePacket c p ann = .ok (r, c') := hx
    rcases queue_cases g p ann hb' with ⟨_, e⟩ | ⟨_, _, e⟩ | ⟨_, _, s', h1, h2, h3, e⟩ <;> rw [e] at hx' <;> cases hx' <;>
      exact ih
  | readListen ar cb =>
    obtain ⟨r', c'', ys, L', ds, g1, g2, g3, _⟩ := readListen_spec g hs cb
    have : step c (.readListen ar cb) = .ok (r', c'') := g1
    rw [this] at hx; cases hx; exact same g3
  | readMcast err =>
    have hx' : readMcast c err = (r, c') := Except.ok.inj hx
    unfold readMcast at hx'
    split at hx'
    · cases hx'; exact ih
    · split at hx' <;> cases hx' <;> exact ih
  | read i rv =>
    rcases readConn_spec g hx with ⟨_, _, e⟩ | ⟨_, c1, ys, zs, ds, L', hst, hy, g', hcf, _⟩
    · subst e; exact ih
    · exact same hcf
  | writeMcast rs =>
    obtain ⟨r', c'', ys, es, ds, g1, g2, g3, _⟩ := multicastWrite_spec rs g
    have : step c (.writeMcast rs) = .ok (r', c'') := g1
    rw [this] at hx; cases hx; exact same g3
  | write i wv =>
    have hx' : writeConn c i wv = .ok (r, c') := hx
    rcases writeConn_spec g i wv with ⟨_, e | e⟩ | ⟨_, _, e⟩ | ⟨_, _, r', c'', out, e, g', g3, _⟩ <;> rw [e] at hx' <;>
      cases hx'
    · exact ih
    · exact ih
    · exact ih
    · exact same g3
  | timeout now cb sp =>
    have hx' : timeoutProcess c now cb sp = .ok (r, c') := hx
    by_cases hd : annDue c now
    · unfold timeoutProcess at hx'
      rw [if_pos ⟨hd.1, hd.2.1, by have := hd.2.2; omega⟩] at hx'
      dsimp only at hx'
      split at hx'
      · have h' : Good (ev c (.announce now c.annInterval)) pops L := g.congr rfl rfl
        rcases queue_cases h' ⟨sp, (annAnswer cb).2, true⟩ true hb' with ⟨_, e⟩ | ⟨_, _, e⟩ | ⟨_, _, s', _, _, _, e⟩ <;>
          rw [e, Pub.ok_bind] at hx' <;> cases hx' <;> exact ih
      · rw [Pub.ok_bind] at hx'; cases hx'; exact ih
    · have ht := timeout_resend g hd hx'
      obtain ⟨_, ys, g1, g2, g3, _⟩ := subscribersTimeout_spec _ ((subs_nodup g).filter _)
        (fun k hk => (g.slots k).2 (List.mem_filter.mp hk).1) g ht
      exact same g2.cfg
  | close i =>
    have hx' : closeConnection c i = .ok (r, c') := hx
    by_cases hi : i ∈ L
    · obtain ⟨c'', e, g', g3, _⟩ := close_spec g hi
      rw [e] at hx'; cases hx'; exact same g3
    · rw [close_none g hi] at hx'; cases hx'
      exact ih
  | setAnnounce n now => cases hx; exact ih
  | throttling a b =>
    have hx' : throttling c a b = (r, c') := Except.ok.inj hx
    unfold throttling at hx'
    split at hx' <;> cases hx' <;> exact ih
  | setCtlCb b => cases hx; exact ih
  | activate x =>
    have hx' : activate c x = (r, c') := Except.ok.inj hx
    unfold activate at hx'
    split at hx' <;> cases hx' <;> exact ih
  | deactivate =>
    obtain ⟨c'', ys, ds, e, g', _, hd, hd2, hy, g2, _⟩ := deactivate_spec g
    have hx' : deactivate c = .ok (r, c') := hx
    rw [e] at hx'; cases hx'
    exact (congrArg Cfg.resendTimeout g2).trans ih

/-- Non-vacuity: after `exPre` and an announce interval set at time 40, the first deadline is that of packet 1, multicast
at time 10; with an earlier announcement it is that. -/
example : (match run exC0 (exPre ++ [.setAnnounce 200000 40]) with
    | .ok (_, c) => (match timeoutGetNext c with | .ok t => decide (t = 100010) | .error _ => false)
    | .error _ => false) = true := by decide +kernel
example : (match run exC0 (exPre ++ [.setAnnounce 5000 40]) with
    | .ok (_, c) => (match timeoutGetNext c with | .ok t => decide (t = 5040) | .error _ => false)
    | .error _ => false) = true := by decide +kernel
example : Monotone (exPre ++ [Op.setAnnounce 5000 40]) ∧ (∀ op ∈ exPre ++ [Op.setAnnounce 5000 40], clockOk op) ∧
    ∀ t ∈ (exPre ++ [Op.setAnnounce 5000 40]).flatMap opTimes, (0 : Int) ≤ t := by
  refine ⟨by unfold Monotone; decide, by simp [exPre, clockOk], by decide⟩

/-! ## C30: announcements -/

/-- C30: when the announcement timer has run out, timeout processing announces: the timer is restarted from now, and a
packet is queued for multicast, before all others that are not announcements, unless the callback declines or traffic is
suspended. -/
theorem C30_fires {ops : List Op} {c : PubCtx} (h : Reaches ops c) (hk : ∀ op ∈ ops, clockOk op) (hb : ops.length + 2 < U64)
    {now d : Int} (hd : (annSpec c.log).2 = some d) (hle : d ≤ now) (cb : Option (Bool × List UInt8)) (sp : Nat) :
    ∃ c', timeoutProcess c now cb sp = .ok (0, c') ∧ c'.log = c.log ++ [.announce now (annSpec c.log).1] ∧
      (((annAnswer cb).1 = true ∧ trafficSuspended c = 0) →
        c'.pub.log = c.pub.log ++ [.queue 0 ⟨sp, (annAnswer cb).2, true⟩]) ∧
      (¬ ((annAnswer cb).1 = true ∧ trafficSuspended c = 0) → c'.pub = c.pub) := by
  have hann := h.ann hk
  obtain ⟨pops, L, g, hq, _⟩ := h.good
  have hdue : annDue c now := (hann.due now).2 ⟨d, hd, hle⟩
  obtain ⟨c', e, g0, g1, g2, _, _, _, _, k⟩ := timeout_announce g hdue cb sp (by omega)
  refine ⟨c', e, by rw [g0, hann.1], ?_⟩
  rcases k with ⟨k1, k2, k3, k4, k5⟩ | ⟨k1, k2, k3, k4⟩
  · constructor
    · intro _
      rw [k3.p.reached.log, g.p.reached.log]
      unfold spec; rw [PSpec.run_snoc]; rfl
    · intro hne
      exact absurd ⟨k1, by unfold trafficSuspended; rw [k2]; rfl⟩ hne
  · constructor
    · intro ⟨h1, h2⟩
      rcases k1 with k1 | k1
      · rw [h1] at k1; cases k1
      · unfold trafficSuspended at h2; rw [k1] at h2; cases h2
    · intro _; exact k4

/-- C30: nothing is announced before the timer runs out; in particular nothing at all while the interval is 0. -/
theorem C30_silent {ops : List Op} {c c' : PubCtx} (h : Reaches ops c) (hk : ∀ op ∈ ops, clockOk op)
    {now : Int} (hd : ∀ d, (annSpec c.log).2 = some d → now < d) {cb : Option (Bool × List UInt8)} {sp r : Nat}
    (hx : timeoutProcess c now cb sp = .ok (r, c')) :
    c'.log = c.log ∧ PLog.queuedAnn c'.pub.log = PLog.queuedAnn c.pub.log := by
  have hann := h.ann hk
  obtain ⟨pops, L, g, hq, _⟩ := h.good
  have hdue : ¬ annDue c now := by
    intro hdue
    obtain ⟨d, h1, h2⟩ := (hann.due now).1 hdue
    have := hd d h1; omega
  have ht := timeout_resend g hdue hx
  obtain ⟨_, ys, g1, g2, g3, _⟩ := subscribersTimeout_spec _ ((subs_nodup g).filter _)
    (fun k hk => (g.slots k).2 (List.mem_filter.mp hk).1) g ht
  refine ⟨g3, ?_⟩
  obtain ⟨_, e1⟩ := run_queued pops PSpec.Inv_init (legal_allowed pops PSpec.init g.p.legal)
  obtain ⟨_, e2⟩ := run_queued (pops ++ ys) PSpec.Inv_init (legal_allowed _ PSpec.init g1.p.legal)
  have e1' : PLog.queuedAnn (spec pops).log = announceArgs pops := e1
  have e2' : PLog.queuedAnn (spec (pops ++ ys)).log = announceArgs (pops ++ ys) := e2
  rw [g1.p.reached.log, g.p.reached.log, e1', e2']
  have : announceArgs (pops ++ ys) = announceArgs pops ++ announceArgs ys := List.filterMap_append ..
  rw [this]
  have : announceArgs ys = [] := by
    unfold announceArgs
    rw [List.filterMap_eq_nil_iff]
    intro y hy
    obtain ⟨k, pid, e⟩ := g2.acks.acks y hy
    rw [e]
  rw [this, List.append_nil]

/-- What every announcement in the record of a publisher satisfies. -/
def AnnRate (log : List CEv) : Prop :=
  ∀ l0 t i l1, log = l0 ++ .announce t i :: l1 →
    (annSpec l0).1 = i ∧ i ≠ 0 ∧ ∃ d, (annSpec l0).2 = some d ∧ d ≤ t

theorem AnnRate.append {log : List CEv} (h : AnnRate log) {ds : List CEv}
    (hn : ∀ e ∈ ds, ∀ a b, e ≠ CEv.announce a b) : AnnRate (log ++ ds) := by
  intro l0 t i l1 e
  rcases PLog.split_append e with ⟨m, e1, _⟩ | ⟨e0, _, e1⟩
  · exact h l0 t i m e1
  · exact absurd rfl (hn _ (by rw [e1]; simp) t i)

theorem Reaches.rate {ops : List Op} {c : PubCtx} (h : Reaches ops c) : (∀ op ∈ ops, clockOk op) → AnnRate c.log := by
  refine Reaches.induct (P := fun ops c => (∀ op ∈ ops, clockOk op) → AnnRate c.log) ?_ ?_ h
  · intro mem n nid ip port _ _ l0 t i l1 e
    have e' : ([] : List CEv) = l0 ++ .announce t i :: l1 := e
    simp at e'
  · intro ops c op r c' h ih hs hb hx hk
    have ih := ih fun o ho => hk o (by simp [ho])
    have hann := h.ann fun o ho => hk o (by simp [ho])
    obtain ⟨pops, L, g, hq, _⟩ := h.good
    have hb' : (queueArgs pops).length + 2 < U64 := by omega
    cases op with
    | timeout now cb sp =>
      have hx' : timeoutProcess c now cb sp = .ok (r, c') := hx
      by_cases hd : annDue c now
      · obtain ⟨c'', e, g0, _⟩ := timeout_announce g hd cb sp hb'
        rw [e] at hx'; cases hx'
        rw [g0]
        intro l0 t i l1 e
        rcases PLog.split_append e with ⟨m, e1, _⟩ | ⟨e0, e1, e2⟩
        · exact ih l0 t i m e1
        · cases e0 with
          | nil =>
            rw [List.append_nil] at e1
            simp only [List.nil_append, List.cons.injEq, CEv.announce.injEq] at e2
            obtain ⟨⟨rfl, rfl⟩, _⟩ := e2
            rw [e1]
            obtain ⟨d, h1, h2⟩ := (hann.due now).1 hd
            exact ⟨hann.1, hd.1, d, h1, h2⟩
          | cons y ys => simp at e2
      · have ht := timeout_resend g hd hx'
        obtain ⟨_, ys, g1, g2, g3, _⟩ := subscribersTimeout_spec _ ((subs_nodup g).filter _)
          (fun k hk => (g.slots k).2 (List.mem_filter.mp hk).1) g ht
        rw [g3]; exact ih
    | queue p ann =>
      have hx' : queuePacket c p ann = .ok (r, c') := hx
      rcases queue_cases g p ann hb' with ⟨_, e⟩ | ⟨_, _, e⟩ | ⟨_, _, s', h1, h2, h3, e⟩ <;> rw [e] at hx' <;> cases hx' <;>
        exact ih
    | readListen ar cb =>
      obtain ⟨r', c'', ys, L', ds, g1, g2, g3, _, g4, g5, _⟩ := readListen_spec g hs cb
      have : step c (.readListen ar cb) = .ok (r', c'') := g1
      rw [this] at hx; cases hx
      rw [g4]
      refine ih.append ?_
      intro e he a b
      obtain ⟨i, e2 | e2 | e2⟩ := g5 e he <;> rw [e2] <;> simp
    | readMcast err =>
      have hx' : readMcast c err = (r, c') := Except.ok.inj hx
      unfold readMcast at hx'
      split at hx'
      · cases hx'; exact ih
      · split at hx' <;> cases hx' <;> exact ih
    | read i rv =>
      rcases readConn_spec g hx with ⟨_, _, e⟩ | ⟨_, c1, ys, zs, ds, L', hst, hy, g', hcf, hss, _, hds, hds2, _⟩
      · subst e; exact ih
      · rw [hds]
        refine ih.append ?_
        intro e he a b
        rcases hds2 e he with ⟨bs, e2⟩ | e2 <;> rw [e2] <;> simp
    | writeMcast rs =>
      obtain ⟨r', c'', ys, es, ds, g1, g2, g3, _, g4, _, g5, _⟩ := multicastWrite_spec rs g
      have : step c (.writeMcast rs) = .ok (r', c'') := g1
      rw [this] at hx; cases hx
      rw [g5]
      refine ih.append ?_
      intro e he a b
      obtain ⟨bs, e2⟩ := sends_no_ann g4 e he
      rw [e2]; simp
    | write i wv =>
      have hx' : writeConn c i wv = .ok (r, c') := hx
      rcases writeConn_spec g i wv with ⟨_, e | e⟩ | ⟨_, _, e⟩ | ⟨_, _, r', c'', out, e, g', g3, _, _, g2, _⟩ <;> rw [e] at hx' <;>
        cases hx'
      · exact ih
      · exact ih
      · exact ih
      · rw [g2]
        refine ih.append ?_
        intro e he a b
        rw [List.mem_singleton.mp he]; simp
    | close i =>
      have hx' : closeConnection c i = .ok (r, c') := hx
      by_cases hi : i ∈ L
      · obtain ⟨c'', e, g', g3, _, g2, _⟩ := close_spec g hi
        rw [e] at hx'; cases hx'
        rw [g2]
        refine ih.append ?_
        intro e he a b
        rw [List.mem_singleton.mp he]; simp
      · rw [close_none g hi] at hx'; cases hx'
        exact ih
    | setAnnounce n now =>
      cases hx
      refine ih.append (ds := [.setAnnounce now n]) ?_
      intro e he a b
      rw [List.mem_singleton.mp he]; simp
    | throttling a b =>
      have hx' : throttling c a b = (r, c') := Except.ok.inj hx
      unfold throttling at hx'
      split at hx' <;> cases hx' <;> exact ih
    | setCtlCb b => cases hx; exact ih
    | activate x =>
      have hx' : activate c x = (r, c') := Except.ok.inj hx
      unfold activate at hx'
      split at hx' <;> cases hx' <;> exact ih
    | deactivate =>
      obtain ⟨c'', ys, ds, e, g', _, hd, hd2, hy, g2, _⟩ := deactivate_spec g
      have hx' : deactivate c = .ok (r, c') := hx
      rw [e] at hx'; cases hx'
      rw [hd]
      refine ih.append ?_
      intro e he a b
      obtain ⟨i, e2⟩ := hd2 e he
      rw [e2]; simp

/-- The deadline stays at or after the one set by an announcement as long as announcements are not switched off. -/
theorem annSpec_after {d : Int} : ∀ (m : List CEv) (l0 : List CEv), AnnRate (l0 ++ m) →
    (∀ now, CEv.setAnnounce now 0 ∉ m) → (∃ d', (annSpec l0).2 = some d' ∧ d ≤ d') →
    ∃ d', (annSpec (l0 ++ m)).2 = some d' ∧ d ≤ d' := by
  intro m
  induction m with
  | nil => intro l0 _ _ h; simpa using h
  | cons e m ih =>
    intro l0 hr hn ⟨d', h1, h2⟩
    have key : ∃ d', (annSpec (l0 ++ [e])).2 = some d' ∧ d ≤ d' := by
      rw [annSpec_append]
      cases e with
      | setAnnounce now n =>
        have h0 : n ≠ 0 := fun e => hn now (by rw [e]; simp)
        show ∃ d', (if n = 0 then (0, none) else (n, some ((annSpec l0).2.getD (now + n)))).2 = some d' ∧ d ≤ d'
        rw [if_neg h0, h1]
        exact ⟨d', rfl, h2⟩
      | announce now i =>
        obtain ⟨_, _, d'', k1, k2⟩ := hr l0 now i m rfl
        rw [h1] at k1; cases k1
        refine ⟨_, rfl, ?_⟩
        show d ≤ now + ((annSpec l0).1 : Int)
        omega
      | _ => exact ⟨d', h1, h2⟩
    rw [List.append_cons]
    refine ih (l0 ++ [e]) ?_ (fun now hm => hn now (by simp [hm])) key
    rw [← List.append_cons]; exact hr

/-- C30: two announcements are at least the announce interval in force at the first of them apart, unless announcements
were switched off in between. -/
theorem C30_rate {ops : List Op} {c : PubCtx} (h : Reaches ops c) (hk : ∀ op ∈ ops, clockOk op) {l0 m l1 : List CEv}
    {t1 t2 : Int} {i1 i2 : Nat} (hl : c.log = l0 ++ .announce t1 i1 :: m ++ .announce t2 i2 :: l1)
    (hn : ∀ now, CEv.setAnnounce now 0 ∉ m) : t1 + i1 ≤ t2 ∧ i1 ≠ 0 := by
  have hr := h.rate hk
  rw [hl] at hr
  obtain ⟨a1, a2, _⟩ := hr l0 t1 i1 (m ++ .announce t2 i2 :: l1) (by simp)
  obtain ⟨b1, b2, d, b3, b4⟩ := hr (l0 ++ .announce t1 i1 :: m) t2 i2 l1 (by simp)
  have hr' : AnnRate ((l0 ++ [.announce t1 i1]) ++ m) := by
    intro k0 t i k1 e
    exact hr k0 t i (k1 ++ .announce t2 i2 :: l1) (by
      have : l0 ++ CEv.announce t1 i1 :: m = l0 ++ [.announce t1 i1] ++ m := by simp
      rw [this, e]; simp)
  obtain ⟨d', c1, c2⟩ := annSpec_after (d := t1 + i1) m (l0 ++ [.announce t1 i1]) hr' hn ⟨t1 + i1, by
    rw [annSpec_append]
    show some (t1 + ((annSpec l0).1 : Int)) = _
    rw [a1], Int.le_refl _⟩
  rw [show l0 ++ [CEv.announce t1 i1] ++ m = l0 ++ .announce t1 i1 :: m by simp] at c1
  rw [b3] at c1
  cases c1
  exact ⟨by omega, a2⟩

/-- As long as no interval is set, there is none. -/
theorem annSpec_off : ∀ (m l0 : List CEv), (annSpec l0).1 = 0 → (∀ now n, CEv.setAnnounce now n ∈ m → n = 0) →
    (annSpec (l0 ++ m)).1 = 0 := by
  intro m
  induction m with
  | nil => intro l0 h _; simpa using h
  | cons e m ih =>
    intro l0 h hm
    rw [List.append_cons]
    refine ih (l0 ++ [e]) ?_ (fun a b hb => hm a b (by simp [hb]))
    rw [annSpec_append]
    cases e with
    | setAnnounce a b =>
      have := hm a b (by simp)
      show (if b = 0 then ((0 : Nat), (none : Option Int)) else _).1 = 0
      rw [if_pos this]
    | _ => exact h

/-- C30: no announcement is made while the interval is 0. -/
theorem C30_off {ops : List Op} {c : PubCtx} (h : Reaches ops c) (hk : ∀ op ∈ ops, clockOk op) {l0 m l1 : List CEv}
    {t now : Int} {i : Nat} (hl : c.log = l0 ++ .setAnnounce now 0 :: m ++ .announce t i :: l1) :
    ∃ now' n, n ≠ 0 ∧ CEv.setAnnounce now' n ∈ m := by
  have hr := h.rate hk
  rw [hl] at hr
  obtain ⟨b1, b2, d, b3, b4⟩ := hr (l0 ++ .setAnnounce now 0 :: m) t i l1 (by simp)
  apply Classical.byContradiction
  intro hno
  have hm : ∀ now' n, CEv.setAnnounce now' n ∈ m → n = 0 := by
    intro now' n hh
    apply Classical.byContradiction
    intro h0
    exact hno ⟨now', n, h0, hh⟩
  have e0 : (annSpec (l0 ++ [.setAnnounce now 0])).1 = 0 := by rw [annSpec_append]; rfl
  have := annSpec_off m _ e0 hm
  rw [← List.append_cons] at this
  rw [this] at b1
  exact b2 b1.symm

/-- Non-vacuity: an interval of 1000 set at time 5; timeouts processed at times 900, 1005, 1500, 2100; announcements at
1005 and 2100. -/
example : (match run exC0 [.activate (.ok (7, 8, 9)), .setAnnounce 1000 5, .timeout 900 none 0, .timeout 1005 none 0,
      .timeout 1500 none 0, .timeout 2100 (some (true, [1, 2])) 0] with
    | .ok (_, c) => decide (c.log = [.setAnnounce 5 1000, .announce 1005 1000, .announce 2100 1000] ∧
        (PLog.queuedAnn c.pub.log).map (·.data) = [[], [1, 2]])
    | .error _ => false) = true := by decide +kernel

end PubCtx
end Rmc
