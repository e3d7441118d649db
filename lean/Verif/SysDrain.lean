import Verif.SysInv
import Verif.Props.PubCtxTime

/-! # The composed system: what happens to the packets already multicast -/

set_option linter.unusedSimpArgs false
set_option linter.unusedVariables false

namespace Rmc
namespace PubCtx
open PLog

/-- What is not owed and not sent again is not owed later. -/
theorem owed_gone {k pid : Nat} (log : List PEv) (h0 : pid ∉ (owed k log).2) : ∀ (n : Nat) (es : List PEv), es.length = n →
    pid ∉ (sentPkts es).map (·.1) → pid ∉ (owed k (log ++ es)).2 := by
  intro n
  induction n with
  | zero =>
    intro es hl _
    have : es = [] := List.length_eq_zero_iff.1 hl
    subst this
    rw [List.append_nil]; exact h0
  | succ n ih =>
    intro es hl hs
    rcases List.eq_nil_or_concat es with rfl | ⟨fs, e, rfl⟩
    · cases hl
    rw [List.concat_eq_append] at hl hs ⊢
    rw [List.length_append] at hl
    rw [sentPkts_append, List.map_append, List.mem_append] at hs
    have g := ih fs (by simpa using hl) (fun x => hs (.inl x))
    rw [← List.append_assoc, owed_append]
    generalize ho : owed k (log ++ fs) = st at g
    rw [List.foldl_cons, List.foldl_nil]
    cases e with
    | connect j =>
      dsimp only; split
      · simp
      · exact g
    | close j =>
      dsimp only; split
      · simp
      · exact g
    | queue a p => exact g
    | free a p => exact g
    | send a p ts =>
      dsimp only
      split
      · rename_i ha
        intro hm
        rcases List.mem_append.1 hm with hm | hm
        · exact g hm
        · have : pid = a := by simpa using hm
          subst this
          exact hs (.inr (by simp [sentPkts, ha.2]))
      · exact g
    | ack j a =>
      dsimp only
      split
      · intro hm; exact g (List.mem_filter.1 hm).1
      · exact g

/-- The ids of the packets multicast are 1, 2, 3, ... in order. -/
theorem sent_ids {ops : List Op} {c : PubCtx} (h : Reaches ops c) :
    (sentPkts c.pub.log).map (·.1) = List.range' 1 (sentPkts c.pub.log).length := by
  obtain ⟨pops, L, g, hq, hb, _⟩ := h.good
  obtain ⟨mem, n, nid, ip, port, rs, h1, h2, h3, h4⟩ := h
  obtain ⟨e1, e2⟩ := C16_api h1 h2 h3 h4
  rw [← e1, List.length_map] at e2
  have hr := g.p.reached
  have e3 := hr.linv.qp
  rw [← hr.log] at e3
  rw [e3, List.map_append, List.length_append] at e2
  have := congrArg (List.take (sentPkts c.pub.log).length) e2
  rw [List.take_left' (by simp)] at this
  rw [this]
  have e : ∀ (a m : Nat), List.range' 1 (a + m) = List.range' 1 a ++ List.range' (1 + a) m := by
    intro a m
    have := List.range'_append_1 (s := 1) (m := a) (n := m)
    rw [this]
  rw [e, List.take_left' (by simp)]

/-- A packet is multicast once. -/
theorem not_resent {ops : List Op} {c : PubCtx} (h : Reaches ops c) {l es : List PEv} (hl : c.pub.log = l ++ es) {pid : Nat}
    (hp : pid ∈ (sentPkts l).map (·.1)) : pid ∉ (sentPkts es).map (·.1) := by
  have h1 := sent_ids h
  have h2 : ((sentPkts c.pub.log).map (·.1)).Nodup := by rw [h1]; exact List.nodup_range'
  rw [hl, sentPkts_append, List.map_append] at h2
  exact fun x => (List.nodup_append.1 h2).2.2 _ hp _ x rfl

theorem since_split (k : Nat) (log : List PEv) : ∃ pre, log = pre ++ since k log := by
  unfold since
  refine ⟨(log.reverse.dropWhile fun e => decide (e ≠ .connect k)).reverse, ?_⟩
  rw [← List.reverse_append, List.takeWhile_append_dropWhile, List.reverse_reverse]

/-- The ids multicast to a subscriber since it connected have no gaps. -/
theorem sentTo_range {ops : List Op} {c : PubCtx} (h : Reaches ops c) (k : Nat) : ∃ a m, sentTo k c.pub.log = List.range' a m := by
  obtain ⟨pre, hp⟩ := since_split k c.pub.log
  have hs := sent_ids h
  have e : (sentPkts c.pub.log).map (·.1) = (sentPkts pre).map (·.1) ++ sentTo k c.pub.log := by
    unfold sentTo
    rw [← List.map_append, ← sentPkts_append, ← hp]
  have := congrArg (List.drop (sentPkts pre).length) e
  rw [List.drop_left' (by simp), hs, List.drop_range'] at this
  exact ⟨_, _, this.symm⟩

theorem sentTo_between {ops : List Op} {c : PubCtx} (h : Reaches ops c) {k a b q : Nat} (ha : a ∈ sentTo k c.pub.log)
    (hb : b ∈ sentTo k c.pub.log) (h1 : a ≤ q) (h2 : q ≤ b) : q ∈ sentTo k c.pub.log := by
  obtain ⟨x, m, e2⟩ := sentTo_range h k
  rw [e2, List.mem_range'_1] at ha hb ⊢
  omega

/-- What was multicast before something multicast earlier was multicast earlier. -/
theorem sentTo_before {ops : List Op} {c : PubCtx} (h : Reaches ops c) {k q pid : Nat} {l es : List PEv} (hl : c.pub.log = l ++ es)
    (hes : PEv.connect k ∉ es) (hq : q ∈ sentTo k c.pub.log) (hp : pid ∈ sentTo k l) (hle : q ≤ pid) : q ∈ sentTo k l := by
  obtain ⟨x, m, e2⟩ := sentTo_range h k
  have e3 : sentTo k c.pub.log = sentTo k l ++ (sentPkts es).map (·.1) := by rw [hl, sentTo_append_of hes]
  have hs : (sentTo k c.pub.log).Pairwise (· < ·) := by rw [e2]; exact List.pairwise_lt_range'
  rw [e3] at hs hq
  rcases List.mem_append.1 hq with hq | hq
  · exact hq
  · have := (List.pairwise_append.1 hs).2.2 pid hp q hq
    omega

/-- A successful timeout call at which everything owed to a subscriber is overdue leaves nothing outstanding. -/
theorem timeout_settles {ops : List Op} {c c' : PubCtx} (h : Reaches ops c) {now : Int} {cb : Option (Bool × List UInt8)} {sp : Nat}
    (hd : ¬ annDue c now) (hx : timeoutProcess c now cb sp = .ok (0, c')) {k : Nat} (hk : Connected c k)
    (hall : ∀ x ∈ c.pub.owedPkts k, x.2.2 + c.resendTimeout ≤ now) {ops' : List Op} (h' : Reaches ops' c') : c'.pub.outstanding k = [] := by
  obtain ⟨_, e2⟩ := C26_exact h hd hx hk
  obtain ⟨pops, L, g, _⟩ := h'.good
  rw [outstanding_owed g.p.reached.rel, e2]
  have ht : ∀ x ∈ c.pub.owedPkts k, timedOut now c.resendTimeout x = true := by
    intro x hx'
    have := hall x hx'
    unfold timedOut; simpa using this
  have hdone : (if late c.pub k now c.resendTimeout then due c.pub k now c.resendTimeout else []) = (c.pub.owedPkts k).reverse := by
    cases ho : c.pub.owedPkts k with
    | nil =>
      have : late c.pub k now c.resendTimeout = false := by unfold late; rw [ho]; rfl
      rw [this]; rfl
    | cons x l =>
      have : late c.pub k now c.resendTimeout = true := by
        unfold late; rw [ho]
        exact ht x (by rw [ho]; simp)
      rw [this, if_pos rfl]
      unfold due
      rw [ho]
      have e := List.takeWhile_append_of_pos (p := timedOut now c.resendTimeout) (l₁ := (x :: l).reverse) (l₂ := []) (by
        intro y hy
        exact ht y (by rw [ho]; exact List.mem_reverse.1 hy))
      simpa using e
  rw [hdone]
  have : (c.pub.owedPkts k).filter (fun x => decide (x.1 ∉ ((c.pub.owedPkts k).reverse).map (·.1))) = [] := by
    rw [List.filter_eq_nil_iff]
    intro x hx'
    simp only [decide_eq_true_eq, Classical.not_not]
    exact List.mem_map.2 ⟨x, List.mem_reverse.2 hx', rfl⟩
  rw [this]; rfl

end PubCtx

namespace Sys
open PLog CircBuf

theorem next_acc {E : Env} {n : Nat} {s t : Sys} (h : Inv E n s) {op : SysOp} (hb : n + calls [op] + 1 < U64) (ht : next E s op = some t) {k : Nat}
    (hk : s.acc = some k) : t.acc = some k ∧ (s.err = true → t.err = true) ∧
      ∃ es, t.pub.pub.log = s.pub.pub.log ++ es ∧ PEv.connect k ∉ es := by
  obtain ⟨ops, h1, h2, h3⟩ := h.pub
  obtain ⟨pops, L, g, hq, hb', _⟩ := h1.good
  have hc := (h.acc k hk).1
  unfold next at ht
  cases op with
  | pub op =>
    dsimp only at ht
    split at ht
    · rename_i hok
      have hc1 : calls [.pub op] = 1 := rfl
      cases hx : PubCtx.step s.pub op with
      | error f => rw [hx] at ht; cases ht
      | ok x =>
        rw [hx] at ht; cases ht
        have e2 := hok.2
        rw [hk] at e2
        obtain ⟨ds, ps, q⟩ := PubCtx.step_link g (PubCtx.callOk_sane hok.1) (by omega) (show PubCtx.step s.pub op = .ok (x.1, x.2) from hx) hc
          (by rintro rv rfl; simp [leaves] at e2) (by rintro rfl; simp [leaves] at e2) (by rintro rfl; simp [leaves] at e2)
        exact ⟨hk, id, q.plog⟩
    · cases ht
  | accept j ar cb =>
    dsimp only at ht
    split at ht
    · rename_i hok
      rw [hk] at hok; cases hok.1
    · cases ht
  | pubRead m =>
    dsimp only at ht
    rw [hk] at ht
    dsimp only at ht
    split at ht
    · cases hx : PubCtx.step s.pub (.read k (some (s.up.take m))) with
      | error f => rw [hx] at ht; cases ht
      | ok x =>
        rw [hx] at ht
        dsimp only at ht
        split at ht
        · cases ht
          refine ⟨rfl, fun e => by simp [e], ?_⟩
          rcases PubCtx.readConn_spec g (show PubCtx.readConn s.pub k _ = .ok (x.1, x.2) from hx) with
            ⟨_, _, e⟩ | ⟨_, c1, ys, zs, ds, L', _, hy, g', _, _, _, hds, hds2, hcj, hz⟩
          · rw [e]; exact ⟨[], by simp, by simp⟩
          · obtain ⟨es, e1, e2⟩ := PubCtx.good_events g (show PubCtx.Good x.2 (pops ++ (ys ++ zs)) L' by
              rw [← List.append_assoc]; exact g')
            refine ⟨es, e1, fun hm => ?_⟩
            rcases List.mem_append.1 (e2.connect k hm) with hm | hm
            · obtain ⟨_, e⟩ := hy _ hm
              cases e
            · rcases hz with hz | hz
              all_goals simp_all
        · cases ht
    · cases ht
  | sub op =>
    dsimp only at ht
    split at ht
    · split at ht
      · split at ht
        · cases ht; exact ⟨hk, id, [], by simp, by simp⟩
        · cases ht
      · cases ht
    · cases ht
  | subRead m ts =>
    dsimp only at ht
    split at ht
    · split at ht
      · split at ht
        · cases ht; exact ⟨hk, id, [], by simp, by simp⟩
        · cases ht
      · cases ht
    · cases ht

theorem run_acc {E : Env} {k : Nat} : ∀ (ops : List SysOp) {n : Nat} {s t : Sys}, Inv E n s → n + calls ops + 1 < U64 →
    run E s ops = some t → s.acc = some k → t.acc = some k ∧
      ∃ es, t.pub.pub.log = s.pub.pub.log ++ es ∧ PEv.connect k ∉ es := by
  intro ops
  induction ops with
  | nil => intro n s t _ _ ht hk; cases ht; exact ⟨hk, [], by simp, by simp⟩
  | cons op ops ih =>
    intro n s t h hb ht hk
    rw [calls_cons] at hb
    unfold run at ht
    cases hn : next E s op with
    | none => rw [hn] at ht; cases ht
    | some u =>
      rw [hn] at ht
      obtain ⟨a1, _, es1, a2, a3⟩ := next_acc h (by omega) hn hk
      obtain ⟨b1, es2, b2, b3⟩ := ih (h.step (by omega) hn) (by omega) ht a1
      exact ⟨b1, es1 ++ es2, by rw [b2, a2, List.append_assoc], by simp [a3, b3]⟩

theorem run_append {E : Env} : ∀ (a b : List SysOp) (s : Sys), run E s (a ++ b) = (run E s a).bind fun t => run E t b := by
  intro a
  induction a with
  | nil => intro b s; rfl
  | cons x a ih =>
    intro b s
    rw [List.cons_append]
    show (next E s x).bind (fun t => run E t (a ++ b)) = ((next E s x).bind fun t => run E t a).bind fun t => run E t b
    cases next E s x with
    | none => rfl
    | some t => exact ih b t

end Sys
end Rmc
