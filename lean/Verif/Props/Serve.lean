import Verif.Serve
import Verif.Props.SubCtxAck
import Verif.Props.PubCtxTime
import Verif.SysInv

/-!
# C80: processing timeouts comes to an end
-/

set_option linter.unusedSimpArgs false
set_option linter.unusedVariables false

namespace Rmc
namespace SubCtx
open SubPub CircBuf ConnVec

/-- Specification: the number of intervals of packets received and not yet acknowledged, over the publishers to be acknowledged. -/
def waiting (c : SubCtx) : Nat := (c.ackList.map fun i => ((c.publishers i).map (·.intervals.length)).getD 0).sum

theorem sum_le {α : Type} {f g : α → Nat} : ∀ {l : List α}, (∀ x ∈ l, f x ≤ g x) → (l.map f).sum ≤ (l.map g).sum := by
  intro l
  induction l with
  | nil => intro _; exact Nat.le_refl _
  | cons x l ih =>
    intro h
    have h1 := h x (by simp)
    have h2 := ih (fun y hy => h y (by simp [hy]))
    simp only [List.map_cons, List.sum_cons]
    omega

theorem sum_lt {α : Type} {f g : α → Nat} : ∀ {l : List α}, (∀ x ∈ l, f x ≤ g x) → (∃ x ∈ l, f x < g x) → (l.map f).sum < (l.map g).sum := by
  intro l
  induction l with
  | nil => intro _ h; obtain ⟨x, hx, _⟩ := h; cases hx
  | cons x l ih =>
    intro h hl
    have h1 := h x (by simp)
    have h2 := sum_le (l := l) (f := f) (g := g) (fun y hy => h y (List.mem_cons_of_mem _ hy))
    simp only [List.map_cons, List.sum_cons]
    obtain ⟨y, hy, hlt⟩ := hl
    rcases List.mem_cons.1 hy with e | e
    · subst e; omega
    · have := ih (fun y hy => h y (by simp [hy])) ⟨y, e, hlt⟩
      omega

theorem ackAll_shrinks : ∀ (ivs : List Intv) {c c' : SubCtx} {i r : Nat} {s : SubPub}, Core c → i ∈ c.ackList →
    c.publishers i = some { s with intervals := ivs } → ackAll c i s ivs = .ok (r, c') →
    ∃ ivs', c'.publishers i = some { s with intervals := ivs' } ∧ ivs'.length ≤ ivs.length ∧ (r ≠ 0 → ivs'.length < ivs.length) ∧
      c'.ackTimeout = c.ackTimeout := by
  intro ivs
  induction ivs with
  | nil => intro c c' i r s hc hl hs h; cases h; exact ⟨[], hs, Nat.le_refl _, fun e => absurd rfl e, rfl⟩
  | cons iv rest ih =>
    intro c c' i r s hc hl hs h
    unfold ackAll at h
    dsimp only at h
    obtain ⟨⟨r1, c1⟩, h1, h⟩ := bind_ok h
    have hm : Micro 1 c (ev (SubCtx.setPub c i { s with intervals := rest }) (.taken i iv)) :=
      Micro.taken (s := { s with intervals := iv :: rest }) hs rfl hl rfl
    have hc0 := hc.micro hm
    have hlt : i < c.cv.size := hc.recLt i _ hs
    have hs0 : (ev (SubCtx.setPub c i { s with intervals := rest }) (.taken i iv)).publishers i =
        some { s with intervals := rest } := by
      show (if i = i then _ else _) = _; rw [if_pos rfl]
    rcases writeAck_spec hc0 hlt h1 with ⟨g1, g2, -⟩ | ⟨g1, gu, b, g2, g3, g4, g5⟩
    · dsimp only at h
      rw [if_pos g1] at h
      cases h
      rw [g2]
      exact ⟨rest, hs0, by simp, fun _ => by simp, rfl⟩
    · dsimp only at h
      rw [if_neg (by simp [g1])] at h
      have hm2 : Micro 1 (ev (SubCtx.setPub c i { s with intervals := rest }) (.taken i iv)) c1 := by
        rw [g2]
        refine .msg gu g3 g4 g5 (.inl ⟨iv, ?_, rfl, rfl⟩)
        show iv ∈ (sess i (c.log ++ [_])).taken
        rw [sess_snoc]
        simp [Sess.step]
      have e1 : c1.ackList = c.ackList := by rw [g2]; rfl
      have e2 : c1.publishers i = some { s with intervals := rest } := by rw [g2]; exact hs0
      have e3 : c1.ackTimeout = c.ackTimeout := by rw [g2]; rfl
      obtain ⟨ivs', q1, q2, q3, q4⟩ := ih (hc0.micro hm2) (by rw [e1]; exact hl) e2 h
      exact ⟨ivs', q1, by simp; omega, fun e => by have := q3 e; simp; omega, q4.trans e3⟩

theorem timeoutLoop_shrinks : ∀ (l : List Nat) {c c' : SubCtx} {r : Nat} {now : Int}, Core c → c.ackList = l →
    timeoutLoop c now l = .ok (r, c') →
    (r = 0 → ∃ t, timeoutGetNext c' = .ok t ∧ (t = -1 ∨ now < t)) ∧ waiting c' ≤ waiting c ∧ (r ≠ 0 → waiting c' < waiting c) := by
  intro l
  induction l with
  | nil =>
    intro c c' r now hc hl h; cases h
    refine ⟨fun _ => ⟨-1, ?_, .inl rfl⟩, Nat.le_refl _, fun e => absurd rfl e⟩
    unfold timeoutGetNext; rw [hl]
  | cons i is ih =>
    intro c c' r now hc hl h
    unfold timeoutLoop at h
    obtain ⟨s, hs, h⟩ := bind_ok h
    have hs0 := hs
    rw [getPub_ok] at hs
    split at h
    · rename_i hgt
      cases h
      refine ⟨fun _ => ⟨oldest s + c.ackTimeout, ?_, .inr hgt⟩, Nat.le_refl _, fun e => absurd rfl e⟩
      unfold timeoutGetNext oldestAt
      rw [hl]
      dsimp only
      rw [hs0]
      rfl
    · obtain ⟨⟨r1, c1⟩, h1, h⟩ := bind_ok h
      have hil : i ∈ c.ackList := by rw [hl]; simp
      obtain ⟨g1, g2, g3⟩ := ackAll_steps s.intervals hc hil hs h1
      obtain ⟨ivs', q1, q2, q3, q4⟩ := ackAll_shrinks s.intervals hc hil hs h1
      have fr := ackAll_frame s.intervals h1
      have hle : ∀ j, ((c1.publishers j).map (·.intervals.length)).getD 0 ≤ ((c.publishers j).map (·.intervals.length)).getD 0 := by
        intro j
        by_cases hj : j = i
        · subst hj; rw [q1, hs]; exact q2
        · rw [(fr j hj).2]; exact Nat.le_refl _
      dsimp only at h
      split at h
      · rename_i hr
        cases h
        have hlt : waiting c' < waiting c := by
          unfold waiting
          rw [g2]
          refine sum_lt (fun j _ => hle j) ⟨i, hil, ?_⟩
          rw [q1, hs]; exact q3 hr
        exact ⟨fun e => absurd e hr, Nat.le_of_lt hlt, fun _ => hlt⟩
      · rename_i hr
        have hr : r1 = 0 := by simpa using hr
        have hm : Micro 1 c1 { c1 with ackList := is } := .dropAck (g2.trans hl) (g3 hr) rfl
        obtain ⟨k1, k2, k3⟩ := ih (hc.steps (g1.snoc hm)) rfl h
        have hw : waiting { c1 with ackList := is } ≤ waiting c := by
          unfold waiting
          rw [hl]
          have := sum_le (l := is) (fun j _ => hle j)
          simp only [List.map_cons, List.sum_cons]
          omega
        exact ⟨k1, by omega, fun e => by have := k3 e; omega⟩

/-- C80 for the subscriber: when timeout processing returns 0 no timeout is due any more. -/
theorem C80_done {ops : List Op} {c c' : SubCtx} (h : Reaches ops c) {now : Int} (hx : timeoutProcess c now = .ok (0, c')) :
    ∃ t, timeoutGetNext c' = .ok t ∧ (t = -1 ∨ now < t) :=
  (timeoutLoop_shrinks c.ackList h.inv.core rfl hx).1 rfl

/-- C80 for the subscriber: the application's loop ends: in every reachable state, if the clock does not run backwards, the loop has been left after
at most one round more than there are intervals to acknowledge, whatever the calls return. -/
theorem C80_subscriber {cur : Int} : ∀ (nows : List Int) {ops : List Op} {c c' : SubCtx} {b : Bool}, Reaches ops c → (∀ now ∈ nows, cur ≤ now) →
    waiting c < nows.length → serve cur nows c = .ok (b, c') → b = true := by
  intro nows
  induction nows with
  | nil => intro ops c c' b h hn hl hs; exact absurd hl (by simp)
  | cons now nows ih =>
    intro ops c c' b h hn hl hs
    unfold serve at hs
    obtain ⟨t, ht, hs⟩ := bind_ok hs
    split at hs
    · cases hs; rfl
    · obtain ⟨⟨r, c1⟩, h1, hs⟩ := bind_ok hs
      have h1' : step c (.timeout now) = .ok (r, c1) := h1
      have hr := h.snoc h1'
      obtain ⟨k1, k2, k3⟩ := timeoutLoop_shrinks c.ackList h.inv.core rfl h1
      dsimp only at hs
      by_cases e : r = 0
      · obtain ⟨t', ht', hd⟩ := k1 e
        have hc := hn now (by simp)
        cases nows with
        | nil =>
          unfold serve at hs
          rw [ht'] at hs
          cases hs
          exact decide_eq_true (hd.imp id (fun h => by omega))
        | cons n2 ns =>
          unfold serve at hs
          rw [ht'] at hs
          have hd : t' = -1 ∨ cur ≤ t' := hd.imp id (fun h => by omega)
          have hs : (if t' = -1 ∨ cur ≤ t' then Except.ok (true, c1) else _) = Except.ok (b, c') := hs
          rw [if_pos hd] at hs
          cases hs; rfl
      · have := k3 e
        exact ih hr (fun n hn' => hn n (by simp [hn'])) (by simp at hl; omega) hs

/-- C80 for the subscriber: the loop is left exactly when no timeout lies before the time at which it was entered. -/
theorem C80_left {cur : Int} : ∀ (nows : List Int) {c c' : SubCtx} {b : Bool}, serve cur nows c = .ok (b, c') →
    ∃ t, timeoutGetNext c' = .ok t ∧ (b = true ↔ ¬ (t ≠ -1 ∧ t < cur)) := by
  intro nows
  induction nows with
  | nil =>
    intro c c' b hs
    unfold serve at hs
    obtain ⟨t, ht, hs⟩ := bind_ok hs
    cases hs
    exact ⟨t, ht, by rw [decide_eq_true_iff]; omega⟩
  | cons now nows ih =>
    intro c c' b hs
    unfold serve at hs
    obtain ⟨t, ht, hs⟩ := bind_ok hs
    split at hs
    · rename_i he
      cases hs
      exact ⟨t, ht, ⟨fun _ => by omega, fun _ => rfl⟩⟩
    · obtain ⟨⟨r, c1⟩, h1, hs⟩ := bind_ok hs
      exact ih hs

/-- C80 for the subscriber: with no timeout before the time at which the loop was entered, nothing is called: the context is as it was. -/
theorem C80_not_due {cur t : Int} {c : SubCtx} (ht : timeoutGetNext c = .ok t) (hd : ¬ (t ≠ -1 ∧ t < cur)) (nows : List Int) :
    serve cur nows c = .ok (true, c) := by
  have hd : t = -1 ∨ cur ≤ t := by omega
  cases nows with
  | nil => unfold serve; rw [ht]; simp [bind, Except.bind, pure, Except.pure, hd]
  | cons now nows => unfold serve; rw [ht]; simp [bind, Except.bind, pure, Except.pure, hd]

/-- Non-vacuity: one interval of two packets and one of one packet wait; the loop, entered at 60000, ends. -/
example : ∃ c rs, Reaches (exUp ++ [.readMcast [exDg 4 5 [50] 1000, exDg 4 7 [70] 1100, exDg 4 8 [80] 1200]]) c ∧
    run exS0 (exUp ++ [.readMcast [exDg 4 5 [50] 1000, exDg 4 7 [70] 1100, exDg 4 8 [80] 1200]]) = .ok (rs, c) ∧
    decide (waiting c = 2 ∧ nextOf c = 51000 ∧
      (match serve 60000 [60001, 60002, 60003] c with
       | .ok (b, c') => b && decide (nextOf c' = -1 ∧ waiting c' = 0)
       | .error _ => false) = true) = true :=
  reaches_of (P := fun rs c => decide _) (by decide +kernel)

end SubCtx

namespace PubCtx
open CircBuf ConnVec

/-- C80 for the publisher: with no timeout before the time at which the loop was entered, nothing is called: the context is as it was. -/
theorem C80_not_due {cur t : Int} {c : PubCtx} (ht : timeoutGetNext c = .ok t) (hd : ¬ (t ≠ -1 ∧ t < cur)) (nows : List (Int × Option (Bool × List UInt8) × Nat)) :
    serve cur nows c = .ok (true, c) := by
  have hd : t = -1 ∨ cur ≤ t := by omega
  cases nows with
  | nil => unfold serve; rw [ht]; simp [bind, Except.bind, pure, Except.pure, hd]
  | cons x nows => obtain ⟨now, cb, sp⟩ := x; unfold serve; rw [ht]; simp [bind, Except.bind, pure, Except.pure, hd]

/-- C80 for the publisher: the loop is left exactly when no timeout lies before the time at which it was entered. -/
theorem C80_left {cur : Int} : ∀ (nows : List (Int × Option (Bool × List UInt8) × Nat)) {c c' : PubCtx} {b : Bool}, serve cur nows c = .ok (b, c') →
    ∃ t, timeoutGetNext c' = .ok t ∧ (b = true ↔ ¬ (t ≠ -1 ∧ t < cur)) := by
  intro nows
  induction nows with
  | nil =>
    intro c c' b hs
    unfold serve at hs
    obtain ⟨t, ht, hs⟩ := bind_ok hs
    cases hs
    exact ⟨t, ht, by rw [decide_eq_true_iff]; omega⟩
  | cons x nows ih =>
    intro c c' b hs
    obtain ⟨now, cb, sp⟩ := x
    unfold serve at hs
    obtain ⟨t, ht, hs⟩ := bind_ok hs
    split at hs
    · rename_i he
      cases hs
      exact ⟨t, ht, ⟨fun _ => by omega, fun _ => rfl⟩⟩
    · obtain ⟨⟨r, c1⟩, h1, hs⟩ := bind_ok hs
      exact ih hs

/-- C80 for the publisher: an announcement that is due is dealt with by one call, and the next is later. -/
theorem C80_announce {ops : List Op} {c : PubCtx} (h : Reaches ops c) (hb : ops.length + 2 < U64) {now : Int} (hd : annDue c now)
    (cb : Option (Bool × List UInt8)) (sp : Nat) : ∃ c', timeoutProcess c now cb sp = .ok (0, c') ∧ now < c'.annNext := by
  obtain ⟨pops, L, g, hq, _⟩ := h.good
  obtain ⟨c', e, _, _, h3, _⟩ := timeout_announce g hd cb sp (by omega)
  refine ⟨c', e, ?_⟩
  rw [h3]
  have : 0 < c.annInterval := Nat.pos_of_ne_zero hd.1
  omega

/-- C80 for the publisher, if each subscriber that owes an overdue packet owes no packet that is not overdue: when no announcement is due and timeout
processing returns 0, no timeout is due any more.
Missing for the full property: subscribers that also owe younger packets, see `C80_false`. -/
theorem C80_publisher_partial {ops : List Op} {c c' : PubCtx} (h : Reaches ops c) (hb : ops.length + 2 < U64) (hm : Monotone ops)
    (hk : ∀ op ∈ ops, clockOk op) (hn : ∀ t ∈ ops.flatMap opTimes, 0 ≤ t) {now : Int} (hnow : 0 ≤ now) (hto : 0 ≤ c'.resendTimeout)
    {cb : Option (Bool × List UInt8)} {sp : Nat} (hd : ¬ annDue c now)
    (hy : ∀ k x newest, Connected c k → x ∈ c.pub.owedPkts k → x.2.2 + c.resendTimeout ≤ now →
      (c.pub.owedPkts k).getLast? = some newest → newest.2.2 + c.resendTimeout ≤ now)
    (hx : timeoutProcess c now cb sp = .ok (0, c')) : ∃ t, timeoutGetNext c' = .ok t ∧ (t = -1 ∨ now < t) := by
  have hr : Reaches (ops ++ [.timeout now cb sp]) c' := h.snoc' trivial hb hx
  have eT : (ops ++ [Op.timeout now cb sp]).flatMap opTimes = ops.flatMap opTimes := by
    rw [List.flatMap_append]; simp [opTimes]
  obtain ⟨t, e, ht⟩ := C27_next hr (by unfold Monotone; rw [eT]; exact hm)
    (by intro o ho; rcases List.mem_append.1 ho with ho | ho
        · exact hk o ho
        · rw [List.mem_singleton.1 ho]; exact hnow) (by rw [eT]; exact hn) hto
  refine ⟨t, e, ?_⟩
  rcases ht with ⟨a, _⟩ | ⟨hD, h0, hmin⟩
  · exact .inl a
  right
  obtain ⟨pops, L, g, hq, _⟩ := h.good
  have htr := timeout_resend g hd hx
  obtain ⟨done, ys, g1, g2, g3, g4, g5, g6, g7, g8⟩ := subscribersTimeout_spec _ ((subs_nodup g).filter _)
    (fun k hk => (g.slots k).2 (List.mem_filter.mp hk).1) g htr
  have hres : c'.resendTimeout = c.resendTimeout := congrArg Cfg.resendTimeout g2.cfg
  rcases hD with ⟨k, x, h1, h2, h3⟩ | hD
  · have hc : Connected c k := by
      have q1 := g1.connected.1 h1
      exact g.connected.2 q1
    have hxo : x ∈ c.pub.owedPkts k := by
      rw [g7 k] at h2; exact (List.mem_filter.1 h2).1
    obtain ⟨newest, hl⟩ : ∃ n, (c.pub.owedPkts k).getLast? = some n := by
      cases hq : (c.pub.owedPkts k).getLast? with
      | none => rw [List.getLast?_eq_none_iff] at hq; rw [hq] at hxo; cases hxo
      | some n => exact ⟨n, rfl⟩
    obtain ⟨i1, i2⟩ := C26_all_or_none_partial h hm hd hx hc hl
    by_cases hdue : newest.2.2 + c.resendTimeout ≤ now
    · obtain ⟨_, i1⟩ := i1 hdue
      rw [outstanding_owed g1.p.reached.rel] at i1
      rw [List.map_eq_nil_iff] at i1
      rw [i1] at h2; cases h2
    · rw [h3, hres]
      apply Classical.byContradiction
      intro hlt
      exact hdue (hy k x newest hc hxo (by omega) hl)
  · have hann := hr.ann (by intro o ho; rcases List.mem_append.1 ho with ho | ho
                            · exact hk o ho
                            · rw [List.mem_singleton.1 ho]; exact hnow)
    rw [g3] at hD
    apply Classical.byContradiction
    intro hlt
    exact hd (((h.ann hk).due now).2 ⟨t, hD, by omega⟩)

/-- While the newest packet each connected subscriber owes is not overdue, and no announcement is due, timeout processing does nothing at all. -/
theorem C80_idle {ops : List Op} {c : PubCtx} (h : Reaches ops c) {now : Int} (hd : ¬ annDue c now)
    (hy : ∀ k, Connected c k → ∀ x, (c.pub.owedPkts k).getLast? = some x → now < x.2.2 + c.resendTimeout)
    (cb : Option (Bool × List UInt8)) (sp : Nat) : timeoutProcess c now cb sp = .ok (0, c) := by
  obtain ⟨pops, L, g, _⟩ := h.good
  rw [timeout_resend_eq g hd]
  have key : ∀ ks : List Nat, (∀ k ∈ ks, Connected c k) → subscribersTimeout c now ks = .ok (0, c) := by
    intro ks
    induction ks with
    | nil => intro _; rfl
    | cons k ks ih =>
      intro hk
      have hdue : due c.pub k now c.resendTimeout = [] := by
        unfold due
        cases hq : (c.pub.owedPkts k).getLast? with
        | none => rw [List.getLast?_eq_none_iff] at hq; rw [hq]; rfl
        | some x =>
          have := hy k (hk k (by simp)) x hq
          rw [List.getLast?_eq_head?_reverse] at hq
          cases hr : (c.pub.owedPkts k).reverse with
          | nil => rfl
          | cons y ys =>
            rw [hr] at hq; cases hq
            rw [List.takeWhile_cons, if_neg]
            unfold timedOut
            simp only [decide_eq_true_eq]; omega
      obtain ⟨l, e1, e2, _⟩ := takeWhile_reverse_holds g.p k now c.resendTimeout
      rw [hdue, List.map_eq_nil_iff] at e2
      subst e2
      have hT : subscriberTimeout c k now = .ok (0, c) := by
        unfold subscriberTimeout
        rw [e1]; rfl
      rw [subscribersTimeout_cons, hT]
      exact ih (fun j hj => hk j (by simp [hj]))
  refine key _ (fun k hk => ?_)
  exact g.connected.2 ((g.slots k).2 (List.mem_filter.1 hk).1)

/-- The time `rmc_pub_timeout_get_next` returns, as a number (for the concrete histories). -/
def nextAt (c : PubCtx) : Int := match timeoutGetNext c with | .ok t => t | .error _ => 0

/-- Non-vacuity of `C80_publisher_partial`: at 250000 all packets are overdue, the call returns 0, and then there is no timeout. -/
example : ∃ c rs, Reaches exLate c ∧ run exC0 exLate = .ok (rs, c) ∧
    decide (nextAt c = 100010 ∧ (c.pub.owedPkts 0).map (·.2.2) = [10, 20, 30, 150000] ∧ c.annInterval = 0 ∧
      (match timeoutProcess c 250000 none 0 with
       | .ok (r, c') => decide (r = 0 ∧ nextAt c' = -1)
       | .error _ => false) = true) = true :=
  reaches_of (P := fun rs c => decide _) (by simp [exLate, exPre, Op.sane, saneAcc]) (by decide) (by decide +kernel)

/-- C80 is not true of the publisher in full: the next timeout is 100010, and an application that processes timeouts as long as the next one lies before
249999 does so for ever if the clock stands still, and until the newest packet becomes overdue if it does not: each call returns 0 and changes nothing. -/
theorem C80_false : ∃ c, Reaches exLate c ∧ Monotone exLate ∧ timeoutGetNext c = .ok 100010 ∧
    ∀ now, now < 250000 → (∀ cb sp, timeoutProcess c now cb sp = .ok (0, c)) ∧
      ∀ rounds, (∀ r ∈ rounds, r.1 < 250000) → serve 249999 rounds c = .ok (false, c) := by
  obtain ⟨c, rs, h1, _, h2⟩ := reaches_of (ops := exLate)
    (P := fun rs c => decide (nextAt c = 100010 ∧ c.resendTimeout = 100000 ∧ c.annInterval = 0 ∧ c.cv.size = 2 ∧
      ((c.pub.owedPkts 0).getLast?.map (·.2.2)) = some 150000 ∧ ((c.pub.owedPkts 1).getLast?.map (·.2.2)) = some 150000))
    (by simp [exLate, exPre, Op.sane, saneAcc]) (by decide) (by decide +kernel)
  obtain ⟨e1, e2, e3, e4, e5, e6⟩ := of_decide_eq_true h2
  have hg : timeoutGetNext c = .ok 100010 := by
    unfold nextAt at e1
    cases hx : timeoutGetNext c with
    | ok t => rw [hx] at e1; exact congrArg _ e1
    | error f => rw [hx] at e1; cases e1
  have hidle : ∀ now, now < 250000 → ∀ cb sp, timeoutProcess c now cb sp = .ok (0, c) := by
    intro now hn cb sp
    refine C80_idle h1 (fun d => d.1 e3) ?_ cb sp
    intro k hk x hx
    have hlt : k < 2 := by
      obtain ⟨pops, L, g, _⟩ := h1.good
      have := g.v.lt k (g.connected.1 hk)
      omega
    rw [e2]
    have : k = 0 ∨ k = 1 := by omega
    rcases this with rfl | rfl
    · rw [hx] at e5; have e5 : x.2.2 = 150000 := Option.some.inj e5; omega
    · rw [hx] at e6; have e6 : x.2.2 = 150000 := Option.some.inj e6; omega
  refine ⟨c, h1, by unfold Monotone; decide, hg, fun now hn => ⟨hidle now hn, ?_⟩⟩
  intro rounds
  induction rounds with
  | nil => intro _; unfold serve; rw [hg]; rfl
  | cons r rounds ih =>
    intro hr
    obtain ⟨n, cb, sp⟩ := r
    unfold serve
    rw [hg, Pub.ok_bind, if_neg (by decide), hidle n (hr (n, cb, sp) (by simp)) cb sp, Pub.ok_bind]
    exact ih (fun r hr' => hr r (by simp [hr']))

end PubCtx
end Rmc
