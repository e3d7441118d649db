import Verif.SysCtl
import Verif.Props.Sys

/-!
# Property C72: control messages, end to end

What the application of the subscriber hands to `rmc_sub_write_control_message_by_address` (or `_by_node_id`;
rmc_sub_write.c:101-172) is what the control callback of the publisher's application is given (rmc_pub_read.c:80-128), in that
order, each once.
-/

set_option linter.unusedSimpArgs false

namespace Rmc
namespace Sys
open CircBuf
open PubCtx (ctlHeard ctlOf)

/-- Specification: the control messages put on the connection of the current subscription in slot `i`: the bytes the application
gave, and the bytes that were put on. -/
def ctlSent (i : Nat) (log : List SEv) : List (List UInt8 × List UInt8) :=
  (SubCtx.since i log).filterMap fun e => match e with
    | .ctl j bs ds => if j = i then some (bs, ds) else none
    | _ => none

/-- Specification: at every read of the publisher from the connection during a history, the control callback is set, and what is
in the receive buffer and comes in ends at least 5 bytes before the end of its memory. -/
def calm (E : Env) : Sys → List SysOp → Prop
  | _, [] => True
  | s, op :: ops => calmAt s op ∧
    match next E s op with
    | some t => calm E t ops
    | none => True

theorem ctlSent_messages {ops : List SubCtx.Op} {c : SubCtx} (h : SubCtx.Reaches ops c) (i : Nat) :
    (ctlSent i c.log).map (·.2) = (SubCtx.messagesAt i c.log).filterMap ctlOf := by
  have hok : ∀ j bs ds, SEv.ctl j bs ds ∈ SubCtx.since i c.log → ds.length = bs.length := by
    intro j bs ds hm
    refine (h.ctlOK j bs ds ?_).1
    unfold SubCtx.since at hm
    rw [List.mem_reverse] at hm
    exact List.mem_reverse.1 ((List.takeWhile_sublist _).subset hm)
  unfold ctlSent SubCtx.messagesAt
  revert hok
  generalize SubCtx.since i c.log = log
  intro hok
  induction log with
  | nil => rfl
  | cons e log ih =>
    have ih := ih (fun j bs ds hm => hok j bs ds (List.mem_cons_of_mem _ hm))
    rw [List.filterMap_cons, List.filterMap_cons]
    cases e with
    | ctl j bs ds =>
      dsimp only
      by_cases hj : j = i
      · have hl := hok j bs ds (by simp)
        rw [if_pos hj, if_pos hj]
        dsimp only
        rw [List.map_cons, List.filterMap_cons, ih, ← hl]
        have : ctlOf (SubCtx.ctlFrame ds.length ds) = some ds := by
          unfold ctlOf SubCtx.ctlFrame
          rw [List.head?_cons, if_pos rfl]; rfl
        rw [this]
      · rw [if_neg hj, if_neg hj]; exact ih
    | ack j f l =>
      dsimp only
      by_cases hj : j = i
      · rw [if_pos hj]
        dsimp only
        rw [List.filterMap_cons]
        have : ctlOf (SubCtx.ackFrame f l) = none := by
          unfold ctlOf SubCtx.ackFrame
          rw [List.head?_cons, if_neg (by decide)]
        rw [this]; exact ih
      · rw [if_neg hj]; exact ih
    | _ => exact ih

theorem Told.before {E : Env} : ∀ (ops : List SysOp) {n n0 : Nat} {s t : Sys}, Inv E n s → Told E n0 s → n + calls ops + 1 < U64 →
    run E s ops = some t → t.acc = none → Told E n0 t := by
  intro ops
  induction ops with
  | nil => intro n n0 s t _ hj _ ht _; cases ht; exact hj
  | cons op ops ih =>
    intro n n0 s t h hj hb ht hacc
    rw [calls_cons] at hb
    unfold run at ht
    cases hn : next E s op with
    | none => rw [hn] at ht; cases ht
    | some u =>
      rw [hn] at ht
      have ht' : run E u ops = some t := ht
      have hi := h.step (by omega) hn
      have ua : u.acc = none := by
        cases he : u.acc with
        | none => rfl
        | some k =>
          have := (run_acc ops hi (by omega) ht' he).1
          rw [hacc] at this; cases this
      have sa : s.acc = none := by
        cases he : s.acc with
        | none => rfl
        | some k =>
          have := (next_acc h (by omega) hn he).1
          rw [ua] at this; cases this
      refine ih hi ?_ (by omega) ht' hacc
      cases op with
      | accept k ar cb =>
        have := (hj.acceptStep h hn).1
        rw [ua] at this; cases this
      | pubRead m =>
        unfold next at hn
        rw [sa] at hn
        cases hn
      | pub op => exact hj.pubStep h (by simp only [calls] at hb; omega) hn
      | sub op => exact hj.subStep h hn
      | subRead m ts =>
        rcases hj.step h (by omega) (op := .subRead m ts) trivial hn with r | r
        · exact r
        · obtain ⟨_, r⟩ := r
          refine ⟨fun x => absurd ua x, ?_, ?_⟩
          · intro he hu
            obtain ⟨m1, m2, a1, a2, a3, a4⟩ := r.up he hu
            exact ⟨m1, m2, a1, a2, a3, fun k hk => by rw [ua] at hk; cases hk⟩
          · intro _ _ k hk; rw [ua] at hk; cases hk

theorem Told.after {E : Env} : ∀ (ops : List SysOp) {n n0 : Nat} {s t : Sys}, Inv E n s → Told E n0 s → n + calls ops + 1 < U64 →
    run E s ops = some t → s.acc ≠ none → calm E s ops → Told E n0 t := by
  intro ops
  induction ops with
  | nil => intro n n0 s t _ hj _ ht _ _; cases ht; exact hj
  | cons op ops ih =>
    intro n n0 s t h hj hb ht hacc hc
    rw [calls_cons] at hb
    unfold run at ht
    cases hn : next E s op with
    | none => rw [hn] at ht; cases ht
    | some u =>
      rw [hn] at ht
      have ht' : run E u ops = some t := ht
      obtain ⟨c1, c2⟩ := hc
      rw [hn] at c2
      have ua : u.acc ≠ none := by
        cases he : s.acc with
        | none => exact absurd he hacc
        | some k => rw [(next_acc h (by omega) hn he).1]; simp
      refine ih (h.step (by omega) hn) ?_ (by omega) ht' ua c2
      rcases hj.step h (by omega) c1 hn with r | r
      · exact r
      · exact absurd r.1 hacc

/-- C72 (see C72_false for what is missing): once the publisher has accepted the connection (as `k`), as long as no read has
reported a protocol error: the control messages handed to the publisher's application as coming from `k` are, in order and each
once, the first of those put on the connection; the others are in what is on its way to the publisher, of which nothing is lost. -/
theorem C72_controls_partial {E : Env} {n k : Nat} {s0 a s1 s : Sys} {pre post : List SysOp} {ar : ConnVec.AccRes} {cb : Option Bool}
    (h0 : Start E n s0) (hp : run E s0 pre = some a) (ha : next E a (.accept k ar cb) = some s1) (hr : run E s1 post = some s)
    (hb : n + calls pre + 1 + calls post + 1 < U64) (hc : calm E s1 post) (he : s.err = false) (hu : SubCtx.Up s.sub E.slot) :
    ∃ ms : List (List UInt8), toPub E s = ms.flatten ∧
      (ctlSent E.slot s.sub.log).map (·.2) = ctlHeard k (s.pub.log.drop s1.pub.log.length) ++ ms.filterMap ctlOf := by
  have hi := (Inv.start h0).run pre (by omega) hp
  have hacc : a.acc = none := by
    unfold next at ha
    dsimp only at ha
    split at ha
    · rename_i hok; exact hok.1
    · cases ha
  have t1 := (Told.start h0).before pre (Inv.start h0) (by omega) hp hacc
  obtain ⟨e, t2⟩ := t1.acceptStep hi ha
  have hi1 := hi.step (op := .accept k ar cb) (by simp only [calls]; omega) ha
  have t3 := t2.after post hi1 (by simp only [calls]; omega) hr (by rw [e]; simp) hc
  have sa := (run_acc post hi1 (by simp only [calls]; omega) hr e).1
  obtain ⟨m1, m2, a1, a2, a3, a4⟩ := t3.up he hu
  obtain ⟨sops, hsr⟩ := (hi1.run post (by simp only [calls]; omega) hr).sub
  refine ⟨m2, a2, ?_⟩
  rw [ctlSent_messages hsr, a1, List.filterMap_append, a4 k sa]

/-- C72: so, when nothing is on its way and the bytes put on are those given (C54_partial says when they are), the publisher's
application has been given exactly the control messages that the subscriber's application gave. -/
theorem C72_all_partial {E : Env} {n k : Nat} {s0 a s1 s : Sys} {pre post : List SysOp} {ar : ConnVec.AccRes} {cb : Option Bool}
    (h0 : Start E n s0) (hp : run E s0 pre = some a) (ha : next E a (.accept k ar cb) = some s1) (hr : run E s1 post = some s)
    (hb : n + calls pre + 1 + calls post + 1 < U64) (hc : calm E s1 post) (he : s.err = false) (hu : SubCtx.Up s.sub E.slot)
    (hnone : bytes (s.pub.cv.conns k).readBuf = [] ∧ s.up = [] ∧ bytes (s.sub.cv.conns E.slot).writeBuf = [])
    (hin : ∀ x ∈ ctlSent E.slot s.sub.log, x.2 = x.1) :
    ctlHeard k (s.pub.log.drop s1.pub.log.length) = (ctlSent E.slot s.sub.log).map (·.1) := by
  obtain ⟨ms, e1, e2⟩ := C72_controls_partial h0 hp ha hr hb hc he hu
  have hi := (Inv.start h0).run pre (by omega) hp
  have hi1 := hi.step (op := .accept k ar cb) (by simp only [calls]; omega) ha
  have a1 : s1.acc = some k := by
    unfold next at ha
    dsimp only at ha
    split at ha
    · split at ha
      · split at ha
        · cases ha; rfl
        · cases ha
      · cases ha
    · cases ha
  have sa := (run_acc post hi1 (by simp only [calls]; omega) hr a1).1
  have tp : toPub E s = [] := by
    unfold toPub rbytes
    rw [sa, hnone.2.1, hnone.2.2]
    dsimp only
    rw [hnone.1]; rfl
  rw [tp] at e1
  have hms : ms.filterMap ctlOf = [] := by
    rw [List.filterMap_eq_nil_iff]
    intro m hm
    have : m = [] := List.flatten_eq_nil_iff.1 e1.symm m hm
    rw [this]; rfl
  rw [hms, List.append_nil] at e2
  rw [← e2]
  apply List.map_congr_left
  intro x hx
  exact hin x hx

/-! ## Examples -/

/-- Check a property of a history with the accepting call in the middle. -/
def acceptCheck (pre : List SysOp) (k : Nat) (ar : ConnVec.AccRes) (cb : Option Bool) (post : List SysOp) (P : Sys → Sys → Bool) : Bool :=
  match PubCtx.run PubCtx.exC0 exP, SubCtx.run SubCtx.exS0 exQ with
  | .ok p, .ok q =>
    (match run exE ⟨p.2, q.2, none, [], [], false⟩ pre with
     | some a => match next exE a (.accept k ar cb) with
       | some s1 => match run exE s1 post with
         | some s => P s1 s
         | none => false
       | none => false
     | none => false)
  | _, _ => false

instance (s : Sys) (op : SysOp) : Decidable (calmAt s op) := by
  cases op with
  | pubRead m =>
    unfold calmAt
    cases h : s.acc with
    | none => exact decidable_of_iff (s.pub.ctlCb = some true) (by simp)
    | some k =>
      exact decidable_of_iff (s.pub.ctlCb = some true ∧
        (s.pub.cv.conns k).readBuf.start + inUse (s.pub.cv.conns k).readBuf + m + 5 ≤ RMC_MAX_PACKET) (by simp)
  | _ => exact isTrue trivial

/-- `calm`, as a check. -/
def calmB (E : Env) : Sys → List SysOp → Bool
  | _, [] => true
  | s, op :: ops => decide (calmAt s op) &&
    match next E s op with
    | some t => calmB E t ops
    | none => true

theorem calm_of {E : Env} : ∀ (ops : List SysOp) {s : Sys}, calmB E s ops = true → calm E s ops := by
  intro ops
  induction ops with
  | nil => intro s _; trivial
  | cons op ops ih =>
    intro s h
    unfold calmB at h
    rw [Bool.and_eq_true, decide_eq_true_eq] at h
    unfold calm
    refine ⟨h.1, ?_⟩
    cases hn : next E s op with
    | none => trivial
    | some t => rw [hn] at h; exact ih h.2

/-- Two control messages, the first before the publisher has accepted the connection, and an acknowledgement; they are cut up
on the way. -/
def exCtlPre : List SysOp := [.sub (.write 0 (.ok 0) none (.ok 0)), .sub (.ctlAddr 1 2 [7, 8, 9] 0), .sub (.write 0 (.ok 0) none (.ok 4))]
def exCtlPost : List SysOp :=
  [.pub (.queue (PubCtx.exPay 1) false), .pub (.writeMcast [⟨.ok 10, []⟩]), .pubRead 2, .sub (.readMcast [exMc 1 [1, 0] 1000]),
   .sub (.timeout 60000), .sub (.ctlNode 7 [5] 0), .sub (.write 0 (.ok 0) none (.ok 23)), .pubRead 1, .pubRead 14, .pubRead 10]

example : acceptCheck exCtlPre 0 (.ok 5 1) none exCtlPost (fun s1 s => calmB exE s1 exCtlPost && decide (
    s.err = false ∧ SubCtx.Up s.sub 0 ∧ bytes (s.pub.cv.conns 0).readBuf = [] ∧ s.up = [] ∧ bytes (s.sub.cv.conns 0).writeBuf = [] ∧
    ctlSent 0 s.sub.log = [([7, 8, 9], [7, 8, 9]), ([5], [5])] ∧
    ctlHeard 0 (s.pub.log.drop s1.pub.log.length) = [[7, 8, 9], [5]])) = true := by decide +kernel

/-- Packets 1 to 11 are multicast; 1, 3, 5 come in and are acknowledged, a control message follows; 7, 9, 11 come in and are
acknowledged. -/
def exTwice : List SysOp :=
  [.sub (.write 0 (.ok 0) none (.ok 0)), .accept 0 (.ok 5 1) none] ++
  (List.range' 1 11).map (fun i => .pub (.queue (PubCtx.exPay i) false)) ++
  [.pub (.writeMcast (List.replicate 11 ⟨.ok 10, []⟩)),
   .sub (.readMcast [exMc 1 [1, 0] 1000, exMc 3 [3, 0] 1000, exMc 5 [5, 0] 1000]), .sub (.timeout 60000), .sub (.ctlAddr 1 2 [9] 0),
   .sub (.write 0 (.ok 0) none (.ok 55)), .pubRead 55,
   .sub (.readMcast [exMc 7 [7, 0] 61000, exMc 9 [9, 0] 61000, exMc 11 [11, 0] 61000]), .sub (.timeout 120000),
   .sub (.write 0 (.ok 0) none (.ok 51)), .pubRead 39, .pubRead 12]

/-- C72 is not true of the code: one control message has been given, and put on the connection as it is; the publisher's
application is given it twice. -/
theorem C72_false : ∃ s, Reached exE s ∧ SubCtx.Up s.sub 0 ∧ s.acc = some 0 ∧ ctlSent 0 s.sub.log = [([9], [9])] ∧
    ctlHeard 0 s.pub.log = [[9], [9]] := by
  obtain ⟨s, h1, h2⟩ := reached_of (ops := exTwice) (P := fun s => decide (SubCtx.Up s.sub 0 ∧ s.acc = some 0 ∧
    ctlSent 0 s.sub.log = [([9], [9])] ∧ ctlHeard 0 s.pub.log = [[9], [9]])) (by decide) (by decide +kernel)
  exact ⟨s, h1, of_decide_eq_true h2⟩

end Sys
end Rmc
