import Verif.Props.SysFair
import Verif.Props.PubCtxEpoll
import Verif.Props.SubCtxEpoll
import Verif.Props.SubCtxAck

/-! # The two programs only fall asleep when everything is delivered (C96)

Both sides run the event loop of the test programs (rmc_proto_test_common.c, C84): epoll_wait() returns when a registered socket is ready, or
when the time `..._timeout_get_next` returned has come. A wake-up that is lost (a socket not registered for what is waited for, a timer not set) would
leave both sides asleep with packets undelivered. -/

set_option linter.unusedVariables false

namespace Rmc
namespace Sys
open PLog CircBuf

/-! ## The calls of the publisher -/

/-- Specification: the call of the publisher an event is. -/
def pubCall (s : Sys) : SysOp → List PubCtx.Op
  | .pub op => [op]
  | .accept _ ar cb => [.readListen ar cb]
  | .pubRead n => s.acc.toList.map fun k => .read k (some (s.up.take n))
  | .sub _ => []
  | .subRead _ _ => []

/-- Specification: the calls of the publisher in a history that starts in `s`. -/
def pubCalls (E : Env) : Sys → List SysOp → List PubCtx.Op
  | _, [] => []
  | s, op :: ops => pubCall s op ++ (match next E s op with | some t => pubCalls E t ops | none => [])

theorem next_pubCall {E : Env} {s t : Sys} {op : SysOp} (h : next E s op = some t) :
    (∀ o ∈ pubCall s op, callOk o = true) ∧ (pubCall s op).length ≤ calls [op] ∧
    ∃ rs, PubCtx.run s.pub (pubCall s op) = .ok (rs, t.pub) := by
  have one : ∀ {o : PubCtx.Op} {r : Nat × PubCtx}, PubCtx.step s.pub o = .ok r → ∃ rs, PubCtx.run s.pub [o] = .ok (rs, r.2) := by
    intro o r hx
    refine ⟨[r.1], ?_⟩
    rw [PubCtx.run_cons, hx]; rfl
  cases op with
  | pub op =>
    unfold next at h
    dsimp only at h
    split at h
    · rename_i hc
      split at h
      · rename_i r hx
        cases h
        exact ⟨by intro o ho; cases List.mem_singleton.1 ho; exact hc.1, Nat.le_refl _, one hx⟩
      · cases h
    · cases h
  | accept k ar cb =>
    unfold next at h
    dsimp only at h
    split at h
    · rename_i hc
      split at h
      · rename_i r hx
        split at h
        · cases h
          exact ⟨by intro o ho; cases List.mem_singleton.1 ho; exact hc.2.1, Nat.le_refl _, one hx⟩
        · cases h
      · cases h
    · cases h
  | pubRead n =>
    unfold next at h
    dsimp only at h
    split at h
    · cases h
    · rename_i k hk
      split at h
      · split at h
        · rename_i r hx
          split at h
          · cases h
            unfold pubCall
            rw [hk]
            exact ⟨by intro o ho; cases List.mem_singleton.1 ho; rfl, Nat.le_refl _, one hx⟩
          · cases h
        · cases h
      · cases h
  | sub op =>
    unfold next at h
    dsimp only at h
    split at h
    · split at h
      · split at h
        · cases h
          exact ⟨by simp [pubCall], Nat.le_refl _, [], rfl⟩
        · cases h
      · cases h
    · cases h
  | subRead n ts =>
    unfold next at h
    dsimp only at h
    split at h
    · split at h
      · split at h
        · cases h
          exact ⟨by simp [pubCall], Nat.le_refl _, [], rfl⟩
        · cases h
      · cases h
    · cases h

theorem pub_run_append : ∀ (xs ys : List PubCtx.Op) {a b c : PubCtx} {r1 r2 : List Nat}, PubCtx.run a xs = .ok (r1, b) →
    PubCtx.run b ys = .ok (r2, c) → PubCtx.run a (xs ++ ys) = .ok (r1 ++ r2, c) := by
  intro xs
  induction xs with
  | nil => intro ys a b c r1 r2 h g; cases h; exact g
  | cons x xs ih =>
    intro ys a b c r1 r2 h g
    rw [PubCtx.run_cons] at h
    cases hx : PubCtx.step a x with
    | error e => rw [hx] at h; cases h
    | ok r =>
      rw [hx] at h
      have h : (PubCtx.run r.2 xs >>= fun y => .ok (r.1 :: y.1, y.2)) = Except.ok (r1, b) := h
      cases hy : PubCtx.run r.2 xs with
      | error e => rw [hy] at h; cases h
      | ok y =>
        rw [hy] at h
        have h : Except.ok (r.1 :: y.1, y.2) = (Except.ok (r1, b) : M _) := h
        cases h
        rw [List.cons_append, PubCtx.run_cons, hx]
        show (PubCtx.run r.2 (xs ++ ys) >>= fun z => .ok (r.1 :: z.1, z.2)) = _
        rw [ih ys hy g]; rfl

theorem run_pubCalls {E : Env} : ∀ (ops : List SysOp) {s t : Sys}, run E s ops = some t →
    (∀ o ∈ pubCalls E s ops, callOk o = true) ∧ (pubCalls E s ops).length ≤ calls ops ∧
    ∃ rs, PubCtx.run s.pub (pubCalls E s ops) = .ok (rs, t.pub) := by
  intro ops
  induction ops with
  | nil => intro s t h; cases h; exact ⟨by simp [pubCalls], Nat.le_refl _, [], rfl⟩
  | cons op ops ih =>
    intro s t h
    have h : (next E s op).bind (fun u => run E u ops) = some t := h
    cases hn : next E s op with
    | none => rw [hn] at h; cases h
    | some u =>
      rw [hn] at h
      have h : run E u ops = some t := h
      obtain ⟨a1, a2, rs, a3⟩ := next_pubCall hn
      obtain ⟨b1, b2, qs, b3⟩ := ih h
      have e : pubCalls E s (op :: ops) = pubCall s op ++ pubCalls E u ops := by
        show pubCall s op ++ _ = _; rw [hn]
      rw [e]
      refine ⟨fun o ho => ?_, ?_, rs ++ qs, pub_run_append _ _ a3 b3⟩
      · rcases List.mem_append.1 ho with ho | ho
        · exact a1 o ho
        · exact b1 o ho
      · have : calls (op :: ops) = calls [op] + calls ops := by
          show calls ([op] ++ ops) = _; rw [calls_append]
        rw [List.length_append]; omega

/-! ## Asleep -/

/-- Specification: index `i` is registered for read events. -/
def Reads (es : List PollEv) (i : Nat) : Prop := ∃ w d a, epoll es = some w ∧ w d = some (i, a) ∧ a.r = true

/-- Specification: some socket is registered for write events. -/
def Writes (es : List PollEv) : Prop := ∃ w d i a, epoll es = some w ∧ w d = some (i, a) ∧ a.w = true

/-- Specification: neither event loop has anything to return for. A socket registered for write events can be written; the listen socket can be read while the
connection has not been accepted, and the connection, while there are bytes on their way. The publisher's timer is not set, or to a time later than
the resend time of every packet held for a connected subscriber (it may be set for an announcement); the subscriber's is not set. -/
structure Asleep (E : Env) (s : Sys) : Prop where
  pubWrite : ¬ Writes s.pub.cv.polls
  subWrite : ¬ Writes s.sub.cv.polls
  accept : s.acc = none → ¬ Reads s.pub.cv.polls LISTEN_INDEX
  pubRead : ∀ k, s.acc = some k → s.up ≠ [] → ¬ Reads s.pub.cv.polls k
  subRead : s.down ≠ [] → ¬ Reads s.sub.cv.polls E.slot
  pubTimer : ∃ t, PubCtx.timeoutGetNext s.pub = .ok t ∧
    (t = -1 ∨ ∀ j x, PubCtx.Connected s.pub j → x ∈ s.pub.pub.owedPkts j → x.2.2 + s.pub.resendTimeout < t)
  subTimer : SubCtx.timeoutGetNext s.sub = .ok (-1)

/-- With a timer that is not set, or late, nothing is held for a connected subscriber. -/
theorem nothing_owed {c : PubCtx} {pops : List POp} {L : List Nat} (g : PubCtx.Good c pops L) (hT : 0 ≤ c.resendTimeout)
    (hpos : ∀ k, ∀ x ∈ c.pub.owedPkts k, 0 ≤ x.2.2) {t : Int} (h : PubCtx.timeoutGetNext c = .ok t)
    (ht : t = -1 ∨ ∀ j x, PubCtx.Connected c j → x ∈ c.pub.owedPkts j → x.2.2 + c.resendTimeout < t) :
    ∀ j, PubCtx.Connected c j → c.pub.owedPkts j = [] := by
  obtain ⟨o, e, ho⟩ := PubCtx.oldestUnacked_spec g.p hpos c.pub.subs (-1) (.inl rfl)
  have hconn : ∀ k, PubCtx.Connected c k ↔ k ∈ c.pub.subs := fun k => g.connected.trans (g.slots k)
  rcases ho with ⟨_, _, b⟩ | ⟨a, b, _, d⟩
  · exact fun j hj => b j ((hconn j).1 hj)
  · exfalso
    rcases b with b | ⟨k, hk, x, hx, b⟩
    · omega
    have hm : x ∈ c.pub.owedPkts k := List.mem_of_mem_head? hx
    unfold PubCtx.timeoutGetNext at h
    rw [e, Pub.ok_bind] at h
    dsimp only at h
    rw [if_pos (by omega : o ≠ -1)] at h
    have hack : o + c.resendTimeout ≠ -1 := by omega
    have key : t ≠ -1 ∧ t ≤ o + c.resendTimeout := by
      generalize (if c.annNext ≠ 0 then c.annNext else -1) = ann at h
      rw [if_neg (fun h => hack h.2), if_neg (fun h => hack h.2)] at h
      by_cases h1 : ann = -1
      · rw [if_pos ⟨h1, hack⟩] at h
        have h := Except.ok.inj h
        exact ⟨by omega, by omega⟩
      · rw [if_neg (fun h => h1 h.1)] at h
        have h := Except.ok.inj h
        split at h
        · exact ⟨by omega, by omega⟩
        · exact ⟨by omega, by omega⟩
    rcases ht with ht | ht
    · exact key.1 ht
    · have := ht k x ((hconn k).2 hk) hm
      omega

/-- C96 for a state of which the history of the publisher is known. -/
theorem asleep_core {E : Env} {m N nid ip port : Nat} {mem : Nat → Conn} {hist : List PubCtx.Op} {rs : List Nat} {s : Sys} (hi : Inv E m s) (hreach : Reached E s)
    (hN : N ≤ LISTEN_INDEX) (hrun : PubCtx.run (PubCtx.init mem N nid ip port) hist = .ok (rs, s.pub)) (hk : ∀ op ∈ hist, callOk op = true)
    (hlen : hist.length + 1 < U64) (ho : PubCtx.Orderly hist) (hact : PubCtx.activeBy hist = true) (hcl : PubCtx.CleanStarts (PubCtx.init mem N nid ip port) hist)
    (hd1 : OsOk s.pub.cv.fds) (hd2 : OsOk s.sub.cv.fds) (he : s.err = false)
    (hpos : ∀ j, PubCtx.Connected s.pub j → ∀ x ∈ s.pub.pub.owedPkts j, 0 ≤ x.2.2)
    (hsp : ∀ i, SubCtx.Up s.sub i → ∀ a ∈ SubCtx.arrivedAt i s.sub.log, 0 ≤ a.2.2) (ha : Asleep E s) :
    SubCtx.Up s.sub E.slot ∧ ¬ PubCtx.ToSend s.pub ∧
    (∀ j, PubCtx.Connected s.pub j → s.pub.pub.outstanding j = [] ∧ bytes (s.pub.cv.conns j).writeBuf = []) ∧
    s.down = [] ∧ s.up = [] ∧ bytes (s.sub.cv.conns E.slot).readBuf = [] ∧
    (∀ i x, s.sub.publishers i = some x → x.intervals = []) ∧
    (∀ i, SubCtx.Up s.sub i → SubCtx.bytesOutAt i s.sub.log = (SubCtx.messagesAt i s.sub.log).flatten) ∧
    ∃ k, s.acc = some k ∧
      (∀ pid ∈ PubCtx.sentTo k s.pub.pub.log, pid ∈ (SubCtx.arrivedAt E.slot s.sub.log).map (·.1.pid)) ∧
      ∀ b, ((SubCtx.arrivedAt E.slot s.sub.log).map (·.1.pid)).head? = some b → b ∈ PubCtx.sentTo k s.pub.pub.log →
        ∀ pid ∈ PubCtx.sentTo k s.pub.pub.log, b ≤ pid → pid ∈ (SubCtx.deliveredAt E.slot s.sub.log).map (·.pid) := by
  have hsane : ∀ op ∈ hist, op.sane := fun op hop => PubCtx.callOk_sane (hk op hop)
  have hre : PubCtx.Reaches hist s.pub := ⟨mem, N, nid, ip, port, _, hN, hsane, hlen, hrun⟩
  obtain ⟨P, L, g, _⟩ := hre.good
  obtain ⟨sops, hsr⟩ := hi.sub
  -- the publisher
  obtain ⟨w, w1, w2, w3, w4⟩ := PubCtx.C84_publisher_partial hre ho hd1
  obtain ⟨_, l, m1, m2, m3, _⟩ := w3 hact
  obtain ⟨k, hk⟩ : ∃ k, s.acc = some k := by
    cases hk : s.acc with
    | some k => exact ⟨k, rfl⟩
    | none => exact absurd ⟨w, l, _, w1, m3, rfl⟩ (ha.accept hk)
  have hck := (hi.acc k hk).1
  have howed : ∀ j, PubCtx.Connected s.pub j → s.pub.pub.owedPkts j = [] := by
    obtain ⟨t, t1, t2⟩ := ha.pubTimer
    refine nothing_owed g (by rw [PubCtx.resendTimeout_const hre]; decide) (fun j x hx => ?_) t1 t2
    by_cases hc : PubCtx.Connected s.pub j
    · exact hpos j hc x hx
    · rw [← owing_eq g j] at hx
      unfold PubCtx.owing at hx
      rw [if_neg hc] at hx; cases hx
  have hj : ∀ j, PubCtx.Connected s.pub j → s.pub.pub.outstanding j = [] ∧ bytes (s.pub.cv.conns j).writeBuf = [] := by
    intro j hc
    refine ⟨by rw [Rmc.outstanding_owed g.p.reached.rel, howed j hc]; rfl, ?_⟩
    obtain ⟨d, a, e1, e2, e3, e4⟩ := w2 j hc
    refine Decidable.byContradiction fun hne => ha.pubWrite ⟨w, d, j, a, w1, e2, e4.2 hne⟩
  have hts : ¬ PubCtx.ToSend s.pub := by
    obtain ⟨w', m', a, e1, e2, e3, e4⟩ := PubCtx.C84_pub_multicast_partial hN hsane hlen hrun ho hd1 hcl hact
    exact fun h => ha.pubWrite ⟨w', m', _, a, e1, e3, e4.2 h⟩
  have hup : s.up = [] := by
    refine Decidable.byContradiction fun hne => ?_
    obtain ⟨d, a, e1, e2, e3, e4⟩ := w2 k hck
    exact ha.pubRead k hk hne ⟨w, d, a, w1, e2, e3⟩
  -- the subscriber
  obtain ⟨v, v1, v2, v3, v4, v5⟩ := SubCtx.C84_subscriber hsr hd2
  have hu : SubCtx.Up s.sub E.slot := by
    refine ⟨hi.live.1, ?_⟩
    cases hm : (s.sub.cv.conns E.slot).mode with
    | connected => rfl
    | closed => exact absurd hm hi.live.2
    | connecting =>
      obtain ⟨d, e1, e2⟩ := v3 _ hi.live.1 hm
      exact absurd ⟨v, d, _, _, v1, e2, rfl⟩ ha.subWrite
  have hd : s.down = [] := by
    refine Decidable.byContradiction fun hne => ?_
    obtain ⟨d, a, e1, e2, e3, e4⟩ := v4 _ hu
    exact ha.subRead hne ⟨v, d, a, v1, e2, e3⟩
  have hout : ∀ i, SubCtx.Up s.sub i → SubCtx.bytesOutAt i s.sub.log = (SubCtx.messagesAt i s.sub.log).flatten := by
    intro i hui
    obtain ⟨d, a, e1, e2, e3, e4⟩ := v4 i hui
    exact Decidable.byContradiction fun hne => ha.subWrite ⟨v, d, i, a, v1, e2, e4.2 hne⟩
  have hack := SubCtx.C40_none_partial hsr ha.subTimer hsp
  -- what has arrived
  have hwb : s.wbytes = [] := by unfold wbytes; rw [hk]; exact (hj k hck).2
  have hrb := read_none hi hu hwb hd
  obtain ⟨d1, d2⟩ := C51_rest_partial hreach hk he hu (hj k hck).1 (by rw [hrb, hd, (hj k hck).2]; rfl)
  refine ⟨hu, hts, hj, hd, hup, hrb, hack, hout, k, hk, d1, ?_⟩
  intro b hb hbs pid hp hle
  refine d2 b pid hb hle fun q q1 q2 => .inl ?_
  exact PubCtx.sentTo_between hre hbs hp q1 q2

/-- C96: both programs only fall asleep when everything is delivered. In any state reached from a start (`pops`: the calls of the publisher up to the start), if
both event loops have nothing to return for, then: the connection is set up and accepted; everything accepted for multicast has been multicast; nothing
is held for, or waiting to be written to, any connected subscriber; nothing is on its way in either direction or has been read in part; no packet waits to be
acknowledged and every acknowledgement has been written; and every packet multicast since the connection was accepted has arrived, and is delivered if its id is not before
that of the first that arrived. -/
theorem C96_asleep {E : Env} {n N nid ip port : Nat} {mem : Nat → Conn} {pops : List PubCtx.Op} {rs : List Nat} {s0 s : Sys} {ops : List SysOp}
    (hN : N ≤ LISTEN_INDEX) (hp : PubCtx.run (PubCtx.init mem N nid ip port) pops = .ok (rs, s0.pub)) (hpk : ∀ op ∈ pops, callOk op = true)
    (hpn : pops.length ≤ n) (hs : Start E n s0) (hr : run E s0 ops = some s) (hn : n + calls ops + 1 < U64)
    (ho : PubCtx.Orderly (pops ++ pubCalls E s0 ops)) (hact : PubCtx.activeBy (pops ++ pubCalls E s0 ops) = true)
    (hcl : PubCtx.CleanStarts (PubCtx.init mem N nid ip port) (pops ++ pubCalls E s0 ops))
    (hd1 : OsOk s.pub.cv.fds) (hd2 : OsOk s.sub.cv.fds) (he : s.err = false)
    (hpos : ∀ j, PubCtx.Connected s.pub j → ∀ x ∈ s.pub.pub.owedPkts j, 0 ≤ x.2.2)
    (hsp : ∀ i, SubCtx.Up s.sub i → ∀ a ∈ SubCtx.arrivedAt i s.sub.log, 0 ≤ a.2.2) (ha : Asleep E s) :
    SubCtx.Up s.sub E.slot ∧ ¬ PubCtx.ToSend s.pub ∧
    (∀ j, PubCtx.Connected s.pub j → s.pub.pub.outstanding j = [] ∧ bytes (s.pub.cv.conns j).writeBuf = []) ∧
    s.down = [] ∧ s.up = [] ∧ bytes (s.sub.cv.conns E.slot).readBuf = [] ∧
    (∀ i x, s.sub.publishers i = some x → x.intervals = []) ∧
    (∀ i, SubCtx.Up s.sub i → SubCtx.bytesOutAt i s.sub.log = (SubCtx.messagesAt i s.sub.log).flatten) ∧
    ∃ k, s.acc = some k ∧
      (∀ pid ∈ PubCtx.sentTo k s.pub.pub.log, pid ∈ (SubCtx.arrivedAt E.slot s.sub.log).map (·.1.pid)) ∧
      ∀ b, ((SubCtx.arrivedAt E.slot s.sub.log).map (·.1.pid)).head? = some b → b ∈ PubCtx.sentTo k s.pub.pub.log →
        ∀ pid ∈ PubCtx.sentTo k s.pub.pub.log, b ≤ pid → pid ∈ (SubCtx.deliveredAt E.slot s.sub.log).map (·.pid) := by
  have hi : Inv E (n + calls ops) s := (Inv.start hs).run ops (by omega) hr
  have hreach : Reached E s := ⟨n, s0, ops, hs, by omega, hr⟩
  obtain ⟨c1, c2, qs, c3⟩ := run_pubCalls ops hr
  refine asleep_core hi hreach hN (pub_run_append _ _ hp c3) (fun op hop => ?_) (by rw [List.length_append]; omega) ho hact hcl hd1 hd2 he hpos hsp ha
  rcases List.mem_append.1 hop with h | h
  · exact hpk op h
  · exact c1 op h

/-! ## Examples -/

/-- The descriptors that occur in the calls to the poll callbacks. -/
def descs (es : List PollEv) : List Nat := es.filterMap fun e => match e with
  | .add _ d _ => d
  | .modify _ d _ _ => d
  | .remove _ d => d

theorem epoll_descs {es : List PollEv} : ∀ {w : Watched}, epoll es = some w → ∀ d, w d ≠ none → d ∈ descs es := by
  induction es using snoc_ind with
  | h0 => intro w h d hd; cases h; exact absurd rfl hd
  | h1 xs e ih =>
    intro w h d hd
    have ed : descs (xs ++ [e]) = descs xs ++ descs [e] := by unfold descs; rw [List.filterMap_append]
    rw [ed]
    rw [epoll_snoc] at h
    cases hx : epoll xs with
    | none => rw [hx] at h; cases h
    | some v =>
      rw [hx] at h
      have old : v d ≠ none → d ∈ descs xs ++ descs [e] := fun hv => List.mem_append_left _ (ih hx d hv)
      cases e with
      | add i x a =>
        cases x with
        | none => cases h
        | some x =>
          unfold epollStep at h
          dsimp only at h
          split at h
          · cases h
            dsimp only at hd
            split at hd
            · rename_i hh; subst hh; exact List.mem_append_right _ (by simp [descs])
            · exact old hd
          · cases h
      | modify i x a b =>
        unfold epollStep at h
        dsimp only at h
        split at h
        · cases h; exact old hd
        · split at h
          · cases h
          · split at h
            · cases h
            · cases h
              dsimp only at hd
              split at hd
              · rename_i hh; subst hh; exact List.mem_append_right _ (by simp [descs])
              · exact old hd
      | remove i x =>
        cases x with
        | none => cases h; exact old hd
        | some x =>
          cases h
          dsimp only at hd
          split at hd
          · exact absurd rfl hd
          · exact old hd

/-- A check for `Writes`. -/
def writesB (es : List PollEv) : Bool := (descs es).any fun d => match (epoll es).bind fun w => w d with
  | some (_, a) => a.w
  | none => false

theorem writesB_ok {es : List PollEv} (h : writesB es = false) : ¬ Writes es := by
  rintro ⟨w, d, i, a, h1, h2, h3⟩
  have hd := epoll_descs h1 d (by rw [h2]; simp)
  have := List.any_eq_false.1 h d hd
  rw [h1] at this
  dsimp only [Option.bind] at this
  rw [h2] at this
  exact this h3

/-- A check for `Asleep`, if nothing is on its way. -/
def asleepB (s : Sys) : Bool := decide (s.acc.isSome ∧ s.up = [] ∧ s.down = []) && !writesB s.pub.cv.polls && !writesB s.sub.cv.polls &&
  decide (PubCtx.timeoutGetNext s.pub = .ok (-1)) && decide (SubCtx.timeoutGetNext s.sub = .ok (-1))

theorem asleepB_ok {E : Env} {s : Sys} (h : asleepB s = true) : Asleep E s := by
  unfold asleepB at h
  simp only [Bool.and_eq_true, decide_eq_true_eq, Bool.not_eq_true'] at h
  obtain ⟨⟨⟨⟨⟨h1, h2, h3⟩, h4⟩, h5⟩, h6⟩, h7⟩ := h
  exact ⟨writesB_ok h4, writesB_ok h5, fun e => (by rw [e] at h1; cases h1), fun k hk hne => absurd h2 hne, fun hne => absurd h3 hne, ⟨_, h6, .inl rfl⟩, h7⟩


/-- The rest of the history: packet 2 is sent again and comes in, and everything is acknowledged. -/
def exTail : List SysOp := exResent ++ [.sub (.timeout 300000)]

theorem began_of {ops : List SysOp} {P : Sys → Sys → Bool}
    (h : (match PubCtx.run PubCtx.exC0 exP, SubCtx.run SubCtx.exS0 exQ with
      | .ok p, .ok q => (match run exE ⟨p.2, q.2, none, [], [], false⟩ ops with
        | some s => P ⟨p.2, q.2, none, [], [], false⟩ s
        | none => false)
      | _, _ => false) = true) (h0 : holdsAfter [] (fun _ => true) = true) :
    ∃ s0 s rs, PubCtx.run PubCtx.exC0 exP = .ok (rs, s0.pub) ∧ Start exE 2 s0 ∧ run exE s0 ops = some s ∧ P s0 s = true := by
  unfold holdsAfter at h0
  cases hp : PubCtx.run PubCtx.exC0 exP with
  | error f => rw [hp] at h; cases h
  | ok p =>
    cases hq : SubCtx.run SubCtx.exS0 exQ with
    | error f => rw [hp, hq] at h; cases h
    | ok q =>
      rw [hp, hq] at h h0
      dsimp only at h h0
      rw [Bool.and_eq_true, decide_eq_true_eq] at h0
      obtain ⟨⟨h1, h2, h3, h4, h5, h6, h7, h8⟩, -⟩ := h0
      cases hr : run exE ⟨p.2, q.2, none, [], [], false⟩ ops with
      | none => rw [hr] at h; cases h
      | some s =>
        rw [hr] at h
        refine ⟨_, s, p.1, rfl, ?_, hr, h⟩
        exact ⟨⟨exP, ⟨_, 2, 7, 1, 2, p.1, by decide, by simp [exP, PubCtx.Op.sane], by decide, hp⟩,
          by simp [exP, callOk], by decide⟩, ⟨h1, h2, h3, h4⟩, ⟨exQ, q.1, _, 2, 9, by decide, hq⟩, ⟨h5, h6⟩, ⟨h7, h8⟩,
          rfl, rfl, rfl, rfl⟩

/-- What is checked of the state reached. -/
def idleB (s0 s : Sys) : Bool :=
  PubCtx.orderlyAll false (exP ++ pubCalls exE s0 (exLost ++ exTail)) && PubCtx.activeBy (exP ++ pubCalls exE s0 (exLost ++ exTail)) &&
  PubCtx.cleanAll PubCtx.exC0 (exP ++ pubCalls exE s0 (exLost ++ exTail)) && osOk s.pub.cv.fds && osOk s.sub.cv.fds && asleepB s &&
  decide (s.err = false ∧ s.pub.cv.size = 2 ∧ s.sub.cv.size = 2 ∧ PubCtx.sentTo 0 s.pub.pub.log = [1, 2, 3] ∧ s.acc = some 0 ∧
    s.pub.pub.owedPkts 0 = [] ∧ s.pub.pub.owedPkts 1 = [] ∧ (∀ a ∈ SubCtx.arrivedAt 0 s.sub.log, 0 ≤ a.2.2) ∧ (∀ a ∈ SubCtx.arrivedAt 1 s.sub.log, 0 ≤ a.2.2))

/-- The hypotheses of C96 are met: packet 2 of three is lost in multicast; the programs fall asleep when it has been sent again. -/
example : ∃ s0 s rs, PubCtx.run PubCtx.exC0 exP = .ok (rs, s0.pub) ∧ (∀ op ∈ exP, callOk op = true) ∧ Start exE 2 s0 ∧ run exE s0 (exLost ++ exTail) = some s ∧
    PubCtx.Orderly (exP ++ pubCalls exE s0 (exLost ++ exTail)) ∧ PubCtx.activeBy (exP ++ pubCalls exE s0 (exLost ++ exTail)) = true ∧
    PubCtx.CleanStarts PubCtx.exC0 (exP ++ pubCalls exE s0 (exLost ++ exTail)) ∧ OsOk s.pub.cv.fds ∧ OsOk s.sub.cv.fds ∧ s.err = false ∧
    (∀ j, PubCtx.Connected s.pub j → ∀ x ∈ s.pub.pub.owedPkts j, 0 ≤ x.2.2) ∧
    (∀ i, SubCtx.Up s.sub i → ∀ a ∈ SubCtx.arrivedAt i s.sub.log, 0 ≤ a.2.2) ∧ Asleep exE s ∧ PubCtx.sentTo 0 s.pub.pub.log = [1, 2, 3] := by
  obtain ⟨s0, s, rs, h1, h2, h3, h4⟩ := began_of (ops := exLost ++ exTail) (P := idleB) (by decide +kernel) (by decide +kernel)
  unfold idleB at h4
  simp only [Bool.and_eq_true, decide_eq_true_eq] at h4
  obtain ⟨⟨⟨⟨⟨⟨b1, b2⟩, b3⟩, b4⟩, b5⟩, b6⟩, a1, a4, a5, a6, a7, a8, a9, a10, a11⟩ := h4
  have two : ∀ {i n : Nat}, n = 2 → i < n → i = 0 ∨ i = 1 := by omega
  refine ⟨s0, s, rs, h1, by decide, h2, h3, PubCtx.orderlyAll_ok b1, b2, PubCtx.cleanAll_ok _ b3, osOk_ok b4, osOk_ok b5, a1, ?_, ?_, asleepB_ok b6, a6⟩
  · intro j hj x hx
    rcases two a4 hj.1 with rfl | rfl
    · rw [a8] at hx; cases hx
    · rw [a9] at hx; cases hx
  · intro i hi
    rcases two a5 hi.1 with rfl | rfl
    · exact a10
    · exact a11

end Sys
end Rmc
