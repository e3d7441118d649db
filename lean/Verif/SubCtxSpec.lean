import Verif.SubCtxReach

/-! # Specification: what the log of a subscriber context says, and what holds of it -/

set_option linter.unusedSimpArgs false
set_option linter.unusedVariables false

namespace Rmc
namespace SubCtx
variable {tm : Nat}
open SubPub CircBuf ConnVec

/-- Specification: the part of the log after the current subscription in slot `i` started. -/
def since (i : Nat) (log : List SEv) : List SEv := (log.reverse.takeWhile fun e => decide (e ≠ .complete i)).reverse

/-- Specification: the data packets that came in for the current subscription in slot `i` (packet, whether by multicast,
clock), in order. -/
def arrivedAt (i : Nat) (log : List SEv) : List (SPkt × Bool × Int) :=
  (since i log).filterMap fun e => match e with
    | .arrive j p m ts => if j = i then some (p, m, ts) else none
    | _ => none

/-- Specification: the packets of the current subscription in slot `i` that were put on the ready list, in order. -/
def deliveredAt (i : Nat) (log : List SEv) : List SPkt :=
  (since i log).filterMap fun e => match e with
    | .ready p => if p.slot = i then some p else none
    | _ => none

/-- Specification: the intervals taken off for acknowledgement in the current subscription in slot `i`. -/
def takenAt (i : Nat) (log : List SEv) : List Intv :=
  (since i log).filterMap fun e => match e with
    | .taken j iv => if j = i then some iv else none
    | _ => none

/-- Specification: the acknowledgements (first and last packet id) put on the connection of the current subscription in
slot `i`. -/
def ackedAt (i : Nat) (log : List SEv) : List (Nat × Nat) :=
  (since i log).filterMap fun e => match e with
    | .ack j f l => if j = i then some (f, l) else none
    | _ => none

/-- Specification: the messages put on the connection of the current subscription in slot `i`, as bytes: an
acknowledgement is a command byte and the two ids, a control message a command byte, a length and the bytes. -/
def messagesAt (i : Nat) (log : List SEv) : List (List UInt8) :=
  (since i log).filterMap fun e => match e with
    | .ack j f l => if j = i then some (ackFrame f l) else none
    | .ctl j bs ds => if j = i then some (ctlFrame bs.length ds) else none
    | _ => none

/-- Specification: the bytes that left on the connection of the current subscription in slot `i`. -/
def bytesOutAt (i : Nat) (log : List SEv) : List UInt8 :=
  ((since i log).filterMap fun e => match e with
    | .tcpOut j bs => if j = i then some bs else none
    | _ => none).flatten

/-- Specification: all packets ever put on the ready list. -/
def readied (log : List SEv) : List SPkt := log.filterMap fun e => match e with | .ready p => some p | _ => none

theorem since_snoc (i : Nat) (log : List SEv) (e : SEv) :
    since i (log ++ [e]) = if e = .complete i then [] else since i log ++ [e] := by
  unfold since
  rw [List.reverse_append, List.reverse_cons, List.reverse_nil, List.nil_append, List.singleton_append,
    List.takeWhile_cons]
  by_cases h : e = .complete i
  · simp [h]
  · simp [h]

/-- What one event adds to `Sess`. -/
theorem sess_spec (i : Nat) (log : List SEv) :
    arrivals (sess i log).ops = arrivedAt i log ∧ (sess i log).ready = deliveredAt i log ∧
    (sess i log).taken = takenAt i log ∧ (sess i log).acks = ackedAt i log ∧ (sess i log).msgs = messagesAt i log ∧
    (sess i log).out = bytesOutAt i log := by
  obtain ⟨k, hk⟩ : ∃ k, log.length = k := ⟨_, rfl⟩
  induction k generalizing log with
  | zero =>
    rw [List.length_eq_zero_iff.1 hk]
    exact ⟨rfl, rfl, rfl, rfl, rfl, rfl⟩
  | succ k ih =>
    rcases List.eq_nil_or_concat log with rfl | ⟨l, e, rfl⟩
    · simp at hk
    · simp only [List.concat_eq_append] at *
      obtain ⟨h1, h2, h3, h4, h5, h6⟩ := ih l (by simp at hk; omega)
      rw [sess_snoc]
      unfold arrivedAt deliveredAt takenAt ackedAt messagesAt bytesOutAt at *
      rw [since_snoc]
      unfold arrivals at *
      cases e with
      | complete j =>
        by_cases hj : j = i
        · subst hj; simp [Sess.step, Sess.new]
        · simp only [Sess.step, SEv.complete.injEq, if_neg hj, List.filterMap_append, h1, h2, h3, h4, h5, h6]
          simp
      | _ =>
        rw [if_neg (by simp)]
        simp only [List.filterMap_append, List.flatten_append, ← h1, ← h2, ← h3, ← h4, ← h5, ← h6, Sess.step]
        first
          | (split <;> rename_i hj <;> simp [hj])
          | simp

theorem sess_arrivals (i : Nat) (log : List SEv) : arrivals (sess i log).ops = arrivedAt i log := (sess_spec i log).1

/-! ## Acknowledgements were taken off -/

def AckOK (c : SubCtx) : Prop := ∀ i f l, (f, l) ∈ (sess i c.log).acks → ∃ iv ∈ (sess i c.log).taken, iv.first = f ∧ iv.last = l

theorem AckOK.log {c c' : SubCtx} (h : AckOK c) (e : c'.log = c.log) : AckOK c' := by
  unfold AckOK; rw [e]; exact h

theorem sess_evs {i : Nat} : ∀ (es : List SEv) (S : Sess),
    (∀ f l, (f, l) ∈ S.acks → ∃ iv ∈ S.taken, iv.first = f ∧ iv.last = l) → (∀ j f l, SEv.ack j f l ∉ es) →
    (∀ f l, (f, l) ∈ (es.foldl (Sess.step i) S).acks → ∃ iv ∈ (es.foldl (Sess.step i) S).taken, iv.first = f ∧ iv.last = l) := by
  intro es
  induction es with
  | nil => intro S h _; exact h
  | cons e es ih =>
    intro S h hn
    rw [List.foldl_cons]
    refine ih _ ?_ (fun j f l hm => hn j f l (List.mem_cons_of_mem _ hm))
    intro f l
    cases e with
    | ack j a b => exact absurd (List.mem_cons_self) (hn j a b)
    | complete j =>
      simp only [Sess.step]
      split
      · intro hm; cases hm
      · exact h f l
    | taken j iv =>
      simp only [Sess.step]
      split
      · intro hm
        obtain ⟨iv', h1, h2⟩ := h f l hm
        exact ⟨iv', List.mem_append_left _ h1, h2⟩
      · exact h f l
    | _ => simp only [Sess.step]; (try split) <;> exact h f l

theorem AckOK.app {c c' : SubCtx} (h : AckOK c) {es : List SEv} (e : c'.log = c.log ++ es) (hn : ∀ j f l, SEv.ack j f l ∉ es) :
    AckOK c' := by
  intro i
  rw [e, sess_append]
  exact sess_evs es _ (h i) hn

theorem AckOK.micro {c c' : SubCtx} (m : Micro tm c c') (h : AckOK c) : AckOK c' := by
  cases m with
  | @user a p ps hx e he => exact h.app (es := [e]) rfl (by rcases he with rfl | rfl <;> simp)
  | cb hk => exact h.app (es := [_]) rfl (by simp)
  | setCb f hk => exact h.log rfl
  | annCb a => exact h.app (es := [_]) rfl (by simp)
  | sock m es => exact h.log rfl
  | @dup i t hu hs p m ts hp hd => exact h.app (es := [_]) rfl (by simp)
  | @recv i t hu hs pid data m ts hd al ha =>
    refine h.app (es := [.arrive i ⟨c.nextAddr, pid, ⟨c.nextAddr, data, false⟩, i⟩ m ts] ++
      [.alloc ⟨c.nextAddr, pid, ⟨c.nextAddr, data, false⟩, i⟩] ++
      (process (received' t ⟨c.nextAddr, pid, ⟨c.nextAddr, data, false⟩, i⟩ m ts)).2.map .ready)
      (by unfold recvd; simp only [List.append_assoc]) ?_
    intro j f l hm; simp at hm
  | io hu rb a es => exact h.log rfl
  | @taken i t iv rest hs hi ha => exact h.app (es := [_]) rfl (by simp)
  | dropAck ha hs hi => exact h.log rfl
  | @msg i hu b e xs hw hz hb he =>
    rcases he with ⟨iv, hiv, rfl, -⟩ | ⟨bs, ds, rfl, -⟩
    · intro j f l
      show (f, l) ∈ (sess j (c.log ++ [_])).acks → ∃ iv ∈ (sess j (c.log ++ [_])).taken, _
      rw [sess_snoc]
      simp only [Sess.step]
      split
      · rename_i e; subst e
        intro hm
        rcases List.mem_append.1 hm with hm | hm
        · exact h _ f l hm
        · simp only [List.mem_singleton, Prod.mk.injEq] at hm
          exact ⟨iv, hiv, hm.1.symm, hm.2.symm⟩
      · exact h j f l
    · exact h.app (es := [_]) rfl (by simp)
  | @out i hu b xs hw hz hb a es => exact h.app (es := [_]) rfl (by simp)
  | @connect i addr port nid d L hv hL hi v hv' h1 h2 h3 h4 h5 => exact h.app (es := [_]) rfl (by simp)
  | noConnect hv hv' h1 h2 h3 h4 => exact h.log rfl
  | complete hi hm => exact h.app (es := [_]) rfl (by simp)
  | @noComplete i hi hm L hv v hv' h1 h2 h3 h4 xs hx => exact h.app (es := xs) rfl (by rcases hx with rfl | rfl <;> simp)
  | @close i t hi hs =>
    refine h.app (es := [.closed i] ++ (reset t).2.map fun p => .free p.payload.ptr p.payload.data.length (.u32 p.slot))
      (by unfold closedAt; simp only [List.append_assoc]) ?_
    intro j f l hm; simp at hm

theorem Reaches.ackOK {ops : List Op} {c : SubCtx} (h : Reaches ops c) : AckOK c := by
  refine Reaches.induct (P := fun _ c => AckOK c) ?_ ?_ h
  · intro mem n nid hn i f l hm; cases hm
  · intro ops c op r c' hr ha hs
    rcases step_cases hr.inv.core hr.inv.mem hs with h | ⟨-, h⟩
    · exact Steps.inv (fun _ _ m h => AckOK.micro m h) h ha
    · exact Steps.inv (fun _ _ m h => AckOK.micro m h) h (show AckOK (forget c) from ha)

/-! ## The ready list -/

theorem readied_append (a b : List SEv) : readied (a ++ b) = readied a ++ readied b := List.filterMap_append
theorem readied_ready (ps : List SPkt) : readied (ps.map SEv.ready) = ps := by
  induction ps with
  | nil => rfl
  | cons p ps ih =>
    show p :: readied (ps.map SEv.ready) = _
    rw [ih]
theorem readied_free (ps : List SPkt) : readied (ps.map fun p => SEv.free p.payload.ptr p.payload.data.length (.u32 p.slot)) = [] := by
  unfold readied; rw [List.filterMap_eq_nil_iff]; intro e he
  obtain ⟨p, _, rfl⟩ := List.mem_map.1 he; rfl

/-- The ready list has what was made ready, in that order, without what was released. -/
structure RdyOK (c : SubCtx) : Prop where
  eq : c.ready = (readied c.log).filter fun p => decide (p.addr ∉ released c.log)
  born : ∀ p ∈ readied c.log, p ∈ born c.log
  wait : ∀ p, Waiting c p → p ∉ readied c.log
  nodup : (readied c.log).Nodup

theorem RdyOK.congr {c c' : SubCtx} (h : RdyOK c) (h1 : readied c'.log = readied c.log) (h2 : released c'.log = released c.log)
    (h3 : c'.ready = c.ready) (h4 : SubCtx.born c'.log = SubCtx.born c.log) (h5 : ∀ p, Waiting c' p → Waiting c p) : RdyOK c' :=
  ⟨by rw [h1, h2, h3]; exact h.eq, by rw [h1, h4]; exact h.born, fun p hp => by rw [h1]; exact h.wait p (h5 p hp),
    by rw [h1]; exact h.nodup⟩

theorem RdyOK.micro {c c' : SubCtx} (m : Micro tm c c') (hc : Core c) (hm : MemOK c) (h : RdyOK c) : RdyOK c' := by
  have quiet : ∀ e : SEv, (∀ p, e ≠ .ready p) → (∀ p, e ≠ .alloc p) → (∀ a n u, e ≠ .free a n u) → (∀ a, e ≠ .keep a) →
      readied [e] = [] ∧ released [e] = [] ∧ SubCtx.born [e] = [] := by
    intro e h1 h2 h3 h4
    cases e <;> first
      | exact absurd rfl (h1 _)
      | exact absurd rfl (h2 _)
      | exact absurd rfl (h3 _ _ _)
      | exact absurd rfl (h4 _)
      | exact ⟨rfl, rfl, rfl⟩
  have snoc : ∀ (e : SEv) (l : List SEv), (readied [e] = [] ∧ released [e] = [] ∧ SubCtx.born [e] = []) →
      readied (l ++ [e]) = readied l ∧ released (l ++ [e]) = released l ∧ SubCtx.born (l ++ [e]) = SubCtx.born l := by
    intro e l he
    rw [readied_append, released_append, born_append, he.1, he.2.1, he.2.2]
    simp
  have one : ∀ (e : SEv) (c' : SubCtx), (readied [e] = [] ∧ released [e] = [] ∧ SubCtx.born [e] = []) →
      c'.log = c.log ++ [e] → c'.ready = c.ready → (∀ p, Waiting c' p → Waiting c p) → RdyOK c' := by
    intro e c' he hl hr hw
    obtain ⟨q1, q2, q3⟩ := snoc e c.log he
    exact h.congr (by rw [hl, q1]) (by rw [hl, q2]) hr (by rw [hl, q3]) hw
  have waitSet : ∀ (i : Nat) (x : SubPub) (f : Nat → Option SubPub), (∀ j, f j = if j = i then some x else c.publishers j) →
      (∀ p ∈ x.received, ∃ t, c.publishers i = some t ∧ p ∈ t.received) → ∀ p, (∃ j s, f j = some s ∧ p ∈ s.received) → Waiting c p := by
    rintro i x f hf hx p ⟨j, s, hs, hp⟩
    rw [hf] at hs
    by_cases e : j = i
    · rw [if_pos e] at hs; cases hs
      obtain ⟨t, h1, h2⟩ := hx p hp
      exact ⟨i, t, h1, h2⟩
    · rw [if_neg e] at hs; exact ⟨j, s, hs, hp⟩
  cases m with
  | @user a p ps hx e he =>
    obtain ⟨h1, xs, ys, h2, h3, h4⟩ := takeReady_spec hx
    have hpr : p ∈ c.ready := by rw [h2]; simp
    have hptr := hm.ptr p (hm.rdy p hpr).1
    have hl : readied (c.log ++ [e]) = readied c.log ∧ released (c.log ++ [e]) = released c.log ++ [p.addr] ∧
        SubCtx.born (c.log ++ [e]) = SubCtx.born c.log := by
      rw [readied_append, released_append, born_append]
      rcases he with rfl | rfl <;> (refine ⟨List.append_nil _, ?_, List.append_nil _⟩; rw [← hptr]; rfl)
    refine ⟨?_, ?_, ?_, ?_⟩
    · show ps = (readied (c.log ++ [e])).filter _
      show ps = (readied (c.log ++ [e])).filter fun p => decide (p.addr ∉ released (c.log ++ [e]))
      rw [hl.1, hl.2.1]
      have e1 : ∀ q : SPkt, decide (q.addr ∉ released c.log ++ [p.addr]) =
          (decide (q.addr ≠ p.addr) && decide (q.addr ∉ released c.log)) := by
        intro q; simp [List.mem_append, not_or, and_comm]
      simp only [e1]
      rw [← List.filter_filter, ← h.eq, h2, h3]
      have hnd := hm.rdyAddr
      rw [h2, List.map_append, List.map_cons, List.nodup_append, List.nodup_cons] at hnd
      rw [List.filter_append, List.filter_cons, if_neg (by simp)]
      congr 1
      · symm; rw [List.filter_eq_self]; intro q hq
        exact decide_eq_true (by rw [h1]; exact h4 q hq)
      · symm; rw [List.filter_eq_self]; intro q hq
        exact decide_eq_true (fun e => hnd.2.1.1 (List.mem_map.2 ⟨q, hq, e⟩))
    · show ∀ q ∈ readied (c.log ++ [e]), q ∈ SubCtx.born (c.log ++ [e])
      rw [hl.1, hl.2.2]; exact h.born
    · intro q hq
      show q ∉ readied (c.log ++ [e])
      rw [hl.1]; exact h.wait q hq
    · show (readied (c.log ++ [e])).Nodup
      rw [hl.1]; exact h.nodup
  | cb hk => exact one _ _ (quiet _ (by simp) (by simp) (by simp) (by simp)) rfl rfl (fun _ x => x)
  | setCb f hk => exact h.congr rfl rfl rfl rfl (fun _ x => x)
  | annCb a => exact one _ _ (quiet _ (by simp) (by simp) (by simp) (by simp)) rfl rfl (fun _ x => x)
  | sock m es => exact h.congr rfl rfl rfl rfl (fun _ x => x)
  | dup hu hs hp hd hk => exact one _ _ (quiet _ (by simp) (by simp) (by simp) (by simp)) rfl rfl (fun _ x => x)
  | @recv i t hu hs pid data m ts hd al ha =>
    obtain ⟨p, hp⟩ : ∃ p, p = (⟨c.nextAddr, pid, ⟨c.nextAddr, data, false⟩, i⟩ : SPkt) := ⟨_, rfl⟩
    rw [← hp]
    have hperm := recv_perm t p m ts
    have hpa : p.addr = c.nextAddr := by rw [hp]
    have hpb : p ∉ SubCtx.born c.log := fun x => by have := born_bound hm x; omega
    have hpr : p.addr ∉ released c.log := by
      intro x
      obtain ⟨q, q1, q2⟩ := List.mem_map.1 (hm.rel _ x)
      have := born_bound hm q1; omega
    obtain ⟨R, hR⟩ : ∃ R, R = process (received' t p m ts) := ⟨_, rfl⟩
    rw [← hR] at hperm
    have hlog : (recvd c i t p m ts al).log = c.log ++ [.arrive i p m ts] ++ [.alloc p] ++ R.2.map .ready := by
      unfold recvd; rw [← hR]
    have l1 : readied (recvd c i t p m ts al).log = readied c.log ++ R.2 := by
      rw [hlog, readied_append, readied_ready, readied_append, readied_append]; simp [readied]
    have l2 : released (recvd c i t p m ts al).log = released c.log := by
      rw [hlog, released_append, released_ready, released_append, released_append]; simp [released]
    have l3 : SubCtx.born (recvd c i t p m ts al).log = SubCtx.born c.log ++ [p] := by
      rw [hlog, born_append, born_ready, born_append, born_append]; simp [SubCtx.born]
    have mem : ∀ q, q ∈ R.2 ++ R.1.received → q = p ∨ Waiting c q := by
      intro q hq
      rcases List.mem_cons.1 (hperm.mem_iff.1 hq) with e | e
      · exact .inl e
      · exact .inr ⟨i, t, hs, e⟩
    have nd : (R.2 ++ R.1.received).Nodup := by
      refine hperm.nodup_iff.2 (List.nodup_cons.2 ⟨?_, hm.rcvND i t hs⟩)
      intro x; exact hpb (hm.rcv p ⟨i, t, hs, x⟩).1
    have fresh : ∀ q, q ∈ R.2 ++ R.1.received → q ∉ readied c.log ∧ q.addr ∉ released c.log := by
      intro q hq
      rcases mem q hq with rfl | hw
      · exact ⟨fun x => hpb (h.born _ x), hpr⟩
      · exact ⟨h.wait q hw, (hm.rcv q hw).2.2⟩
    refine ⟨?_, ?_, ?_, ?_⟩
    · rw [l1, l2, List.filter_append, ← h.eq]
      have : (recvd c i t p m ts al).ready = c.ready ++ R.2 := by unfold recvd; rw [← hR]
      rw [this]
      congr 1
      symm
      rw [List.filter_eq_self]
      intro q hq
      exact decide_eq_true (fresh q (List.mem_append_left _ hq)).2
    · rw [l1, l3]
      intro q hq
      rcases List.mem_append.1 hq with hq | hq
      · exact List.mem_append_left _ (h.born q hq)
      · rcases mem q (List.mem_append_left _ hq) with rfl | hw
        · simp
        · exact List.mem_append_left _ (hm.rcv q hw).1
    · rintro q ⟨j, s, hj, hq⟩
      rw [l1, List.mem_append, not_or]
      have hj : (if j = i then some (process (received' t p m ts)).1 else c.publishers j) = some s := hj
      rw [← hR] at hj
      by_cases e : j = i
      · rw [if_pos e] at hj; cases hj
        exact ⟨(fresh q (List.mem_append_right _ hq)).1, fun x => (List.nodup_append.1 nd).2.2 q x q hq rfl⟩
      · rw [if_neg e] at hj
        refine ⟨h.wait q ⟨j, s, hj, hq⟩, fun x => ?_⟩
        rcases mem q (List.mem_append_left _ x) with e' | hw
        · rw [e'] at hq; exact hpb (hm.rcv p ⟨j, s, hj, hq⟩).1
        · have : q ∈ t.received := by
            have := hperm.mem_iff.1 (List.mem_append_left _ x)
            rcases List.mem_cons.1 this with e | e
            · rw [e] at hq; exact absurd (hm.rcv p ⟨j, s, hj, hq⟩).1 hpb
            · exact e
          exact e ((hc.slot j s hj q hq).symm.trans (hc.slot i t hs q this))
    · rw [l1, List.nodup_append]
      refine ⟨h.nodup, (List.nodup_append.1 nd).1, ?_⟩
      rintro a ha b hb rfl
      exact (fresh a (List.mem_append_left _ hb)).1 ha
  | io hu rb a es => exact h.congr rfl rfl rfl rfl (fun _ x => x)
  | @taken i t iv rest hs hi ha =>
    refine one _ _ (quiet _ (by simp) (by simp) (by simp) (by simp)) rfl rfl ?_
    exact waitSet i _ _ (fun j => rfl) (fun p hp => ⟨t, hs, hp⟩)
  | dropAck ha hs hi => exact h.congr rfl rfl rfl rfl (fun _ x => x)
  | msg hu hw hz hb he =>
    refine one _ _ ?_ rfl rfl (fun _ x => x)
    rcases he with ⟨iv, -, rfl, -⟩ | ⟨bs, ds, rfl, -⟩ <;> exact quiet _ (by simp) (by simp) (by simp) (by simp)
  | out hu hw hz hb a es => exact one _ _ (quiet _ (by simp) (by simp) (by simp) (by simp)) rfl rfl (fun _ x => x)
  | connect addr port nid d hv hL hi hv' h1 h2 h3 h4 h5 =>
    exact one _ _ (quiet _ (by simp) (by simp) (by simp) (by simp)) rfl rfl (fun _ x => x)
  | noConnect hv hv' h1 h2 h3 h4 => exact h.congr rfl rfl rfl rfl (fun _ x => x)
  | complete hi hm =>
    refine one _ _ (quiet _ (by simp) (by simp) (by simp) (by simp)) rfl rfl ?_
    exact waitSet _ _ _ (fun j => rfl) (fun p hp => by cases hp)
  | @noComplete i hi hm L hv v hv' h1 h2 h3 h4 xs hx =>
    have hw : ∀ p, (∃ j s, (if j = i then some SubPub.init else c.publishers j) = some s ∧ p ∈ s.received) → Waiting c p :=
      waitSet i _ _ (fun j => rfl) (fun p hp => by cases hp)
    rcases hx with rfl | rfl
    · rw [List.append_nil]; exact h.congr rfl rfl rfl rfl hw
    · exact one _ _ (quiet _ (by simp) (by simp) (by simp) (by simp)) rfl rfl hw
  | @close i t hi hs =>
    have l1 : readied (closedAt c i t).log = readied c.log := by
      show readied (c.log ++ [.closed i] ++ _) = _
      rw [readied_append, readied_free, readied_append]; simp [readied]
    have l2 : released (closedAt c i t).log = released c.log ++ t.received.map (·.payload.ptr) := by
      show released (c.log ++ [.closed i] ++ _) = _
      rw [released_append, released_free, released_append]; simp [released]; rfl
    have l3 : SubCtx.born (closedAt c i t).log = SubCtx.born c.log := by
      show SubCtx.born (c.log ++ [.closed i] ++ _) = _
      rw [born_append, born_free, born_append]; simp [SubCtx.born]
    have hw : ∀ p, Waiting (closedAt c i t) p → Waiting c p :=
      waitSet i _ _ (fun j => rfl) (fun p hp => by cases hp)
    refine ⟨?_, by rw [l1, l3]; exact h.born, fun p hp => by rw [l1]; exact h.wait p (hw p hp), by rw [l1]; exact h.nodup⟩
    rw [l1, l2]
    show c.ready = _
    rw [h.eq]
    refine List.filter_congr ?_
    intro q hq
    have : q.addr ∉ t.received.map (·.payload.ptr) := by
      intro x
      obtain ⟨r, r1, r2⟩ := List.mem_map.1 x
      have hwr : Waiting c r := ⟨i, t, hs, r1⟩
      rw [hm.ptr r (hm.rcv r hwr).1] at r2
      have := hm.inj (hm.rcv r hwr).1 (h.born q hq) r2
      subst this
      exact h.wait r hwr hq
    simp only [List.mem_append, not_or, this, not_false_iff, and_true]

theorem Reaches.rdyOK {ops : List Op} {c : SubCtx} (h : Reaches ops c) (hd : .deactivate ∉ ops) : RdyOK c := by
  refine Reaches.induct (P := fun ops c => Op.deactivate ∉ ops → RdyOK c) ?_ ?_ h hd
  · intro mem n nid hn _
    refine ⟨rfl, ?_, ?_, List.nodup_nil⟩
    · intro p hp; cases hp
    · intro p _ hp; cases hp
  · intro ops c op r c' hr ha hs hd
    have hi := hr.inv
    rw [List.mem_append, not_or] at hd
    have hop : op ≠ .deactivate := by rintro rfl; exact hd.2 (by simp)
    exact (Steps.both (P := fun c => Core c ∧ MemOK c) (Q := RdyOK) (fun _ _ m h => ⟨h.1.micro m, h.2.micro m h.1⟩)
      (fun _ _ m h1 h2 => h2.micro m h1.1 h1.2) (step_steps hi.core hi.mem hop hs) ⟨hi.core, hi.mem⟩ (ha hd.1)).2

end SubCtx
end Rmc
