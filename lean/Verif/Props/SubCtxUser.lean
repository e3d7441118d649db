import Verif.Props.SubCtxMem

/-!
# C76: the arguments of the subscriber's payload_free callback

reliable_multicast.h:198-225 says that payload_free is called with the `user_data` given to `rmc_sub_init_context`. The log has, for every call
of the callback, the address, the length and the user data.
-/

set_option linter.unusedSimpArgs false

namespace Rmc
namespace SubCtx
open SubPub CircBuf ConnVec

/-- What is said of a call payload_free(a, n, u) after the history `pre`: it is the payload of a packet it was allocated for, with its length; the
user data is that of the context if the packet had been made available to the application, and the connection index otherwise. -/
def FreedAs (pre : List SEv) (a n : Nat) (u : UData) : Prop :=
  ∃ p : SPkt, .alloc p ∈ pre ∧ p.payload.ptr = a ∧ p.payload.data.length = n ∧
    ((.ready p ∈ pre ∧ u = .ctx) ∨ (.ready p ∉ pre ∧ .closed p.slot ∈ pre ∧ u = .u32 p.slot))

def FreesOK (log : List SEv) : Prop :=
  ∀ pre post a n u, log = pre ++ .free a n u :: post → FreedAs pre a n u

theorem FreesOK.snoc {l : List SEv} {e : SEv} (h : FreesOK l) (he : ∀ a n u, e = .free a n u → FreedAs l a n u) : FreesOK (l ++ [e]) := by
  intro pre post a n u hl
  rcases List.eq_nil_or_concat post with rfl | ⟨post', x, rfl⟩
  · have := List.append_inj' hl rfl
    cases this.2
    rw [← this.1]
    exact he a n u rfl
  · rw [List.concat_eq_append, ← List.cons_append, ← List.append_assoc] at hl
    exact h pre post' a n u (List.append_inj' hl rfl).1

theorem FreesOK.append {l es : List SEv} (h : FreesOK l) (he : ∀ e ∈ es, ∀ a n u, e ≠ .free a n u) : FreesOK (l ++ es) := by
  induction es generalizing l with
  | nil => rw [List.append_nil]; exact h
  | cons e es ih =>
    rw [show l ++ e :: es = (l ++ [e]) ++ es by simp]
    exact ih (h.snoc fun a n u x => absurd x (he e (by simp) a n u)) (fun x hx => he x (by simp [hx]))

/-- The payloads of packets that wait in a record are given back when the connection is closed. -/
theorem FreesOK.reset (i : Nat) : ∀ (ps : List SPkt) {l : List SEv}, FreesOK l → .closed i ∈ l →
    (∀ p ∈ ps, .alloc p ∈ l ∧ p.slot = i ∧ .ready p ∉ l) →
    FreesOK (l ++ ps.map fun p => .free p.payload.ptr p.payload.data.length (.u32 p.slot)) := by
  intro ps
  induction ps with
  | nil => intro l h _ _; rw [List.map_nil, List.append_nil]; exact h
  | cons p ps ih =>
    intro l h hc hp
    rw [List.map_cons, show l ++ _ :: ps.map _ = (l ++ [.free p.payload.ptr p.payload.data.length (.u32 p.slot)]) ++ ps.map _ by
      rw [List.append_assoc]; rfl]
    refine ih (h.snoc ?_) (by simp [hc]) ?_
    · intro a n u e
      cases e
      obtain ⟨h1, h2, h3⟩ := hp p (by simp)
      exact ⟨p, h1, rfl, rfl, .inr ⟨h3, by rw [h2]; exact hc, rfl⟩⟩
    · intro q hq
      obtain ⟨h1, h2, h3⟩ := hp q (by simp [hq])
      exact ⟨by simp [h1], h2, by simp [h3]⟩

theorem mem_readied {p : SPkt} {log : List SEv} : p ∈ readied log ↔ .ready p ∈ log := by
  unfold readied
  rw [List.mem_filterMap]
  constructor
  · rintro ⟨e, h1, h2⟩
    split at h2 <;> cases h2
    exact h1
  · intro h; exact ⟨_, h, rfl⟩

theorem mem_born {p : SPkt} {log : List SEv} : p ∈ born log ↔ .alloc p ∈ log := by
  unfold born
  rw [List.mem_filterMap]
  constructor
  · rintro ⟨e, h1, h2⟩
    split at h2 <;> cases h2
    exact h1
  · intro h; exact ⟨_, h, rfl⟩

/-- What is available has been made available; what waits has not. -/
structure UseOK (c : SubCtx) : Prop where
  rdy : ∀ p ∈ c.ready, p ∈ readied c.log
  born : ∀ p ∈ readied c.log, p ∈ born c.log
  wait : ∀ p, Waiting c p → p ∉ readied c.log
  frees : FreesOK c.log

theorem UseOK.same {c c' : SubCtx} (h : UseOK c) (hl : c'.log = c.log) (hr : c'.ready = c.ready) (hw : ∀ p, Waiting c' p → Waiting c p) :
    UseOK c' :=
  ⟨by rw [hl, hr]; exact h.rdy, by rw [hl]; exact h.born, fun p hp => by rw [hl]; exact h.wait p (hw p hp), by rw [hl]; exact h.frees⟩

theorem UseOK.one {c c' : SubCtx} (h : UseOK c) {e : SEv} (h1 : ∀ p, e ≠ .ready p) (h2 : ∀ p, e ≠ .alloc p) (h3 : ∀ a n u, e ≠ .free a n u)
    (hl : c'.log = c.log ++ [e]) (hr : ∀ p ∈ c'.ready, p ∈ c.ready) (hw : ∀ p, Waiting c' p → Waiting c p) : UseOK c' := by
  have r : ∀ p, p ∈ readied c'.log ↔ p ∈ readied c.log := by
    intro p; rw [mem_readied, mem_readied, hl, List.mem_append, List.mem_singleton]
    exact ⟨fun x => x.resolve_right fun y => h1 p y.symm, .inl⟩
  have b : ∀ p, p ∈ SubCtx.born c'.log ↔ p ∈ SubCtx.born c.log := by
    intro p; rw [mem_born, mem_born, hl, List.mem_append, List.mem_singleton]
    exact ⟨fun x => x.resolve_right fun y => h2 p y.symm, .inl⟩
  refine ⟨fun p hp => (r p).2 (h.rdy p (hr p hp)), fun p hp => (b p).2 (h.born p ((r p).1 hp)),
    fun p hp hx => h.wait p (hw p hp) ((r p).1 hx), ?_⟩
  rw [hl]
  exact h.frees.snoc fun a n u e => absurd e (h3 a n u)

theorem UseOK.micro {tm : Nat} {c c' : SubCtx} (m : Micro tm c c') (hc : Core c) (hm : MemOK c) (h : UseOK c) : UseOK c' := by
  have waitSet : ∀ (i : Nat) (x : SubPub) (f : Nat → Option SubPub), (∀ j, f j = if j = i then some x else c.publishers j) →
      (∀ p ∈ x.received, ∃ t, c.publishers i = some t ∧ p ∈ t.received) → ∀ p, (∃ j s, f j = some s ∧ p ∈ s.received) → Waiting c p := by
    rintro i x f hf hx p ⟨j, s, hs, hp⟩
    rw [hf] at hs
    by_cases e : j = i
    · rw [if_pos e] at hs; cases hs
      obtain ⟨t, h1, h2⟩ := hx p hp
      exact ⟨i, t, h1, h2⟩
    · rw [if_neg e] at hs; exact ⟨j, s, hs, hp⟩
  cases m with
  | @user a p ps hx e he =>
    obtain ⟨h1, xs, ys, h2, h3, h4⟩ := takeReady_spec hx
    have hpr : p ∈ c.ready := by rw [h2]; simp
    have hsub : ∀ q ∈ ps, q ∈ c.ready := by
      intro q hq; rw [h3] at hq; rw [h2]
      rcases List.mem_append.1 hq with hq | hq <;> simp [hq]
    rcases he with rfl | rfl
    · have r : ∀ q, q ∈ readied (c.log ++ [.free p.payload.ptr p.payload.data.length .ctx]) ↔ q ∈ readied c.log := by
        intro q; rw [mem_readied, mem_readied]; simp
      have b : ∀ q, q ∈ SubCtx.born (c.log ++ [.free p.payload.ptr p.payload.data.length .ctx]) ↔ q ∈ SubCtx.born c.log := by
        intro q; rw [mem_born, mem_born]; simp
      refine ⟨fun q hq => (r q).2 (h.rdy q (hsub q hq)), fun q hq => (b q).2 (h.born q ((r q).1 hq)),
        fun q hq hx => h.wait q hq ((r q).1 hx), ?_⟩
      refine h.frees.snoc ?_
      intro a n u e
      cases e
      have := h.rdy p hpr
      exact ⟨p, mem_born.1 (h.born p this), rfl, rfl, .inl ⟨mem_readied.1 this, rfl⟩⟩
    · exact h.one (by simp) (by simp) (by simp) rfl hsub (fun _ x => x)
  | cb hk => exact h.one (by simp) (by simp) (by simp) rfl (fun _ x => x) (fun _ x => x)
  | setCb f hk => exact h.same rfl rfl (fun _ x => x)
  | annCb a => exact h.one (by simp) (by simp) (by simp) rfl (fun _ x => x) (fun _ x => x)
  | sock m es => exact h.same rfl rfl (fun _ x => x)
  | dup hu hs hp hd hk => exact h.one (by simp) (by simp) (by simp) rfl (fun _ x => x) (fun _ x => x)
  | @recv i t hu hs pid data m ts hd al ha =>
    obtain ⟨p, hp⟩ : ∃ p, p = (⟨c.nextAddr, pid, ⟨c.nextAddr, data, false⟩, i⟩ : SPkt) := ⟨_, rfl⟩
    rw [← hp]
    have hperm := recv_perm t p m ts
    have hpa : p.addr = c.nextAddr := by rw [hp]
    have hpb : p ∉ SubCtx.born c.log := fun x => by have := born_bound hm x; omega
    obtain ⟨R, hR⟩ : ∃ R, R = process (received' t p m ts) := ⟨_, rfl⟩
    rw [← hR] at hperm
    have hlog : (recvd c i t p m ts al).log = c.log ++ [.arrive i p m ts] ++ [.alloc p] ++ R.2.map .ready := by
      unfold recvd; rw [← hR]
    have hrdy : (recvd c i t p m ts al).ready = c.ready ++ R.2 := by unfold recvd; rw [← hR]
    have r : ∀ q, q ∈ readied (recvd c i t p m ts al).log ↔ q ∈ readied c.log ∨ q ∈ R.2 := by
      intro q; rw [hlog, mem_readied, mem_readied]; simp
    have b : ∀ q, q ∈ SubCtx.born (recvd c i t p m ts al).log ↔ q ∈ SubCtx.born c.log ∨ q = p := by
      intro q; rw [hlog, mem_born, mem_born]; simp
    have mem : ∀ q, q ∈ R.2 ++ R.1.received → q = p ∨ Waiting c q := by
      intro q hq
      rcases List.mem_cons.1 (hperm.mem_iff.1 hq) with e | e
      · exact .inl e
      · exact .inr ⟨i, t, hs, e⟩
    have nd : (R.2 ++ R.1.received).Nodup := by
      refine hperm.nodup_iff.2 (List.nodup_cons.2 ⟨?_, hm.rcvND i t hs⟩)
      intro x; exact hpb (hm.rcv p ⟨i, t, hs, x⟩).1
    have fresh : ∀ q, q ∈ R.2 ++ R.1.received → q ∉ readied c.log := by
      intro q hq
      rcases mem q hq with rfl | hw
      · exact fun x => hpb (h.born _ x)
      · exact h.wait q hw
    refine ⟨?_, ?_, ?_, ?_⟩
    · intro q hq
      rw [hrdy, List.mem_append] at hq
      exact (r q).2 (hq.imp (h.rdy q) id)
    · intro q hq
      rcases (r q).1 hq with hq | hq
      · exact (b q).2 (.inl (h.born q hq))
      · rcases mem q (List.mem_append_left _ hq) with e | hw
        · exact (b q).2 (.inr e)
        · exact (b q).2 (.inl (hm.rcv q hw).1)
    · rintro q ⟨j, s, hj, hq⟩
      rw [r, not_or]
      have hj : (if j = i then some (process (received' t p m ts)).1 else c.publishers j) = some s := hj
      rw [← hR] at hj
      by_cases e : j = i
      · rw [if_pos e] at hj; cases hj
        exact ⟨fresh q (List.mem_append_right _ hq), fun x => (List.nodup_append.1 nd).2.2 q x q hq rfl⟩
      · rw [if_neg e] at hj
        refine ⟨h.wait q ⟨j, s, hj, hq⟩, fun x => ?_⟩
        rcases List.mem_cons.1 (hperm.mem_iff.1 (List.mem_append_left _ x)) with e' | e'
        · rw [e'] at hq; exact hpb (hm.rcv p ⟨j, s, hj, hq⟩).1
        · exact e ((hc.slot j s hj q hq).symm.trans (hc.slot i t hs q e'))
    · rw [hlog]
      refine ((h.frees.append (es := [_]) ?_).append (es := [_]) ?_).append ?_
      · simp
      · simp
      · intro x hx; obtain ⟨q, _, rfl⟩ := List.mem_map.1 hx; simp
  | io hu rb a es => exact h.same rfl rfl (fun _ x => x)
  | @taken i t iv rest hs hi ha =>
    exact h.one (by simp) (by simp) (by simp) rfl (fun _ x => x) (waitSet i _ _ (fun j => rfl) (fun p hp => ⟨t, hs, hp⟩))
  | dropAck ha hs hi => exact h.same rfl rfl (fun _ x => x)
  | msg hu hw hz hb he =>
    refine h.one ?_ ?_ ?_ rfl (fun _ x => x) (fun _ x => x) <;>
    · intros; rintro rfl
      rcases he with ⟨iv, -, he, -⟩ | ⟨bs, ds, he, -⟩ <;> cases he
  | out hu hw hz hb a es => exact h.one (by simp) (by simp) (by simp) rfl (fun _ x => x) (fun _ x => x)
  | connect addr port nid d hv hL hi hv' h1 h2 h3 h4 h5 => exact h.one (by simp) (by simp) (by simp) rfl (fun _ x => x) (fun _ x => x)
  | noConnect hv hv' h1 h2 h3 h4 => exact h.same rfl rfl (fun _ x => x)
  | complete hi hm =>
    exact h.one (by simp) (by simp) (by simp) rfl (fun _ x => x) (waitSet _ _ _ (fun j => rfl) (fun p hp => by cases hp))
  | @noComplete i hi hm L hv v hv' h1 h2 h3 h4 xs hx =>
    have hw : ∀ p, (∃ j s, (if j = i then some SubPub.init else c.publishers j) = some s ∧ p ∈ s.received) → Waiting c p :=
      waitSet i _ _ (fun j => rfl) (fun p hp => by cases hp)
    rcases hx with rfl | rfl
    · rw [List.append_nil]; exact h.same rfl rfl hw
    · exact h.one (by simp) (by simp) (by simp) rfl (fun _ x => x) hw
  | @close i t hi hs =>
    have hw : ∀ p, Waiting (closedAt c i t) p → Waiting c p := waitSet i _ _ (fun j => rfl) (fun p hp => by cases hp)
    have hlog : (closedAt c i t).log = c.log ++ [.closed i] ++ t.received.map fun p => .free p.payload.ptr p.payload.data.length (.u32 p.slot) := rfl
    have r : ∀ q, q ∈ readied (closedAt c i t).log ↔ q ∈ readied c.log := by
      intro q; rw [hlog, mem_readied, mem_readied]; simp
    have b : ∀ q, q ∈ SubCtx.born (closedAt c i t).log ↔ q ∈ SubCtx.born c.log := by
      intro q; rw [hlog, mem_born, mem_born]; simp
    refine ⟨fun q hq => (r q).2 (h.rdy q hq), fun q hq => (b q).2 (h.born q ((r q).1 hq)), fun q hq hx => h.wait q (hw q hq) ((r q).1 hx), ?_⟩
    rw [hlog]
    refine FreesOK.reset i _ (h.frees.append (by simp)) (by simp) ?_
    intro p hp
    have hwp : Waiting c p := ⟨i, t, hs, hp⟩
    refine ⟨List.mem_append_left _ (mem_born.1 (hm.rcv p hwp).1), hc.slot i t hs p hp, ?_⟩
    have : SEv.ready p ∉ c.log := fun x => h.wait p hwp (mem_readied.2 x)
    simp [this]

theorem Reaches.useOK {ops : List Op} {c : SubCtx} (h : Reaches ops c) : UseOK c := by
  refine Reaches.induct (P := fun _ c => UseOK c) ?_ ?_ h
  · intro mem n nid hn
    refine ⟨?_, ?_, ?_, ?_⟩
    · intro p hp; cases hp
    · intro p hp; cases hp
    · intro p _ hp; cases hp
    · intro pre post a n u e
      have e : [] = _ := e
      simp at e
  · intro ops c op r c' hr ha hs
    have hi := hr.inv
    have go : ∀ {a b : SubCtx} {tm : Nat}, Steps tm a b → Inv a → UseOK a → UseOK b := fun st ia ua =>
      (Steps.both (P := fun c => Core c ∧ MemOK c) (Q := UseOK) (fun _ _ m h => ⟨h.1.micro m, h.2.micro m h.1⟩)
        (fun _ _ m h1 h2 => h2.micro m h1.1 h1.2) st ⟨ia.core, ia.mem⟩ ua).2
    rcases step_cases hi.core hi.mem hs with st | ⟨_, st⟩
    · exact go st hi ha
    · exact go st hi.forget ⟨fun p hp => (by cases hp), ha.born, ha.wait, ha.frees⟩

/-- C76, exactly: whenever payload_free is called, it is with the address payload_alloc returned for some packet and with the length of that packet; the
user data is that of the context if the packet had been made available to the application (then the application has marked it
dispatched), and otherwise the index of its connection, which has been closed. -/
theorem C76_free_args {ops : List Op} {c : SubCtx} (h : Reaches ops c) {pre post : List SEv} {a n : Nat} {u : UData}
    (hl : c.log = pre ++ .free a n u :: post) :
    ∃ p : SPkt, .alloc p ∈ pre ∧ p.payload.ptr = a ∧ p.payload.data.length = n ∧
      ((.ready p ∈ pre ∧ u = .ctx) ∨ (.ready p ∉ pre ∧ .closed p.slot ∈ pre ∧ u = .u32 p.slot)) :=
  h.useOK.frees pre post a n u hl

/-- C76, the part that holds: as long as no connection has been closed, payload_free gets the user data of the context. -/
theorem C76_user_partial {ops : List Op} {c : SubCtx} (h : Reaches ops c) (hc : ∀ i, .closed i ∉ c.log) {a n : Nat} {u : UData}
    (hf : .free a n u ∈ c.log) : u = .ctx := by
  obtain ⟨pre, post, e⟩ := List.append_of_mem hf
  obtain ⟨p, _, _, _, h4 | h4⟩ := C76_free_args h e
  · exact h4.2
  · exact absurd (by rw [e]; exact List.mem_append_left _ h4.2.1) (hc p.slot)

/-- Two publishers, on ports 4 and 6, in slots 0 and 1; packets 5 and 7 come from the second one (6 is missing); the application marks 5 dispatched. -/
def exTwoPubs : List Op :=
  exUp ++ [.readMcast [exDg 6 0 [] 2], .write 1 (.ok 0) none (.ok 0), .readMcast [exDg 6 5 [50, 51] 1000, exDg 6 7 [70, 71, 72] 1100], .dispatched 1]

/-- C76_free_args and C76_user_partial are about something: payload_free has been called with the user data of the context. -/
example : ∃ c rs, Reaches exTwoPubs c ∧ run exS0 exTwoPubs = .ok (rs, c) ∧
    decide (rs = [0, 0, 0, 0, 0, 0, 0] ∧ SEv.free 1 2 .ctx ∈ c.log ∧ (∀ i ∈ List.range 2, SEv.closed i ∉ c.log) ∧ c.cv.size = 2) = true :=
  reaches_of (P := fun rs c => decide _) (by decide +kernel)

/-- C76 is not true of the code: the application closes the second connection while packet 7 waits for 6: payload_free gets 1, the index of the
connection, for user data, whatever was given to `rmc_sub_init_context`. -/
theorem C76_false : ∃ ops c, Reaches ops c ∧ .free 1 2 .ctx ∈ c.log ∧ .free 2 3 (.u32 1) ∈ c.log := by
  obtain ⟨c, rs, h1, h2, h3⟩ := reaches_of (ops := exTwoPubs ++ [.close 1])
    (P := fun rs c => decide (SEv.free 1 2 .ctx ∈ c.log ∧ SEv.free 2 3 (.u32 1) ∈ c.log)) (by decide +kernel)
  obtain ⟨g1, g2⟩ := of_decide_eq_true h3
  exact ⟨_, c, h1, g1, g2⟩

end SubCtx
end Rmc
