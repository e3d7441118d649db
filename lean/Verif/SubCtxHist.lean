import Verif.SubCtxInv

/-! # Subscriber context: histories of the records, byte streams, payload memory, acknowledgement list -/

set_option linter.unusedSimpArgs false
set_option linter.unusedVariables false

namespace Rmc
namespace SubCtx
variable {tm : Nat}
open SubPub CircBuf ConnVec

theorem Hist.run_snoc (h : Hist) (ops : List SubPub.Op) (op : SubPub.Op) : h.run (ops ++ [op]) = (h.run ops).step op := by
  unfold Hist.run; rw [List.foldl_append]; rfl

theorem Core.notUp {c : SubCtx} {i : Nat} (hm : (c.cv.conns i).mode = .connecting) : ¬ Up c i := by
  intro h; rw [h.2] at hm; cases hm

/-- Which slots are up, after a small step. -/
theorem Micro.up {c c' : SubCtx} (m : Micro tm c c') (hc : Core c) {j : Nat} (hj : Up c' j) :
    Up c j ∨ ∃ l, c'.log = l ++ [.complete j] ∧ c'.publishers j = some SubPub.init ∧
      (c'.cv.conns j).writeBuf = (c.cv.conns j).writeBuf ∧ ¬ Up c j ∧ j < c.cv.size ∧ (c.cv.conns j).mode = .connecting := by
  have setUp : ∀ (i : Nat) (x : Conn), x.mode = .connected → (if j = i then x else c.cv.conns j).mode = .connected →
      Up c i → j < c.cv.size → Up c j := by
    intro i x hx h1 h2 h3
    by_cases e : j = i
    · rw [e]; exact h2
    · rw [if_neg e] at h1; exact ⟨h3, h1⟩
  cases m with
  | user hx he => exact .inl hj
  | cb hk => exact .inl hj
  | setCb f hk => exact .inl hj
  | annCb a => exact .inl hj
  | sock m es => exact .inl hj
  | dup hu hs hp hd hk => exact .inl hj
  | recv hu hs hd ha hk => exact .inl hj
  | @io i hu rb a es => exact .inl (setUp i { c.cv.conns i with readBuf := rb, action := a } hu.2 hj.2 hu hj.1)
  | taken hs hi ha => exact .inl hj
  | dropAck ha hs hi => exact .inl hj
  | @msg i hu b e xs hw hz hb he => exact .inl (setUp i _ (by exact hu.2) hj.2 hu hj.1)
  | @out i hu b xs hw hz hb a es => exact .inl (setUp i { c.cv.conns i with writeBuf := b, action := a } hu.2 hj.2 hu hj.1)
  | @connect i addr port nid d L hv hL hi v hv' h1 h2 h3 h4 h5 =>
    left
    have j1 : j < v.size := hj.1
    have j2 : (v.conns j).mode = .connected := hj.2
    by_cases e : j = i
    · subst e; rw [h4] at j2; cases j2
    · rw [h3 j e] at j2; exact ⟨h1 ▸ j1, j2⟩
  | @noConnect L hv v hv' h1 h2 h3 h4 =>
    left
    have j1 : j < v.size := hj.1
    have j2 : (v.conns j).mode = .connected := hj.2
    have : j ∈ L := (hv'.mode j j1).1 (by rw [j2]; decide)
    rw [h4 j this] at j2; exact ⟨h1 ▸ j1, j2⟩
  | @complete i hi hm =>
    by_cases e : j = i
    · subst e
      right
      refine ⟨c.log, rfl, ?_, ?_, Core.notUp hm, hi, hm⟩
      · show (if j = j then _ else _) = _; rw [if_pos rfl]
      · show (if j = j then _ else _ : Conn).writeBuf = _; rw [if_pos rfl]
    · left
      have j2 : (if j = i then _ else c.cv.conns j : Conn).mode = .connected := hj.2
      rw [if_neg e] at j2; exact ⟨hj.1, j2⟩
  | @noComplete i hi hm L hv v hv' h1 h2 h3 h4 xs hx =>
    left
    have j1 : j < v.size := hj.1
    have j2 : (v.conns j).mode = .connected := hj.2
    by_cases e : j = i
    · subst e; rw [h4] at j2; simp [resetConn] at j2
    · rw [h3 j e] at j2; exact ⟨h1 ▸ j1, j2⟩
  | @close i s hi hs =>
    left
    obtain ⟨L, hL⟩ := hc.v
    have j1 : j < (ConnVec.close c.cv i).2.size := hj.1
    have j2 : ((ConnVec.close c.cv i).2.conns j).mode = .connected := hj.2
    by_cases hiL : i ∈ L
    · obtain ⟨q1, q2, q3, q4, q5, q6, q7⟩ := (close_spec hL i).1 hiL
      by_cases e : j = i
      · subst e; rw [q6] at j2; simp [resetConn] at j2
      · rw [q5 j e] at j2; exact ⟨q3 ▸ j1, j2⟩
    · rw [((close_spec hL i).2 hiL).2] at j1 j2; exact ⟨j1, j2⟩

/-- A slot that is closed is not up. -/
theorem close_up {c : SubCtx} (hc : Core c) {i j : Nat} {s : SubPub} (hj : Up (closedAt c i s) j) : j ≠ i := by
  intro e; subst e
  obtain ⟨L, hL⟩ := hc.v
  have j1 : j < (ConnVec.close c.cv j).2.size := hj.1
  have j2 : ((ConnVec.close c.cv j).2.conns j).mode = .connected := hj.2
  by_cases hiL : j ∈ L
  · obtain ⟨q1, q2, q3, q4, q5, q6, q7⟩ := (close_spec hL j).1 hiL
    rw [q6] at j2; simp [resetConn] at j2
  · rw [((close_spec hL j).2 hiL).2] at j1 j2
    exact hiL ((hL.mode j j1).1 (by rw [j2]; decide))

theorem close_conn {c : SubCtx} (hc : Core c) {i j : Nat} (e : j ≠ i) :
    (ConnVec.close c.cv i).2.conns j = c.cv.conns j := by
  obtain ⟨L, hL⟩ := hc.v
  by_cases hiL : i ∈ L
  · exact ((close_spec hL i).1 hiL).2.2.2.2.1 j e
  · rw [((close_spec hL i).2 hiL).2]

/-! ## Records are what sub.c makes of what the log says arrived -/

/-- What sub.c made of the arrivals of a subscription. -/
def SessOK (S : Sess) (s : SubPub) : Prop :=
  s = (Hist.init.run S.ops).s ∧ S.ready = (Hist.init.run S.ops).out ∧ S.taken = (Hist.init.run S.ops).acked

/-- The record of each publisher subscribed to is what sub.c makes of the arrivals logged since the subscription, and the
log has what became ready and what was taken off. -/
def HistOK (c : SubCtx) : Prop := ∀ i, Up c i → ∃ s, c.publishers i = some s ∧ SessOK (sess i c.log) s

theorem HistOK.micro {c c' : SubCtx} (m : Micro tm c c') (hc : Core c) (h : HistOK c) : HistOK c' := by
  intro j hj
  rcases m.up hc hj with hj0 | ⟨l, h1, h2, _, _⟩
  rotate_left
  · rw [h1, sess_snoc]
    refine ⟨_, h2, ?_⟩
    simp only [Sess.step, if_true]
    exact ⟨rfl, rfl, rfl⟩
  obtain ⟨s, g1, g2, g3, g4⟩ := h j hj0
  cases m with
  | user hx he =>
    refine ⟨s, g1, ?_⟩
    rcases he with rfl | rfl <;> (unfold ev; rw [sess_snoc]; exact ⟨g2, g3, g4⟩)
  | cb hk => refine ⟨s, g1, ?_⟩; unfold ev; rw [sess_snoc]; exact ⟨g2, g3, g4⟩
  | setCb f hk => exact ⟨s, g1, g2, g3, g4⟩
  | annCb a => refine ⟨s, g1, ?_⟩; unfold ev; rw [sess_snoc]; exact ⟨g2, g3, g4⟩
  | sock m es => exact ⟨s, g1, g2, g3, g4⟩
  | @dup i t hu hs p m ts hp hd =>
    refine ⟨s, g1, ?_⟩
    unfold ev
    rw [sess_snoc]
    by_cases e : i = j
    · subst e
      rw [g1] at hs; cases hs
      simp only [SessOK, Sess.step, if_true, Hist.run_snoc, Hist.step, arrive]
      rw [← g2, hd]
      simp only [if_true, List.append_nil]
      exact ⟨trivial, g3, g4⟩
    · simp only [Sess.step, if_neg e]; exact ⟨g2, g3, g4⟩
  | @recv i t hu hs pid data m ts hd al ha =>
    obtain ⟨p, hp⟩ : ∃ p, p = (⟨c.nextAddr, pid, ⟨c.nextAddr, data, false⟩, i⟩ : SPkt) := ⟨_, rfl⟩
    rw [← hp]
    have hpid : p.pid = pid := by rw [hp]
    have hslot : ∀ q ∈ (process (received' t p m ts)).2, q.slot = i := by
      intro q hq
      have : q ∈ (received' t p m ts).received := by rw [← process_parts]; exact List.mem_append_left _ hq
      rcases received_mem.1 this with rfl | hq
      · rw [hp]
      · exact hc.slot i t hs q hq
    by_cases e : i = j
    · subst e
      rw [g1] at hs; cases hs
      refine ⟨(process (received' s p m ts)).1, ?_, ?_⟩
      · show (if i = i then _ else _) = _; rw [if_pos rfl]
      · show SessOK (sess i (c.log ++ _ ++ _ ++ _)) _
        rw [sess_append, sess_snoc, sess_snoc, foldl_ready i _ _ hslot]
        simp only [SessOK, Sess.step, if_true, Hist.run_snoc, Hist.step, arrive]
        rw [← g2, hpid, hd]
        simp only [Bool.false_eq_true, if_false]
        exact ⟨trivial, by rw [g3], g4⟩
    · refine ⟨s, ?_, ?_⟩
      · show (if j = i then _ else _) = _; rw [if_neg (Ne.symm e)]; exact g1
      · show SessOK (sess j (c.log ++ _ ++ _ ++ _)) _
        rw [sess_append, sess_snoc, sess_snoc, foldl_ready_other j _ _ (fun q hq => by rw [hslot q hq]; exact e)]
        simp only [Sess.step, if_neg e]
        exact ⟨g2, g3, g4⟩
  | io hu rb a es => exact ⟨s, g1, g2, g3, g4⟩
  | @taken i t iv rest hs hi ha =>
    unfold ev
    show ∃ s, (if j = i then _ else _) = some s ∧ _
    rw [sess_snoc]
    by_cases e : i = j
    · subst e
      rw [g1] at hs; cases hs
      refine ⟨_, by rw [if_pos rfl], ?_⟩
      show SessOK (Sess.step i (sess i c.log) _) _
      simp only [SessOK, Sess.step, if_true, Hist.run_snoc, Hist.step]
      rw [← g2, hi]
      exact ⟨rfl, g3, by rw [← g4]⟩
    · rw [if_neg (Ne.symm e)]
      refine ⟨s, g1, ?_⟩
      show SessOK (Sess.step j (sess j c.log) _) _
      simp only [Sess.step, if_neg e]
      exact ⟨g2, g3, g4⟩
  | dropAck ha hs hi => exact ⟨s, g1, g2, g3, g4⟩
  | @msg i hu b e xs hw hz hb he =>
    refine ⟨s, g1, ?_⟩
    show SessOK (sess j (c.log ++ [e])) _
    rw [sess_snoc]
    rcases he with ⟨iv, -, rfl, -⟩ | ⟨bs, ds, rfl, -⟩ <;>
    · simp only [Sess.step]
      split <;> exact ⟨g2, g3, g4⟩
  | @out i hu b xs hw hz hb a es =>
    refine ⟨s, g1, ?_⟩
    show SessOK (sess j (c.log ++ [_])) _
    rw [sess_snoc]
    simp only [Sess.step]
    split <;> exact ⟨g2, g3, g4⟩
  | @connect i addr port nid d L hv hL hi v hv' h1 h2 h3 h4 h5 =>
    refine ⟨s, g1, ?_⟩
    show SessOK (sess j (c.log ++ [_])) _
    rw [sess_snoc]; exact ⟨g2, g3, g4⟩
  | noConnect hv hv' h1 h2 h3 h4 => exact ⟨s, g1, g2, g3, g4⟩
  | @complete i hi hm =>
    have e : j ≠ i := fun e => Core.notUp hm (e ▸ hj0)
    refine ⟨s, ?_, ?_⟩
    · show (if j = i then _ else _) = _; rw [if_neg e]; exact g1
    · show SessOK (sess j (c.log ++ [_])) _
      rw [sess_snoc]
      simp only [Sess.step, if_neg (Ne.symm e)]
      exact ⟨g2, g3, g4⟩
  | @noComplete i hi hm L hv v hv' h1 h2 h3 h4 xs hx =>
    have e : j ≠ i := fun e => Core.notUp hm (e ▸ hj0)
    refine ⟨s, ?_, ?_⟩
    · show (if j = i then _ else _) = _; rw [if_neg e]; exact g1
    · show SessOK (sess j (c.log ++ _)) _
      rcases hx with rfl | rfl
      · rw [List.append_nil]; exact ⟨g2, g3, g4⟩
      · rw [sess_snoc]
        simp only [Sess.step, if_neg (Ne.symm e)]
        exact ⟨g2, g3, g4⟩
  | @close i t hi hs =>
    have e := close_up hc hj
    refine ⟨s, ?_, ?_⟩
    · show (if j = i then _ else _) = _; rw [if_neg e]; exact g1
    · show SessOK (sess j (c.log ++ _ ++ _)) _
      rw [sess_append, foldl_free, sess_snoc]
      exact ⟨g2, g3, g4⟩

/-! ## What was put on a connection is what left it and what is still in its buffer -/

def StrmOK (c : SubCtx) : Prop := ∀ i, Up c i →
  (sess i c.log).out ++ bytes (c.cv.conns i).writeBuf = (sess i c.log).msgs.flatten

theorem StrmOK.micro {c c' : SubCtx} (m : Micro tm c c') (hc : Core c) (h : StrmOK c) : StrmOK c' := by
  intro j hj
  rcases m.up hc hj with hj0 | ⟨l, h1, h2, h3, h4, h5, _⟩
  rotate_left
  · rw [h1, sess_snoc]
    simp only [Sess.step, if_true]
    rw [h3, fresh_bytes (hc.fresh j h5 (fun h => h4 ⟨h5, h⟩)).2 (by decide)]
    rfl
  have g := h j hj0
  have other : ∀ (i : Nat) (x : Conn), (i = j → bytes x.writeBuf = bytes (c.cv.conns j).writeBuf) →
      (sess j c.log).out ++ bytes (if j = i then x else c.cv.conns j).writeBuf = (sess j c.log).msgs.flatten := by
    intro i x hx
    by_cases e : j = i
    · rw [if_pos e, hx e.symm]; exact g
    · rw [if_neg e]; exact g
  cases m with
  | user hx he => rcases he with rfl | rfl <;> (unfold ev; rw [sess_snoc]; exact g)
  | cb hk => unfold ev; rw [sess_snoc]; exact g
  | setCb f hk => exact g
  | annCb a => unfold ev; rw [sess_snoc]; exact g
  | sock m es => exact g
  | @dup i t hu hs p m ts hp hd =>
    unfold ev; rw [sess_snoc]; simp only [Sess.step]; split <;> exact g
  | @recv i t hu hs pid data m ts hd al ha =>
    show (sess j (c.log ++ _ ++ _ ++ _)).out ++ bytes (c.cv.conns j).writeBuf = (sess j (c.log ++ _ ++ _ ++ _)).msgs.flatten
    have rd : ∀ (ps : List SPkt) (s : Sess), ((ps.map SEv.ready).foldl (Sess.step j) s).out = s.out ∧
        ((ps.map SEv.ready).foldl (Sess.step j) s).msgs = s.msgs := by
      intro ps
      induction ps with
      | nil => intro s; exact ⟨rfl, rfl⟩
      | cons p ps ih =>
        intro s
        rw [List.map_cons, List.foldl_cons, (ih _).1, (ih _).2]
        simp only [Sess.step]
        split <;> exact ⟨rfl, rfl⟩
    rw [sess_append, (rd _ _).1, (rd _ _).2, sess_snoc, sess_snoc]
    simp only [Sess.step]; split <;> exact g
  | @io i hu rb a es => exact other i { c.cv.conns i with readBuf := rb, action := a } (fun e => by rw [e])
  | @taken i t iv rest hs hi ha =>
    show (sess j (c.log ++ _)).out ++ bytes (c.cv.conns j).writeBuf = (sess j (c.log ++ _)).msgs.flatten
    rw [sess_snoc]; simp only [Sess.step]; split <;> exact g
  | dropAck ha hs hi => exact g
  | @msg i hu b e xs hw hz hb he =>
    show (sess j (c.log ++ [e])).out ++ bytes (if j = i then { c.cv.conns i with writeBuf := b, action := (c.cv.conns i).action.setW }
      else c.cv.conns j : Conn).writeBuf = (sess j (c.log ++ [e])).msgs.flatten
    rw [sess_snoc]
    by_cases ej : j = i
    · subst ej
      rw [if_pos rfl]
      simp only
      rw [hb]
      rcases he with ⟨iv, -, rfl, rfl⟩ | ⟨bs, ds, rfl, rfl, -⟩ <;>
      · simp only [Sess.step, if_true, List.flatten_append, List.flatten_cons, List.flatten_nil, List.append_nil]
        rw [← g, List.append_assoc]
    · rw [if_neg ej]
      rcases he with ⟨iv, -, rfl, rfl⟩ | ⟨bs, ds, rfl, rfl, -⟩ <;>
      · simp only [Sess.step, if_neg (Ne.symm ej)]; exact g
  | @out i hu b xs hw hz hb a es =>
    show (sess j (c.log ++ [_])).out ++ bytes (if j = i then { c.cv.conns i with writeBuf := b, action := a }
      else c.cv.conns j : Conn).writeBuf = (sess j (c.log ++ [_])).msgs.flatten
    rw [sess_snoc]
    by_cases ej : j = i
    · subst ej
      rw [if_pos rfl]
      simp only [Sess.step, if_true]
      rw [← g, ← hb, List.append_assoc]
    · rw [if_neg ej]
      simp only [Sess.step, if_neg (Ne.symm ej)]; exact g
  | @connect i addr port nid d L hv hL hi v hv' h1 h2 h3 h4 h5 =>
    have e : j ≠ i := by
      intro e; subst e
      exact hL ((hv.mode j hi).1 (by rw [hj0.2]; decide))
    show (sess j (c.log ++ [_])).out ++ bytes (v.conns j).writeBuf = (sess j (c.log ++ [_])).msgs.flatten
    rw [sess_snoc, h3 j e]; exact g
  | @noConnect L hv v hv' h1 h2 h3 h4 =>
    have : j ∈ L := (hv.mode j hj0.1).1 (by rw [hj0.2]; decide)
    show (sess j c.log).out ++ bytes (v.conns j).writeBuf = _
    rw [h4 j this]; exact g
  | @complete i hi hm =>
    have e : j ≠ i := fun e => Core.notUp hm (e ▸ hj0)
    show (sess j (c.log ++ [_])).out ++ bytes (if j = i then _ else c.cv.conns j : Conn).writeBuf = (sess j (c.log ++ [_])).msgs.flatten
    rw [sess_snoc, if_neg e]
    simp only [Sess.step, if_neg (Ne.symm e)]; exact g
  | @noComplete i hi hm L hv v hv' h1 h2 h3 h4 xs hx =>
    have e : j ≠ i := fun e => Core.notUp hm (e ▸ hj0)
    show (sess j (c.log ++ _)).out ++ bytes (v.conns j).writeBuf = (sess j (c.log ++ _)).msgs.flatten
    rw [h3 j e]
    rcases hx with rfl | rfl
    · rw [List.append_nil]; exact g
    · rw [sess_snoc]; simp only [Sess.step, if_neg (Ne.symm e)]; exact g
  | @close i t hi hs =>
    have e := close_up hc hj
    show (sess j (c.log ++ _ ++ _)).out ++ bytes ((ConnVec.close c.cv i).2.conns j).writeBuf = (sess j (c.log ++ _ ++ _)).msgs.flatten
    rw [sess_append, foldl_free, sess_snoc, close_conn hc e]
    exact g

/-! ## Payload memory -/

/-- The packets payload memory was allocated for. -/
def born (log : List SEv) : List SPkt := log.filterMap fun e => match e with | .alloc p => some p | _ => none

/-- The payloads given back or handed over to the user. -/
def released (log : List SEv) : List Nat :=
  log.filterMap fun e => match e with | .free a _ _ => some a | .keep a => some a | _ => none

theorem born_append (a b : List SEv) : born (a ++ b) = born a ++ born b := List.filterMap_append
theorem released_append (a b : List SEv) : released (a ++ b) = released a ++ released b := List.filterMap_append

theorem born_ready (ps : List SPkt) : born (ps.map SEv.ready) = [] := by
  unfold born; rw [List.filterMap_eq_nil_iff]; intro e he
  obtain ⟨p, _, rfl⟩ := List.mem_map.1 he; rfl
theorem released_ready (ps : List SPkt) : released (ps.map SEv.ready) = [] := by
  unfold released; rw [List.filterMap_eq_nil_iff]; intro e he
  obtain ⟨p, _, rfl⟩ := List.mem_map.1 he; rfl
theorem born_free (ps : List SPkt) : born (ps.map fun p => SEv.free p.payload.ptr p.payload.data.length (.u32 p.slot)) = [] := by
  unfold born; rw [List.filterMap_eq_nil_iff]; intro e he
  obtain ⟨p, _, rfl⟩ := List.mem_map.1 he; rfl
theorem released_free (ps : List SPkt) : released (ps.map fun p => SEv.free p.payload.ptr p.payload.data.length (.u32 p.slot)) = ps.map (·.payload.ptr) := by
  induction ps with
  | nil => rfl
  | cons p ps ih =>
    rw [List.map_cons, List.map_cons, ← ih]; rfl

/-- The packets waiting in some record. -/
def Waiting (c : SubCtx) (p : SPkt) : Prop := ∃ i s, c.publishers i = some s ∧ p ∈ s.received

/-- Every payload is in one place. -/
structure MemOK (c : SubCtx) : Prop where
  addrs : (born c.log).map (·.addr) = List.range' 1 (born c.log).length
  next : c.nextAddr = (born c.log).length + 1
  ptr : ∀ p ∈ born c.log, p.payload.ptr = p.addr
  rdyND : c.ready.Nodup
  rdy : ∀ p ∈ c.ready, p ∈ born c.log ∧ p.addr ∉ released c.log
  rcvND : ∀ i s, c.publishers i = some s → s.received.Nodup
  rcv : ∀ p, Waiting c p → p ∈ born c.log ∧ p ∉ c.ready ∧ p.addr ∉ released c.log
  rel : ∀ a ∈ released c.log, a ∈ (born c.log).map (·.addr)
  relND : (released c.log).Nodup

theorem MemOK.inj {c : SubCtx} (h : MemOK c) {p q : SPkt} (hp : p ∈ born c.log) (hq : q ∈ born c.log)
    (e : p.addr = q.addr) : p = q := by
  have hn : ((born c.log).map (·.addr)).Nodup := by rw [h.addrs]; exact List.nodup_range'
  exact inj_of_nodup_map hn hp hq e

theorem MemOK_init (mem : Nat → Conn) (maxPubs nodeId : Nat) : MemOK (init mem maxPubs nodeId) := by
  refine ⟨rfl, rfl, ?_, List.nodup_nil, ?_, ?_, ?_, ?_, List.nodup_nil⟩
  · intro p hp; cases hp
  · intro p hp; cases hp
  · intro i s hs; cases hs
  · rintro p ⟨i, s, hs, _⟩; cases hs
  · intro a ha; cases ha

/-- Changes that do not touch packets. -/
theorem MemOK.congr {c c' : SubCtx} (h : MemOK c) (h1 : born c'.log = born c.log) (h2 : released c'.log = released c.log)
    (h3 : c'.ready = c.ready) (h4 : c'.nextAddr = c.nextAddr)
    (h5 : ∀ i s, c'.publishers i = some s → s.received = [] ∨ ∃ t, c.publishers i = some t ∧ t.received = s.received) :
    MemOK c' := by
  have hW : ∀ p, Waiting c' p → Waiting c p := by
    rintro p ⟨i, s, hs, hp⟩
    rcases h5 i s hs with e | ⟨t, e1, e2⟩
    · rw [e] at hp; cases hp
    · exact ⟨i, t, e1, e2 ▸ hp⟩
  refine ⟨by rw [h1]; exact h.addrs, by rw [h1, h4]; exact h.next, by rw [h1]; exact h.ptr, by rw [h3]; exact h.rdyND,
    by rw [h1, h2, h3]; exact h.rdy, ?_, ?_, by rw [h1, h2]; exact h.rel, by rw [h2]; exact h.relND⟩
  · intro i s hs
    rcases h5 i s hs with e | ⟨t, e1, e2⟩
    · rw [e]; exact List.nodup_nil
    · rw [← e2]; exact h.rcvND i t e1
  · intro p hp; rw [h1, h2, h3]; exact h.rcv p (hW p hp)

theorem takeReady_spec {a : Nat} : ∀ {l : List SPkt} {p : SPkt} {ps : List SPkt}, takeReady a l = some (p, ps) →
    p.addr = a ∧ ∃ xs ys, l = xs ++ p :: ys ∧ ps = xs ++ ys ∧ ∀ x ∈ xs, x.addr ≠ a := by
  intro l
  induction l with
  | nil => intro p ps h; cases h
  | cons q l ih =>
    intro p ps h
    unfold takeReady at h
    split at h
    · rename_i e; cases h; exact ⟨e, [], l, rfl, rfl, by simp⟩
    · rename_i e
      cases hr : takeReady a l with
      | none => rw [hr] at h; cases h
      | some r =>
        obtain ⟨p', ps'⟩ := r
        rw [hr] at h
        cases h
        obtain ⟨h1, xs, ys, h2, h3, h4⟩ := ih hr
        refine ⟨h1, q :: xs, ys, by rw [h2]; rfl, by rw [h3]; rfl, ?_⟩
        intro x hx
        rcases List.mem_cons.1 hx with rfl | hx
        · exact e
        · exact h4 x hx

theorem takeReady_none {a : Nat} : ∀ {l : List SPkt}, takeReady a l = none ↔ ∀ p ∈ l, p.addr ≠ a := by
  intro l
  induction l with
  | nil => simp [takeReady]
  | cons q l ih =>
    unfold takeReady
    split
    · rename_i e; simp [e]
    · rename_i e; simp [ih, e]

theorem born_bound {c : SubCtx} (h : MemOK c) {p : SPkt} (hp : p ∈ born c.log) : p.addr < c.nextAddr := by
  have : p.addr ∈ (born c.log).map (·.addr) := List.mem_map.2 ⟨p, hp, rfl⟩
  rw [h.addrs, List.mem_range'_1] at this
  rw [h.next]; omega

theorem MemOK.micro {c c' : SubCtx} (m : Micro tm c c') (hc : Core c) (h : MemOK c) : MemOK c' := by
  have snocB : ∀ (e : SEv) (l : List SEv), (∀ p, e ≠ .alloc p) → born (l ++ [e]) = born l := by
    intro e l he
    rw [born_append]
    cases e <;> first | exact List.append_nil _ | exact absurd rfl (he _)
  have snocR : ∀ (e : SEv) (l : List SEv), (∀ a n u, e ≠ .free a n u) → (∀ a, e ≠ .keep a) → released (l ++ [e]) = released l := by
    intro e l h1 h2
    rw [released_append]
    cases e <;> first | exact List.append_nil _ | exact absurd rfl (h1 _ _ _) | exact absurd rfl (h2 _)
  have same : ∀ i s, c.publishers i = some s → s.received = [] ∨ ∃ t, c.publishers i = some t ∧ t.received = s.received :=
    fun i s hs => .inr ⟨s, hs, rfl⟩
  have setOne : ∀ (i : Nat) (x : SubPub), (x.received = [] ∨ ∃ t, c.publishers i = some t ∧ t.received = x.received) →
      ∀ j s, (if j = i then some x else c.publishers j) = some s →
        s.received = [] ∨ ∃ t, c.publishers j = some t ∧ t.received = s.received := by
    intro i x hx j s hs
    by_cases e : j = i
    · subst e; rw [if_pos rfl] at hs; cases hs; exact hx
    · rw [if_neg e] at hs; exact same j s hs
  cases m with
  | @user a p ps hx e he =>
    obtain ⟨h1, xs, ys, h2, h3, h4⟩ := takeReady_spec hx
    have hpr : p ∈ c.ready := by rw [h2]; simp
    obtain ⟨hb, hnr⟩ := h.rdy p hpr
    have hptr := h.ptr p hb
    have eb : born (c.log ++ [e]) = born c.log := by
      apply snocB; rintro q rfl; rcases he with he | he <;> cases he
    have er : released (c.log ++ [e]) = released c.log ++ [p.addr] := by
      rw [released_append, ← hptr]; rcases he with rfl | rfl <;> rfl
    have hnd := h.rdyND
    rw [h2, List.nodup_append] at hnd
    have hsub : ∀ q ∈ ps, q ∈ c.ready ∧ q ≠ p := by
      intro q hq
      rw [h3] at hq
      refine ⟨by rw [h2]; rcases List.mem_append.1 hq with hq | hq <;> simp [hq], ?_⟩
      rintro rfl
      rcases List.mem_append.1 hq with hq | hq
      · exact hnd.2.2 q hq q (by simp) rfl
      · exact (List.nodup_cons.1 hnd.2.1).1 hq
    refine ⟨by unfold ev; rw [eb]; exact h.addrs, by unfold ev; rw [eb]; exact h.next, by unfold ev; rw [eb]; exact h.ptr, ?_, ?_,
      h.rcvND, ?_, ?_, ?_⟩
    · show ps.Nodup
      rw [h3, List.nodup_append]
      refine ⟨hnd.1, (List.nodup_cons.1 hnd.2.1).2, fun x hx y hy => hnd.2.2 x hx y (by simp [hy])⟩
    · intro q hq
      show q ∈ born (c.log ++ [e]) ∧ q.addr ∉ released (c.log ++ [e])
      rw [eb, er]
      obtain ⟨q1, q2⟩ := hsub q hq
      obtain ⟨q3, q4⟩ := h.rdy q q1
      refine ⟨q3, ?_⟩
      rw [List.mem_append, List.mem_singleton]
      rintro (q5 | q5)
      · exact q4 q5
      · exact q2 (h.inj q3 hb q5)
    · intro q hq
      show q ∈ born (c.log ++ [e]) ∧ q ∉ ps ∧ q.addr ∉ released (c.log ++ [e])
      rw [eb, er]
      obtain ⟨q1, q2, q3⟩ := h.rcv q hq
      refine ⟨q1, fun hqp => q2 (hsub q hqp).1, ?_⟩
      rw [List.mem_append, List.mem_singleton]
      rintro (q5 | q5)
      · exact q3 q5
      · have := h.inj q1 hb q5; subst this; exact q2 hpr
    · intro b hb'
      show b ∈ (born (c.log ++ [e])).map _
      have hb' : b ∈ released (c.log ++ [e]) := hb'
      rw [eb]
      rw [er, List.mem_append, List.mem_singleton] at hb'
      rcases hb' with hb' | rfl
      · exact h.rel b hb'
      · exact List.mem_map.2 ⟨p, hb, rfl⟩
    · show (released (c.log ++ [e])).Nodup
      rw [er, List.nodup_append]
      refine ⟨h.relND, by simp, fun x hx y hy => ?_⟩
      rw [List.mem_singleton] at hy
      rintro rfl; rw [hy] at hx; exact hnr hx
  | cb hk => exact h.congr (snocB _ _ (by simp)) (snocR _ _ (by simp) (by simp)) rfl rfl same
  | setCb f hk => exact h.congr rfl rfl rfl rfl same
  | annCb a => exact h.congr (snocB _ _ (by simp)) (snocR _ _ (by simp) (by simp)) rfl rfl same
  | sock m es => exact h.congr rfl rfl rfl rfl same
  | dup hu hs hp hd hk => exact h.congr (snocB _ _ (by simp)) (snocR _ _ (by simp) (by simp)) rfl rfl same
  | @recv i t hu hs pid data m ts hd al ha =>
    obtain ⟨p, hp⟩ : ∃ p, p = (⟨c.nextAddr, pid, ⟨c.nextAddr, data, false⟩, i⟩ : SPkt) := ⟨_, rfl⟩
    rw [← hp]
    have pa : p.addr = c.nextAddr := by rw [hp]
    have eb : born (recvd c i t p m ts al).log = born c.log ++ [p] := by
      show born (c.log ++ _ ++ _ ++ _) = _
      rw [born_append, born_ready, List.append_nil, born_append, snocB _ _ (by simp)]; rfl
    have er : released (recvd c i t p m ts al).log = released c.log := by
      show released (c.log ++ _ ++ _ ++ _) = _
      rw [released_append, released_ready, List.append_nil, snocR _ _ (by simp) (by simp), snocR _ _ (by simp) (by simp)]
    have hperm := recv_perm t p m ts
    have hfreshp : p ∉ born c.log := by
      intro hb; have := born_bound h hb; rw [pa] at this; omega
    have hfreshr : p.addr ∉ released c.log := by
      intro hb
      have := h.rel _ hb
      obtain ⟨q, hq, e⟩ := List.mem_map.1 this
      have := born_bound h hq; rw [e, pa] at this; omega
    have hnd : (p :: t.received).Nodup := by
      refine List.nodup_cons.2 ⟨fun hm => hfreshp (h.rcv p ⟨i, t, hs, hm⟩).1, h.rcvND i t hs⟩
    have hnd' := hperm.nodup_iff.2 hnd
    rw [List.nodup_append] at hnd'
    have hmem : ∀ q, q ∈ (process (received' t p m ts)).2 ∨ q ∈ (process (received' t p m ts)).1.received ↔
        q = p ∨ q ∈ t.received := by
      intro q; rw [← List.mem_append, hperm.mem_iff, List.mem_cons]
    have hslot : ∀ q, q = p ∨ q ∈ t.received → q.slot = i := by
      rintro q (rfl | hq)
      · rw [hp]
      · exact hc.slot i t hs q hq
    have hqb : ∀ q, q = p ∨ q ∈ t.received → q ∈ born c.log ++ [p] ∧ q ∉ c.ready ∧ q.addr ∉ released c.log := by
      rintro q (rfl | hq)
      · exact ⟨by simp, fun hr => hfreshp (h.rdy q hr).1, hfreshr⟩
      · have := h.rcv q ⟨i, t, hs, hq⟩
        exact ⟨by simp [this.1], this.2⟩
    refine ⟨?_, ?_, ?_, ?_, ?_, ?_, ?_, ?_, ?_⟩
    · rw [eb, List.map_append, List.length_append, h.addrs, List.map_singleton, pa, h.next]
      show _ = List.range' 1 ((born c.log).length + 1)
      rw [List.range'_concat]; simp [Nat.add_comm]
    · show c.nextAddr + 1 = _; rw [eb, List.length_append, h.next]; rfl
    · rw [eb]; intro q hq
      rcases List.mem_append.1 hq with hq | hq
      · exact h.ptr q hq
      · rw [List.mem_singleton.1 hq, hp]
    · show (c.ready ++ _).Nodup
      rw [List.nodup_append]
      refine ⟨h.rdyND, hnd'.1, ?_⟩
      rintro x hx y hy rfl
      exact (hqb x ((hmem x).1 (.inl hy))).2.1 hx
    · intro q hq
      rw [eb, er]
      have hq : q ∈ c.ready ++ _ := hq
      rcases List.mem_append.1 hq with hq | hq
      · have := h.rdy q hq; exact ⟨by simp [this.1], this.2⟩
      · have := hqb q ((hmem q).1 (.inl hq)); exact ⟨this.1, this.2.2⟩
    · intro j s hjs
      have hjs : (if j = i then some (process (received' t p m ts)).1 else c.publishers j) = some s := hjs
      by_cases e : j = i
      · rw [if_pos e] at hjs; cases hjs; exact hnd'.2.1
      · rw [if_neg e] at hjs; exact h.rcvND j s hjs
    · rintro q ⟨j, s, hjs, hq⟩
      rw [eb, er]
      show _ ∧ q ∉ c.ready ++ _ ∧ _
      have hjs : (if j = i then some (process (received' t p m ts)).1 else c.publishers j) = some s := hjs
      by_cases e : j = i
      · rw [if_pos e] at hjs; cases hjs
        have := hqb q ((hmem q).1 (.inr hq))
        refine ⟨this.1, ?_, this.2.2⟩
        rw [List.mem_append]
        rintro (hr | hr)
        · exact this.2.1 hr
        · exact hnd'.2.2 q hr q hq rfl
      · rw [if_neg e] at hjs
        have := h.rcv q ⟨j, s, hjs, hq⟩
        refine ⟨by simp [this.1], ?_, this.2.2⟩
        rw [List.mem_append]
        rintro (hr | hr)
        · exact this.2.1 hr
        · have h1 := hslot q ((hmem q).1 (.inl hr))
          have h2 := hc.slot j s hjs q hq
          exact e (h2.symm.trans h1)
    · rw [eb, er]; intro a ha'
      rw [List.map_append]; exact List.mem_append_left _ (h.rel a ha')
    · rw [er]; exact h.relND
  | io hu rb a es => exact h.congr rfl rfl rfl rfl same
  | @taken i t iv rest hs hi ha =>
    exact h.congr (snocB _ _ (by simp)) (snocR _ _ (by simp) (by simp)) rfl rfl (setOne i _ (.inr ⟨t, hs, rfl⟩))
  | dropAck ha hs hi => exact h.congr rfl rfl rfl rfl same
  | msg hu hw hz hb he =>
    refine h.congr (snocB _ _ ?_) (snocR _ _ ?_ ?_) rfl rfl same <;>
    · intros; rintro rfl
      rcases he with ⟨iv, -, he, -⟩ | ⟨bs, ds, he, -⟩ <;> cases he
  | out hu hw hz hb a es => exact h.congr (snocB _ _ (by simp)) (snocR _ _ (by simp) (by simp)) rfl rfl same
  | connect addr port nid d hv hL hi hv' h1 h2 h3 h4 h5 =>
    exact h.congr (snocB _ _ (by simp)) (snocR _ _ (by simp) (by simp)) rfl rfl same
  | noConnect hv hv' h1 h2 h3 h4 => exact h.congr rfl rfl rfl rfl same
  | @complete i hi hm =>
    exact h.congr (snocB _ _ (by simp)) (snocR _ _ (by simp) (by simp)) rfl rfl (setOne i _ (.inl rfl))
  | @noComplete i hi hm L hv v hv' h1 h2 h3 h4 xs hx =>
    rcases hx with rfl | rfl
    · exact h.congr (by show born (c.log ++ []) = _; rw [List.append_nil]) (by show released (c.log ++ []) = _; rw [List.append_nil])
        rfl rfl (setOne i _ (.inl rfl))
    · exact h.congr (snocB _ _ (by simp)) (snocR _ _ (by simp) (by simp)) rfl rfl (setOne i _ (.inl rfl))
  | @close i t hi hs =>
    have eb : born (closedAt c i t).log = born c.log := by
      show born (c.log ++ _ ++ _) = _
      rw [born_append, born_free, List.append_nil, snocB _ _ (by simp)]
    have hW : ∀ q ∈ t.received, Waiting c q := fun q hq => ⟨i, t, hs, hq⟩
    have hptr : t.received.map (·.payload.ptr) = t.received.map (·.addr) :=
      List.map_congr_left (fun q hq => h.ptr q (h.rcv q (hW q hq)).1)
    have er : released (closedAt c i t).log = released c.log ++ t.received.map (·.addr) := by
      show released (c.log ++ _ ++ _) = _
      rw [released_append, released_free, snocR _ _ (by simp) (by simp)]
      show _ ++ t.received.map (·.payload.ptr) = _
      rw [hptr]
    have hpub : ∀ j s, (closedAt c i t).publishers j = some s → s.received = [] ∨ (j ≠ i ∧ c.publishers j = some s) := by
      intro j s hjs
      have hjs : (if j = i then some (reset t).1 else c.publishers j) = some s := hjs
      by_cases e : j = i
      · rw [if_pos e] at hjs; cases hjs; exact .inl rfl
      · rw [if_neg e] at hjs; exact .inr ⟨e, hjs⟩
    refine ⟨by rw [eb]; exact h.addrs, by rw [eb]; exact h.next, by rw [eb]; exact h.ptr, h.rdyND, ?_, ?_, ?_, ?_, ?_⟩
    · intro q hq
      have hq : q ∈ c.ready := hq
      rw [eb, er]
      obtain ⟨q1, q2⟩ := h.rdy q hq
      refine ⟨q1, ?_⟩
      rw [List.mem_append, List.mem_map]
      rintro (q3 | ⟨r, r1, r2⟩)
      · exact q2 q3
      · have := h.rcv r (hW r r1)
        have := h.inj this.1 q1 r2; subst this
        exact (h.rcv r (hW r r1)).2.1 hq
    · intro j s hjs
      rcases hpub j s hjs with e | ⟨_, e⟩
      · rw [e]; exact List.nodup_nil
      · exact h.rcvND j s e
    · rintro q ⟨j, s, hjs, hq⟩
      rw [eb, er]
      rcases hpub j s hjs with e | ⟨ne, e⟩
      · rw [e] at hq; cases hq
      · obtain ⟨q1, q2, q3⟩ := h.rcv q ⟨j, s, e, hq⟩
        refine ⟨q1, q2, ?_⟩
        rw [List.mem_append, List.mem_map]
        rintro (q4 | ⟨r, r1, r2⟩)
        · exact q3 q4
        · have hr := h.rcv r (hW r r1)
          have := h.inj hr.1 q1 r2; subst this
          exact ne ((hc.slot j s e r hq).symm.trans (hc.slot i t hs r r1))
    · rw [eb, er]; intro a ha
      rcases List.mem_append.1 ha with ha | ha
      · exact h.rel a ha
      · obtain ⟨r, r1, r2⟩ := List.mem_map.1 ha
        exact List.mem_map.2 ⟨r, (h.rcv r (hW r r1)).1, r2⟩
    · rw [er, List.nodup_append]
      refine ⟨h.relND, ?_, ?_⟩
      · have hn := h.rcvND i t hs
        refine List.pairwise_map.2 (List.Pairwise.imp_of_mem ?_ hn)
        intro x y hx hy ne e
        exact ne (h.inj (h.rcv x (hW x hx)).1 (h.rcv y (hW y hy)).1 e)
      · rintro x hx y hy rfl
        obtain ⟨r, r1, r2⟩ := List.mem_map.1 hy
        rw [← r2] at hx
        exact (h.rcv r (hW r r1)).2.2 hx

/-- No payload is lost. -/
def NoLeak (c : SubCtx) : Prop := ∀ p ∈ born c.log, p.addr ∈ released c.log ∨ p ∈ c.ready ∨ Waiting c p

/-- Every publisher with intervals to acknowledge is on the list. -/
def AckCov (c : SubCtx) : Prop := ∀ i s, c.publishers i = some s → s.intervals ≠ [] → i ∈ c.ackList

theorem NoLeak.micro {c c' : SubCtx} (m : Micro tm c c') (hc : Core c) (hm : MemOK c) (h : NoLeak c) : NoLeak c' := by
  have gen : (∀ p, p ∈ born c'.log → p ∈ born c.log) → (∀ a, a ∈ released c.log → a ∈ released c'.log) →
      (∀ p, p ∈ c.ready → p.addr ∈ released c'.log ∨ p ∈ c'.ready ∨ Waiting c' p) →
      (∀ p, Waiting c p → p.addr ∈ released c'.log ∨ p ∈ c'.ready ∨ Waiting c' p) → NoLeak c' := by
    intro h1 h2 h3 h4 p hp
    rcases h p (h1 p hp) with h5 | h5 | h5
    · exact .inl (h2 _ h5)
    · exact h3 p h5
    · exact h4 p h5
  have snocB : ∀ (e : SEv) (l : List SEv), (∀ p, e ≠ .alloc p) → ∀ p, p ∈ born (l ++ [e]) → p ∈ born l := by
    intro e l he p hp
    rw [born_append, List.mem_append] at hp
    rcases hp with hp | hp
    · exact hp
    · cases e <;> first | exact absurd rfl (he _) | cases hp
  have appR : ∀ (e l : List SEv), ∀ a, a ∈ released l → a ∈ released (l ++ e) := by
    intro e l a ha; rw [released_append]; exact List.mem_append_left _ ha
  have waitSet : ∀ (i : Nat) (x : SubPub) (f : Nat → Option SubPub), (∀ j, f j = if j = i then some x else c.publishers j) →
      (∀ t, c.publishers i = some t → ∀ p ∈ t.received, p ∈ x.received) → ∀ p, Waiting c p →
      ∃ j s, f j = some s ∧ p ∈ s.received := by
    rintro i x f hf hx p ⟨j, s, hs, hp⟩
    by_cases e : j = i
    · subst e; exact ⟨j, x, by rw [hf, if_pos rfl], hx s hs p hp⟩
    · exact ⟨j, s, by rw [hf, if_neg e]; exact hs, hp⟩
  cases m with
  | @user a p ps hx e he =>
    obtain ⟨h1, xs, ys, h2, h3, h4⟩ := takeReady_spec hx
    have hpr : p ∈ c.ready := by rw [h2]; simp
    refine gen (snocB _ _ ?_) (appR _ _) ?_ (fun q hq => .inr (.inr hq))
    · rintro q rfl; rcases he with he | he <;> cases he
    · intro q hq
      rw [h2] at hq
      by_cases e : q = p
      · left
        show _ ∈ released (c.log ++ _)
        rw [released_append, e, ← hm.ptr p (hm.rdy p hpr).1]
        rcases he with rfl | rfl <;> exact List.mem_append_right _ (List.mem_singleton.2 rfl)
      · right; left
        show q ∈ ps
        rw [h3]
        rcases List.mem_append.1 hq with hq | hq
        · simp [hq]
        · rcases List.mem_cons.1 hq with hq | hq
          · exact absurd hq e
          · simp [hq]
  | cb hk => exact gen (snocB _ _ (by simp)) (appR _ _) (fun q hq => .inr (.inl hq)) (fun q hq => .inr (.inr hq))
  | setCb f hk => exact h
  | annCb a => exact gen (snocB _ _ (by simp)) (appR _ _) (fun q hq => .inr (.inl hq)) (fun q hq => .inr (.inr hq))
  | sock m es => exact h
  | dup hu hs hp hd hk => exact gen (snocB _ _ (by simp)) (appR _ _) (fun q hq => .inr (.inl hq)) (fun q hq => .inr (.inr hq))
  | @recv i t hu hs pid data m ts hd al ha =>
    obtain ⟨p, hp⟩ : ∃ p, p = (⟨c.nextAddr, pid, ⟨c.nextAddr, data, false⟩, i⟩ : SPkt) := ⟨_, rfl⟩
    rw [← hp]
    have hperm := recv_perm t p m ts
    have place : ∀ q, q = p ∨ q ∈ t.received → q ∈ (recvd c i t p m ts al).ready ∨ Waiting (recvd c i t p m ts al) q := by
      intro q hq
      have := hperm.mem_iff.2 (List.mem_cons.2 hq)
      rcases List.mem_append.1 this with h1 | h1
      · left; exact List.mem_append_right _ h1
      · right; exact ⟨i, _, by show (if i = i then _ else _) = _; rw [if_pos rfl], h1⟩
    intro q hq
    have hq : q ∈ born (c.log ++ _ ++ _ ++ _) := hq
    rw [born_append, born_ready, List.append_nil, born_append] at hq
    rcases List.mem_append.1 hq with hq | hq
    · rcases h q (snocB _ _ (by simp) q hq) with h5 | h5 | ⟨j, s, h6, h7⟩
      · left
        show _ ∈ released (c.log ++ _ ++ _ ++ _)
        exact appR _ _ _ (appR _ _ _ (appR _ _ _ h5))
      · exact .inr (.inl (List.mem_append_left _ h5))
      · by_cases e : j = i
        · subst e; rw [hs] at h6; cases h6
          exact .inr (place q (.inr h7))
        · exact .inr (.inr ⟨j, s, by show (if j = i then _ else _) = _; rw [if_neg e]; exact h6, h7⟩)
    · have : q = p := by simpa [born] using hq
      exact .inr (place q (.inl this))
  | io hu rb a es => exact h
  | @taken i t iv rest hs hi ha =>
    exact gen (snocB _ _ (by simp)) (appR _ _) (fun q hq => .inr (.inl hq)) (fun q hq => .inr (.inr
      (waitSet i { t with intervals := rest } _ (fun j => rfl) (fun t' ht p hp => by rw [hs] at ht; cases ht; exact hp) q hq)))
  | dropAck ha hs hi => exact h
  | msg hu hw hz hb he =>
    refine gen (snocB _ _ ?_) (appR _ _) (fun q hq => .inr (.inl hq)) (fun q hq => .inr (.inr hq))
    rintro q rfl
    rcases he with ⟨iv, -, he, -⟩ | ⟨bs, ds, he, -⟩ <;> cases he
  | out hu hw hz hb a es => exact gen (snocB _ _ (by simp)) (appR _ _) (fun q hq => .inr (.inl hq)) (fun q hq => .inr (.inr hq))
  | connect addr port nid d hv hL hi hv' h1 h2 h3 h4 h5 =>
    exact gen (snocB _ _ (by simp)) (appR _ _) (fun q hq => .inr (.inl hq)) (fun q hq => .inr (.inr hq))
  | noConnect hv hv' h1 h2 h3 h4 => exact h
  | @complete i hi hm =>
    exact gen (snocB _ _ (by simp)) (appR _ _) (fun q hq => .inr (.inl hq)) (fun q hq => .inr (.inr
      (waitSet i SubPub.init _ (fun j => rfl) (fun t ht p hp => by
        rw [(hc.idle i t ht (Core.notUp hm)).1] at hp; cases hp) q hq)))
  | @noComplete i hi hm L hv v hv' h1 h2 h3 h4 xs hx =>
    refine gen ?_ (appR _ _) (fun q hq => .inr (.inl hq)) (fun q hq => .inr (.inr
      (waitSet i SubPub.init _ (fun j => rfl) (fun t ht p hp => by
        rw [(hc.idle i t ht (Core.notUp hm)).1] at hp; cases hp) q hq)))
    rcases hx with rfl | rfl
    · intro p hp
      have hp : p ∈ born (c.log ++ []) := hp
      rw [List.append_nil] at hp; exact hp
    · exact snocB _ _ (by simp)
  | @close i t hi hs =>
    refine gen ?_ ?_ (fun q hq => .inr (.inl hq)) ?_
    · intro p hp
      have hp : p ∈ born (c.log ++ _ ++ _) := hp
      rw [born_append, born_free, List.append_nil] at hp
      exact snocB _ _ (by simp) p hp
    · intro a ha; exact appR _ _ _ (appR _ _ _ ha)
    · rintro q ⟨j, s, h6, h7⟩
      by_cases e : j = i
      · subst e; rw [hs] at h6; cases h6
        left
        show _ ∈ released (c.log ++ _ ++ _)
        rw [released_append, released_free, ← hm.ptr q (hm.rcv q ⟨j, t, hs, h7⟩).1]
        exact List.mem_append_right _ (List.mem_map.2 ⟨q, h7, rfl⟩)
      · exact .inr (.inr ⟨j, s, by show (if j = i then _ else _) = _; rw [if_neg e]; exact h6, h7⟩)

theorem AckCov.micro {c c' : SubCtx} (m : Micro tm c c') (hc : Core c) (h : AckCov c) : AckCov c' := by
  have setOne : ∀ (i : Nat) (x : SubPub) (al : List Nat), (x.intervals ≠ [] → i ∈ al) → (∀ j ∈ c.ackList, j ∈ al) →
      ∀ j s, (if j = i then some x else c.publishers j) = some s → s.intervals ≠ [] → j ∈ al := by
    intro i x al hx ha j s hs hn
    by_cases e : j = i
    · subst e; rw [if_pos rfl] at hs; cases hs; exact hx hn
    · rw [if_neg e] at hs; exact ha j (h j s hs hn)
  cases m with
  | user hx he => exact h
  | cb hk => exact h
  | setCb f hk => exact h
  | annCb a => exact h
  | sock m es => exact h
  | dup hu hs hp hd hk => exact h
  | @recv i t hu hs pid data m ts hd al ha =>
    refine setOne i _ al ?_ ha.mem.2.1
    intro hn
    rw [process_intervals] at hn
    cases m with
    | true =>
      by_cases e : t.intervals = []
      · exact ha.mem.2.2 rfl e
      · exact ha.mem.2.1 i (h i t hs e)
    | false =>
      have : (received' t ⟨c.nextAddr, pid, ⟨c.nextAddr, data, false⟩, i⟩ false ts).intervals = t.intervals := rfl
      rw [this] at hn
      exact ha.mem.2.1 i (h i t hs hn)
  | io hu rb a es => exact h
  | @taken i t iv rest hs hi ha => exact setOne i _ c.ackList (fun _ => ha) (fun _ x => x)
  | @dropAck i is ha s hs hi =>
    intro j t ht hn
    have := h j t ht hn
    rw [ha, List.mem_cons] at this
    rcases this with rfl | this
    · have ht : c.publishers j = some t := ht
      rw [hs] at ht; cases ht; exact absurd hi hn
    · exact this
  | msg hu hw hz hb he => exact h
  | out hu hw hz hb a es => exact h
  | connect addr port nid d hv hL hi hv' h1 h2 h3 h4 h5 => exact h
  | noConnect hv hv' h1 h2 h3 h4 => exact h
  | @complete i hi hm => exact setOne i _ c.ackList (fun hn => absurd rfl hn) (fun _ x => x)
  | @noComplete i hi hm L hv v hv' h1 h2 h3 h4 xs hx => exact setOne i _ c.ackList (fun hn => absurd rfl hn) (fun _ x => x)
  | @close i t hi hs => exact setOne i _ c.ackList (fun hn => absurd rfl hn) (fun _ x => x)

end SubCtx
end Rmc
