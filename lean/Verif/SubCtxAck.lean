import Verif.SubCtxSpec

/-! # Lemmas: acknowledgements after timeouts -/

set_option linter.unusedSimpArgs false
set_option linter.unusedVariables false

namespace Rmc
namespace SubPub

theorem addLoop_ts {pid : Nat} {ts : Int} : ∀ (rev after : List Intv), ∀ iv ∈ addIntervalLoop pid ts rev after,
    iv.ts = ts ∨ ∃ j ∈ rev ++ after, j.ts = iv.ts := by
  intro rev
  induction rev with
  | nil =>
    intro after iv hiv
    unfold addIntervalLoop at hiv
    rcases List.mem_cons.1 hiv with e | e
    · left; rw [e]
    · exact .inr ⟨iv, by simp [e], rfl⟩
  | cons i rev ih =>
    intro after iv hiv
    unfold addIntervalLoop at hiv
    split at hiv
    · simp only [List.mem_append, List.mem_reverse, List.mem_cons] at hiv
      rcases hiv with e | e | e | e
      · exact .inr ⟨iv, by simp [e], rfl⟩
      · exact .inr ⟨iv, by simp [e], rfl⟩
      · left; rw [e]
      · exact .inr ⟨iv, by simp [e], rfl⟩
    · split at hiv
      · split at hiv
        · rename_i n after'
          split at hiv
          · simp only [List.mem_append, List.mem_reverse, List.mem_cons] at hiv
            rcases hiv with e | e | e
            · exact .inr ⟨iv, by simp [e], rfl⟩
            · right
              by_cases hlt : i.ts < n.ts
              · exact ⟨i, by simp, by rw [e]; simp [hlt]⟩
              · exact ⟨n, by simp, by rw [e]; simp [hlt]⟩
            · exact .inr ⟨iv, by simp [e], rfl⟩
          · simp only [List.mem_append, List.mem_reverse, List.mem_cons] at hiv
            rcases hiv with e | e | e | e
            · exact .inr ⟨iv, by simp [e], rfl⟩
            · exact .inr ⟨i, by simp, by rw [e]⟩
            · exact .inr ⟨iv, by simp [e], rfl⟩
            · exact .inr ⟨iv, by simp [e], rfl⟩
        · simp only [List.mem_append, List.mem_reverse, List.mem_cons, List.not_mem_nil, or_false] at hiv
          rcases hiv with e | e
          · exact .inr ⟨iv, by simp [e], rfl⟩
          · exact .inr ⟨i, by simp, by rw [e]⟩
      · split at hiv
        · split at hiv
          · rename_i p rev'
            split at hiv
            · simp only [List.mem_append, List.mem_reverse, List.mem_cons] at hiv
              rcases hiv with e | e | e
              · exact .inr ⟨iv, by simp [e], rfl⟩
              · right
                by_cases hlt : i.ts < p.ts
                · exact ⟨i, by simp, by rw [e]; simp [hlt]⟩
                · exact ⟨p, by simp, by rw [e]; simp [hlt]⟩
              · exact .inr ⟨iv, by simp [e], rfl⟩
            · simp only [List.mem_append, List.mem_reverse, List.mem_cons] at hiv
              rcases hiv with (e | e) | e | e
              · exact .inr ⟨iv, by simp [e], rfl⟩
              · exact .inr ⟨iv, by simp [e], rfl⟩
              · exact .inr ⟨i, by simp, by rw [e]⟩
              · exact .inr ⟨iv, by simp [e], rfl⟩
          · simp only [List.mem_append, List.mem_reverse, List.mem_cons] at hiv
            rcases hiv with e | e
            · exact .inr ⟨i, by simp, by rw [e]⟩
            · exact .inr ⟨iv, by simp [e], rfl⟩
        · rcases ih _ iv hiv with e | ⟨j, hj, e⟩
          · exact .inl e
          · refine .inr ⟨j, ?_, e⟩
            simp only [List.mem_append, List.mem_cons] at hj ⊢
            grind

theorem process_iv (s : SubPub) : (process s).1.intervals = s.intervals := rfl

/-- The timestamp of a recorded interval is that of some packet that arrived. -/
theorem iv_ts (ops : List Op) : ∀ iv ∈ (Hist.init.run ops).s.intervals, ∃ a ∈ arrivals ops, a.2.2 = iv.ts := by
  obtain ⟨k, hk⟩ : ∃ k, ops.length = k := ⟨_, rfl⟩
  induction k generalizing ops with
  | zero =>
    rw [List.length_eq_zero_iff.1 hk]
    intro iv hiv; cases hiv
  | succ k ih =>
    rcases List.eq_nil_or_concat ops with rfl | ⟨l, e, rfl⟩
    · simp at hk
    · simp only [List.concat_eq_append] at *
      have ih := ih l (by simp at hk; omega)
      have e1 : Hist.init.run (l ++ [e]) = (Hist.init.run l).step e := by
        unfold Hist.run; rw [List.foldl_append]; rfl
      rw [e1]
      intro iv hiv
      cases e with
      | popIv =>
        have ha : arrivals (l ++ [.popIv]) = arrivals l := by simp [arrivals]
        rw [ha]
        simp only [Hist.step] at hiv
        split at hiv
        · exact ih iv hiv
        · rename_i i rest he
          exact ih iv (by rw [he]; exact List.mem_cons_of_mem _ hiv)
      | arrive p m ts =>
        have ha : arrivals (l ++ [.arrive p m ts]) = arrivals l ++ [(p, m, ts)] := by simp [arrivals]
        rw [ha]
        simp only [Hist.step, arrive] at hiv
        have old : ∀ iv ∈ (Hist.init.run l).s.intervals, ∃ a ∈ arrivals l ++ [(p, m, ts)], a.2.2 = iv.ts := by
          intro iv hiv
          obtain ⟨a, h1, h2⟩ := ih iv hiv
          exact ⟨a, by simp [h1], h2⟩
        split at hiv
        · exact old iv hiv
        · rw [process_iv] at hiv
          simp only [received'] at hiv
          split at hiv
          · unfold addInterval at hiv
            rcases addLoop_ts _ _ iv hiv with e | ⟨j, hj, e⟩
            · exact ⟨(p, m, ts), by simp, e.symm⟩
            · obtain ⟨a, h1, h2⟩ := old j (by simpa using hj)
              exact ⟨a, h1, h2.trans e⟩
          · exact old iv hiv

end SubPub

namespace SubCtx
variable {tm : Nat}
open SubPub CircBuf ConnVec

/-! ## Everything taken off is acknowledged, if no timeout fails -/

/-- Specification: every timeout processed so far returned 0. -/
def TimeoutsOk (ops : List Op) (rs : List Nat) : Prop := ∀ x ∈ ops.zip rs, x.1.kind = 1 → x.2 = 0

def AllAcked (c : SubCtx) : Prop := ∀ i, ∀ iv ∈ (sess i c.log).taken, (iv.first, iv.last) ∈ (sess i c.log).acks

theorem sess_evs' {i : Nat} : ∀ (es : List SEv) (S : Sess),
    (∀ iv ∈ S.taken, (iv.first, iv.last) ∈ S.acks) → (∀ j iv, SEv.taken j iv ∉ es) →
    (∀ iv ∈ (es.foldl (Sess.step i) S).taken, (iv.first, iv.last) ∈ (es.foldl (Sess.step i) S).acks) := by
  intro es
  induction es with
  | nil => intro S h _; exact h
  | cons e es ih =>
    intro S h hn
    rw [List.foldl_cons]
    refine ih _ ?_ (fun j iv hm => hn j iv (List.mem_cons_of_mem _ hm))
    intro iv
    cases e with
    | taken j x => exact absurd (List.mem_cons_self) (hn j x)
    | complete j =>
      simp only [Sess.step]
      split
      · intro hm; cases hm
      · exact h iv
    | ack j a b =>
      simp only [Sess.step]
      split
      · intro hm; exact List.mem_append_left _ (h iv hm)
      · exact h iv
    | _ => simp only [Sess.step]; (try split) <;> exact h iv

theorem AllAcked.app {c c' : SubCtx} (h : AllAcked c) {es : List SEv} (e : c'.log = c.log ++ es) (hn : ∀ j iv, SEv.taken j iv ∉ es) :
    AllAcked c' := by
  intro i
  rw [e, sess_append]
  exact sess_evs' es _ (h i) hn

theorem AllAcked.log {c c' : SubCtx} (h : AllAcked c) (e : c'.log = c.log) : AllAcked c' := by
  unfold AllAcked; rw [e]; exact h

theorem AllAcked.micro {c c' : SubCtx} (m : Micro tm c c') (htm : tm ≠ 1) (h : AllAcked c) : AllAcked c' := by
  cases m with
  | @user a p ps hx e he => exact h.app (es := [e]) rfl (by rcases he with rfl | rfl <;> simp)
  | cb hk => exact h.app (es := [_]) rfl (by simp)
  | setCb f hk => exact h.log rfl
  | annCb a => exact h.app (es := [_]) rfl (by simp)
  | sock m es => exact h.log rfl
  | @dup i t hu hs p m ts hp hd => exact h.app (es := [_]) rfl (by simp)
  | @recv i t hu hs pid data m ts hd al ha =>
    refine h.app (es := [.arrive i ⟨c.nextAddr, pid, ⟨c.nextAddr, data, false⟩, i⟩ m ts] ++
      [.alloc ⟨c.nextAddr, pid, ⟨c.nextAddr, data, false⟩, i⟩] ++
      (process (received' t ⟨c.nextAddr, pid, ⟨c.nextAddr, data, false⟩, i⟩ m ts)).2.map .ready)
      (by unfold recvd; simp only [List.append_assoc]) ?_
    intro j iv hm; simp at hm
  | io hu rb a es => exact h.log rfl
  | taken hs hi ha ht => exact absurd ht htm
  | dropAck ha hs hi => exact h.log rfl
  | @msg i hu b e xs hw hz hb he =>
    refine h.app (es := [e]) rfl ?_
    rcases he with ⟨iv, hiv, rfl, -⟩ | ⟨bs, ds, rfl, -⟩ <;> simp
  | @out i hu b xs hw hz hb a es => exact h.app (es := [_]) rfl (by simp)
  | @connect i addr port nid d L hv hL hi v hv' h1 h2 h3 h4 h5 => exact h.app (es := [_]) rfl (by simp)
  | noConnect hv hv' h1 h2 h3 h4 => exact h.log rfl
  | complete hi hm => exact h.app (es := [_]) rfl (by simp)
  | @noComplete i hi hm L hv v hv' h1 h2 h3 h4 xs hx => exact h.app (es := xs) rfl (by rcases hx with rfl | rfl <;> simp)
  | @close i t hi hs =>
    refine h.app (es := [.closed i] ++ (reset t).2.map fun p => .free p.payload.ptr p.payload.data.length (.u32 p.slot))
      (by unfold closedAt; simp only [List.append_assoc]) ?_
    intro j iv hm; simp at hm

theorem ackAll_acked : ∀ (ivs : List Intv) {c c' : SubCtx} {i : Nat} {s : SubPub}, Core c → i ∈ c.ackList →
    c.publishers i = some { s with intervals := ivs } → ackAll c i s ivs = .ok (0, c') → AllAcked c →
    AllAcked c' ∧ c'.publishers i = some { s with intervals := [] } ∧ (∀ j, j ≠ i → c'.publishers j = c.publishers j) ∧
    c'.ackTimeout = c.ackTimeout := by
  intro ivs
  induction ivs with
  | nil => intro c c' i s hc hl hs h ha; cases h; exact ⟨ha, hs, fun _ _ => rfl, rfl⟩
  | cons iv rest ih =>
    intro c c' i s hc hl hs h ha
    unfold ackAll at h
    dsimp only at h
    obtain ⟨⟨r1, c1⟩, h1, h⟩ := bind_ok h
    have hm : Micro 1 c (ev (SubCtx.setPub c i { s with intervals := rest }) (.taken i iv)) :=
      Micro.taken (s := { s with intervals := iv :: rest }) hs rfl hl rfl
    have hc0 := hc.micro hm
    have hlt : i < c.cv.size := hc.recLt i _ hs
    have hs0 : (ev (SubCtx.setPub c i { s with intervals := rest }) (.taken i iv)).publishers i =
        some { s with intervals := rest } := by
      show (if i = i then _ else _) = _; rw [if_pos rfl]
    rcases writeAck_spec hc0 hlt h1 with ⟨g1, g2, -⟩ | ⟨g1, gu, b, g2, g3, g4, g5⟩
    · dsimp only at h
      rw [if_pos g1] at h
      cases h
      exact absurd rfl g1
    · dsimp only at h
      rw [if_neg (by simp [g1])] at h
      have hm2 : Micro 1 (ev (SubCtx.setPub c i { s with intervals := rest }) (.taken i iv)) c1 := by
        rw [g2]
        refine .msg gu g3 g4 g5 (.inl ⟨iv, ?_, rfl, rfl⟩)
        show iv ∈ (sess i (c.log ++ [_])).taken
        rw [sess_snoc]
        simp [Sess.step]
      have e1 : c1.ackList = c.ackList := by rw [g2]; rfl
      have e2 : c1.publishers i = some { s with intervals := rest } := by rw [g2]; exact hs0
      have e3 : c1.log = c.log ++ [.taken i iv] ++ [.ack i iv.first iv.last] := by rw [g2]; rfl
      have e4 : ∀ j, j ≠ i → c1.publishers j = c.publishers j := by
        intro j hj
        rw [g2]
        show (if j = i then _ else _) = _; rw [if_neg hj]
      have e5 : c1.ackTimeout = c.ackTimeout := by rw [g2]; rfl
      have ha1 : AllAcked c1 := by
        intro j x hx
        rw [e3, sess_snoc, sess_snoc] at hx ⊢
        by_cases e : i = j
        · subst e
          simp only [Sess.step, if_true] at hx ⊢
          rcases List.mem_append.1 hx with hx | hx
          · exact List.mem_append_left _ (ha _ x hx)
          · simp only [List.mem_singleton] at hx; subst hx; simp
        · simp only [Sess.step, if_neg e] at hx ⊢
          exact ha j x hx
      obtain ⟨q1, q2, q3, q4⟩ := ih (hc0.micro hm2) (by rw [e1]; exact hl) e2 h ha1
      exact ⟨q1, q2, fun j hj => (q3 j hj).trans (e4 j hj), q4.trans e5⟩

theorem oldest_nil {s : SubPub} (h : s.intervals = []) : oldest s = 0 := by unfold oldest; rw [h]

/-- A timeout that succeeds acknowledges all it takes off; and it gets to every publisher before which all are overdue. -/
theorem timeoutLoop_acked : ∀ (l : List Nat) {c c' : SubCtx} {now : Int}, Core c → c.ackList = l → AllAcked c →
    timeoutLoop c now l = .ok (0, c') →
    AllAcked c' ∧ (∀ j s, c.publishers j = some s → s.intervals = [] → c'.publishers j = some s) ∧
    ∀ pre i post, l = pre ++ i :: post → c.ackTimeout ≤ now →
      (∀ j ∈ pre ++ [i], ∀ s, c.publishers j = some s → s.intervals = [] ∨ oldest s + c.ackTimeout ≤ now) →
      ∃ s, c'.publishers i = some s ∧ s.intervals = [] := by
  intro l
  induction l with
  | nil =>
    intro c c' now hc hl ha h; cases h
    refine ⟨ha, fun j s h _ => h, ?_⟩
    intro pre i post e
    simp at e
  | cons i is ih =>
    intro c c' now hc hl ha h
    unfold timeoutLoop at h
    obtain ⟨s, hs, h⟩ := bind_ok h
    rw [getPub_ok] at hs
    split at h
    · rename_i hgt
      cases h
      refine ⟨ha, fun j s h _ => h, ?_⟩
      intro pre j post e hT hd
      have hi : i ∈ pre ++ [j] := by
        cases pre with
        | nil => simp only [List.nil_append, List.cons.injEq] at e; simp [e.1]
        | cons k pre => simp only [List.cons_append, List.cons.injEq] at e; simp [e.1]
      rcases hd i hi s hs with e | e
      · rw [oldest_nil e] at hgt; omega
      · omega
    · obtain ⟨⟨r1, c1⟩, h1, h⟩ := bind_ok h
      obtain ⟨g1, g2, g3⟩ := ackAll_steps s.intervals hc (by rw [hl]; simp) hs h1
      dsimp only at h
      split at h
      · rename_i hr; cases h; exact absurd rfl hr
      · rename_i hr
        have hr : r1 = 0 := by simpa using hr
        subst hr
        have hm : Micro 1 c1 { c1 with ackList := is } := .dropAck (g2.trans hl) (g3 rfl) rfl
        obtain ⟨k1, k2, k3, k4⟩ := ackAll_acked s.intervals hc (by rw [hl]; simp) hs h1 ha
        obtain ⟨q1, q2, q3⟩ := ih (hc.steps (g1.snoc hm)) rfl (k1.log rfl) h
        refine ⟨q1, ?_, ?_⟩
        · intro j t ht hti
          by_cases e : j = i
          · subst e
            rw [hs] at ht; cases ht
            refine q2 j s ?_ hti
            show c1.publishers j = _
            rw [k2]
            obtain ⟨a, b, d, e⟩ := s
            simp only at hti
            rw [hti]
          · exact q2 j t ((k3 j e).trans ht) hti
        · intro pre j post e hT hd
          cases pre with
          | nil =>
            simp only [List.nil_append, List.cons.injEq] at e
            obtain ⟨rfl, rfl⟩ := e
            exact ⟨_, q2 i _ k2 rfl, rfl⟩
          | cons k pre =>
            simp only [List.cons_append, List.cons.injEq] at e
            obtain ⟨rfl, e⟩ := e
            refine q3 pre j post e (show c1.ackTimeout ≤ now by rw [k4]; exact hT) ?_
            intro x hx t ht
            have ht : c1.publishers x = some t := ht
            show t.intervals = [] ∨ oldest t + c1.ackTimeout ≤ now
            by_cases ex : x = i
            · subst ex; rw [k2] at ht; cases ht; exact .inl rfl
            · rw [k4]
              exact hd x (by simp only [List.cons_append, List.mem_cons]; exact .inr hx) t (by rw [← k3 x ex]; exact ht)

theorem ReachesR.induct {P : List Op → List Nat → SubCtx → Prop} (h0 : ∀ mem n nid, n ≤ LISTEN_INDEX → P [] [] (init mem n nid))
    (h1 : ∀ ops rs c op r c', ReachesR ops rs c → rs.length = ops.length → P ops rs c → step c op = .ok (r, c') → P (ops ++ [op]) (rs ++ [r]) c')
    {ops : List Op} {rs : List Nat} {c : SubCtx} (h : ReachesR ops rs c) : P ops rs c ∧ rs.length = ops.length := by
  obtain ⟨mem, n, nid, hn, h⟩ := h
  obtain ⟨k, hk⟩ : ∃ k, ops.length = k := ⟨_, rfl⟩
  induction k generalizing ops c rs with
  | zero => rw [List.length_eq_zero_iff.1 hk] at h ⊢; cases h; exact ⟨h0 _ _ _ hn, rfl⟩
  | succ k ih =>
    rcases List.eq_nil_or_concat ops with rfl | ⟨l, e, rfl⟩
    · simp at hk
    · simp only [List.concat_eq_append] at *
      obtain ⟨rs', r, c1, g1, g2, rfl⟩ := run_snoc_inv h
      obtain ⟨q1, q2⟩ := ih g1 (by simp at hk; omega)
      exact ⟨h1 _ _ _ _ _ _ ⟨mem, n, nid, hn, g1⟩ q2 q1 g2, by simp [q2]⟩

theorem ReachesR.allAcked {ops : List Op} {rs : List Nat} {c : SubCtx} (h : ReachesR ops rs c) (ht : TimeoutsOk ops rs) :
    AllAcked c := by
  refine (ReachesR.induct (P := fun ops rs c => TimeoutsOk ops rs → AllAcked c) ?_ ?_ h).1 ht
  · intro mem n nid hn _ i iv hm; cases hm
  · intro ops rs c op r c' hr hlen ha hs ht
    have hz : (ops ++ [op]).zip (rs ++ [r]) = ops.zip rs ++ [(op, r)] := by
      rw [List.zip_append hlen.symm]; rfl
    have ha := ha (fun x hx => ht x (by rw [hz]; exact List.mem_append_left _ hx))
    have hi := Reaches.inv ⟨rs, hr⟩
    by_cases hop : op.kind = 1
    · have h0 := ht (op, r) (by rw [hz]; simp) hop
      dsimp only at h0
      subst h0
      cases op with
      | timeout now => exact (timeoutLoop_acked _ hi.core rfl ha hs).1
      | read i rv ts => exact absurd hop (by show 3 + i ≠ 1; omega)
      | _ => exact absurd hop (by simp [Op.kind])
    · rcases step_cases hi.core hi.mem hs with h | ⟨-, h⟩
      · exact Steps.inv (fun _ _ m h => AllAcked.micro m hop h) h ha
      · exact Steps.inv (fun _ _ m h => AllAcked.micro m (by decide) h) h (show AllAcked (forget c) from ha)

end SubCtx
end Rmc

namespace Rmc
namespace CircBuf

/-- Where the buffer ends after bytes are put into it. -/
def stopAfter (b : CircBuf) (n : Nat) : Nat := if n ≤ b.size - b.stop then b.stop + n else n - (b.size - b.stop)

theorem put_full {b : CircBuf} (h : WF b) {xs : List UInt8} (hx : xs.length ≤ available b) :
    ∃ b', put b xs = .ok (0, b') ∧ WF b' ∧ b'.size = b.size ∧ b'.start = b.start ∧ b'.stop = stopAfter b xs.length ∧
      bytes b' = bytes b ++ xs := by
  obtain ⟨b', h1, h2, h3, h4, h5⟩ := put_ok h hx
  refine ⟨b', h1, h2, h3, h4, ?_, h5⟩
  have hal := alloc_ok h hx
  unfold put at h1
  generalize hA : alloc b xs.length = A at h1 hal
  obtain ⟨a1, s1, s2, c⟩ := A
  obtain ⟨b2, q1, q2, q3, q4, q5, q6, q7⟩ := alloc_scatter h hx hA (xs := xs) (Nat.le_refl _)
  have ha : a1 = 0 := by split at hal <;> simp only [Prod.mk.injEq] at hal <;> exact hal.1
  subst ha
  dsimp only at h1
  rw [if_pos rfl, q1] at h1
  cases h1
  rw [q5]
  unfold stopAfter
  split at hal <;> rename_i hs <;> simp only [Prod.mk.injEq] at hal
  · rw [if_pos hs, hal.2.2.2]
  · rw [if_neg hs, hal.2.2.2]

end CircBuf

namespace SubCtx
open SubPub CircBuf ConnVec

/-- Where the payload of a control message starts in the write buffer. -/
def ctlStop (b : CircBuf) : Nat := if b.stop + 3 ≤ b.size then b.stop + 3 else b.stop + 3 - b.size

/-- What `writeCtl` does, case by case, when there is room. -/
theorem writeCtl_exact {c : SubCtx} {i ptr : Nat} {bs : List UInt8} (hc : Core c) (hu : Up c i) (hn : bs ≠ [])
    (ha : 1 + CTL_LEN + bs.length + 1 ≤ available (c.cv.conns i).writeBuf) :
    let B := (c.cv.conns i).writeBuf
    if B.stop = B.size then writeCtl c i bs ptr = .error .oob
    else if bs.length ≤ B.size - ctlStop B then
      ∃ b, writeCtl c i bs ptr = .ok (0, armWrite (ev c (.ctl i bs bs)) i b) ∧ WF b ∧ b.size = B.size ∧ b.start = B.start ∧
        b.stop = ctlStop B + bs.length ∧ bytes b = bytes B ++ ctlFrame bs.length bs
    else if bs.length ≤ 8 then
      ∃ b ds, ds = bs.take (B.size - ctlStop B) ++ ((ptrBytes ptr).drop (B.size - ctlStop B)).take (bs.length - (B.size - ctlStop B)) ∧
        writeCtl c i bs ptr = .ok (0, armWrite (ev c (.ctl i bs ds)) i b) ∧ WF b ∧ b.size = B.size ∧ b.start = B.start ∧
        b.stop = bs.length - (B.size - ctlStop B) ∧ bytes b = bytes B ++ ctlFrame bs.length ds
    else writeCtl c i bs ptr = .error .oob := by
  obtain ⟨hw, hz⟩ := hc.wb i hu.1
  have hctl : CTL_LEN = 2 := rfl
  generalize hB : (c.cv.conns i).writeBuf = B at *
  dsimp only
  have hgo : writeCtl c i bs ptr = (Proto.putCmd B CMD_CONTROL_MESSAGE >>= fun r =>
      if r.1 ≠ 0 then pure (ENOMEM, c)
      else CircBuf.put r.2 (ctlEnc bs.length) >>= fun q =>
        if q.1 ≠ 0 then pure (ENOMEM, setConn c i { c.cv.conns i with writeBuf := q.2 })
        else
          let a := CircBuf.alloc q.2 bs.length
          if a.1 ≠ 0 then pure (ENOMEM, setConn c i { c.cv.conns i with writeBuf := a.2.2.2 })
          else ctlPayload bs ptr a.2.1 a.2.2.1 >>= fun d =>
            CircBuf.scatter a.2.2.2 a.2.1 a.2.2.1 d >>= fun b =>
            pure (0, armWrite (ev c (.ctl i bs d)) i b)) := by
    unfold writeCtl
    dsimp only
    rw [if_neg hn, if_neg (by rw [hu.2]; simp), hB, if_neg (by omega)]
  by_cases hst : B.stop = B.size
  · rw [if_pos hst, hgo, Proto.C13_cmd_oob hw (by omega) hst]; rfl
  · rw [if_neg hst]
    have hlt : B.stop < B.size := by have := hw.stop_le; omega
    obtain ⟨b1, g1, g2, g3, g4, g5, g6⟩ := Proto.putCmd_ok hw (by omega) hlt CMD_CONTROL_MESSAGE
    have hav := avail_after hw g2 g3 g6
    rw [List.length_singleton] at hav
    have hcl : (ctlEnc bs.length).length = 2 := length_ctlEnc _
    obtain ⟨b2, k1, k2, k3, k4, k5, k6⟩ := put_full g2 (xs := ctlEnc bs.length) (by omega)
    have hav2 := avail_after g2 k2 k3 k6
    have hstop : b2.stop = ctlStop B := by
      rw [k5, hcl]
      unfold stopAfter ctlStop
      rw [g3, g5]
      have := hw.stop_le
      split <;> split <;> omega
    have hz2 : b2.size = B.size := k3.trans g3
    have hal := alloc_ok k2 (n := bs.length) (by omega)
    rw [g1, Proto.ok_bind] at hgo
    dsimp only at hgo
    rw [if_neg (by simp), k1, Proto.ok_bind] at hgo
    dsimp only at hgo
    rw [if_neg (by simp)] at hgo
    generalize hA : alloc b2 bs.length = A at hgo hal
    obtain ⟨a1, s1, s2, b3⟩ := A
    rw [hstop, hz2] at hal
    have hbytes : ∀ ds : List UInt8, ds.length = bs.length → ∃ b, CircBuf.scatter b3 s1 s2 ds = .ok b ∧ WF b ∧ b.size = B.size ∧
        b.start = B.start ∧ b.stop = b3.stop ∧ bytes b = bytes B ++ ctlFrame bs.length ds := by
      intro ds hd
      obtain ⟨b6, q1, q2, q3, q4, q5, q6, q7⟩ := alloc_scatter k2 (by omega) hA (xs := ds) (by omega)
      refine ⟨b6, q1, q2, q3.trans hz2, (q4.trans k4).trans g4, q5, ?_⟩
      rw [List.take_of_length_le (by rw [length_bytes, q6]; omega)] at q7
      rw [q7, k6, g6]; simp [ctlFrame]
    by_cases hfit : bs.length ≤ B.size - ctlStop B
    · rw [if_pos hfit] at hal ⊢
      simp only [Prod.mk.injEq] at hal
      obtain ⟨rfl, rfl, rfl, hb3⟩ := hal
      dsimp only at hgo
      rw [if_neg (by simp)] at hgo
      have hp : ctlPayload bs ptr ⟨ctlStop B, bs.length⟩ ⟨0, 0⟩ = .ok bs := by
        unfold ctlPayload; rw [if_pos rfl, List.take_of_length_le (Nat.le_refl _)]
      rw [hp, Proto.ok_bind] at hgo
      obtain ⟨b, q1, q2, q3, q4, q5, q6⟩ := hbytes bs rfl
      rw [q1, Proto.ok_bind] at hgo
      exact ⟨b, hgo, q2, q3, q4, by rw [q5, hb3], q6⟩
    · rw [if_neg hfit] at hal ⊢
      simp only [Prod.mk.injEq] at hal
      obtain ⟨rfl, rfl, rfl, hb3⟩ := hal
      dsimp only at hgo
      rw [if_neg (by simp)] at hgo
      have hne : bs.length - (B.size - ctlStop B) ≠ 0 := by omega
      by_cases h8 : bs.length ≤ 8
      · rw [if_pos h8]
        have hp : ctlPayload bs ptr ⟨ctlStop B, B.size - ctlStop B⟩ ⟨0, bs.length - (B.size - ctlStop B)⟩ =
            .ok (bs.take (B.size - ctlStop B) ++ ((ptrBytes ptr).drop (B.size - ctlStop B)).take (bs.length - (B.size - ctlStop B))) := by
          unfold ctlPayload; dsimp only; rw [if_neg hne, if_neg (by omega)]
        rw [hp, Proto.ok_bind] at hgo
        obtain ⟨b, q1, q2, q3, q4, q5, q6⟩ := hbytes _ (show (bs.take (B.size - ctlStop B) ++
          ((ptrBytes ptr).drop (B.size - ctlStop B)).take (bs.length - (B.size - ctlStop B))).length = bs.length by
            simp [ptrBytes]; omega)
        rw [q1, Proto.ok_bind] at hgo
        exact ⟨b, _, rfl, hgo, q2, q3, q4, by rw [q5, hb3], q6⟩
      · rw [if_neg h8]
        have hp : ctlPayload bs ptr ⟨ctlStop B, B.size - ctlStop B⟩ ⟨0, bs.length - (B.size - ctlStop B)⟩ = .error .oob := by
          unfold ctlPayload; dsimp only; rw [if_neg hne, if_pos (by omega)]
        rw [hp] at hgo
        exact hgo

end SubCtx
end Rmc

namespace Rmc
namespace Proto
open CircBuf

/-- Where the buffer starts and stops after some but not all bytes have left. -/
theorem tcpWrite_pos {b : CircBuf} (h : WF b) (hs : b.size ≤ RMC_MAX_PACKET) {n : Nat} (h0 : 0 < n) (hn : n < (bytes b).length) :
    ∃ left b', tcpWrite b (.ok n) = .ok (0, left, b', (bytes b).take n) ∧ left ≠ 0 ∧ WF b' ∧ b'.size = b.size ∧
      bytes b' = (bytes b).drop n ∧ b'.start = (b.start + n) % b.size ∧ b'.stop = b.stop := by
  have hlt := inUse_lt h
  have hlb := length_bytes b
  obtain ⟨r1, r2, r3, r4, r5⟩ := readSegment_spec h RMC_MAX_PACKET
  have hmin : min RMC_MAX_PACKET (inUse b) = inUse b := by omega
  rw [List.take_of_length_le (by omega)] at r5
  have hl1 : (readSegment b RMC_MAX_PACKET).2.1.len = 0 → inUse b = 0 := by
    intro h0
    have hiu := inUse_eq h
    obtain ⟨w1, w2, w3, w4, w5⟩ := h
    have e1 : sub32 b.size b.start = b.size - b.start := sub32_eq (by omega) (by simp only [U32]; omega)
    unfold readSegment at h0
    by_cases hss : b.stop = b.start
    · rw [hiu]; simp [hss]
    · simp only [hss, if_false, e1] at h0
      have : min (min (inUse b) RMC_MAX_PACKET) (b.size - b.start) = 0 := by
        split at h0 <;> exact h0
      omega
  generalize hR : readSegment b RMC_MAX_PACKET = R at *
  obtain ⟨e, s1, s2⟩ := R
  simp only at *
  have hs1 : s1.len ≠ 0 := fun e => by have := hl1 e; omega
  have hmn : min n (bytes b).length = n := by omega
  obtain ⟨f1, f2, f3, f4⟩ := free_spec h n
  refine ⟨(free b n).2, (free b n).1, ?_, by omega, f1, f2, f3, ?_, ?_⟩
  · unfold tcpWrite; rw [hR]; simp only; rw [if_neg hs1, r5]
    simp only [bind, Except.bind]
    rw [hmn, if_neg (by omega)]; rfl
  · rw [free_start h n (by omega), if_neg]
    rw [f3]
    intro e
    have := congrArg List.length e
    rw [List.length_drop, List.length_nil] at this; omega
  · unfold free
    rw [if_neg (by omega)]
    dsimp only
    rw [if_neg (by omega)]

end Proto
namespace SubCtx
open SubPub CircBuf ConnVec

theorem armWrite_conn (c : SubCtx) (i : Nat) (b : CircBuf) : (armWrite c i b).cv.conns i =
    { c.cv.conns i with writeBuf := b, action := (c.cv.conns i).action.setW } := by
  show (if i = i then _ else _) = _
  rw [if_pos rfl]

theorem findByAddress_congr {v w : ConnVec} {a p : Nat} (h1 : w.maxInd = v.maxInd) (h2 : ∀ j, (w.conns j).desc = (v.conns j).desc)
    (h3 : ∀ j, (w.conns j).addr = (v.conns j).addr) (h4 : ∀ j, (w.conns j).port = (v.conns j).port) :
    findByAddress w a p = findByAddress v a p := by
  unfold findByAddress
  rw [h1]
  simp only [h2, h3, h4]

/-- Changing the buffers and the action of a connection does not change what is found. -/
theorem findByAddress_set {v : ConnVec} {a p i : Nat} {x : Conn} {es : List PollEv} (h2 : x.desc = (v.conns i).desc)
    (h3 : x.addr = (v.conns i).addr) (h4 : x.port = (v.conns i).port) :
    findByAddress { v.set i x with polls := es } a p = findByAddress v a p := by
  apply findByAddress_congr
  · rfl
  all_goals
    intro j
    by_cases e : j = i
    · subst e; simp [ConnVec.set, h2, h3, h4]
    · simp [ConnVec.set, e]

/-- A write on a connection that is up, of which the socket takes some of the bytes. -/
theorem writeConn_some {c : SubCtx} {i : Nat} (hc : Core c) (hu : Up c i) (so : Except Nat Nat) (nd : Option Nat) {n : Nat}
    (h0 : 0 < n) (hn : n < (bytes (c.cv.conns i).writeBuf).length) :
    ∃ c', writeConn c i so nd (.ok n) = .ok (0, c') ∧ Up c' i ∧ c'.publishers = c.publishers ∧
      (∀ a p, findByAddress c'.cv a p = findByAddress c.cv a p) ∧
      bytes (c'.cv.conns i).writeBuf = (bytes (c.cv.conns i).writeBuf).drop n ∧
      (c'.cv.conns i).writeBuf.size = (c.cv.conns i).writeBuf.size ∧
      (c'.cv.conns i).writeBuf.start = ((c.cv.conns i).writeBuf.start + n) % (c.cv.conns i).writeBuf.size ∧
      (c'.cv.conns i).writeBuf.stop = (c.cv.conns i).writeBuf.stop ∧ c'.ackList = c.ackList ∧ c'.ackTimeout = c.ackTimeout := by
  obtain ⟨hw, hz⟩ := hc.wb i hu.1
  obtain ⟨left, b', t1, t2, t3, t4, t5, t6, t7⟩ := Proto.tcpWrite_pos hw (by omega) h0 hn
  have hf : findByIndex c.cv i ≠ none := by
    unfold findByIndex
    rw [if_neg (by have := hu.1; omega), if_neg (by rw [hu.2]; decide)]; simp
  have hd : writeConn c i so nd (.ok n) = .ok (0, pollModify (ev (setConn c i { c.cv.conns i with
      writeBuf := b', action := (c.cv.conns i).action.setW }) (.tcpOut i ((bytes (c.cv.conns i).writeBuf).take n)))
      i (c.cv.conns i).desc (c.cv.conns i).action (c.cv.conns i).action.setW) := by
    unfold writeConn
    rw [if_neg hf, if_neg (by rw [hu.2]; decide), if_neg (by rw [← length_bytes]; omega)]
    dsimp only
    rw [t1, Proto.ok_bind]
    dsimp only
    rw [if_neg t2]
    rfl
  have e1 : (pollModify (ev (setConn c i { c.cv.conns i with
      writeBuf := b', action := (c.cv.conns i).action.setW }) (.tcpOut i ((bytes (c.cv.conns i).writeBuf).take n)))
      i (c.cv.conns i).desc (c.cv.conns i).action (c.cv.conns i).action.setW).cv.conns i =
      { c.cv.conns i with writeBuf := b', action := (c.cv.conns i).action.setW } := by
    show (if i = i then _ else _) = _
    rw [if_pos rfl]
  refine ⟨_, hd, ⟨hu.1, ?_⟩, rfl, fun a p => findByAddress_set rfl rfl rfl, ?_, ?_, ?_, ?_, rfl, rfl⟩ <;> rw [e1]
  · exact hu.2
  · exact t5
  · exact t4
  · exact t6
  · exact t7

end SubCtx
end Rmc
