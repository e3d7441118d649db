import Verif.Props.Access

/-!
# C78: the index of a packet and the publisher it came from
-/

set_option linter.unusedSimpArgs false

namespace Rmc
namespace SubCtx
open SubPub CircBuf ConnVec

/-- Specification: the address and port of the last connection attempt made for slot `i`. -/
def lastConnect (i : Nat) (log : List SEv) : Option (Nat × Nat) :=
  log.foldl (fun r e => match e with
    | .connect j a p => if j = i then some (a, p) else r
    | _ => r) none

theorem lastConnect_snoc (i : Nat) (log : List SEv) (e : SEv) : lastConnect i (log ++ [e]) = match e with
    | .connect j a p => if j = i then some (a, p) else lastConnect i log
    | _ => lastConnect i log := by
  unfold lastConnect; rw [List.foldl_append]; rfl

theorem lastConnect_append {i : Nat} {log es : List SEv} (h : ∀ e ∈ es, ∀ a p, e ≠ .connect i a p) :
    lastConnect i (log ++ es) = lastConnect i log := by
  induction es generalizing log with
  | nil => rw [List.append_nil]
  | cons e es ih =>
    rw [show log ++ e :: es = (log ++ [e]) ++ es by simp, ih (fun x hx => h x (by simp [hx])), lastConnect_snoc]
    cases e with
    | connect j a p =>
      dsimp only
      rw [if_neg]
      rintro rfl; exact h _ (by simp) a p rfl
    | _ => rfl

/-- Where connections lead, and that a connection a packet came over lasts until it is closed. -/
structure IdxOK (c : SubCtx) : Prop where
  key : ∀ i, i < c.cv.size → (c.cv.conns i).mode ≠ .closed → lastConnect i c.log = some ((c.cv.conns i).addr, (c.cv.conns i).port)
  up : ∀ pre post i p m ts, c.log = pre ++ .arrive i p m ts :: post → .closed i ∉ post →
    Up c i ∧ ∀ e ∈ post, ∀ a p, e ≠ .connect i a p

/-- A step that starts no connection and closes none. -/
theorem IdxOK.keep {c c' : SubCtx} (h : IdxOK c) {es : List SEv} (hl : c'.log = c.log ++ es) (hsz : c'.cv.size = c.cv.size)
    (hc : ∀ i a p, .connect i a p ∉ es)
    (hk : ∀ i, i < c.cv.size → (c'.cv.conns i).mode ≠ .closed →
      (c.cv.conns i).mode ≠ .closed ∧ (c'.cv.conns i).addr = (c.cv.conns i).addr ∧ (c'.cv.conns i).port = (c.cv.conns i).port)
    (hu : ∀ i, Up c i → .closed i ∉ es → Up c' i)
    (ha : ∀ i p m ts, .arrive i p m ts ∈ es → Up c i ∧ .closed i ∉ es) : IdxOK c' := by
  refine ⟨?_, ?_⟩
  · intro i hi hm
    rw [hsz] at hi
    obtain ⟨k1, k2, k3⟩ := hk i hi hm
    rw [hl, lastConnect_append (fun e he a p => by rintro rfl; exact hc _ _ _ he), h.key i hi k1, k2, k3]
  · intro pre post i p m ts e hp
    rw [hl] at e
    have new : .arrive i p m ts ∈ es → (∀ x ∈ post, x ∈ es) → Up c' i ∧ ∀ e ∈ post, ∀ a p, e ≠ .connect i a p := by
      intro hin hpost
      obtain ⟨u1, u2⟩ := ha i p m ts hin
      exact ⟨hu i u1 u2, fun x hx a p e => hc _ _ _ (e ▸ hpost x hx)⟩
    rcases List.append_eq_append_iff.1 e with ⟨zs, e1, e2⟩ | ⟨zs, e1, e2⟩
    · exact new (by rw [e2]; simp) (fun x hx => by rw [e2]; simp [hx])
    · cases zs with
      | nil =>
        rw [List.nil_append] at e2
        exact new (by rw [← e2]; simp) (fun x hx => by rw [← e2]; simp [hx])
      | cons z zs =>
        rw [List.cons_append] at e2
        cases e2
        rw [List.mem_append, not_or] at hp
        obtain ⟨u1, u2⟩ := h.up pre zs i p m ts e1 hp.1
        refine ⟨hu i u1 hp.2, ?_⟩
        intro x hx
        rcases List.mem_append.1 hx with hx | hx
        · exact u2 x hx
        · intro a p; rintro rfl; exact hc _ _ _ hx

theorem IdxOK.same {c c' : SubCtx} (h : IdxOK c) (hv : c'.cv = c.cv) {es : List SEv} (hl : c'.log = c.log ++ es)
    (hc : ∀ i a p, .connect i a p ∉ es) (ha : ∀ i p m ts, .arrive i p m ts ∈ es → Up c i ∧ .closed i ∉ es) : IdxOK c' :=
  h.keep hl (by rw [hv]) hc (by rw [hv]; exact fun _ _ x => ⟨x, rfl, rfl⟩) (fun i hu _ => by unfold Up; rw [hv]; exact hu) ha

theorem IdxOK.micro {tm : Nat} {c c' : SubCtx} (m : Micro tm c c') (hc : Core c) (h : IdxOK c) : IdxOK c' := by
  have set : ∀ {c' : SubCtx} {i : Nat} {x : Conn} {es : List SEv}, Up c i → c'.cv.conns = (fun j => if j = i then x else c.cv.conns j) →
      c'.cv.size = c.cv.size → x.mode = .connected → x.addr = (c.cv.conns i).addr → x.port = (c.cv.conns i).port → c'.log = c.log ++ es →
      (∀ i a p, .connect i a p ∉ es) → (∀ i p m ts, .arrive i p m ts ∈ es → Up c i ∧ .closed i ∉ es) → IdxOK c' := by
    intro c' i x es hu hcv hsz hm h1 h2 hl g1 g2
    refine h.keep hl hsz g1 ?_ ?_ g2
    · intro j hj
      rw [hcv]
      dsimp only
      by_cases e : j = i
      · subst e; rw [if_pos rfl, hu.2]; exact fun _ => ⟨by decide, h1, h2⟩
      · rw [if_neg e]; exact fun x => ⟨x, rfl, rfl⟩
    · intro j hj _
      refine ⟨by rw [hsz]; exact hj.1, ?_⟩
      rw [hcv]
      dsimp only
      split
      · exact hm
      · exact hj.2
  cases m with
  | user hx he => refine h.same rfl rfl ?_ ?_ <;> rcases he with rfl | rfl <;> simp
  | cb hk => exact h.same rfl rfl (by simp) (by simp)
  | setCb f hk => exact h.same rfl (es := []) (List.append_nil _).symm (by simp) (by simp)
  | annCb a => exact h.same rfl rfl (by simp) (by simp)
  | sock m es => exact h.keep (es := []) (List.append_nil _).symm rfl (by simp) (fun _ _ x => ⟨x, rfl, rfl⟩) (fun _ x _ => x) (by simp)
  | dup hu hs hp hd hk =>
    refine h.same rfl rfl (by simp) ?_
    intro j q m ts hx
    rw [List.mem_singleton] at hx
    cases hx
    exact ⟨hu, by simp⟩
  | @recv i t hu hs pid data m ts hd al ha =>
    refine h.same (es := [.arrive i ⟨c.nextAddr, pid, ⟨c.nextAddr, data, false⟩, i⟩ m ts] ++ [.alloc ⟨c.nextAddr, pid, ⟨c.nextAddr, data, false⟩, i⟩] ++
      (process (received' t ⟨c.nextAddr, pid, ⟨c.nextAddr, data, false⟩, i⟩ m ts)).2.map .ready) rfl (by unfold recvd; simp) (by simp) ?_
    intro j q m ts hx
    simp at hx
    rw [hx.1]
    exact ⟨hu, by simp⟩
  | io hu rb a es => exact set hu rfl rfl hu.2 rfl rfl (es := []) (List.append_nil _).symm (by simp) (by simp)
  | taken hs hi ha => exact h.same rfl rfl (by simp) (by simp)
  | dropAck ha hs hi => exact h.same rfl (es := []) (List.append_nil _).symm (by simp) (by simp)
  | msg hu hw hz hb he =>
    refine set hu rfl rfl hu.2 rfl rfl rfl ?_ ?_
    · intro j a p hx
      rw [List.mem_singleton] at hx
      rcases he with ⟨iv, -, he, -⟩ | ⟨bs, ds, he, -⟩ <;> rw [he] at hx <;> cases hx
    · intro j q m ts hx
      rw [List.mem_singleton] at hx
      rcases he with ⟨iv, -, he, -⟩ | ⟨bs, ds, he, -⟩ <;> rw [he] at hx <;> cases hx
  | out hu hw hz hb a es => exact set hu rfl rfl hu.2 rfl rfl rfl (by simp) (by simp)
  | @connect i addr port nid d L hv hL hi v hv' h1 h2 h3 h4 h5 =>
    have hcl : (c.cv.conns i).mode = .closed := by
      apply Classical.byContradiction
      intro x; exact hL ((hv.mode i hi).1 x)
    refine ⟨?_, ?_⟩
    · intro j hj hm
      have hj : j < v.size := hj
      have hm : (v.conns j).mode ≠ .closed := hm
      show lastConnect j (c.log ++ [.connect i addr port]) = some ((v.conns j).addr, (v.conns j).port)
      rw [lastConnect_snoc]
      dsimp only
      by_cases e : i = j
      · subst e; rw [if_pos rfl, h4]
      · rw [if_neg e]
        rw [h3 j (fun x => e x.symm)] at hm ⊢
        exact h.key j (by omega) hm
    · intro pre post j q m ts e hp
      have e : c.log ++ [.connect i addr port] = pre ++ .arrive j q m ts :: post := e
      rcases List.eq_nil_or_concat post with rfl | ⟨post', x, rfl⟩
      · have := (List.append_inj' e rfl).2
        cases this
      · rw [List.concat_eq_append] at e hp ⊢
        rw [← List.cons_append, ← List.append_assoc] at e
        obtain ⟨e1, e2⟩ := List.append_inj' e rfl
        cases e2
        rw [List.mem_append, not_or] at hp
        obtain ⟨u1, u2⟩ := h.up pre post' j q m ts e1 hp.1
        have hne : j ≠ i := by
          rintro rfl
          have := u1.2
          rw [hcl] at this; cases this
        refine ⟨⟨by show j < v.size; rw [h1]; exact u1.1, ?_⟩, ?_⟩
        · show (v.conns j).mode = _
          rw [h3 j hne]; exact u1.2
        · intro x hx a p
          rcases List.mem_append.1 hx with hx | hx
          · exact u2 x hx a p
          · rw [List.mem_singleton] at hx
            rw [hx]; intro y; cases y; exact hne rfl
  | @noConnect L hv v hv' h1 h2 h3 h4 =>
    refine h.keep (es := []) (List.append_nil _).symm h1 (by simp) ?_ ?_ (by simp)
    · intro j hj hm
      have hm : (v.conns j).mode ≠ .closed := hm
      have hjL := (hv'.mode j (by rw [h1]; exact hj)).1 hm
      show _ ∧ (v.conns j).addr = _ ∧ (v.conns j).port = _
      rw [h4 j hjL] at hm ⊢
      exact ⟨hm, rfl, rfl⟩
    · intro j hj _
      have hjL := (hv.mode j hj.1).1 (by rw [hj.2]; decide)
      refine ⟨by show j < v.size; rw [h1]; exact hj.1, ?_⟩
      show (v.conns j).mode = _
      rw [h4 j hjL]; exact hj.2
  | @complete i hi hm =>
    refine h.keep rfl rfl (by simp) ?_ ?_ (by simp)
    · intro j hj hm'
      have hm' : (if j = i then { c.cv.conns i with mode := .connected, action := .R } else c.cv.conns j : Conn).mode ≠ .closed := hm'
      show _ ∧ (if j = i then { c.cv.conns i with mode := .connected, action := .R } else c.cv.conns j : Conn).addr = _ ∧
        (if j = i then { c.cv.conns i with mode := .connected, action := .R } else c.cv.conns j : Conn).port = _
      by_cases e : j = i
      · subst e
        rw [if_pos rfl, hm]
        exact ⟨by decide, rfl, rfl⟩
      · rw [if_neg e] at hm' ⊢; exact ⟨hm', rfl, rfl⟩
    · intro j hj _
      refine ⟨hj.1, ?_⟩
      show (if j = i then { c.cv.conns i with mode := .connected, action := .R } else c.cv.conns j : Conn).mode = .connected
      split
      · rfl
      · exact hj.2
  | @noComplete i hi hm L hv v hv' h1 h2 h3 h4 xs hx =>
    refine h.keep rfl h1 ?_ ?_ ?_ ?_
    · rcases hx with rfl | rfl <;> simp
    · intro j hj hm'
      have hm' : (v.conns j).mode ≠ .closed := hm'
      show _ ∧ (v.conns j).addr = _ ∧ (v.conns j).port = _
      by_cases e : j = i
      · subst e; rw [h4] at hm'; exact absurd rfl hm'
      · rw [h3 j e] at hm' ⊢; exact ⟨hm', rfl, rfl⟩
    · intro j hj _
      have e : j ≠ i := by rintro rfl; have := hj.2; rw [hm] at this; cases this
      refine ⟨by show j < v.size; rw [h1]; exact hj.1, ?_⟩
      show (v.conns j).mode = _
      rw [h3 j e]; exact hj.2
    · rcases hx with rfl | rfl <;> simp
  | @close i t hi hs =>
    obtain ⟨L, hL⟩ := hc.v
    have hlog : (closedAt c i t).log = c.log ++ ([.closed i] ++ (reset t).2.map fun p => .free p.payload.ptr p.payload.data.length (.u32 p.slot)) := by
      unfold closedAt; simp
    have key : (ConnVec.close c.cv i).2.size = c.cv.size ∧ ((ConnVec.close c.cv i).2.conns i).mode = .closed ∧
        ∀ j, j ≠ i → (ConnVec.close c.cv i).2.conns j = c.cv.conns j := by
      by_cases hiL : i ∈ L
      · obtain ⟨_, _, q3, _, q5, q6, _⟩ := (close_spec hL i).1 hiL
        exact ⟨q3, by rw [q6]; rfl, q5⟩
      · rw [((close_spec hL i).2 hiL).2]
        exact ⟨rfl, Classical.byContradiction fun x => hiL ((hL.mode i hi).1 x), fun _ _ => rfl⟩
    obtain ⟨q1, q2, q3⟩ := key
    refine h.keep hlog q1 (by simp) ?_ ?_ (by simp)
    · intro j hj hm'
      have hm' : ((ConnVec.close c.cv i).2.conns j).mode ≠ .closed := hm'
      show _ ∧ ((ConnVec.close c.cv i).2.conns j).addr = _ ∧ ((ConnVec.close c.cv i).2.conns j).port = _
      by_cases e : j = i
      · subst e; exact absurd q2 hm'
      · rw [q3 j e] at hm' ⊢; exact ⟨hm', rfl, rfl⟩
    · intro j hj hx
      have e : j ≠ i := by rintro rfl; exact hx (by simp)
      refine ⟨by show j < (ConnVec.close c.cv i).2.size; rw [q1]; exact hj.1, ?_⟩
      show ((ConnVec.close c.cv i).2.conns j).mode = _
      rw [q3 j e]; exact hj.2

theorem Reaches.idxOK {ops : List Op} {c : SubCtx} (h : Reaches ops c) : IdxOK c := by
  refine Reaches.induct (P := fun _ c => IdxOK c) ?_ ?_ h
  · intro mem n nid hn
    have hi := Inv_init mem n nid hn
    refine ⟨?_, ?_⟩
    · intro i hi hm
      exact absurd rfl hm
    · intro pre post i p m ts e
      have e : [] = _ := e
      simp at e
  · intro ops c op r c' hr ha hs
    have hi := hr.inv
    have go : ∀ {a b : SubCtx} {tm : Nat}, Steps tm a b → Inv a → IdxOK a → IdxOK b := fun st ia ua =>
      (Steps.both (P := Core) (Q := IdxOK) (fun _ _ m h => h.micro m) (fun _ _ m h1 h2 => h2.micro m h1) st ia.core ua).2
    rcases step_cases hi.core hi.mem hs with st | ⟨_, st⟩
    · exact go st hi ha
    · exact go st hi.forget ⟨ha.key, ha.up⟩

/-- C78, the part that holds: as long as the connection a packet arrived on has not been closed since, the connection with the packet's index is up and
leads to the address and port it led to when the packet arrived. -/
theorem C78_index_partial {ops : List Op} {c : SubCtx} (h : Reaches ops c) {p : SPkt} {m : Bool} {ts : Int} {pre post : List SEv}
    (hl : c.log = pre ++ .arrive (packetIndex p) p m ts :: post) (hp : .closed (packetIndex p) ∉ post) :
    Up c (packetIndex p) ∧
    lastConnect (packetIndex p) pre = some ((c.cv.conns (packetIndex p)).addr, (c.cv.conns (packetIndex p)).port) := by
  obtain ⟨u1, u2⟩ := h.idxOK.up pre post _ p m ts hl hp
  refine ⟨u1, ?_⟩
  have := h.idxOK.key _ u1.1 (by rw [u1.2]; decide)
  rw [hl, lastConnect_append] at this
  · exact this
  · intro e he
    rcases List.mem_cons.1 he with rfl | he
    · simp
    · exact u2 e he

/-- Non-vacuity: a packet from port 6 (slot 1) has arrived and its connection is still there. -/
example : ∃ c rs, Reaches exTwoPubs c ∧ run exS0 exTwoPubs = .ok (rs, c) ∧
    (decide (lastConnect 1 c.log = some (77, 6) ∧ SEv.closed 1 ∉ c.log ∧ Up c 1) &&
      c.log.any fun e => match e with | .arrive i p _ _ => decide (i = 1 ∧ packetIndex p = 1) | _ => false) = true :=
  reaches_of (P := fun rs c => _ && _) (by decide +kernel)

/-- The index of a packet does not identify its publisher for ever: packet 5 came from the publisher on port 4, its index is 0, and the connection with
index 0 is that to the publisher on port 6. -/
theorem C78_false : ∃ ops c p, Reaches ops c ∧ p ∈ c.ready ∧ packetIndex p = 0 ∧
    (∃ pre post m ts, c.log = pre ++ .arrive 0 p m ts :: post ∧ .connect 0 77 4 ∈ pre ∧ .connect 0 77 6 ∉ pre) ∧
    Up c 0 ∧ (c.cv.conns 0).port = 6 := by
  obtain ⟨c, rs, h1, h2, h3⟩ := reaches_of (ops := exReused)
    (P := fun rs c => decide (Up c 0 ∧ (c.cv.conns 0).port = 6) && c.ready.any fun p => decide (packetIndex p = 0) &&
      (List.range c.log.length).any fun k => decide (SEv.connect 0 77 4 ∈ c.log.take k ∧ SEv.connect 0 77 6 ∉ c.log.take k ∧
        (c.log[k]? = some (.arrive 0 p true 1000)))) (by decide +kernel)
  rw [Bool.and_eq_true, List.any_eq_true] at h3
  obtain ⟨a1, p, hp, a2⟩ := h3
  obtain ⟨a3, a4⟩ := of_decide_eq_true a1
  rw [Bool.and_eq_true, List.any_eq_true] at a2
  obtain ⟨b1, k, hk, b2⟩ := a2
  obtain ⟨b3, b4, b5⟩ := of_decide_eq_true b2
  refine ⟨_, c, p, h1, hp, of_decide_eq_true b1, ⟨c.log.take k, c.log.drop (k + 1), true, 1000, ?_, b3, b4⟩, a3, a4⟩
  obtain ⟨hlt, e⟩ := List.getElem?_eq_some_iff.1 b5
  rw [← e, ← List.drop_eq_getElem_cons hlt, List.take_append_drop]

end SubCtx
end Rmc
