import Verif.Props.SubCtxConn

/-!
# C48: the poll callbacks of the subscriber

`lastAct i polls` is what was last asked for at index `i` by the poll callbacks (`none`: nothing, or removed since).
-/

set_option linter.unusedVariables false

namespace Rmc

/-- One poll callback. -/
def lastStep (i : Nat) (r : Option Act) (e : PollEv) : Option Act :=
  match e with
  | .add j _ a => if j = i then some a else r
  | .modify j _ _ a => if j = i then some a else r
  | .remove j _ => if j = i then none else r

theorem lastAct_append (i : Nat) (xs ys : List PollEv) : lastAct i (xs ++ ys) = ys.foldl (lastStep i) (lastAct i xs) := by
  unfold lastAct; rw [List.foldl_append]; rfl

theorem lastAct_others {i : Nat} {ys : List PollEv} (h : ∀ e ∈ ys, e.idx ≠ i) (xs : List PollEv) : lastAct i (xs ++ ys) = lastAct i xs := by
  rw [lastAct_append]
  generalize lastAct i xs = r
  induction ys generalizing r with
  | nil => rfl
  | cons e ys ih =>
    rw [List.foldl_cons]
    have : lastStep i r e = r := by
      have := h e (by simp)
      cases e <;> simp_all [lastStep, PollEv.idx]
    rw [this]
    exact ih (fun e he => h e (by simp [he])) r

theorem lastAct_modify (i : Nat) (xs : List PollEv) (d : Option Nat) (o a : Act) : lastAct i (xs ++ [.modify i d o a]) = some a := by
  rw [lastAct_append]; simp [lastStep]

theorem lastAct_add (i : Nat) (xs : List PollEv) (d : Option Nat) (a : Act) : lastAct i (xs ++ [.add i d a]) = some a := by
  rw [lastAct_append]; simp [lastStep]

theorem lastAct_removes {i : Nat} {ys : List PollEv} (h0 : ys ≠ []) (h : ∀ e ∈ ys, ∃ d, e = PollEv.remove i d) (xs : List PollEv) :
    lastAct i (xs ++ ys) = none := by
  rw [lastAct_append]
  generalize lastAct i xs = r
  induction ys generalizing r with
  | nil => exact absurd rfl h0
  | cons e ys ih =>
    rw [List.foldl_cons]
    obtain ⟨d, rfl⟩ := h e (by simp)
    have : lastStep i r (.remove i d) = none := by simp [lastStep]
    rw [this]
    by_cases hy : ys = []
    · subst hy; rfl
    · exact ih hy (fun e he => h e (by simp [he])) none

namespace SubCtx
open SubPub CircBuf ConnVec

/-- What the poll callbacks made so far ask for, slot by slot. -/
structure PollOK (c : SubCtx) : Prop where
  off : ∀ i, i < c.cv.size → ¬ Live c i → lastAct i c.cv.polls = none
  wait : ∀ i, i < c.cv.size → (c.cv.conns i).mode = .connecting → lastAct i c.cv.polls = some .W
  act : ∀ i, Up c i → (c.cv.conns i).action.r = true ∧ ((c.cv.conns i).action.w = true ↔ bytes (c.cv.conns i).writeBuf ≠ [])
  up : ∀ i, Up c i → lastAct i c.cv.polls = some (c.cv.conns i).action ∨ lastAct i c.cv.polls = some .R

/-- The action last asked for at slot `i` is the one the connection stands for. -/
def Exact (i : Nat) (c : SubCtx) : Prop := Up c i → lastAct i c.cv.polls = some (c.cv.conns i).action

theorem Core.notMc {c : SubCtx} (hc : Core c) {i : Nat} (hi : i < c.cv.size) : MULTICAST_INDEX ≠ i := by
  obtain ⟨L, hL⟩ := hc.v
  have := hL.sz
  simp only [LISTEN_INDEX, MULTICAST_INDEX] at *
  omega

theorem PollOK.congr {c c' : SubCtx} (h : PollOK c) (e : c'.cv = c.cv) : PollOK c' := by
  obtain ⟨h1, h2, h3, h4⟩ := h
  constructor
  · intro i hi hl; rw [e] at hi ⊢; exact h1 i hi (fun x => hl ⟨by rw [e]; exact x.1, by rw [e]; exact x.2⟩)
  · rw [e]; exact h2
  · intro i hu; rw [e]; exact h3 i ⟨e ▸ hu.1, e ▸ hu.2⟩
  · intro i hu; rw [e]; exact h4 i ⟨e ▸ hu.1, e ▸ hu.2⟩

/-- One slot that is set up changes. -/
theorem PollOK.set {c d : SubCtx} (h : PollOK c) {i : Nat} {x : Conn} (hl : Live c i) (h1 : d.cv.size = c.cv.size)
    (h2 : ∀ j, d.cv.conns j = if j = i then x else c.cv.conns j) {es : List PollEv} (h3 : d.cv.polls = c.cv.polls ++ es)
    (h4 : ∀ e ∈ es, e.idx = i) (hm : x.mode = .connected) (ha : x.action.r = true ∧ (x.action.w = true ↔ bytes x.writeBuf ≠ []))
    (hp : lastAct i (c.cv.polls ++ es) = some x.action ∨ lastAct i (c.cv.polls ++ es) = some .R) : PollOK d := by
  have hne : ∀ j, j ≠ i → lastAct j d.cv.polls = lastAct j c.cv.polls := by
    intro j hj
    rw [h3]
    exact lastAct_others (fun e he x => hj (x.symm.trans (h4 e he))) _
  have hmode : ∀ j, j ≠ i → (d.cv.conns j) = c.cv.conns j := fun j hj => by rw [h2, if_neg hj]
  have hi : d.cv.conns i = x := by rw [h2, if_pos rfl]
  constructor
  · intro j hj hn
    by_cases e : j = i
    · subst e; exact absurd ⟨hj, by rw [hi, hm]; decide⟩ hn
    · rw [hne j e]
      exact h.off j (h1 ▸ hj) (fun y => hn ⟨hj, by rw [hmode j e]; exact y.2⟩)
  · intro j hj hn
    by_cases e : j = i
    · subst e; rw [hi, hm] at hn; cases hn
    · rw [hne j e]; rw [hmode j e] at hn; exact h.wait j (h1 ▸ hj) hn
  · intro j hu
    by_cases e : j = i
    · subst e; rw [hi]; exact ha
    · rw [hmode j e]; exact h.act j ⟨h1 ▸ hu.1, by have := hu.2; rw [hmode j e] at this; exact this⟩
  · intro j hu
    by_cases e : j = i
    · subst e; rw [hi, h3]; exact hp
    · rw [hne j e, hmode j e]; exact h.up j ⟨h1 ▸ hu.1, by have := hu.2; rw [hmode j e] at this; exact this⟩

/-- One slot is closed. -/
theorem PollOK.drop {c d : SubCtx} (h : PollOK c) {i : Nat} (h1 : d.cv.size = c.cv.size)
    (h2 : ∀ j, j ≠ i → d.cv.conns j = c.cv.conns j) (hm : (d.cv.conns i).mode = .closed)
    {es : List PollEv} (h0 : es ≠ []) (h3 : d.cv.polls = c.cv.polls ++ es) (h4 : ∀ e ∈ es, ∃ x, e = PollEv.remove i x) : PollOK d := by
  have hne : ∀ j, j ≠ i → lastAct j d.cv.polls = lastAct j c.cv.polls := by
    intro j hj
    rw [h3]
    refine lastAct_others (fun e he x => hj ?_) _
    obtain ⟨_, rfl⟩ := h4 e he
    exact x.symm
  constructor
  · intro j hj hn
    by_cases e : j = i
    · subst e; rw [h3]; exact lastAct_removes h0 h4 _
    · rw [hne j e]
      exact h.off j (h1 ▸ hj) (fun y => hn ⟨hj, by rw [h2 j e]; exact y.2⟩)
  · intro j hj hn
    by_cases e : j = i
    · subst e; rw [hm] at hn; cases hn
    · rw [hne j e]; rw [h2 j e] at hn; exact h.wait j (h1 ▸ hj) hn
  · intro j hu
    by_cases e : j = i
    · subst e; have := hu.2; rw [hm] at this; cases this
    · rw [h2 j e]; exact h.act j ⟨h1 ▸ hu.1, by have := hu.2; rw [h2 j e] at this; exact this⟩
  · intro j hu
    by_cases e : j = i
    · subst e; have := hu.2; rw [hm] at this; cases this
    · rw [hne j e, h2 j e]; exact h.up j ⟨h1 ▸ hu.1, by have := hu.2; rw [h2 j e] at this; exact this⟩

theorem PollOK.micro {tm : Nat} {c c' : SubCtx} (m : Micro tm c c') (hc : Core c) (h : PollOK c) : PollOK c' := by
  have live : ∀ {i}, Up c i → Live c i := fun hu => ⟨hu.1, by rw [hu.2]; decide⟩
  cases m with
  | user hx he => exact h.congr rfl
  | cb hk => exact h.congr rfl
  | setCb f hk => exact h.congr rfl
  | annCb a => exact h.congr rfl
  | sock m es hes =>
    have hne : ∀ j, j < c.cv.size → lastAct j (c.cv.polls ++ es) = lastAct j c.cv.polls := by
      intro j hj
      exact lastAct_others (fun e he x => hc.notMc hj ((hes.idx e he).symm.trans x)) _
    obtain ⟨h1, h2, h3, h4⟩ := h
    constructor
    · intro j hj hn; exact (hne j hj).trans (h1 j hj hn)
    · intro j hj hn; exact (hne j hj).trans (h2 j hj hn)
    · exact h3
    · intro j hu
      have := h4 j hu
      rw [← hne j hu.1] at this
      exact this
  | dup hu hs hp hd hk => exact h.congr rfl
  | recv hu hs hd ha hk => exact h.congr rfl
  | @io i hu rb a es hact hes hk =>
    subst hact
    refine h.set (x := { c.cv.conns i with readBuf := rb }) (live hu) rfl (fun j => rfl) rfl ?_ hu.2 (h.act i hu) ?_
    · rcases hes with rfl | ⟨d, rfl⟩ <;> simp [PollEv.idx]
    · rcases hes with rfl | ⟨d, rfl⟩
      · rw [List.append_nil]; exact h.up i hu
      · right; exact lastAct_modify _ _ _ _ _
  | taken hs hi ha => exact h.congr rfl
  | dropAck ha hs hi => exact h.congr rfl
  | @msg i hu b e xs hw hz hb he =>
    refine h.set (x := { c.cv.conns i with writeBuf := b, action := (c.cv.conns i).action.setW })
      (es := [.modify i (c.cv.conns i).desc (c.cv.conns i).action (c.cv.conns i).action.setW]) (live hu) rfl (fun j => rfl) rfl
      (by simp [PollEv.idx]) hu.2 ⟨?_, ?_⟩ (.inl (lastAct_modify _ _ _ _ _))
    · show (c.cv.conns i).action.setW.r = true
      have := (h.act i hu).1
      simpa [Act.setW] using this
    · show (c.cv.conns i).action.setW.w = true ↔ bytes b ≠ []
      have hx : bytes b ≠ [] := by
        rw [hb]
        rcases he with ⟨iv, -, -, rfl⟩ | ⟨bs, ds, -, rfl, -⟩
        · simp [ackFrame]
        · simp [ctlFrame]
      simp [Act.setW, hx]
  | @out i hu b xs hw hz hb a es hact hes hr =>
    subst hes
    refine h.set (x := { c.cv.conns i with writeBuf := b, action := a }) (live hu) rfl (fun j => rfl) rfl
      (by simp [PollEv.idx]) hu.2 ⟨?_, hact⟩ (.inl (lastAct_modify _ _ _ _ _))
    exact hr.trans (h.act i hu).1
  | @connect i addr port nid d L hv hL hi v hv' h1 h2 h3 h4 h5 =>
    have hne : ∀ j, j ≠ i → lastAct j v.polls = lastAct j c.cv.polls := by
      intro j hj
      rw [h5]
      exact lastAct_others (fun e he x => by
        rw [List.mem_singleton] at he; subst he; exact hj x.symm) _
    constructor
    · intro j hj hn
      by_cases e : j = i
      · subst e
        exact absurd ⟨hj, by show (v.conns j).mode ≠ _; rw [h4]; simp⟩ hn
      · have : ¬ Live c j := fun y => hn ⟨hj, by show (v.conns j).mode ≠ _; rw [h3 j e]; exact y.2⟩
        exact (hne j e).trans (h.off j (h1 ▸ hj) this)
    · intro j hj hn
      have hn : (v.conns j).mode = .connecting := hn
      by_cases e : j = i
      · subst e
        show lastAct j v.polls = _
        rw [h5]; exact lastAct_add _ _ _ _
      · rw [h3 j e] at hn
        exact (hne j e).trans (h.wait j (h1 ▸ hj) hn)
    · intro j hu
      have hm : (v.conns j).mode = .connected := hu.2
      show (v.conns j).action.r = true ∧ ((v.conns j).action.w = true ↔ bytes (v.conns j).writeBuf ≠ [])
      by_cases e : j = i
      · subst e; rw [h4] at hm; cases hm
      · rw [h3 j e] at hm ⊢; exact h.act j ⟨h1 ▸ hu.1, hm⟩
    · intro j hu
      have hm : (v.conns j).mode = .connected := hu.2
      show lastAct j v.polls = some (v.conns j).action ∨ lastAct j v.polls = _
      by_cases e : j = i
      · subst e; rw [h4] at hm; cases hm
      · rw [hne j e]; rw [h3 j e] at hm ⊢; exact h.up j ⟨h1 ▸ hu.1, hm⟩
  | @noConnect L hv v hv' h1 h2 h3 h4 =>
    have hin : ∀ j, j < v.size → (v.conns j).mode ≠ .closed → v.conns j = c.cv.conns j := fun j hj hm => h4 j ((hv'.mode j hj).1 hm)
    constructor
    · intro j hj hn
      have : ¬ Live c j := by
        rintro ⟨y1, y2⟩
        have hL := (hv.mode j y1).1 y2
        exact hn ⟨hj, (hv'.mode j hj).2 hL⟩
      show lastAct j v.polls = _
      rw [h3]; exact h.off j (h1 ▸ hj) this
    · intro j hj hn
      have hn : (v.conns j).mode = .connecting := hn
      show lastAct j v.polls = _
      rw [hin j hj (by rw [hn]; decide)] at hn
      rw [h3]; exact h.wait j (h1 ▸ hj) hn
    · intro j hu
      have hm : (v.conns j).mode = .connected := hu.2
      have e := hin j hu.1 (by rw [hm]; decide)
      show (v.conns j).action.r = true ∧ ((v.conns j).action.w = true ↔ bytes (v.conns j).writeBuf ≠ [])
      rw [e] at hm ⊢; exact h.act j ⟨h1 ▸ hu.1, hm⟩
    · intro j hu
      have hm : (v.conns j).mode = .connected := hu.2
      have e := hin j hu.1 (by rw [hm]; decide)
      show lastAct j v.polls = some (v.conns j).action ∨ lastAct j v.polls = _
      rw [h3]; rw [e] at hm ⊢; exact h.up j ⟨h1 ▸ hu.1, hm⟩
  | @complete i hi hm =>
    refine h.set (i := i) (x := { c.cv.conns i with mode := .connected, action := .R })
      (es := [.modify i (c.cv.conns i).desc (c.cv.conns i).action .R]) ⟨hi, by rw [hm]; decide⟩ rfl (fun j => rfl) rfl
      (by simp [PollEv.idx]) rfl ⟨rfl, ?_⟩ (.inl (lastAct_modify _ _ _ _ _))
    have hx : bytes (c.cv.conns i).writeBuf = [] := by
      obtain ⟨L, hL⟩ := hc.v
      exact fresh_bytes (hc.fresh i hi (by rw [hm]; decide)).2 (by decide)
    show Act.R.w = true ↔ bytes (c.cv.conns i).writeBuf ≠ []
    simp [hx, Act.R]
  | @noComplete i hi hm L hv v hv' h1 h2 h3 h4 xs hx hes =>
    obtain ⟨es, e1, e2, e3⟩ := hes
    exact h.drop (d := { c with publishers := _, cv := v, log := _ }) h1 h3 (by show (v.conns i).mode = _; rw [h4]; rfl) e1 e3 (fun e he => ⟨_, e2 e he⟩)
  | @close i s hi hs =>
    obtain ⟨L, hL⟩ := hc.v
    by_cases hiL : i ∈ L
    · obtain ⟨q1, q2, q3, q4, q5, q6, q7⟩ := (close_spec hL i).1 hiL
      refine h.drop (d := closedAt c i s) (es := [.remove i (c.cv.conns i).desc]) q3 q5 ?_ (by simp) q7 (by simp)
      show ((ConnVec.close c.cv i).2.conns i).mode = _
      rw [q6]; rfl
    · exact h.congr (c' := closedAt c i s) ((close_spec hL i).2 hiL).2

theorem PollOK_init (mem : Nat → Conn) (n nid : Nat) (hn : n ≤ LISTEN_INDEX) : PollOK (init mem n nid) := by
  constructor
  · intro i hi hl; rfl
  · intro i hi hm; exact absurd hm (by simp [init, ConnVec.init, resetConn])
  · intro i hu; exact absurd hu.2 (by simp [init, ConnVec.init, resetConn])
  · intro i hu; exact absurd hu.2 (by simp [init, ConnVec.init, resetConn])

theorem Reaches.pollOK {ops : List Op} {c : SubCtx} (h : Reaches ops c) : PollOK c := by
  refine Reaches.induct (P := fun _ c => PollOK c) PollOK_init ?_ h
  · intro ops c op r c' hr ha hs
    have hi := hr.inv
    have go : ∀ {a b : SubCtx} {tm : Nat}, Steps tm a b → Core a → PollOK a → PollOK b := fun st ca ra =>
      (Steps.both (P := Core) (Q := PollOK) (fun _ _ m h => h.micro m) (fun _ _ m h1 h2 => h2.micro m h1) st ca ra).2
    rcases step_cases hi.core hi.mem hs with st | ⟨-, st⟩
    · exact go st hi.core ha
    · exact go st hi.core.forget (ha.congr rfl)

/-! ## Without a read, what was asked for is what the connection stands for -/

theorem Exact.same {c d : SubCtx} {i : Nat} (h : Exact i c) (h1 : d.cv.size = c.cv.size) (h2 : d.cv.conns i = c.cv.conns i)
    (h3 : lastAct i d.cv.polls = lastAct i c.cv.polls) : Exact i d := by
  rintro ⟨x1, x2⟩
  rw [h2, h3]
  exact h ⟨h1 ▸ x1, h2 ▸ x2⟩

theorem Exact.micro {tm i : Nat} {c c' : SubCtx} (m : Micro tm c c') (ht : tm ≠ 3 + i) (hc : Core c) (h : Exact i c) : Exact i c' := by
  have setE : ∀ {k : Nat} {x : Conn} {d : SubCtx}, d.cv.size = c.cv.size → (∀ j, d.cv.conns j = if j = k then x else c.cv.conns j) →
      ∀ {o : Act} {dd : Option Nat}, d.cv.polls = c.cv.polls ++ [.modify k dd o x.action] → Exact i d := by
    intro k x d h1 h2 o dd h3
    by_cases e : i = k
    · subst e
      intro _
      rw [h3, h2, if_pos rfl]
      exact lastAct_modify _ _ _ _ _
    · refine h.same h1 (by rw [h2, if_neg e]) ?_
      rw [h3]
      exact lastAct_others (by simp [PollEv.idx]; exact fun x => e x.symm) _
  cases m with
  | user hx he => exact h.same rfl rfl rfl
  | cb hk => exact h.same rfl rfl rfl
  | setCb f hk => exact h.same rfl rfl rfl
  | annCb a => exact h.same rfl rfl rfl
  | sock m es hes =>
    rintro ⟨x1, x2⟩
    refine (lastAct_others (fun e he x => hc.notMc x1 ((hes.idx e he).symm.trans x)) _).trans (h ⟨x1, x2⟩)
  | dup hu hs hp hd hk => exact h.same rfl rfl rfl
  | recv hu hs hd ha hk => exact h.same rfl rfl rfl
  | @io k hu rb a es hact hes hk =>
    have hki : i ≠ k := fun e => ht (by rw [hk, e])
    refine h.same rfl (if_neg hki) ?_
    refine lastAct_others ?_ _
    rcases hes with rfl | ⟨d, rfl⟩
    · simp
    · simp [PollEv.idx]; exact fun x => hki x.symm
  | taken hs hi ha => exact h.same rfl rfl rfl
  | dropAck ha hs hi => exact h.same rfl rfl rfl
  | @msg k hu b e xs hw hz hb he =>
    exact setE (x := { c.cv.conns k with writeBuf := b, action := (c.cv.conns k).action.setW }) rfl (fun j => rfl) rfl
  | @out k hu b xs hw hz hb a es hact hes hr =>
    subst hes
    exact setE (x := { c.cv.conns k with writeBuf := b, action := a }) rfl (fun j => rfl) rfl
  | @connect k addr port nid d L hv hL hi v hv' h1 h2 h3 h4 h5 =>
    by_cases e : i = k
    · subst e
      rintro ⟨-, x2⟩
      have : (v.conns i).mode = .connected := x2
      rw [h4] at this
      cases this
    · refine h.same h1 (h3 i e) ?_
      show lastAct i v.polls = _
      rw [h5]
      exact lastAct_others (by simp [PollEv.idx]; exact fun x => e x.symm) _
  | @noConnect L hv v hv' h1 h2 h3 h4 =>
    rintro ⟨x1, x2⟩
    have x2 : (v.conns i).mode = .connected := x2
    have e := h4 i ((hv'.mode i x1).1 (by rw [x2]; decide))
    refine h.same (d := { c with cv := v }) h1 e ?_ ⟨x1, x2⟩
    show lastAct i v.polls = _
    rw [h3]
  | @complete k hi hm =>
    exact setE (x := { c.cv.conns k with mode := .connected, action := .R }) rfl (fun j => rfl) rfl
  | @noComplete k hi hm L hv v hv' h1 h2 h3 h4 xs hx hes =>
    obtain ⟨es, e1, e2, e3⟩ := hes
    by_cases e : i = k
    · subst e
      rintro ⟨-, x2⟩
      have : (v.conns i).mode = .connected := x2
      rw [h4] at this
      cases this
    · refine h.same h1 (h3 i e) ?_
      show lastAct i v.polls = _
      rw [e3]
      refine lastAct_others (fun ev he x => e ?_) _
      obtain ⟨_, rfl⟩ := e2 ev he
      exact x.symm
  | @close k s hi hs =>
    obtain ⟨L, hL⟩ := hc.v
    by_cases hiL : k ∈ L
    · obtain ⟨q1, q2, q3, q4, q5, q6, q7⟩ := (close_spec hL k).1 hiL
      by_cases e : i = k
      · subst e
        rintro ⟨-, x2⟩
        have : ((ConnVec.close c.cv i).2.conns i).mode = .connected := x2
        rw [q6] at this
        cases this
      · refine h.same (d := closedAt c k s) q3 (q5 i e) ?_
        show lastAct i (ConnVec.close c.cv k).2.polls = _
        rw [q7]
        exact lastAct_others (by simp [PollEv.idx]; exact fun x => e x.symm) _
    · have := ((close_spec hL k).2 hiL).2
      exact h.same (d := closedAt c k s) (congrArg ConnVec.size this) (congrFun (congrArg ConnVec.conns this) i)
        (congrArg (fun v => lastAct i (ConnVec.polls v)) this)

theorem Reaches.exact {ops : List Op} {c : SubCtx} (h : Reaches ops c) (i : Nat) (hr : ∀ rv ts, Op.read i rv ts ∉ ops) : Exact i c := by
  refine Reaches.induct (P := fun ops c => (∀ rv ts, Op.read i rv ts ∉ ops) → Exact i c) ?_ ?_ h hr
  · intro mem n nid hn _ hu; exact absurd hu.2 (by simp [init, ConnVec.init, resetConn])
  · intro ops c op r c' hr ha hs hno
    have hi := hr.inv
    have go : ∀ {a b : SubCtx} {tm : Nat}, tm ≠ 3 + i → Steps tm a b → Core a → Exact i a → Exact i b := fun ht st ca ra =>
      (Steps.both (P := Core) (Q := Exact i) (fun _ _ m h => h.micro m) (fun _ _ m h1 h2 => h2.micro m ht h1) st ca ra).2
    have ha := ha (fun rv ts hx => hno rv ts (by simp [hx]))
    rcases step_cases hi.core hi.mem hs with st | ⟨-, st⟩
    · refine go ?_ st hi.core ha
      intro e
      cases op with
      | read j rv ts =>
        have : j = i := by simp only [Op.kind] at e; omega
        subst this
        exact hno rv ts (by simp)
      | _ => simp only [Op.kind] at e; omega
    · exact go (by omega) st hi.core.forget (ha.same rfl rfl rfl)

/-! ## C48 for the subscriber -/

/-- C48 for the subscriber: for a slot without a connection nothing is asked for; for a connection being set up, write events; for
a connection that is set up always read events, and never write events without bytes pending. -/
theorem C48_sub_registered {ops : List Op} {c : SubCtx} (h : Reaches ops c) {i : Nat} (hi : i < c.cv.size) :
    ((c.cv.conns i).mode = .closed → lastAct i c.cv.polls = none) ∧
    ((c.cv.conns i).mode = .connecting → lastAct i c.cv.polls = some .W) ∧
    ((c.cv.conns i).mode = .connected → ∃ a, lastAct i c.cv.polls = some a ∧ a.r = true ∧
      (a.w = true → bytesOutAt i c.log ≠ (messagesAt i c.log).flatten)) := by
  have hp := h.pollOK
  refine ⟨fun hm => hp.off i hi (fun x => x.2 hm), hp.wait i hi, fun hm => ?_⟩
  have hs := h.inv.strm i ⟨hi, hm⟩
  obtain ⟨-, -, -, -, e5, e6⟩ := sess_spec i c.log
  rw [e5, e6] at hs
  obtain ⟨a1, a2⟩ := hp.act i ⟨hi, hm⟩
  rcases hp.up i ⟨hi, hm⟩ with e | e
  · refine ⟨_, e, a1, fun hw he => a2.1 hw ?_⟩
    rw [← he] at hs
    exact List.append_cancel_left (hs.trans (List.append_nil _).symm)
  · exact ⟨_, e, rfl, fun hw => by cases hw⟩

/-- C48 for the subscriber, with no read of connection `i` in the history: write events are asked for exactly while bytes put on
the connection have not left yet. -/
theorem C48_sub_pending_partial {ops : List Op} {c : SubCtx} (h : Reaches ops c) {i : Nat} (hu : Up c i)
    (hr : ∀ rv ts, Op.read i rv ts ∉ ops) :
    ∃ a, lastAct i c.cv.polls = some a ∧ a.r = true ∧
      (a.w = true ↔ bytesOutAt i c.log ≠ (messagesAt i c.log).flatten) := by
  have hp := h.pollOK
  have hs := h.inv.strm i hu
  obtain ⟨-, -, -, -, e5, e6⟩ := sess_spec i c.log
  rw [e5, e6] at hs
  obtain ⟨a1, a2⟩ := hp.act i hu
  refine ⟨_, h.exact i hr hu, a1, a2.trans ?_⟩
  rw [← hs]
  constructor
  · intro hb he
    exact hb (List.append_cancel_left (as := bytesOutAt i c.log) (he.symm.trans (List.append_nil _).symm))
  · intro he hb
    exact he (by rw [hb, List.append_nil])

/-- The hypotheses are met with bytes pending, and with none. -/
example : ∃ c rs, Reaches (exUp ++ [.readMcast [exDg 4 5 [50] 1000], .timeout 60000]) c ∧
    run exS0 (exUp ++ [.readMcast [exDg 4 5 [50] 1000], .timeout 60000]) = .ok (rs, c) ∧
    decide (Up c 0 ∧ bytesOutAt 0 c.log ≠ (messagesAt 0 c.log).flatten ∧ (lastAct 0 c.cv.polls).map (·.w) = some true) = true :=
  reaches_of (P := fun rs c => decide _) (by decide +kernel)

example : ∃ c rs, Reaches (exUp ++ [.readMcast [exDg 4 5 [50] 1000], .timeout 60000, .write 0 (.ok 0) none (.ok 17)]) c ∧
    run exS0 (exUp ++ [.readMcast [exDg 4 5 [50] 1000], .timeout 60000, .write 0 (.ok 0) none (.ok 17)]) = .ok (rs, c) ∧
    decide (Up c 0 ∧ (messagesAt 0 c.log).length = 1 ∧ (lastAct 0 c.cv.polls).map (·.w) = some false) = true :=
  reaches_of (P := fun rs c => decide _) (by decide +kernel)

/-- C48, what is missing for the subscriber: after a read of the connection only read events are asked for, although an
acknowledgement waits to be sent. -/
theorem C48_sub_false : ∃ ops c, Reaches ops c ∧ Up c 0 ∧ bytesOutAt 0 c.log ≠ (messagesAt 0 c.log).flatten ∧
    lastAct 0 c.cv.polls = some .R := by
  obtain ⟨c, rs, h1, h2, h3⟩ := reaches_of (ops := exUp ++ [.readMcast [exDg 4 5 [50] 1000], .timeout 60000,
      .read 0 (some (exTcp 6 [60])) 60001])
    (P := fun rs c => decide (Up c 0 ∧ bytesOutAt 0 c.log ≠ (messagesAt 0 c.log).flatten ∧ lastAct 0 c.cv.polls = some .R))
    (by decide +kernel)
  exact ⟨_, c, h1, of_decide_eq_true h3⟩

/-- C48, what is missing for the subscriber: when setting up a connection fails, its index is removed twice. -/
theorem C48_sub_remove_false : ∃ ops c, Reaches ops c ∧ reg 0 c.cv.polls = none := by
  obtain ⟨c, rs, h1, h2, h3⟩ := reaches_of (ops := [Op.activate (.ok 3), .readMcast [exDg 4 0 [] 1], .write 0 (.ok 111) none (.ok 0)])
    (P := fun rs c => decide (reg 0 c.cv.polls = none))
    (by decide +kernel)
  exact ⟨_, c, h1, of_decide_eq_true h3⟩

end SubCtx
end Rmc
