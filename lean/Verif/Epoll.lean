import Verif.Told
import Verif.Fds
import Mathlib.Data.List.Infix

/-!
# Model of the event loop of the test programs

rmc_proto_test_common.c: the poll callbacks the test programs give to the library keep an epoll instance.
-/

set_option linter.unusedSimpArgs false

namespace Rmc

/-- What an epoll instance watches: for each descriptor registered, the index stored with it (`data.u32`) and the events asked for. -/
abbrev Watched := Nat → Option (Nat × Act)

/-- rmc_proto_test_common.c:24-51 `poll_add`, 55-90 `poll_modify`, 93-106 `poll_remove`; `none` when the program has left with exit(255), because
epoll_ctl() failed: a descriptor that is none, added twice, or modified while not registered. Nothing is done to modify a registration if old and new
action are equal (68-69). A failing removal only logs a warning.
Simplification: close() also takes a descriptor off an epoll instance; the library closes no registered descriptor without calling poll_remove for it
in the same call, so this makes no difference between calls. The callbacks of the library and of the program are matched by their order. -/
def epollStep (w : Option Watched) (e : PollEv) : Option Watched :=
  match w, e with
  | none, _ => none
  | some _, .add _ none _ => none
  | some w, .add i (some d) a => if w d = none then some fun x => if x = d then some (i, a) else w x else none
  | some w, .modify i o x y =>
    if x = y then some w
    else match o with
      | none => none
      | some d => if w d = none then none else some fun z => if z = d then some (i, y) else w z
  | some w, .remove _ none => some w
  | some w, .remove _ (some d) => some fun x => if x = d then none else w x

/-- The epoll instance after a sequence of poll callbacks. -/
def epoll (es : List PollEv) : Option Watched := es.foldl epollStep (some fun _ => none)

theorem epoll_snoc (xs : List PollEv) (e : PollEv) : epoll (xs ++ [e]) = epollStep (epoll xs) e := by
  unfold epoll; rw [List.foldl_append]; rfl

theorem snoc_ind {α : Type} {P : List α → Prop} (h0 : P []) (h1 : ∀ xs x, P xs → P (xs ++ [x])) (xs : List α) : P xs := by
  rw [← List.reverse_reverse xs]
  induction xs.reverse with
  | nil => exact h0
  | cons x l ih => rw [List.reverse_cons]; exact h1 _ _ ih

/-! ## One index -/

/-- The registration of one index, from the calls for this index only: `none` if the program would leave, or a descriptor other than the registered one
were used; otherwise the descriptor and events registered, if any. -/
def watchStep (i : Nat) (st : Option (Option (Nat × Act))) (e : PollEv) : Option (Option (Nat × Act)) :=
  match st, e with
  | none, _ => none
  | some r, .add j d a => if j = i then (match r, d with | none, some d => some (some (d, a)) | _, _ => none) else some r
  | some r, .modify j d o n =>
    if j = i then (if o = n then some r else match r with
      | some (d', _) => if d = some d' then some (some (d', n)) else none
      | none => none) else some r
  | some r, .remove j d =>
    if j = i then (match r with | none => some none | some (d', _) => if d = some d' then some none else none) else some r

/-- The registration of index `i` after a sequence of poll callbacks. -/
def watch (i : Nat) (es : List PollEv) : Option (Option (Nat × Act)) := es.foldl (watchStep i) (some none)

theorem watch_snoc (i : Nat) (xs : List PollEv) (e : PollEv) : watch i (xs ++ [e]) = watchStep i (watch i xs) e := by
  unfold watch; rw [List.foldl_append]; rfl

theorem watch_other {i : Nat} {e : PollEv} (h : e.idx ≠ i) (xs : List PollEv) : watch i (xs ++ [e]) = watch i xs := by
  rw [watch_snoc]
  cases watch i xs with
  | none => cases e <;> rfl
  | some r => cases e <;> simp_all [watchStep, PollEv.idx]

/-- A call that does not interfere with the registrations of other indices: the descriptor added is not registered, the descriptor removed is not
registered for another index. -/
def alone (xs : List PollEv) : PollEv → Prop
  | .add _ (some d) _ => ∀ j a, watch j xs ≠ some (some (d, a))
  | .remove i (some d) => ∀ j a, watch j xs = some (some (d, a)) → j = i
  | _ => True

/-- No call of the sequence interferes with other indices. -/
def Apart (es : List PollEv) : Prop := ∀ pre e, pre ++ [e] <+: es → alone pre e

theorem Apart.nil : Apart [] := by
  intro pre e h
  have := h.length_le
  simp at this

theorem Apart.snoc {xs : List PollEv} {e : PollEv} (h : Apart xs) (he : alone xs e) : Apart (xs ++ [e]) := by
  intro pre e' hp
  rcases List.prefix_concat_iff.1 hp with hp | hp
  · obtain ⟨h1, h2⟩ := List.append_inj' hp rfl
    cases h2
    rw [h1]; exact he
  · exact h pre e' hp

theorem Apart.init {xs : List PollEv} {e : PollEv} (h : Apart (xs ++ [e])) : Apart xs ∧ alone xs e :=
  ⟨fun pre e' hp => h pre e' (hp.trans (List.prefix_append _ _)), h xs e List.prefix_rfl⟩

/-- What the epoll instance watches is what is registered index by index. -/
theorem epoll_watch : ∀ {es : List PollEv}, (∀ i, watch i es ≠ none) → Apart es →
    ∃ w, epoll es = some w ∧ ∀ d i a, w d = some (i, a) ↔ watch i es = some (some (d, a)) := by
  intro es
  induction es using snoc_ind with
  | h0 =>
    intro _ _
    exact ⟨fun _ => none, rfl, fun d i a => by simp [watch]⟩
  | h1 xs e ih =>
    intro hw ha
    obtain ⟨ha1, ha2⟩ := ha.init
    have hwx : ∀ i, watch i xs ≠ none := by
      intro i h
      have := hw i
      rw [watch_snoc, h] at this
      cases e <;> exact this rfl
    obtain ⟨w, e1, e2⟩ := ih hwx ha1
    rw [epoll_snoc, e1]
    cases e with
    | add i d a =>
      have hi := hw i
      rw [watch_snoc] at hi
      cases hx : watch i xs with
      | none => exact absurd hx (hwx i)
      | some r =>
        rw [hx] at hi
        cases r with
        | some r => exact absurd (by simp [watchStep]) hi
        | none =>
          cases d with
          | none => exact absurd (by simp [watchStep]) hi
          | some d =>
            have hn : w d = none := by
              cases hd : w d with
              | none => rfl
              | some p => obtain ⟨j, b⟩ := p; exact absurd ((e2 d j b).1 hd) (ha2 j b)
            refine ⟨fun x => if x = d then some (i, a) else w x, by simp [epollStep, hn], fun d' j b => ?_⟩
            by_cases hj : j = i
            · subst hj
              rw [watch_snoc, hx]
              have he : watchStep j (some none) (.add j (some d) a) = some (some (d, a)) := by simp [watchStep]
              rw [he]
              by_cases hd : d' = d
              · subst hd; simp
              · simp only [if_neg hd]
                constructor
                · intro h
                  have := (e2 d' j b).1 h
                  rw [hx] at this; cases this
                · intro h
                  have := Option.some.inj (Option.some.inj h)
                  exact absurd (congrArg Prod.fst this).symm hd
            · rw [watch_other (by exact fun x => hj x.symm)]
              by_cases hd : d' = d
              · subst hd
                simp only [if_pos]
                constructor
                · intro h; exact absurd (congrArg Prod.fst (Option.some.inj h)).symm hj
                · intro h; exact absurd h (ha2 j b)
              · simp only [if_neg hd]; exact e2 d' j b
    | modify i d o n =>
      by_cases hon : o = n
      · subst hon
        refine ⟨w, by simp [epollStep], fun d' j b => ?_⟩
        rw [e2, watch_snoc]
        have : watchStep j (watch j xs) (.modify i d o o) = watch j xs := by
          cases watch j xs with
          | none => rfl
          | some r => by_cases hj : i = j <;> simp [watchStep, hj]
        rw [this]
      · have hi := hw i
        rw [watch_snoc] at hi
        cases hx : watch i xs with
        | none => exact absurd hx (hwx i)
        | some r =>
          rw [hx] at hi
          cases r with
          | none => exact absurd (by simp [watchStep, hon]) hi
          | some p =>
            obtain ⟨d0, a0⟩ := p
            by_cases hd0 : d = some d0
            · subst hd0
              have hwd : w d0 = some (i, a0) := (e2 d0 i a0).2 hx
              refine ⟨fun z => if z = d0 then some (i, n) else w z, by simp [epollStep, hon, hwd], fun d' j b => ?_⟩
              by_cases hj : j = i
              · subst hj
                rw [watch_snoc, hx]
                have he : watchStep j (some (some (d0, a0))) (.modify j (some d0) o n) = some (some (d0, n)) := by simp [watchStep, hon]
                rw [he]
                by_cases hd : d' = d0
                · subst hd; simp
                · simp only [if_neg hd]
                  constructor
                  · intro h
                    have := (e2 d' j b).1 h
                    rw [hx] at this
                    exact absurd (congrArg Prod.fst (Option.some.inj (Option.some.inj this))).symm hd
                  · intro h
                    exact absurd (congrArg Prod.fst (Option.some.inj (Option.some.inj h))).symm hd
              · rw [watch_other (by exact fun x => hj x.symm)]
                by_cases hd : d' = d0
                · subst hd
                  simp only [if_pos]
                  constructor
                  · intro h; exact absurd (congrArg Prod.fst (Option.some.inj h)).symm hj
                  · intro h
                    have := (e2 d' j b).2 h
                    rw [hwd] at this
                    exact absurd (congrArg Prod.fst (Option.some.inj this)).symm hj
                · simp only [if_neg hd]; exact e2 d' j b
            · exact absurd (by simp [watchStep, hon, hd0]) hi
    | remove i d =>
      have hi := hw i
      rw [watch_snoc] at hi
      cases hx : watch i xs with
      | none => exact absurd hx (hwx i)
      | some r =>
        rw [hx] at hi
        have hafter : watch i (xs ++ [.remove i d]) = some none := by
          rw [watch_snoc, hx]
          cases r with
          | none => simp [watchStep]
          | some p =>
            obtain ⟨d0, a0⟩ := p
            by_cases hd0 : d = some d0
            · simp [watchStep, hd0]
            · exact absurd (by simp [watchStep, hd0]) hi
        have hreg : ∀ d0 a0, watch i xs = some (some (d0, a0)) → d = some d0 := by
          intro d0 a0 h
          rw [hx] at h
          have h := Option.some.inj h
          subst h
          apply Classical.byContradiction
          intro hd0
          exact hi (by simp [watchStep, hd0])
        cases d with
        | none =>
          refine ⟨w, rfl, fun d' j b => ?_⟩
          by_cases hj : j = i
          · subst hj
            rw [hafter]
            constructor
            · intro h; cases hreg d' b ((e2 d' j b).1 h)
            · intro h; cases h
          · rw [watch_other (by exact fun x => hj x.symm)]; exact e2 d' j b
        | some d =>
          refine ⟨fun x => if x = d then none else w x, rfl, fun d' j b => ?_⟩
          by_cases hj : j = i
          · subst hj
            rw [hafter]
            by_cases hd : d' = d
            · simp [hd]
            · simp only [if_neg hd]
              constructor
              · intro h
                exact absurd (Option.some.inj (hreg d' b ((e2 d' j b).1 h))).symm hd
              · intro h; cases h
          · rw [watch_other (by exact fun x => hj x.symm)]
            by_cases hd : d' = d
            · subst hd
              simp only [if_pos]
              constructor
              · intro h; cases h
              · intro h; exact absurd (ha2 j b h) hj
            · simp only [if_neg hd]; exact e2 d' j b

/-! ## Descriptors and actions apart -/

/-- The events an index is registered for, as far as actions go. -/
def shipStep (i : Nat) (r : Option Act) (e : PollEv) : Option Act :=
  match e with
  | .add j _ a => if j = i then some a else r
  | .modify j _ o n => if j = i ∧ o ≠ n then r.map fun _ => n else r
  | .remove j _ => if j = i then none else r

/-- The events index `i` is registered for after a sequence of poll callbacks. -/
def ship (i : Nat) (es : List PollEv) : Option Act := es.foldl (shipStep i) none

theorem ship_snoc (i : Nat) (xs : List PollEv) (e : PollEv) : ship i (xs ++ [e]) = shipStep i (ship i xs) e := by
  unfold ship; rw [List.foldl_append]; rfl

theorem ship_other {i : Nat} {e : PollEv} (h : e.idx ≠ i) (xs : List PollEv) : ship i (xs ++ [e]) = ship i xs := by
  rw [ship_snoc]
  cases e <;> simp_all [shipStep, PollEv.idx]

/-- A registration is a descriptor and events. -/
def both (x : Option Nat) (a : Option Act) : Option (Nat × Act) := x.bind fun d => a.map fun a => (d, a)

theorem watch_told (i : Nat) : ∀ {es : List PollEv} {x : Option Nat}, told i es = some x →
    watch i es = some (both x (ship i es)) ∧ (ship i es).isSome = x.isSome := by
  intro es
  induction es using snoc_ind with
  | h0 => intro x h; cases h; exact ⟨rfl, rfl⟩
  | h1 xs e ih =>
    intro x h
    cases ht : told i xs with
    | none => rw [told_snoc, ht] at h; cases e <;> cases h
    | some y =>
      obtain ⟨h1, h2⟩ := ih ht
      by_cases he : e.idx = i
      · rw [told_snoc, ht] at h
        rw [watch_snoc, h1, ship_snoc]
        cases e with
        | add j d a =>
          have hj : j = i := he
          subst hj
          simp only [toldStep, if_pos] at h
          split at h
          · rename_i hc
            obtain ⟨hc1, hc2⟩ := hc
            have h := Option.some.inj h
            rw [← h]; clear h
            cases d with
            | none => exact absurd rfl hc2
            | some d => subst hc1; simp [watchStep, shipStep, both]
          · cases h
        | modify j d o n =>
          have hj : j = i := he
          subst hj
          simp only [toldStep, if_pos] at h
          split at h
          · rename_i hc
            obtain ⟨hc1, hc2⟩ := hc
            have h := Option.some.inj h
            rw [← h]; clear h
            cases y with
            | none => exact absurd rfl hc1
            | some y =>
              cases hs : ship j xs with
              | none => rw [hs] at h2; cases h2
              | some b =>
                by_cases hon : o = n
                · simp [watchStep, shipStep, both, hon]
                · simp [watchStep, shipStep, both, hon, hc2]
          · cases h
        | remove j d =>
          have hj : j = i := he
          subst hj
          simp only [toldStep, if_pos] at h
          split at h
          · rename_i hc
            obtain ⟨hc1, hc2⟩ := hc
            cases h
            cases y with
            | none => exact absurd rfl hc1
            | some y =>
              cases hs : ship j xs with
              | none => rw [hs] at h2; cases h2
              | some b => simp [watchStep, shipStep, both, hc2]
          · cases h
      · rw [told_other he, ht] at h
        cases h
        rw [watch_other he, ship_other he]
        exact ⟨h1, h2⟩

theorem told_prefix {i : Nat} : ∀ {es pre : List PollEv}, told i es ≠ none → pre <+: es → told i pre ≠ none := by
  intro es
  induction es using snoc_ind with
  | h0 => intro pre h hp; rw [List.prefix_nil.1 hp]; exact h
  | h1 xs e ih =>
    intro pre h hp
    rcases List.prefix_concat_iff.1 hp with hp | hp
    · rw [hp]; exact h
    · refine ih ?_ hp
      intro hn
      rw [told_snoc, hn] at h
      cases e <;> exact h rfl

theorem watch_desc {j d : Nat} {a : Act} {es : List PollEv} (hn : told j es ≠ none) (h : watch j es = some (some (d, a))) :
    told j es = some (some d) := by
  cases ht : told j es with
  | none => exact absurd ht hn
  | some x =>
    rw [(watch_told j ht).1] at h
    have h := Option.some.inj h
    cases x with
    | none => cases h
    | some x =>
      unfold both at h
      cases hs : ship j es with
      | none => rw [hs] at h; cases h
      | some b =>
        rw [hs] at h
        exact congrArg (fun x => some (some x)) (congrArg Prod.fst (Option.some.inj h))

/-- If no call is a misuse, and no descriptor is ever registered for two indices, no call interferes with other indices. -/
theorem Dist.apart {es : List PollEv} (h : ∀ i, told i es ≠ none) (hd : Dist es) : Apart es := by
  intro pre e hp
  have hpre : pre <+: es := (List.prefix_append _ _).trans hp
  have hn := fun i => told_prefix (h i) hpre
  have hn' := fun i => told_prefix (h i) hp
  cases e with
  | modify i d o n => trivial
  | add i d a =>
    cases d with
    | none => trivial
    | some d =>
      intro j b hj
      have hj := watch_desc (hn j) hj
      have hi := hn' i
      rw [told_snoc] at hi
      cases ht : told i pre with
      | none => exact hn i ht
      | some r =>
        rw [ht] at hi
        have hr : r = none := by
          cases r with
          | none => rfl
          | some r => exact absurd (by simp [toldStep]) hi
        subst hr
        have e1 : told i (pre ++ [.add i (some d) a]) = some (some d) := by rw [told_snoc, ht]; simp [toldStep]
        have hji : j ≠ i := by rintro rfl; rw [ht] at hj; cases hj
        have e2 : told j (pre ++ [.add i (some d) a]) = some (some d) := by rw [told_other (by exact fun x => hji x.symm)]; exact hj
        exact hji (hd _ hp j i d e2 e1)
  | remove i d =>
    cases d with
    | none => trivial
    | some d =>
      intro j b hj
      have hj := watch_desc (hn j) hj
      have hi := hn' i
      rw [told_snoc] at hi
      cases ht : told i pre with
      | none => exact absurd ht (hn i)
      | some r =>
        rw [ht] at hi
        have hr : r = some d := by
          apply Classical.byContradiction
          intro hne
          exact hi (by simp only [toldStep, if_pos]; rw [if_neg]; rintro ⟨_, e⟩; exact hne e.symm)
        rw [hr] at ht
        exact hd _ hpre j i d hj ht

/-- An index whose calls are well formed is registered for what was asked last. -/
theorem ship_reg {i : Nat} : ∀ {es : List PollEv} {r : Option Act}, reg i es = some r → ship i es = r := by
  intro es
  induction es using snoc_ind with
  | h0 => intro r h; cases h; rfl
  | h1 xs e ih =>
    intro r h
    cases ht : reg i xs with
    | none => rw [reg_snoc, ht] at h; cases e <;> cases h
    | some y =>
      have h1 := ih ht
      by_cases he : e.idx = i
      · rw [reg_snoc, ht] at h
        rw [ship_snoc, h1]
        cases e with
        | add j d a =>
          have hj : j = i := he
          subst hj
          simp only [regStep, if_pos] at h
          split at h
          · cases h; simp [shipStep]
          · cases h
        | modify j d o n =>
          have hj : j = i := he
          subst hj
          simp only [regStep, if_pos] at h
          split at h
          · rename_i hy
            subst hy
            cases h
            by_cases hon : o = n <;> simp [shipStep, hon]
          · cases h
        | remove j d =>
          have hj : j = i := he
          subst hj
          simp only [regStep, if_pos] at h
          split at h
          · cases h
          · cases h; simp [shipStep]
      · rw [reg_other he, ht] at h
        cases h
        rw [ship_other he]; exact h1

/-- The listen socket is registered for read events. -/
theorem ship_listen : ∀ {es : List PollEv}, (∀ e ∈ es, ConnVec.listens e) → ship LISTEN_INDEX es = none ∨ ship LISTEN_INDEX es = some .R := by
  intro es
  induction es using snoc_ind with
  | h0 => intro _; exact .inl rfl
  | h1 xs e ih =>
    intro h
    have h1 := ih fun x hx => h x (by simp [hx])
    have he := h e (by simp)
    rw [ship_snoc]
    cases e with
    | add j d a =>
      by_cases hj : j = LISTEN_INDEX
      · right; simp only [shipStep, if_pos hj]; rw [he hj]
      · simp only [shipStep, if_neg hj]; exact h1
    | modify j d o n =>
      by_cases hj : j = LISTEN_INDEX
      · obtain ⟨e1, e2⟩ := he hj
        simp only [shipStep]
        rw [if_neg (by rw [e1, e2]; simp)]; exact h1
      · simp only [shipStep]
        rw [if_neg (by simp [hj])]; exact h1
    | remove j d =>
      by_cases hj : j = LISTEN_INDEX
      · left; simp [shipStep, hj]
      · simp only [shipStep, if_neg hj]; exact h1

/-! ## The system's descriptors -/

/-- Specification: the system never hands out a descriptor that is open: at no time was a descriptor obtained more than once more often than closed. -/
def OsOk (fs : List FdEv) : Prop := ∀ pre, pre <+: fs → ∀ d, opens pre d ≤ closes pre d + 1

theorem OsOk.mono {fs gs : List FdEv} (h : OsOk gs) (hp : fs <+: gs) : OsOk fs := fun pre hq => h pre (hq.trans hp)

/-- A check for `OsOk`. -/
def osOk (fs : List FdEv) : Bool :=
  fs.inits.all fun p => fs.all fun e => match e with
    | .opened d => decide (opens p d ≤ closes p d + 1)
    | .closed _ => true

theorem osOk_ok {fs : List FdEv} (h : osOk fs = true) : OsOk fs := by
  intro pre hp d
  unfold osOk at h
  have h1 := List.all_eq_true.1 h pre ((List.mem_inits _ _).2 hp)
  by_cases hd : FdEv.opened d ∈ fs
  · have := List.all_eq_true.1 h1 _ hd
    exact of_decide_eq_true this
  · have : opens pre d = 0 := List.count_eq_zero.2 fun hm => hd (hp.subset hm)
    omega

namespace ConnVec

theorem Ledger.single {v : ConnVec} {k : Nat → Nat} (h : Ledger v k) (ho : OsOk v.fds) (d : Nat) : holds v d + k d ≤ 1 := by
  have h1 := h.bal d
  have h2 := ho v.fds List.prefix_rfl d
  omega

theorem holds_two {v : ConnVec} {i j d : Nat} (hi : i < v.size) (hj : j < v.size) (hn : i ≠ j) (hdi : (v.conns i).desc = some d)
    (hdj : (v.conns j).desc = some d) : 2 ≤ holds v d := by
  have h1 := holds_set v hi { v.conns i with desc := none } d
  have h2 : 1 ≤ holds (set v i { v.conns i with desc := none }) d := by
    refine holds_pos (i := j) hj ?_
    show (if j = i then _ else v.conns j : Conn).desc = _
    rw [if_neg (fun x => hn x.symm)]; exact hdj
  have e1 : one (v.conns i).desc d = 1 := by unfold one; rw [if_pos hdi]
  have e2 : one ({ v.conns i with desc := none } : Conn).desc d = 0 := rfl
  omega

theorem Ledger.distinct {v : ConnVec} {k : Nat → Nat} (h : Ledger v k) (ho : OsOk v.fds) {i j d : Nat} (hi : i < v.size) (hj : j < v.size)
    (hdi : (v.conns i).desc = some d) (hdj : (v.conns j).desc = some d) : i = j := by
  apply Classical.byContradiction
  intro hn
  have := holds_two hi hj hn hdi hdj
  have := h.single ho d
  omega

theorem Ledger.outside {v : ConnVec} {k : Nat → Nat} (h : Ledger v k) (ho : OsOk v.fds) {i d : Nat} (hi : i < v.size)
    (hdi : (v.conns i).desc = some d) : k d = 0 := by
  have := holds_pos hi hdi
  have := h.single ho d
  omega

end ConnVec
end Rmc
