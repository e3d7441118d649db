import Verif.Conn

/-! # Specification: what an event loop sees of the poll callbacks -/

namespace Rmc

/-- The state of one index in an event loop: `none` after a misuse (added twice, modified or removed while not
registered, or modified with an "old action" other than the one registered), otherwise the action registered, if any. -/
def regStep (i : Nat) (st : Option (Option Act)) (e : PollEv) : Option (Option Act) :=
  match st, e with
  | none, _ => none
  | some r, .add j _ a => if j = i then (if r = none then some (some a) else none) else some r
  | some r, .modify j _ old a => if j = i then (if r = some old then some (some a) else none) else some r
  | some r, .remove j _ => if j = i then (if r = none then none else some none) else some r

/-- The state of index `i` after a sequence of poll callbacks. -/
def reg (i : Nat) (es : List PollEv) : Option (Option Act) := es.foldl (regStep i) (some none)

/-- The action last asked for at an index, whatever the event loop does with misuses. -/
def lastAct (i : Nat) (es : List PollEv) : Option Act :=
  es.foldl (fun r e => match e with
    | .add j _ a => if j = i then some a else r
    | .modify j _ _ a => if j = i then some a else r
    | .remove j _ => if j = i then none else r) none

/-- As `regStep`, but of the "old action" only the write interest must be the one registered. -/
def regWStep (i : Nat) (st : Option (Option Act)) (e : PollEv) : Option (Option Act) :=
  match st, e with
  | none, _ => none
  | some r, .add j _ a => if j = i then (if r = none then some (some a) else none) else some r
  | some r, .modify j _ old a => if j = i then (if r.map (·.w) = some old.w then some (some a) else none) else some r
  | some r, .remove j _ => if j = i then (if r = none then none else some none) else some r

/-- The state of index `i` after a sequence of poll callbacks, `none` after a misuse as far as write interest goes. -/
def regW (i : Nat) (es : List PollEv) : Option (Option Act) := es.foldl (regWStep i) (some none)

theorem regW_snoc (i : Nat) (xs : List PollEv) (e : PollEv) : regW i (xs ++ [e]) = regWStep i (regW i xs) e := by
  unfold regW; rw [List.foldl_append]; rfl

theorem reg_append (i : Nat) (xs ys : List PollEv) : reg i (xs ++ ys) = ys.foldl (regStep i) (reg i xs) := by
  unfold reg; rw [List.foldl_append]

theorem reg_snoc (i : Nat) (xs : List PollEv) (e : PollEv) : reg i (xs ++ [e]) = regStep i (reg i xs) e := by
  rw [reg_append]; rfl

/-- The index a poll callback is about. -/
def PollEv.idx : PollEv → Nat
  | .add i _ _ => i
  | .modify i _ _ _ => i
  | .remove i _ => i

theorem regStep_other {i : Nat} {e : PollEv} (h : e.idx ≠ i) (st : Option (Option Act)) : regStep i st e = st := by
  cases st with
  | none => cases e <;> rfl
  | some r => cases e <;> simp_all [regStep, PollEv.idx]

theorem reg_other {i : Nat} {e : PollEv} (h : e.idx ≠ i) (xs : List PollEv) : reg i (xs ++ [e]) = reg i xs := by
  rw [reg_snoc, regStep_other h]

theorem regW_other {i : Nat} {e : PollEv} (h : e.idx ≠ i) (xs : List PollEv) : regW i (xs ++ [e]) = regW i xs := by
  rw [regW_snoc]
  cases regW i xs with
  | none => cases e <;> rfl
  | some r => cases e <;> simp_all [regWStep, PollEv.idx]

theorem regW_modify {i : Nat} {xs : List PollEv} {x old : Act} (h : regW i xs = some (some x)) (hw : x.w = old.w) (d : Option Nat) (a : Act) :
    regW i (xs ++ [.modify i d old a]) = some (some a) := by
  rw [regW_snoc, h]; simp [regWStep, hw]

/-- Without misuse, the state is the action last asked for. -/
theorem regW_last (i : Nat) (es : List PollEv) : ∀ r, regW i es = some r → lastAct i es = r := by
  have key : ∀ (es : List PollEv) (st : Option (Option Act)) (r l : Option Act), es.foldl (regWStep i) st = some r →
      (∀ x, st = some x → l = x) → es.foldl (fun r e => match e with
        | .add j _ a => if j = i then some a else r
        | .modify j _ _ a => if j = i then some a else r
        | .remove j _ => if j = i then none else r) l = r := by
    intro es
    induction es with
    | nil => intro st r l h hl; exact hl r h
    | cons e es ih =>
      intro st r l h hl
      rw [List.foldl_cons] at h ⊢
      refine ih _ _ _ h ?_
      intro x hx
      cases st with
      | none => cases e <;> cases hx
      | some y =>
        have := hl y rfl
        subst this
        cases e <;> simp only [regWStep] at hx <;> (repeat' split at hx) <;> simp_all
  intro r h
  exact key es _ r none h (fun x hx => by cases hx; rfl)

theorem reg_add {i : Nat} {xs : List PollEv} (h : reg i xs = some none) (d : Option Nat) (a : Act) :
    reg i (xs ++ [.add i d a]) = some (some a) := by
  rw [reg_snoc, h]; simp [regStep]

theorem reg_modify {i : Nat} {xs : List PollEv} {old : Act} (h : reg i xs = some (some old)) (d : Option Nat) (a : Act) :
    reg i (xs ++ [.modify i d old a]) = some (some a) := by
  rw [reg_snoc, h]; simp [regStep]

theorem reg_remove {i : Nat} {xs : List PollEv} {old : Act} (h : reg i xs = some (some old)) (d : Option Nat) :
    reg i (xs ++ [.remove i d]) = some none := by
  rw [reg_snoc, h]; simp [regStep]

end Rmc
