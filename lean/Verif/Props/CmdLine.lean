import Verif.CmdLine
import Verif.Props.SelfLive

/-! # The options of the test program (C92) -/

set_option linter.unusedSimpArgs false
set_option linter.unusedVariables false

namespace Rmc
namespace CmdLine

/-- Specification: the argument of the last option `o`, if there is one. -/
def given (o : Char) (xs : List (Char × List Char)) : Option (List Char) := ((xs.filter fun x => x.1 = o).getLast?).map (·.2)

theorem given_snoc (o : Char) (xs : List (Char × List Char)) (x : Char × List Char) : given o (xs ++ [x]) = if x.1 = o then some x.2 else given o xs := by
  unfold given
  rw [List.filter_append]
  by_cases h : x.1 = o <;> simp [h]

/-- Specification: the options the program knows. -/
def letters : List Char := ['L', 'S', 'M', 'm', 'l', 'P', 'p', 'i', 'c', 'r', 's', 'j', 'd', 'E', 'e']

/-- Specification: an option the program accepts. -/
def Acceptable (x : Char × List Char) : Prop :=
  x.1 ∈ letters ∧ (x.1 = 'M' ∨ x.1 = 'm' ∨ x.1 = 'l' → x.2.length < 80) ∧ (x.1 = 'e' ∨ x.1 = 'E' → 1 ≤ atoi x.2 ∧ atoi x.2 < 1024)

/-- What the variables are after some options. -/
structure After (xs : List (Char × List Char)) (σ : Settings) : Prop where
  pub : σ.publisher = (given 'S' xs).isNone
  group : σ.group = (given 'M' xs).getD "239.0.0.1".toList
  mcastIf : σ.mcastIf = (given 'm' xs).getD "0.0.0.0".toList
  listenIf : σ.listenIf = (given 'l' xs).getD "0.0.0.0".toList
  listenPort : σ.listenPort = ((given 'p' xs).map atoi).getD 0
  mcastPort : σ.mcastPort = ((given 'P' xs).map atoi).getD 4723
  seed : σ.seed = ((given 'r' xs).map atoi).getD 1
  count : (σ.count : Int) = ((given 'c' xs).map atoll).getD 1 % 18446744073709551616
  nodeId : (σ.nodeId : Int) = ((given 'i' xs).map atoi).getD 1 % 4294967296
  drop : σ.drop = (given 'd' xs).getD "0.0".toList
  interval : σ.interval = ((given 's' xs).map atoi).getD 0
  jitter : σ.jitter = ((given 'j' xs).map atoi).getD 0
  subscribers : σ.subscribers = ((given 'E' xs).map atoi).getD 1
  level : σ.level = ((given 'L' xs).map atoi).getD 0
  len : σ.expect.length = 1024
  expect : ∀ n : Nat, σ.expect[n]? = some true ↔ ∃ x ∈ xs, (x.1 = 'e' ∨ x.1 = 'E') ∧ atoi x.2 = n
  eSet : σ.eSet = true ↔ ∃ x ∈ xs, x.1 = 'e' ∨ x.1 = 'E'
  ok : ∀ x ∈ xs, Acceptable x

theorem after_defaults : After [] defaults := by
  have e : ∀ n : Nat, (List.replicate 1024 false)[n]? ≠ some true := by
    intro n h
    have := List.mem_of_getElem? h
    rw [List.mem_replicate] at this
    exact absurd this.2 (by decide)
  refine ⟨rfl, rfl, rfl, rfl, rfl, rfl, rfl, rfl, rfl, rfl, rfl, rfl, rfl, rfl, List.length_replicate, ?_, ?_, fun x hx => by cases hx⟩
  · intro n
    exact ⟨fun h => absurd h (e n), (fun ⟨x, hx, _⟩ => by cases hx)⟩
  · exact ⟨(fun h => by cases h), (fun ⟨x, hx, _⟩ => by cases hx)⟩

theorem copied_ok {s t : List Char} (h : copied s = .ok t) : t = s ∧ s.length < 80 := by
  unfold copied at h
  split at h
  · exact ⟨(Except.ok.inj h).symm, by assumption⟩
  · cases h

/-- An option without influence on the array of expected nodes. -/
theorem expect_other {xs : List (Char × List Char)} {x : Char × List Char} (hx : ¬ (x.1 = 'e' ∨ x.1 = 'E')) (n : Nat) :
    ((∃ y ∈ xs ++ [x], (y.1 = 'e' ∨ y.1 = 'E') ∧ atoi y.2 = n) ↔ ∃ y ∈ xs, (y.1 = 'e' ∨ y.1 = 'E') ∧ atoi y.2 = n) ∧
    ((∃ y ∈ xs ++ [x], y.1 = 'e' ∨ y.1 = 'E') ↔ ∃ y ∈ xs, y.1 = 'e' ∨ y.1 = 'E') := by
  constructor
  · constructor
    · rintro ⟨y, hy, h1, h2⟩
      rcases List.mem_append.1 hy with hy | hy
      · exact ⟨y, hy, h1, h2⟩
      · rw [List.mem_singleton.1 hy] at h1; exact absurd h1 hx
    · rintro ⟨y, hy, h1⟩
      exact ⟨y, by simp [hy], h1⟩
  · constructor
    · rintro ⟨y, hy, h1⟩
      rcases List.mem_append.1 hy with hy | hy
      · exact ⟨y, hy, h1⟩
      · rw [List.mem_singleton.1 hy] at h1; exact absurd h1 hx
    · rintro ⟨y, hy, h1⟩
      exact ⟨y, by simp [hy], h1⟩

theorem expectNode_ok {σ σ' : Settings} {a : List Char} (h : expectNode σ a = .ok σ') : (1 ≤ atoi a ∧ atoi a < 1024) ∧
    σ' = { σ with expect := σ.expect.set (atoi a).toNat true, eSet := true } := by
  unfold expectNode at h
  split at h
  · cases h
  · exact ⟨by omega, (Except.ok.inj h).symm⟩

theorem expect_set {xs : List (Char × List Char)} {x : Char × List Char} {l : List Bool} (hl : l.length = 1024)
    (h : ∀ n : Nat, l[n]? = some true ↔ ∃ x ∈ xs, (x.1 = 'e' ∨ x.1 = 'E') ∧ atoi x.2 = n) (hx : x.1 = 'e' ∨ x.1 = 'E') (ha : 1 ≤ atoi x.2 ∧ atoi x.2 < 1024) (n : Nat) :
    (l.set (atoi x.2).toNat true)[n]? = some true ↔ ∃ y ∈ xs ++ [x], (y.1 = 'e' ∨ y.1 = 'E') ∧ atoi y.2 = n := by
  rw [List.getElem?_set]
  split
  next e =>
    rw [if_pos (by omega)]
    exact ⟨fun _ => ⟨x, by simp, hx, by omega⟩, fun _ => rfl⟩
  next e =>
    rw [h n]
    constructor
    · rintro ⟨y, hy, h1⟩
      exact ⟨y, by simp [hy], h1⟩
    · rintro ⟨y, hy, h1, h2⟩
      rcases List.mem_append.1 hy with hy | hy
      · exact ⟨y, hy, h1, h2⟩
      · rw [List.mem_singleton.1 hy] at h2
        omega

attribute [local irreducible] atoi atoll in
set_option maxHeartbeats 1600000 in
theorem after_step {xs : List (Char × List Char)} {σ σ' : Settings} {x : Char × List Char} (h : After xs σ) (hx : option σ x = .ok σ') : After (xs ++ [x]) σ' := by
  obtain ⟨o, a⟩ := x
  have hsnoc : ∀ {P : Char × List Char → Prop}, (∀ y ∈ xs, P y) → P (o, a) → ∀ y ∈ xs ++ [(o, a)], P y := by
    intro P h1 h2 y hy
    rcases List.mem_append.1 hy with hy | hy
    · exact h1 y hy
    · rw [List.mem_singleton.1 hy]; exact h2
  have plain : ¬ (o = 'e' ∨ o = 'E') → o ∈ letters → (o = 'M' ∨ o = 'm' ∨ o = 'l' → a.length < 80) → Acceptable (o, a) :=
    fun h1 h2 h3 => ⟨h2, h3, fun h => absurd h h1⟩
  obtain ⟨f1, f2, f3, f4, f5, f6, f7, f8, f9, f10, f11, f12, f13, f14, f15, f16, f17, f18⟩ := h
  have m1 : ∀ n : Int, ((n % 18446744073709551616).toNat : Int) = n % 18446744073709551616 := fun n => by omega
  have m2 : ∀ n : Int, ((n % 4294967296).toNat : Int) = n % 4294967296 := fun n => by omega
  have hc : o ≠ 'c' → (σ.count : Int) = ((given 'c' (xs ++ [(o, a)])).map atoll).getD 1 % 18446744073709551616 := by
    intro ho; rw [given_snoc, if_neg ho]; exact f8
  have hi : o ≠ 'i' → (σ.nodeId : Int) = ((given 'i' (xs ++ [(o, a)])).map atoi).getD 1 % 4294967296 := by
    intro ho; rw [given_snoc, if_neg ho]; exact f9
  unfold option at hx
  dsimp only at hx
  split at hx
  case h_16 => cases hx
  case h_14 =>
    obtain ⟨h1, rfl⟩ := expectNode_ok hx
    replace hc := hc (by decide)
    replace hi := hi (by decide)
    refine ⟨by simp [given_snoc, f1], by simp [given_snoc, f2], by simp [given_snoc, f3], by simp [given_snoc, f4], by simp [given_snoc, f5], by simp [given_snoc, f6], by simp [given_snoc, f7], hc, hi, by simp [given_snoc, f10], by simp [given_snoc, f11], by simp [given_snoc, f12], by simp [given_snoc, f13], by simp [given_snoc, f14], by rw [List.length_set]; exact f15, fun n => expect_set (x := ('E', a)) f15 f16 (.inr rfl) h1 n,
      ⟨fun _ => ⟨('E', a), by simp, .inr rfl⟩, fun _ => rfl⟩, hsnoc f18 ⟨by simp [letters], by simp, fun _ => h1⟩⟩
  case h_15 =>
    obtain ⟨h1, rfl⟩ := expectNode_ok hx
    replace hc := hc (by decide)
    replace hi := hi (by decide)
    refine ⟨by simp [given_snoc, f1], by simp [given_snoc, f2], by simp [given_snoc, f3], by simp [given_snoc, f4], by simp [given_snoc, f5], by simp [given_snoc, f6], by simp [given_snoc, f7], hc, hi, by simp [given_snoc, f10], by simp [given_snoc, f11], by simp [given_snoc, f12], by simp [given_snoc, f13], by simp [given_snoc, f14], by rw [List.length_set]; exact f15, fun n => expect_set (x := ('e', a)) f15 f16 (.inl rfl) h1 n,
      ⟨fun _ => ⟨('e', a), by simp, .inl rfl⟩, fun _ => rfl⟩, hsnoc f18 ⟨by simp [letters], by simp, fun _ => h1⟩⟩
  case h_3 | h_4 | h_5 =>
    cases hcp : copied a with
    | error e => rw [hcp] at hx; cases hx
    | ok t =>
      rw [hcp] at hx
      have hx := Except.ok.inj hx
      obtain ⟨rfl, h2⟩ := copied_ok hcp
      rw [← hx]; clear hx
      replace hc := hc (by decide)
      replace hi := hi (by decide)
      refine ⟨by simp [given_snoc, f1], by simp [given_snoc, f2], by simp [given_snoc, f3], by simp [given_snoc, f4], by simp [given_snoc, f5], by simp [given_snoc, f6], by simp [given_snoc, f7], hc, hi, by simp [given_snoc, f10], by simp [given_snoc, f11], by simp [given_snoc, f12], by simp [given_snoc, f13], by simp [given_snoc, f14], f15, fun n => (f16 n).trans (expect_other (by simp) n).1.symm, f17.trans (expect_other (by simp) 0).2.symm,
        hsnoc f18 (plain (by decide) (by simp [letters]) (fun _ => h2))⟩
  case h_8 =>
    have hx := Except.ok.inj hx
    rw [← hx]; clear hx
    replace hc := hc (by decide)
    replace hi : (((atoi a % 4294967296).toNat : Nat) : Int) = ((given 'i' (xs ++ [('i', a)])).map atoi).getD 1 % 4294967296 := by
      rw [given_snoc, if_pos rfl]; exact m2 _
    refine ⟨by simp [given_snoc, f1], by simp [given_snoc, f2], by simp [given_snoc, f3], by simp [given_snoc, f4], by simp [given_snoc, f5], by simp [given_snoc, f6], by simp [given_snoc, f7], hc, hi, by simp [given_snoc, f10], by simp [given_snoc, f11], by simp [given_snoc, f12], by simp [given_snoc, f13], by simp [given_snoc, f14], f15, fun n => (f16 n).trans (expect_other (by simp) n).1.symm, f17.trans (expect_other (by simp) 0).2.symm,
      hsnoc f18 (plain (by decide) (by simp [letters]) (by simp))⟩
  case h_9 =>
    have hx := Except.ok.inj hx
    rw [← hx]; clear hx
    replace hc : (((atoll a % 18446744073709551616).toNat : Nat) : Int) = ((given 'c' (xs ++ [('c', a)])).map atoll).getD 1 % 18446744073709551616 := by
      rw [given_snoc, if_pos rfl]; exact m1 _
    replace hi := hi (by decide)
    refine ⟨by simp [given_snoc, f1], by simp [given_snoc, f2], by simp [given_snoc, f3], by simp [given_snoc, f4], by simp [given_snoc, f5], by simp [given_snoc, f6], by simp [given_snoc, f7], hc, hi, by simp [given_snoc, f10], by simp [given_snoc, f11], by simp [given_snoc, f12], by simp [given_snoc, f13], by simp [given_snoc, f14], f15, fun n => (f16 n).trans (expect_other (by simp) n).1.symm, f17.trans (expect_other (by simp) 0).2.symm,
      hsnoc f18 (plain (by decide) (by simp [letters]) (by simp))⟩
  all_goals
    have hx := Except.ok.inj hx
    rw [← hx]; clear hx
    replace hc := hc (by decide)
    replace hi := hi (by decide)
    refine ⟨by simp [given_snoc, f1], by simp [given_snoc, f2], by simp [given_snoc, f3], by simp [given_snoc, f4], by simp [given_snoc, f5], by simp [given_snoc, f6], by simp [given_snoc, f7], hc, hi, by simp [given_snoc, f10], by simp [given_snoc, f11], by simp [given_snoc, f12], by simp [given_snoc, f13], by simp [given_snoc, f14], f15, fun n => (f16 n).trans (expect_other (by simp) n).1.symm, f17.trans (expect_other (by simp) 0).2.symm,
      hsnoc f18 (plain (by decide) (by simp [letters]) (by simp))⟩

theorem options_after : ∀ (xs : List (Char × List Char)) {ys : List (Char × List Char)} {σ σ' : Settings}, After ys σ → xs.foldlM option σ = .ok σ' → After (ys ++ xs) σ' := by
  intro xs
  induction xs with
  | nil => intro ys σ σ' h e; rw [← Except.ok.inj e, List.append_nil]; exact h
  | cons x xs ih =>
    intro ys σ σ' h e
    rw [List.foldlM_cons] at e
    cases hx : option σ x with
    | error f => rw [hx] at e; cases e
    | ok τ =>
      rw [hx] at e
      have := ih (after_step h hx) e
      rwa [List.append_assoc] at this

theorem option_accepts {x : Char × List Char} (h : Acceptable x) (σ : Settings) : ∃ σ', option σ x = .ok σ' := by
  obtain ⟨o, a⟩ := x
  obtain ⟨h1, h2, h3⟩ := h
  have hc : o = 'M' ∨ o = 'm' ∨ o = 'l' → copied a = .ok a := fun e => if_pos (h2 e)
  have he : ∀ τ : Settings, o = 'e' ∨ o = 'E' → ∃ σ', expectNode τ a = .ok σ' := by
    intro τ e
    have := h3 e
    unfold expectNode
    dsimp only at this
    rw [if_neg (by omega)]
    exact ⟨_, rfl⟩
  unfold option
  dsimp only
  unfold letters at h1
  split
  case h_16 hno => simp_all
  case h_14 => exact he _ (.inr rfl)
  case h_15 => exact he _ (.inl rfl)
  case h_3 | h_4 | h_5 => rw [hc (by simp)]; exact ⟨_, rfl⟩
  all_goals exact ⟨_, rfl⟩

theorem options_accepts : ∀ (xs : List (Char × List Char)) (σ : Settings), (∀ x ∈ xs, Acceptable x) → ∃ σ', xs.foldlM option σ = .ok σ' := by
  intro xs
  induction xs with
  | nil => intro σ _; exact ⟨σ, rfl⟩
  | cons x xs ih =>
    intro σ h
    obtain ⟨τ, hx⟩ := option_accepts (h x (by simp)) σ
    rw [List.foldlM_cons, hx]
    exact ih τ (fun y hy => h y (by simp [hy]))

/-- C92: what the program accepts: options it knows, addresses of less than 80 characters, nodes and - because the `break` after `-E` is missing - numbers of subscribers from 1 to 1023, and a log
level from 0 to 6. -/
theorem C92_accepted (xs : List (Char × List Char)) : (∃ p, main xs = .ok p) ↔
    (∀ x ∈ xs, Acceptable x) ∧ 0 ≤ ((given 'L' xs).map atoi).getD 0 ∧ ((given 'L' xs).map atoi).getD 0 ≤ 6 := by
  constructor
  · rintro ⟨p, h⟩
    unfold main at h
    cases ho : options xs with
    | error f => rw [ho] at h; cases h
    | ok σ =>
      rw [ho] at h
      have ha : After ([] ++ xs) σ := options_after xs after_defaults ho
      rw [List.nil_append] at ha
      have h : launch σ = .ok p := h
      unfold launch at h
      split at h
      · cases h
      · rw [← ha.level]
        exact ⟨ha.ok, by omega, by omega⟩
  · rintro ⟨h1, h2, h3⟩
    obtain ⟨σ, ho⟩ := options_accepts xs defaults h1
    have ha : After ([] ++ xs) σ := options_after xs after_defaults ho
    rw [List.nil_append] at ha
    rw [← ha.level] at h2 h3
    unfold main
    rw [show options xs = .ok σ from ho]
    show ∃ p, launch σ = .ok p
    unfold launch
    rw [if_neg (by omega)]
    split <;> exact ⟨_, rfl⟩

/-- Specification: the program the options ask for: a subscriber if there is a `-S`, a publisher otherwise; each argument is that of the last option for it, or the default. The
nodes expected are specified in C92_expected. -/
def Asked (xs : List (Char × List Char)) : Program → Prop
  | .sub group mcastIf mcastPort nodeId map => given 'S' xs ≠ none ∧ group = (given 'M' xs).getD "239.0.0.1".toList ∧ mcastIf = (given 'm' xs).getD "0.0.0.0".toList ∧
      mcastPort = ((given 'P' xs).map atoi).getD 4723 ∧ (nodeId : Int) = ((given 'i' xs).map atoi).getD 1 % 4294967296 ∧ map.length = 1024
  | .pub group mcastIf listenIf mcastPort listenPort nodeId count subscribers seed interval jitter drop =>
      given 'S' xs = none ∧ group = (given 'M' xs).getD "239.0.0.1".toList ∧ mcastIf = (given 'm' xs).getD "0.0.0.0".toList ∧ listenIf = (given 'l' xs).getD "0.0.0.0".toList ∧
      mcastPort = ((given 'P' xs).map atoi).getD 4723 ∧ listenPort = ((given 'p' xs).map atoi).getD 0 ∧ (nodeId : Int) = ((given 'i' xs).map atoi).getD 1 % 4294967296 ∧
      (count : Int) = ((given 'c' xs).map atoll).getD 1 % 18446744073709551616 ∧ subscribers = ((given 'E' xs).map atoi).getD 1 ∧ seed = ((given 'r' xs).map atoi).getD 1 ∧
      interval = ((given 's' xs).map atoi).getD 0 ∧ jitter = ((given 'j' xs).map atoi).getD 0 ∧ drop = (given 'd' xs).getD "0.0".toList

/-- C92: what is started is what the options ask for. -/
theorem C92_arguments {xs : List (Char × List Char)} {p : Program} (h : main xs = .ok p) : Asked xs p := by
  unfold main at h
  cases ho : options xs with
  | error f => rw [ho] at h; cases h
  | ok σ =>
    rw [ho] at h
    have ha : After ([] ++ xs) σ := options_after xs after_defaults ho
    rw [List.nil_append] at ha
    have h : launch σ = .ok p := h
    obtain ⟨f1, f2, f3, f4, f5, f6, f7, f8, f9, f10, f11, f12, f13, f14, f15, f16, f17, f18⟩ := ha
    unfold launch at h
    split at h
    · cases h
    · split at h
      next e =>
        rw [← Except.ok.inj h]
        rw [e] at f1
        exact ⟨by simpa using f1.symm, f2, f3, f4, f6, f5, f9, f8, f13, f7, f11, f12, f10⟩
      next e =>
        rw [← Except.ok.inj h]
        refine ⟨?_, f2, f3, f6, f9, ?_⟩
        · intro hn
          rw [hn] at f1
          exact e f1
        · split
          · exact f15
          · rw [List.length_set]; exact f15

/-- C92: the nodes a subscriber expects: those given with `-e` and - because the `break` after `-E` is missing - those given with `-E`; node 1 if there are neither. -/
theorem C92_expected {xs : List (Char × List Char)} {group mcastIf : List Char} {mcastPort : Int} {nodeId : Nat} {map : List Bool}
    (h : main xs = .ok (.sub group mcastIf mcastPort nodeId map)) (n : Nat) :
    map[n]? = some true ↔ (∃ x ∈ xs, (x.1 = 'e' ∨ x.1 = 'E') ∧ atoi x.2 = n) ∨ (n = 1 ∧ ∀ x ∈ xs, x.1 ≠ 'e' ∧ x.1 ≠ 'E') := by
  unfold main at h
  cases ho : options xs with
  | error f => rw [ho] at h; cases h
  | ok σ =>
    rw [ho] at h
    have ha : After ([] ++ xs) σ := options_after xs after_defaults ho
    rw [List.nil_append] at ha
    have h : launch σ = .ok _ := h
    unfold launch at h
    split at h
    · cases h
    · split at h
      · cases h
      · have e : (if σ.eSet then σ.expect else σ.expect.set 1 true) = map := by injection Except.ok.inj h
        rw [← e]
        split
        next es =>
          rw [ha.expect n]
          obtain ⟨y, hy, h1⟩ := ha.eSet.1 es
          constructor
          · exact .inl
          · rintro (h | ⟨_, h⟩)
            · exact h
            · exact absurd h1 (fun h1 => h1.elim (h y hy).1 (h y hy).2)
        next es =>
          have hno : ∀ x ∈ xs, x.1 ≠ 'e' ∧ x.1 ≠ 'E' := fun x hx => ⟨fun e => es (ha.eSet.2 ⟨x, hx, .inl e⟩), fun e => es (ha.eSet.2 ⟨x, hx, .inr e⟩)⟩
          rw [List.getElem?_set]
          split
          next e =>
            rw [if_pos (by have := ha.len; omega)]
            exact ⟨fun _ => .inr ⟨e.symm, hno⟩, fun _ => rfl⟩
          next e =>
            rw [ha.expect n]
            constructor
            · exact .inl
            · rintro (h | ⟨h, _⟩)
              · exact h
              · exact absurd h.symm e

/-- C92: without `-E` the nodes expected are the documented ones. -/
theorem C92_expected_partial {xs : List (Char × List Char)} (hE : ∀ x ∈ xs, x.1 ≠ 'E') {group mcastIf : List Char} {mcastPort : Int} {nodeId : Nat} {map : List Bool}
    (h : main xs = .ok (.sub group mcastIf mcastPort nodeId map)) (n : Nat) :
    map[n]? = some true ↔ (∃ a, ('e', a) ∈ xs ∧ atoi a = n) ∨ (n = 1 ∧ ∀ a, ('e', a) ∉ xs) := by
  rw [C92_expected h n]
  constructor
  · rintro (⟨⟨o, a⟩, hx, h1 | h1, h2⟩ | ⟨h1, h2⟩)
    · dsimp only at h1; subst h1; exact .inl ⟨a, hx, h2⟩
    · exact absurd h1 (hE _ hx)
    · exact .inr ⟨h1, fun a ha => (h2 _ ha).1 rfl⟩
  · rintro (⟨a, hx, h2⟩ | ⟨h1, h2⟩)
    · exact .inl ⟨_, hx, .inl rfl, h2⟩
    · refine .inr ⟨h1, ?_⟩
      rintro ⟨o, a⟩ hx
      refine ⟨?_, hE _ hx⟩
      rintro rfl
      exact h2 a hx

/-- C92 as documented is false: `-E` (publisher only) makes a subscriber expect the node with the number of subscribers, and not node 1; and no publisher can be told to wait for no
subscriber, or for 1024. -/
theorem C92_false :
    (∃ g i p d map, main [('S', []), ('E', ['2'])] = .ok (.sub g i p d map) ∧ map[1]? = some false ∧ map[2]? = some true) ∧
    main [('E', ['0'])] = .error .usage ∧ main [('E', ['1', '0', '2', '4'])] = .error .usage := by
  refine ⟨⟨"239.0.0.1".toList, "0.0.0.0".toList, 4723, 1, (List.replicate 1024 false).set 2 true, ?_, ?_, ?_⟩, ?_, ?_⟩ <;> decide +kernel

/-- C92: a long address is copied beyond the end of the array for it. -/
theorem C92_crash (o : Char) (ho : o = 'M' ∨ o = 'm' ∨ o = 'l') (a : List Char) (ha : 80 ≤ a.length) (xs : List (Char × List Char)) : main ((o, a) :: xs) = .error .crash := by
  have : copied a = .error .crash := if_neg (by omega)
  unfold main options
  rw [List.foldlM_cons]
  rcases ho with rfl | rfl | rfl <;>
  · unfold option
    dsimp only
    rw [this]
    rfl

open PLog CircBuf PubCtx in
/-- C92: two command lines that fit together: the publisher's node `-i` (from 0 to 1023) is the only one the subscriber expects, the count `-c` is from 1 to 2^31-2. Then the conditions of C91 on the
programs hold: under its other conditions the packets of the self-test the publisher's command line asks for are those delivered, and the test of the subscriber started by the other command line
has ended successfully when it is back in its loop. -/
theorem C92_self_test {ps ss : List (Char × List Char)} {g m l g' m' : List Char} {mp lp mp' subs seed interval jitter : Int} {node count node' : Nat} {map : List Bool} {drop : List Char}
    (hpub : main ps = .ok (.pub g m l mp lp node count subs seed interval jitter drop)) (hsub : main ss = .ok (.sub g' m' mp' node' map))
    (hc : 0 < count) (hm : count < 2147483647) (hE : ∀ x ∈ ss, x.1 ≠ 'E') (hall : ∀ a, ('e', a) ∈ ss → atoi a = ((given 'i' ps).map atoi).getD 1)
    (hsome : (∃ a, ('e', a) ∈ ss) ∨ ((given 'i' ps).map atoi).getD 1 = 1)
    {E : Env} {n : Nat} {s0 s t : Sys} {pre : List SysOp} {j : Nat} {T : Int} {segs : List (List SysOp)} (hs : Sys.Start E n s0)
    (hr : Sys.run E s0 pre = some s) (ht : Sys.Turns E T s segs t) (hn : n + Sys.calls pre + Sys.calls segs.flatten + 1 < U64)
    (hlen : s.work ≤ segs.length) (hT : ∀ i, ∀ x ∈ s.pub.pub.owedPkts i, x.2.2 + 100000 ≤ T)
    (hq : sentPkts t.pub.pub.log = sentPkts s.pub.pub.log)
    (hk : t.acc = some j) (he : t.err = false) (hu : SubCtx.Up t.sub E.slot)
    (hsent : ∀ x ∈ queuedPkts t.pub.pub.log, x.1 ∈ PubCtx.sentTo j t.pub.pub.log)
    (h1 : ((SubCtx.arrivedAt E.slot t.sub.log).map (·.1.pid)).head? = some 1)
    (h2 : ∀ i, SEv.complete i ∈ t.sub.log → i = E.slot) (h3 : t.sub.log.count (.complete E.slot) ≤ 1)
    (hp : TestPub.contents t.pub = Selftest.payloads node count 1) :
    (SubCtx.readied t.sub.log).map (·.payload.data) = Selftest.payloads node count 1 ∧
    ∀ (mem : Nat → Conn) (nid : Nat) (x : SubCtx.ActRes) (rs : List TestSub.Round) (res : Selftest.Res), TestSub.main mem nid map x rs = .ok (res, t.sub) → ∃ es, res = .last es := by
  obtain ⟨_, _, _, _, _, _, hi, _⟩ := C92_arguments hpub
  obtain ⟨v, hv⟩ : ∃ v, v = ((given 'i' ps).map atoi).getD 1 := ⟨_, rfl⟩
  rw [← hv] at hi hall hsome
  have hmap := C92_expected_partial hE hsub
  have hacc := ((C92_accepted ss).1 ⟨_, hsub⟩).1
  have hrange : 1 ≤ v ∧ v < 1024 := by
    rcases hsome with ⟨a, ha⟩ | h
    · have := (hacc _ ha).2.2 (.inl rfl)
      dsimp only at this
      rw [hall a ha] at this
      exact this
    · omega
  have hnode : (node : Int) = v := by omega
  have hmap1 : map[node]? = some true := by
    rw [hmap node]
    rcases hsome with ⟨a, ha⟩ | h
    · exact .inl ⟨a, ha, by rw [hall a ha]; omega⟩
    · by_cases ha : ∃ a, ('e', a) ∈ ss
      · obtain ⟨a, ha⟩ := ha
        exact .inl ⟨a, ha, by rw [hall a ha]; omega⟩
      · exact .inr ⟨by omega, fun a hx => ha ⟨a, hx⟩⟩
  have hone : ∀ n, map[n]? = some true → n = node := by
    intro n hx
    rcases (hmap n).1 hx with ⟨a, ha, e⟩ | ⟨e, hno⟩
    · have := hall a ha
      omega
    · rcases hsome with ⟨a, ha⟩ | h
      · exact absurd ha (hno a)
      · omega
  have := TestPub.C91_self_test hs hr ht hn hlen hT hq hk he hu hsent h1 h2 h3 (node := node) (by omega) hc hm hmap1 hone hp
  exact ⟨this.1, this.2.2⟩

/-- C92: a subscriber started with an option `-E` does not end its test before it has received signals of the node with that number. -/
theorem C92_waits {xs : List (Char × List Char)} {g m a : List Char} {mp : Int} {node : Nat} {map : List Bool} (h : main xs = .ok (.sub g m mp node map)) (ha : ('E', a) ∈ xs)
    {mem : Nat → Conn} {nid : Nat} {x : SubCtx.ActRes} {rs : List TestSub.Round} {es : List Selftest.Expect} {c : SubCtx} (hr : TestSub.main mem nid map x rs = .ok (.last es, c))
    (hl : ∀ p ∈ SubCtx.readied c.log, 20 ∣ p.payload.data.length)
    (hm : ∀ s ∈ ((SubCtx.readied c.log).map (·.payload.data)).flatMap Selftest.signalsIn, s.max < 2147483647) :
    ∃ s ∈ ((SubCtx.readied c.log).map (·.payload.data)).flatMap Selftest.signalsIn, (s.node : Int) = atoi a := by
  have hacc := ((((C92_accepted xs).1 ⟨_, h⟩).1 _ ha).2.2 (.inr rfl)).1
  dsimp only at hacc
  have hmap : map[(atoi a).toNat]? = some true := (C92_expected h _).2 (.inl ⟨_, ha, .inr rfl, by dsimp only; omega⟩)
  rcases TestSub.C89_success hr rfl hl hm with ⟨_, e, _⟩ | ⟨_, k, _, _, _, _, hd⟩
  · cases e
  · obtain ⟨h1, _⟩ := hd _ hmap
    obtain ⟨s, hs⟩ := List.exists_mem_of_ne_nil _ h1
    unfold Selftest.of at hs
    obtain ⟨h2, h3⟩ := List.mem_filter.1 hs
    refine ⟨s, List.mem_of_mem_take h2, ?_⟩
    have := of_decide_eq_true h3
    omega

/-! ## Numbers -/

theorem digits_all : ∀ (ds : List Char) (a : Nat) (rest : List Char), (∀ c ∈ ds, '0' ≤ c ∧ c ≤ '9') → (∀ c ∈ rest.head?, ¬ ('0' ≤ c ∧ c ≤ '9')) →
    digits a (ds ++ rest) = Nat.ofDigitChars 10 ds a := by
  intro ds
  induction ds with
  | nil =>
    intro a rest _ h
    cases rest with
    | nil => rfl
    | cons c cs =>
      rw [List.nil_append, digits.eq_1, if_neg (h c rfl), Nat.ofDigitChars_nil]
  | cons d ds ih =>
    intro a rest h1 h2
    rw [List.cons_append, digits.eq_1, if_pos (h1 d (by simp)), Nat.ofDigitChars_cons]
    exact ih _ _ (fun c hc => h1 c (by simp [hc])) h2

theorem isDigit_between {c : Char} (h : c.isDigit) : '0' ≤ c ∧ c ≤ '9' := by
  unfold Char.isDigit at h
  simp only [Bool.and_eq_true, decide_eq_true_eq] at h
  exact ⟨h.1, h.2⟩

theorem dropWhile_spaces {sp l : List Char} (h : ∀ c ∈ sp, isSpace c = true) (hl : ∀ c ∈ l.head?, isSpace c = false) : (sp ++ l).dropWhile isSpace = l := by
  induction sp with
  | nil =>
    cases l with
    | nil => rfl
    | cons c cs => rw [List.nil_append, List.dropWhile_cons, if_neg (by rw [hl c rfl]; simp)]
  | cons s sp ih =>
    rw [List.cons_append, List.dropWhile_cons, if_pos (h s (by simp))]
    exact ih (fun c hc => h c (by simp [hc]))

/-- Specification: how a number is written: white space, a sign, decimal digits, and anything that does not begin with a digit. -/
inductive Written : Int → List Char → Prop where
  | plain (sp : List Char) (n : Nat) (rest : List Char) (h : ∀ c ∈ sp, c ∈ [' ', '\t', '\n', '\x0b', '\x0c', '\r']) (hr : ∀ c ∈ rest.head?, ¬ c.isDigit) : Written n (sp ++ (n.repr.toList ++ rest))
  | plus (sp : List Char) (n : Nat) (rest : List Char) (h : ∀ c ∈ sp, c ∈ [' ', '\t', '\n', '\x0b', '\x0c', '\r']) (hr : ∀ c ∈ rest.head?, ¬ c.isDigit) :
      Written n (sp ++ ('+' :: (n.repr.toList ++ rest)))
  | minus (sp : List Char) (n : Nat) (rest : List Char) (h : ∀ c ∈ sp, c ∈ [' ', '\t', '\n', '\x0b', '\x0c', '\r']) (hr : ∀ c ∈ rest.head?, ¬ c.isDigit) :
      Written (-n) (sp ++ ('-' :: (n.repr.toList ++ rest)))

theorem spaces_ok {sp : List Char} (h : ∀ c ∈ sp, c ∈ [' ', '\t', '\n', '\x0b', '\x0c', '\r']) : ∀ c ∈ sp, isSpace c = true := by
  have : ∀ c ∈ [' ', '\t', '\n', '\x0b', '\x0c', '\r'], isSpace c = true := by decide
  exact fun c hc => this c (h c hc)

theorem digits_repr (n : Nat) {rest : List Char} (hr : ∀ c ∈ rest.head?, ¬ c.isDigit) : digits 0 (n.repr.toList ++ rest) = n := by
  rw [Nat.toList_repr, digits_all, Nat.ofDigitChars_ten_toDigits]
  · exact fun c hc => isDigit_between (Nat.isDigit_of_mem_toDigits (by decide) (by decide) hc)
  · intro c hc h
    refine hr c hc ?_
    unfold Char.isDigit
    simp only [Bool.and_eq_true, decide_eq_true_eq]
    exact ⟨h.1, h.2⟩

theorem digit_head (n : Nat) (rest : List Char) : ∃ c cs, n.repr.toList ++ rest = c :: cs ∧ c.isDigit = true := by
  have h0 : n.repr.toList ≠ [] := by rw [Nat.toList_repr]; exact Nat.toDigits_ne_nil
  have h1 : ∀ c ∈ n.repr.toList, c.isDigit = true := by
    rw [Nat.toList_repr]
    exact fun c hc => Nat.isDigit_of_mem_toDigits (by decide) (by decide) hc
  cases h : n.repr.toList with
  | nil => exact absurd h h0
  | cons c cs => rw [h] at h1; exact ⟨c, cs ++ rest, rfl, h1 c (by simp)⟩

theorem digit_space {c : Char} (h : c.isDigit = true) : isSpace c = false ∧ c ≠ '-' ∧ c ≠ '+' := by
  have hb := isDigit_between h
  have h48 : 48 ≤ c.toNat := hb.1
  have ht : c ≠ ' ' ∧ c ≠ '\t' ∧ c ≠ '\n' ∧ c ≠ '\r' ∧ c ≠ '-' ∧ c ≠ '+' := by
    refine ⟨?_, ?_, ?_, ?_, ?_, ?_⟩ <;> · rintro rfl; revert h; decide
  refine ⟨?_, ht.2.2.2.2.1, ht.2.2.2.2.2⟩
  unfold isSpace
  simp [ht]
  omega

/-- C92: the arguments are decimal numbers: an argument that is a number as one writes it stands for that number, reduced to the type of the variable; numbers of more than 64 bits become the nearest of
64 bits. -/
theorem C92_numbers {n : Int} {a : List Char} (h : Written n a) :
    (-9223372036854775808 ≤ n → n < 9223372036854775808 → atoll a = n) ∧ (-2147483648 ≤ n → n < 2147483648 → atoi a = n) ∧
    (9223372036854775808 ≤ n → atoll a = 9223372036854775807) ∧ (n < -9223372036854775808 → atoll a = -9223372036854775808) := by
  have e : signed (a.dropWhile isSpace) = n := by
    cases h with
    | plain sp k rest h hr =>
      obtain ⟨c, cs, hc, hd⟩ := digit_head k rest
      have hs := digit_space hd
      rw [dropWhile_spaces (spaces_ok h) (by rw [hc]; intro x hx; cases hx; exact hs.1)]
      have := digits_repr k hr
      rw [hc] at this ⊢
      unfold signed
      split
      next heq => injection heq with e1; exact absurd e1 hs.2.1
      next heq => injection heq with e1; exact absurd e1 hs.2.2
      next => rw [this]
    | plus sp k rest h hr =>
      rw [dropWhile_spaces (spaces_ok h) (by intro x hx; cases hx; decide)]
      exact congrArg Int.ofNat (digits_repr k hr)
    | minus sp k rest h hr =>
      rw [dropWhile_spaces (spaces_ok h) (by intro x hx; cases hx; decide)]
      exact congrArg (fun n : Nat => - (n : Int)) (digits_repr k hr)
  unfold atoi atoll toInt
  rw [e]
  omega

/-! ## Examples -/

def exPub : List (Char × List Char) := [('i', ['7']), ('c', "1000".toList), ('E', ['2']), ('P', " +5000x".toList), ('i', "1".toList)]
def exSub : List (Char × List Char) := [('S', []), ('e', "1".toList)]

/-- Two command lines that fit together (C92_accepted, C92_arguments, C92_expected_partial, C92_self_test): the last option counts. -/
example : main exPub = .ok (.pub "239.0.0.1".toList "0.0.0.0".toList "0.0.0.0".toList 5000 0 1 1000 2 1 0 0 "0.0".toList) := by decide +kernel
example : main exSub = .ok (.sub "239.0.0.1".toList "0.0.0.0".toList 4723 1 ((List.replicate 1024 false).set 1 true)) := by decide +kernel
example : (∀ x ∈ exSub, x.1 ≠ 'E') ∧ (given 'i' exPub).map atoi = some 1 ∧ ('e', ['1']) ∈ exSub := by decide +kernel
/-- An option that is not known, one that no case handles, a node that is too large, a bad log level. -/
example : main [('?', [])] = .error .usage ∧ main [('n', ['1'])] = .error .usage ∧ main [('e', "1024".toList)] = .error .usage ∧ main [('L', ['7'])] = .error .usage := by decide +kernel
/-- A negative count is a very large one. -/
example : atoi "-1".toList = -1 ∧ atoi "4294967297".toList = 1 ∧ atoll "99999999999999999999".toList = 9223372036854775807 ∧
    (match main [('c', "-1".toList)] with | .ok (.pub _ _ _ _ _ _ count _ _ _ _ _) => count = 18446744073709551615 | _ => False) := by
  refine ⟨by decide +kernel, by decide +kernel, by decide +kernel, ?_⟩
  have : main [('c', "-1".toList)] = .ok (.pub "239.0.0.1".toList "0.0.0.0".toList "0.0.0.0".toList 4723 0 1 18446744073709551615 1 1 0 0 "0.0".toList) := by decide +kernel
  rw [this]

/-- Numbers as one writes them (C92_numbers). -/
example : Written 1000 "  1000".toList ∧ Written (-7) "\t-7x".toList ∧ Written 5 "+5".toList :=
  ⟨.plain [' ', ' '] 1000 [] (by decide) (by simp), .minus ['\t'] 7 ['x'] (by decide) (by decide), .plus [] 5 [] (by decide) (by simp)⟩

end CmdLine
end Rmc
