import Verif.Stats
import Verif.Props.Selftest

/-!
# The statistics of the self-test (C100)
-/

set_option linter.unusedSimpArgs false
set_option linter.unusedVariables false

namespace Rmc
namespace Selftest

/-! ## Specification -/

/-- The signals without the clock. -/
def sigs (xs : List Timed) : List Signal := xs.map (·.1)

/-- The time since the first of the signals of a publisher, at the end of the last signal. -/
def took (xs : List Timed) (x : Timed) : Int :=
  match xs.find? (fun y => decide (y.1.node = x.1.node)) with
  | some y => x.2.2 - y.2.1
  | none => 0

/-- A rate that an `int` can hold: some time has passed, and less than 2^31 signals came in a second. -/
def Fine (n : Nat) (d : Int) : Prop :=
  d ≠ 0 ∧ -2147483648 ≤ ((n : Int) * 1000000).tdiv d ∧ ((n : Int) * 1000000).tdiv d ≤ 2147483647

instance (n : Nat) (d : Int) : Decidable (Fine n d) := by unfold Fine; infer_instance

/-- What has to be printed for the signals `xs` after the signals `seen`: a line for each publisher, at its last signal. -/
def due (seen : List Timed) : List Timed → List Report
  | [] => []
  | x :: xs =>
    (if x.1.id = x.1.max then
      [⟨x.1.node, x.1.max, ((x.1.max : Int) * 1000000).tdiv (took (seen ++ [x]) x), (took (seen ++ [x]) x).tdiv 1000⟩] else []) ++ due (seen ++ [x]) xs

/-- Signal number `j` of `xs` (after `seen`) is taken into account, is the last one of its publisher, and its rate is out of range. -/
def Bad (map : List Bool) (seen xs : List Timed) (j : Nat) : Prop :=
  ∃ x, xs[j]? = some x ∧ Legal map (sigs (seen ++ xs.take (j + 1))) ∧ (∀ i, 0 < i → i ≤ j → ¬ Done map (sigs (seen ++ xs.take i))) ∧
    x.1.id = x.1.max ∧ ¬ Fine x.1.max (took (seen ++ xs.take (j + 1)) x)

/-! ## Proof -/

theorem rate_fine {n : Nat} {d : Int} (h : Fine n d) : rate n d = .ok (((n : Int) * 1000000).tdiv d) := by
  unfold rate
  rw [if_neg h.1, if_neg (by have := h.2; omega)]

theorem rate_bad {n : Nat} {d : Int} (h : ¬ Fine n d) : rate n d = .error .overflow := by
  unfold rate
  split
  · rfl
  · rename_i h0
    rw [if_pos]
    apply Classical.byContradiction
    intro h1
    exact h ⟨h0, by omega, by omega⟩

/-- The start times kept. -/
def Starts (st : Nat → Int) (seen : List Timed) : Prop :=
  ∀ n y, seen.find? (fun y => decide (y.1.node = n)) = some y → st n = y.2.1

theorem Inv.fresh {map : List Bool} {es : List Expect} {seen : List Signal} (h : Inv map es seen) {s : Signal} {r : Res} (hx : signal es s = .ok r) :
    es[s.node]?.map (·.status) = some .notStarted ↔ of s.node seen = [] := by
  unfold signal at hx
  split at hx
  · cases hx
  · rename_i e he
    obtain ⟨hn, _⟩ := List.getElem?_eq_some_iff.1 he
    have hn' := hn
    rw [h.len] at hn
    have hE := h.ent _ _ _ he (List.getElem?_eq_getElem hn)
    rw [he, Option.map_some]
    unfold Entry at hE
    split at hE
    · rename_i q; rw [if_pos q] at hx; cases hx
    · rename_i q; rw [q]; exact ⟨fun _ => hE.2, fun _ => rfl⟩
    · rename_i q; rw [q]; exact ⟨(fun h => by cases h), fun e => absurd e hE.2.1⟩
    · rename_i q; rw [q]; exact ⟨(fun h => by cases h), fun e => absurd e hE.2.1⟩

theorem of_find (n : Nat) (seen : List Timed) : of n (sigs seen) = [] ↔ seen.find? (fun y => decide (y.1.node = n)) = none := by
  unfold of sigs
  rw [List.filter_eq_nil_iff, List.find?_eq_none]
  simp

theorem sigs_append (xs ys : List Timed) : sigs (xs ++ ys) = sigs xs ++ sigs ys := List.map_append

/-- One signal: the start times stay right, and the time taken is as specified. -/
theorem signalT_spec {map : List Bool} {es : List Expect} {seen : List Timed} {st : Nat → Int} (h : Inv map es (sigs seen)) (hst : Starts st seen)
    {x : Timed} {r : Res} (hx : signal es x.1 = .ok r) (hr : r ≠ .corrupt) :
    ∃ st', Starts st' (seen ++ [x]) ∧ signalT es st x =
      if x.1.id = x.1.max then
        (if Fine x.1.max (took (seen ++ [x]) x) then
          .ok (r, st', [⟨x.1.node, x.1.max, ((x.1.max : Int) * 1000000).tdiv (took (seen ++ [x]) x), (took (seen ++ [x]) x).tdiv 1000⟩])
        else .error .overflow)
      else .ok (r, st', []) := by
  have hf := h.fresh hx
  obtain ⟨st', hst'⟩ : ∃ st' : Nat → Int, st' = if es[x.1.node]?.map (·.status) = some .notStarted then
    fun n => if n = x.1.node then x.2.1 else st n else st := ⟨_, rfl⟩
  have hs : Starts st' (seen ++ [x]) := by
    intro n y hy
    rw [List.find?_append] at hy
    rw [hst']
    by_cases hn : of x.1.node (sigs seen) = []
    · rw [if_pos (hf.2 hn)]
      rw [of_find] at hn
      by_cases e : n = x.1.node
      · rw [e, hn] at hy
        simp at hy
        rw [← hy]; simp [e]
      · rw [if_neg e]
        cases hz : seen.find? (fun y => decide (y.1.node = n)) with
        | some z =>
          rw [hz] at hy
          have : z = y := by simpa using hy
          rw [← this]; exact hst n z hz
        | none =>
          rw [hz] at hy
          simp at hy
          exact absurd hy.1.symm e
    · rw [if_neg (fun e => hn (hf.1 e))]
      rw [of_find] at hn
      cases hz : seen.find? (fun y => decide (y.1.node = n)) with
      | some z =>
        rw [hz] at hy
        have : z = y := by simpa using hy
        rw [← this]; exact hst n z hz
      | none =>
        rw [hz] at hy
        simp at hy
        rw [← hy.1] at hz
        exact absurd hz hn
  have ht : x.2.2 - st' x.1.node = took (seen ++ [x]) x := by
    unfold took
    cases hz : (seen ++ [x]).find? (fun y => decide (y.1.node = x.1.node)) with
    | some z => dsimp only; rw [hs _ _ hz]
    | none =>
      rw [List.find?_eq_none] at hz
      exact absurd (hz x (by simp)) (by simp)
  refine ⟨st', hs, ?_⟩
  unfold signalT
  rw [hx]
  dsimp only
  rw [← hst']
  by_cases he : x.1.id = x.1.max
  · rw [if_pos ⟨he, hr⟩, if_pos he, he, ht]
    by_cases hF : Fine x.1.max (took (seen ++ [x]) x)
    · rw [rate_fine hF, if_pos hF]
    · rw [rate_bad hF, if_neg hF]
  · rw [if_neg (fun e => he e.1), if_neg he]

theorem take_cons_eq (seen : List Timed) (x : Timed) (xs : List Timed) (i : Nat) : seen ++ (x :: xs).take (i + 1) = seen ++ [x] ++ xs.take i := by
  rw [List.take_succ_cons]; simp

theorem Bad.zero {map : List Bool} {seen xs : List Timed} {x : Timed} (h : Bad map seen (x :: xs) 0) :
    x.1.id = x.1.max ∧ ¬ Fine x.1.max (took (seen ++ [x]) x) := by
  obtain ⟨y, h1, h2, h3, h4, h5⟩ := h
  cases h1
  simp only [take_cons_eq, List.take_zero, List.append_nil] at h5
  exact ⟨h4, h5⟩

theorem Bad.tail {map : List Bool} {seen xs : List Timed} {x : Timed} {j : Nat} (h : Bad map seen (x :: xs) (j + 1)) :
    Bad map (seen ++ [x]) xs j ∧ ¬ Done map (sigs (seen ++ [x])) := by
  obtain ⟨y, h1, h2, h3, h4, h5⟩ := h
  rw [take_cons_eq] at h2 h5
  refine ⟨⟨y, h1, h2, ?_, h4, h5⟩, ?_⟩
  · intro i i1 i2
    rw [← take_cons_eq]
    exact h3 _ (by omega) (by omega)
  · have := h3 1 (by omega) (by omega)
    rwa [take_cons_eq, List.take_zero, List.append_nil] at this

theorem Bad.cons {map : List Bool} {seen xs : List Timed} {x : Timed} {j : Nat} (h : Bad map (seen ++ [x]) xs j)
    (hd : ¬ Done map (sigs (seen ++ [x]))) : Bad map seen (x :: xs) (j + 1) := by
  obtain ⟨y, h1, h2, h3, h4, h5⟩ := h
  refine ⟨y, h1, by rw [take_cons_eq]; exact h2, ?_, h4, by rw [take_cons_eq]; exact h5⟩
  intro i i1 i2
  obtain ⟨i, rfl⟩ : ∃ k, i = k + 1 := ⟨i - 1, by omega⟩
  rw [take_cons_eq]
  by_cases h0 : i = 0
  · rw [h0, List.take_zero, List.append_nil]; exact hd
  · exact h3 i (by omega) (by omega)

/-- What the timed run makes of the signals. -/
theorem judgeT_inv {map : List Bool} : ∀ (xs : List Timed) {es : List Expect} {seen : List Timed} {st : Nat → Int}, Inv map es (sigs seen) → Starts st seen →
    (∀ x ∈ xs, x.1.id < U32 ∧ x.1.max < INT_MAX) →
    (judgeT es st xs = .error .overflow ∧ ∃ j, Bad map seen xs j) ∨
    ((∀ j, ¬ Bad map seen xs j) ∧ judgeT es st xs = .error .exit255 ∧ judge es (sigs xs) = .error .exit255) ∨
    ((∀ j, ¬ Bad map seen xs j) ∧ ∃ r k, k ≤ xs.length ∧ judgeT es st xs = .ok (r, due seen (xs.take k)) ∧ judge es (sigs xs) = .ok r ∧
      (∀ i, 0 < i → i < k → ¬ Done map (sigs (seen ++ xs.take i))) ∧
      ((k = xs.length ∧ ∃ es', r = .more es') ∨ (0 < k ∧ Done map (sigs (seen ++ xs.take k)) ∧ ∃ es', r = .last es'))) := by
  intro xs
  induction xs with
  | nil =>
    intro es seen st h hst hx
    refine .inr (.inr ⟨(fun j ⟨y, h1, _⟩ => by cases h1), .more es, 0, Nat.le_refl _, rfl, rfl, (fun i a b => by omega), .inl ⟨rfl, es, rfl⟩⟩)
  | cons x xs ih =>
    intro es seen st h hst hx
    have hx1 := hx x (by simp)
    have hsn : sigs seen ++ [x.1] = sigs (seen ++ [x]) := by rw [sigs_append]; rfl
    have hs := signal_inv h hx1.1 hx1.2
    rw [hsn] at hs
    have hjc : judge es (sigs (x :: xs)) = match signal es x.1 with
        | .error f => .error f | .ok (.more es) => judge es (sigs xs) | .ok r => .ok r := rfl
    rcases hs with ⟨es1, h1, h2, h3⟩ | ⟨es1, h1, h2, h3⟩ | ⟨h1, h2⟩
    · obtain ⟨st', s1, s2⟩ := signalT_spec h hst h1 (by intro e; cases e)
      rw [h1] at hjc
      dsimp only at hjc
      by_cases hbad : x.1.id = x.1.max ∧ ¬ Fine x.1.max (took (seen ++ [x]) x)
      · rw [if_pos hbad.1, if_neg hbad.2] at s2
        refine .inl ⟨by unfold judgeT; rw [s2], 0, x, rfl, ?_, fun i a b => by omega, hbad.1, ?_⟩
        · rw [take_cons_eq, List.take_zero, List.append_nil]; exact h2.legal
        · rw [take_cons_eq, List.take_zero, List.append_nil]; exact hbad.2
      · obtain ⟨rs, e1, e2⟩ : ∃ rs, signalT es st x = .ok (.more es1, st', rs) ∧ ∀ ys, due seen (x :: ys) = rs ++ due (seen ++ [x]) ys := by
          by_cases hl : x.1.id = x.1.max
          · rw [if_pos hl, if_pos (Classical.byContradiction fun e => hbad ⟨hl, e⟩)] at s2
            exact ⟨_, s2, fun ys => by rw [due, if_pos hl]⟩
          · rw [if_neg hl] at s2
            exact ⟨_, s2, fun ys => by rw [due, if_neg hl]⟩
        have hnb : (∀ j, ¬ Bad map (seen ++ [x]) xs j) → ∀ j, ¬ Bad map seen (x :: xs) j := by
          intro hn j hb
          cases j with
          | zero => exact hbad hb.zero
          | succ j => exact hn j hb.tail.1
        rcases ih h2 s1 (fun y hy => hx y (by simp [hy])) with ⟨a, j, b⟩ | ⟨a, b, c⟩ | ⟨a, r, k, b1, b2, b3, b4, b5⟩
        · refine .inl ⟨by unfold judgeT; rw [e1]; dsimp only; rw [a], j + 1, b.cons h3⟩
        · refine .inr (.inl ⟨hnb a, by unfold judgeT; rw [e1]; dsimp only; rw [b], by rw [hjc]; exact c⟩)
        · refine .inr (.inr ⟨hnb a, r, k + 1, by simpa using b1, ?_, by rw [hjc]; exact b3, ?_, ?_⟩)
          · unfold judgeT; rw [e1]; dsimp only; rw [b2, List.take_succ_cons, e2]
          · intro i i1 i2
            obtain ⟨i, rfl⟩ : ∃ m, i = m + 1 := ⟨i - 1, by omega⟩
            rw [take_cons_eq]
            by_cases h0 : i = 0
            · rw [h0, List.take_zero, List.append_nil]; exact h3
            · exact b4 i (by omega) (by omega)
          · rw [take_cons_eq]
            rcases b5 with ⟨c1, c2⟩ | ⟨c1, c2, c3⟩
            · exact .inl ⟨by simp [c1], c2⟩
            · exact .inr ⟨by omega, c2, c3⟩
    · obtain ⟨st', s1, s2⟩ := signalT_spec h hst h1 (by intro e; cases e)
      rw [h1] at hjc
      dsimp only at hjc
      by_cases hbad : x.1.id = x.1.max ∧ ¬ Fine x.1.max (took (seen ++ [x]) x)
      · rw [if_pos hbad.1, if_neg hbad.2] at s2
        refine .inl ⟨by unfold judgeT; rw [s2], 0, x, rfl, ?_, fun i a b => by omega, hbad.1, ?_⟩
        · rw [take_cons_eq, List.take_zero, List.append_nil]; exact h2.legal
        · rw [take_cons_eq, List.take_zero, List.append_nil]; exact hbad.2
      · obtain ⟨rs, e1, e2⟩ : ∃ rs, signalT es st x = .ok (.last es1, st', rs) ∧ due seen [x] = rs := by
          by_cases hl : x.1.id = x.1.max
          · rw [if_pos hl, if_pos (Classical.byContradiction fun e => hbad ⟨hl, e⟩)] at s2
            exact ⟨_, s2, by rw [due, if_pos hl]; rfl⟩
          · rw [if_neg hl] at s2
            exact ⟨_, s2, by rw [due, if_neg hl]; rfl⟩
        refine .inr (.inr ⟨?_, .last es1, 1, by simp, ?_, hjc, fun i a b => by omega, .inr ⟨by omega, ?_, es1, rfl⟩⟩)
        · intro j hb
          cases j with
          | zero => exact hbad hb.zero
          | succ j => exact hb.tail.2 h3
        · unfold judgeT; rw [e1]; dsimp only; rw [← e2]; rfl
        · rw [take_cons_eq, List.take_zero, List.append_nil]; exact h3
    · refine .inr (.inl ⟨?_, by unfold judgeT signalT; rw [h1], by rw [hjc, h1]⟩)
      rintro j ⟨y, a, b, c⟩
      have : sigs (seen ++ [x]) = (sigs (seen ++ (x :: xs).take (j + 1))).take (seen.length + 1) := by
        rw [take_cons_eq]
        unfold sigs
        rw [← List.map_take, List.take_left' (by simp)]
      refine h2 ?_
      rw [this]
      exact Legal.prefix (ys := (sigs (seen ++ (x :: xs).take (j + 1))).drop (seen.length + 1)) (by rw [List.take_append_drop]; exact b)

/-- C100, exactly when the statistics are undefined: at the last signal of a publisher, if the rate does not fit into an `int`. -/
theorem C100_exact {map : List Bool} {xs : List Timed} (hx : ∀ x ∈ xs, x.1.id < 4294967296 ∧ x.1.max < 2147483647) (st : Nat → Int) :
    judgeT (start map) st xs = .error .overflow ↔ ∃ j, Bad map [] xs j := by
  rcases judgeT_inv (map := map) xs (seen := []) (st := st) (Inv.start map) (by intro n y h; cases h) hx with ⟨a, b⟩ | ⟨a, b, c⟩ | ⟨a, r, k, b1, b2, _⟩
  · exact ⟨fun _ => b, fun _ => a⟩
  · exact ⟨(fun h => by rw [b] at h; cases h), fun ⟨j, h⟩ => absurd h (a j)⟩
  · exact ⟨(fun h => by rw [b2] at h; cases h), fun ⟨j, h⟩ => absurd h (a j)⟩

/-- C100, otherwise: the verdict is the one without statistics, and a line is printed for each publisher whose last signal was among those looked at, with the
number of its signals, the time from the first to the last of them and the quotient of the two. (Missing, and false: that this is so always, `C100_false`.) -/
theorem C100_partial {map : List Bool} {xs : List Timed} (hx : ∀ x ∈ xs, x.1.id < 4294967296 ∧ x.1.max < 2147483647) (st : Nat → Int)
    (hb : ∀ j, ¬ Bad map [] xs j) :
    (judgeT (start map) st xs = .error .exit255 ∧ judge (start map) (sigs xs) = .error .exit255) ∨
    ∃ r k, k ≤ xs.length ∧ judgeT (start map) st xs = .ok (r, due [] (xs.take k)) ∧ judge (start map) (sigs xs) = .ok r ∧
      (∀ i, 0 < i → i < k → ¬ Done map (sigs (xs.take i))) ∧ (k = xs.length ∨ Done map (sigs (xs.take k))) := by
  rcases judgeT_inv (map := map) xs (seen := []) (st := st) (Inv.start map) (by intro n y h; cases h) hx with ⟨_, j, b⟩ | ⟨a, b, c⟩ | ⟨a, r, k, b1, b2, b3, b4, b5⟩
  · exact absurd b (hb j)
  · exact .inl ⟨b, c⟩
  · refine .inr ⟨r, k, b1, b2, b3, b4, ?_⟩
    rcases b5 with ⟨c, _⟩ | ⟨_, c, _⟩
    · exact .inl c
    · exact .inr c

/-- A rate is in range if time has passed and less than 2^31 signals came in a second. -/
theorem C100_fine {n : Nat} {d : Int} (h0 : 0 < d) (h1 : (n : Int) * 1000000 < 2147483648 * d) : Fine n d := by
  have h2 : 0 ≤ ((n : Int) * 1000000).tdiv d := Int.tdiv_nonneg (by omega) (by omega)
  refine ⟨by omega, by omega, ?_⟩
  rw [Int.tdiv_eq_ediv_of_nonneg (by omega)]
  have := (Int.ediv_lt_iff_lt_mul h0).2 h1
  omega

/-- C100 is not true of the code: a test with a single signal, whose first and last signal are the same one and can come within one microsecond. -/
theorem C100_false : judgeT (start [false, true]) (fun _ => 0) [(⟨1, 1, 1, 0⟩, 5, 5)] = .error .overflow := by decide +kernel

/-- And a rate above the largest `int`: 2500 signals in a microsecond. -/
theorem C100_false_rate : rate 2500 1 = .error .overflow := by decide +kernel

/-- Non-vacuity: two publishers with two signals each, one of which is done: 2 signals in 4 ms, 500 in a second. -/
example : judgeT (start [true, true]) (fun _ => 0) [(⟨1, 1, 2, 0⟩, 1000, 0), (⟨0, 1, 2, 0⟩, 2000, 0), (⟨1, 2, 2, 0⟩, 0, 5000)] =
    .ok (.more [⟨.inProgress, 2, 1, 3, 1⟩, ⟨.completed, 2, 2, 3, 3⟩], [⟨1, 2, 500, 4⟩]) ∧
    ∀ x ∈ [((⟨1, 1, 2, 0⟩ : Signal), (1000 : Int), (0 : Int)), (⟨0, 1, 2, 0⟩, 2000, 0), (⟨1, 2, 2, 0⟩, 0, 5000)],
      x.1.id < 4294967296 ∧ x.1.max < 2147483647 := by decide +kernel

end Selftest
end Rmc
