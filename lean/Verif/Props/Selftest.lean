import Verif.Selftest
import Verif.Props.Sys

set_option linter.unusedSimpArgs false
set_option linter.unusedVariables false

/-!
# The verdict of the protocol self-test (C85), and the self-test run over the library (C86)
-/

namespace Rmc
namespace Selftest
open PLog

/-! ## Specification -/

/-- The signals in a payload, one after the other. -/
def signalsIn (data : List UInt8) : List Signal :=
  if data = [] then [] else Signal.dec data :: signalsIn (data.drop 20)
termination_by data.length
decreasing_by
  have : 0 < data.length := List.length_pos_iff.2 (by assumption)
  rw [List.length_drop]; omega

/-- The signals of one publisher. -/
def of (n : Nat) (xs : List Signal) : List Signal := xs.filter (fun s => decide (s.node = n))

/-- A correct beginning of the signals of one publisher: they are numbered one, two, three and so on, all announce the same maximum, and none comes after the
one with the announced maximum (a maximum of zero is never reached). -/
def Follows (xs : List Signal) : Prop :=
  xs.map (·.id) = List.range' 1 xs.length ∧ ∃ m, (∀ x ∈ xs, x.max = m) ∧ (m = 0 ∨ xs.length ≤ m)

/-- A correct beginning of a test in which the publishers marked in `map` are expected. -/
def Legal (map : List Bool) (xs : List Signal) : Prop :=
  (∀ s ∈ xs, map[s.node]? = some true) ∧ ∀ n, Follows (of n xs)

/-- All signals of all expected publishers are there. -/
def Done (map : List Bool) (xs : List Signal) : Prop :=
  ∀ n, map[n]? = some true → of n xs ≠ [] ∧ ∀ x ∈ of n xs, x.max = (of n xs).length

/-! ## Proof -/

theorem of_snoc (n : Nat) (xs : List Signal) (s : Signal) : of n (xs ++ [s]) = if s.node = n then of n xs ++ [s] else of n xs := by
  unfold of
  rw [List.filter_append]
  by_cases h : s.node = n <;> simp [h]

/-- What an entry says about the signals seen so far. -/
def Entry (b : Bool) (e : Expect) (xs : List Signal) : Prop :=
  match e.status with
  | .inactive => b = false ∧ xs = []
  | .notStarted => b = true ∧ xs = []
  | .inProgress => b = true ∧ xs ≠ [] ∧ xs.map (·.id) = List.range' 1 xs.length ∧ (∀ x ∈ xs, x.max = e.maxExpected) ∧
      e.maxReceived = xs.length ∧ e.expectSum = sumTo e.maxExpected ∧ e.calcSum = sumTo xs.length ∧
      (e.maxExpected = 0 ∨ xs.length < e.maxExpected) ∧ xs.length < U32
  | .completed => b = true ∧ xs ≠ [] ∧ xs.map (·.id) = List.range' 1 xs.length ∧ (∀ x ∈ xs, x.max = xs.length)

structure Inv (map : List Bool) (es : List Expect) (seen : List Signal) : Prop where
  len : es.length = map.length
  ent : ∀ (n : Nat) (e : Expect) (b : Bool), es[n]? = some e → map[n]? = some b → Entry b e (of n seen)
  node : ∀ s ∈ seen, s.node < map.length

theorem Inv.start (map : List Bool) : Inv map (start map) [] where
  len := by simp [Selftest.start]
  ent := by
    intro n e b h1 h2
    unfold Selftest.start at h1
    rw [List.getElem?_map, h2] at h1
    simp only [Option.map_some, Option.some.injEq] at h1
    rw [← h1]
    cases b <;> simp [Entry, of]
  node := by intro s hs; cases hs

/-- What is seen is a correct beginning. -/
theorem Inv.legal {map : List Bool} {es : List Expect} {seen : List Signal} (h : Inv map es seen) : Legal map seen := by
  have key : ∀ n, (of n seen = [] ∨ (map[n]? = some true)) ∧ Follows (of n seen) := by
    intro n
    by_cases hn : n < map.length
    · have he : n < es.length := by rw [h.len]; exact hn
      have := h.ent n es[n] map[n] (List.getElem?_eq_getElem he) (List.getElem?_eq_getElem hn)
      rw [List.getElem?_eq_getElem hn]
      unfold Entry at this
      have nil : ∀ xs : List Signal, xs = [] → Follows xs := by rintro xs rfl; exact ⟨rfl, 0, by simp, .inl rfl⟩
      split at this
      · exact ⟨.inl this.2, nil _ this.2⟩
      · exact ⟨.inl this.2, nil _ this.2⟩
      · exact ⟨.inr (by rw [this.1]), this.2.2.1, _, this.2.2.2.1, by have := this.2.2.2.2.2.2.2.1; omega⟩
      · exact ⟨.inr (by rw [this.1]), this.2.2.1, _, this.2.2.2, .inr (Nat.le_refl _)⟩
    · have : of n seen = [] := by
        unfold of
        rw [List.filter_eq_nil_iff]
        intro s hs; have := h.node s hs; simp; omega
      exact ⟨.inl this, by rw [this]; exact ⟨rfl, 0, by simp, .inl rfl⟩⟩
  refine ⟨fun s hs => ?_, fun n => (key n).2⟩
  have hm : s ∈ of s.node seen := by unfold of; rw [List.mem_filter]; exact ⟨hs, by simp⟩
  rcases (key s.node).1 with h1 | h1
  · rw [h1] at hm; cases hm
  · exact h1

theorem Inv.exit {map : List Bool} {es : List Expect} {seen : List Signal} (h : Inv map es seen) : checkExit es = true ↔ Done map seen := by
  unfold checkExit
  rw [List.all_eq_true]
  constructor
  · intro ha n hn
    obtain ⟨hn', e'⟩ := List.getElem?_eq_some_iff.1 hn
    have he : n < es.length := by rw [h.len]; exact hn'
    have h1 := h.ent n es[n] true (List.getElem?_eq_getElem he) hn
    have h2 := ha es[n] (List.getElem_mem he)
    unfold Entry at h1
    split at h1
    · exact absurd h1.1 (by decide)
    · rename_i e; rw [e] at h2; exact absurd h2 (by decide)
    · rename_i e; rw [e] at h2; exact absurd h2 (by decide)
    · exact ⟨h1.2.1, h1.2.2.2⟩
  · intro hd e he
    obtain ⟨n, hn, rfl⟩ := List.mem_iff_getElem.1 he
    have hn' : n < map.length := by rw [← h.len]; exact hn
    have h1 := h.ent n es[n] map[n] (List.getElem?_eq_getElem hn) (List.getElem?_eq_getElem hn')
    unfold Entry at h1
    split at h1
    · rename_i e; rw [e]; decide
    · have := (hd n (by rw [List.getElem?_eq_getElem hn', h1.1])).1; exact absurd h1.2 this
    · obtain ⟨k1, k2⟩ := hd n (by rw [List.getElem?_eq_getElem hn', h1.1])
      obtain ⟨x, hx⟩ := List.exists_mem_of_ne_nil _ k1
      have a1 := k2 x hx
      have a2 := h1.2.2.2.1 x hx
      have a3 := h1.2.2.2.2.2.2.2.1
      have a4 : 0 < (of n seen).length := List.length_pos_iff.2 k1
      omega
    · rename_i e; rw [e]; decide

/-- An entry is replaced, a signal of the node has been added. -/
theorem Inv.set {map : List Bool} {es : List Expect} {seen : List Signal} (h : Inv map es seen) {s : Signal} {e' : Expect} (hn : s.node < map.length)
    (he : ∀ b, map[s.node]? = some b → Entry b e' (of s.node seen ++ [s])) : Inv map (es.set s.node e') (seen ++ [s]) where
  len := by rw [List.length_set]; exact h.len
  ent := by
    intro n e b h1 h2
    rw [of_snoc]
    by_cases hsn : s.node = n
    · subst hsn
      rw [if_pos rfl]
      rw [List.getElem?_set_self (by rw [h.len]; exact hn)] at h1
      cases h1
      exact he b h2
    · rw [if_neg hsn]
      rw [List.getElem?_set_ne hsn] at h1
      exact h.ent n e b h1 h2
  node := by
    intro x hx
    rcases List.mem_append.1 hx with hx | hx
    · exact h.node x hx
    · rw [List.mem_singleton.1 hx]; exact hn

theorem Legal.last {map : List Bool} {xs : List Signal} {s : Signal} (h : Legal map (xs ++ [s])) :
    map[s.node]? = some true ∧ s.id = (of s.node xs).length + 1 ∧ (∀ x ∈ of s.node xs, x.max = s.max) ∧
      (s.max = 0 ∨ (of s.node xs).length < s.max) := by
  obtain ⟨h1, h2⟩ := h
  have h2 := h2 s.node
  rw [of_snoc, if_pos rfl] at h2
  obtain ⟨a, m, b, c⟩ := h2
  refine ⟨h1 s (by simp), ?_, ?_, ?_⟩
  · rw [List.length_append, List.length_singleton, List.range'_concat, List.map_append] at a
    have := List.append_inj_right' a (by simp)
    simp at this
    omega
  · intro x hx; rw [b x (by simp [hx]), b s (by simp)]
  · have := b s (by simp)
    simp at c
    omega

theorem ids_snoc {xs : List Signal} {s : Signal} (h : xs.map (·.id) = List.range' 1 xs.length) (e : s.id = xs.length + 1) :
    (xs ++ [s]).map (·.id) = List.range' 1 (xs ++ [s]).length := by
  rw [List.length_append, List.length_singleton, List.range'_concat, List.map_append, h]
  simp [e]; omega

/-- One signal. -/
theorem signal_inv {map : List Bool} {es : List Expect} {seen : List Signal} (h : Inv map es seen) {s : Signal} (hid : s.id < U32) (hmax : s.max < INT_MAX) :
    (∃ es', signal es s = .ok (.more es') ∧ Inv map es' (seen ++ [s]) ∧ ¬ Done map (seen ++ [s])) ∨
    (∃ es', signal es s = .ok (.last es') ∧ Inv map es' (seen ++ [s]) ∧ Done map (seen ++ [s])) ∨
    (signal es s = .error .exit255 ∧ ¬ Legal map (seen ++ [s])) := by
  obtain ⟨r, hr⟩ : ∃ r, r = signal es s := ⟨_, rfl⟩
  rw [← hr]
  unfold signal at hr
  split at hr
  · rename_i hn
    refine .inr (.inr ⟨hr, fun hl => ?_⟩)
    have := hl.last.1
    rw [List.getElem?_eq_none_iff, h.len] at hn
    rw [List.getElem?_eq_none (by omega)] at this
    cases this
  · rename_i e he
    obtain ⟨hn, _⟩ := List.getElem?_eq_some_iff.1 he
    rw [h.len] at hn
    obtain ⟨b, hb⟩ : ∃ b, map[s.node]? = some b := ⟨_, List.getElem?_eq_getElem hn⟩
    have hE := h.ent _ _ _ he hb
    split at hr
    · rename_i hst
      rw [Entry, hst] at hE
      refine .inr (.inr ⟨hr, fun hl => ?_⟩)
      have := hl.last.1
      rw [hb, hE.1] at this; cases this
    · split at hr
      · rename_i hst
        simp only [Entry, hst] at hE
        refine .inr (.inr ⟨hr, fun hl => ?_⟩)
        obtain ⟨-, l2, l3, l4⟩ := hl.last
        obtain ⟨x, hx⟩ := List.exists_mem_of_ne_nil _ hE.2.1
        have := l3 x hx
        have := hE.2.2.2 x hx
        have := List.length_pos_iff.2 hE.2.1
        omega
      · rename_i hst1 hst2
        rw [if_neg (by omega)] at hr
        dsimp only at hr
        obtain ⟨e1, h1⟩ : ∃ e1 : Expect, e1 = if e.status = .notStarted then ⟨.inProgress, s.max, 0, sumTo s.max, 0⟩ else e := ⟨_, rfl⟩
        rw [← h1] at hr
        -- the entry in progress, before the signal
        have hP : b = true ∧ e1.status = .inProgress ∧ (of s.node seen).map (·.id) = List.range' 1 (of s.node seen).length ∧
            (∀ x ∈ of s.node seen, x.max = e1.maxExpected) ∧ e1.maxReceived = (of s.node seen).length ∧ e1.expectSum = sumTo e1.maxExpected ∧
            e1.calcSum = sumTo (of s.node seen).length ∧ (e1.maxExpected = 0 ∨ (of s.node seen).length < e1.maxExpected) ∧
            (of s.node seen).length < U32 ∧ (of s.node seen = [] → e1.maxExpected = s.max) := by
          unfold Entry at hE
          split at hE
          · rename_i q; exact absurd q hst1
          · rename_i q
            rw [if_pos q] at h1
            rw [h1, hE.2]
            refine ⟨hE.1, rfl, rfl, by simp, rfl, rfl, rfl, ?_, by decide, fun _ => rfl⟩
            dsimp only [List.length_nil]; omega
          · rename_i q
            rw [if_neg (by rw [q]; decide)] at h1
            rw [h1]
            exact ⟨hE.1, q, hE.2.2.1, hE.2.2.2.1, hE.2.2.2.2.1, hE.2.2.2.2.2.1, hE.2.2.2.2.2.2.1, hE.2.2.2.2.2.2.2.1, hE.2.2.2.2.2.2.2.2,
              fun e => absurd e hE.2.1⟩
          · rename_i q; exact absurd q hst2
        clear hE h1
        obtain ⟨p1, p2, p3, p4, p5, p6, p7, p8, p9, p10⟩ := hP
        have hmod : (e1.maxReceived + 1) % U64 = (of s.node seen).length + 1 := by
          rw [p5]; simp only [U32, U64] at *; omega
        rw [hmod] at hr
        split at hr
        · rename_i hm
          refine .inr (.inr ⟨hr, fun hl => ?_⟩)
          obtain ⟨-, l2, l3, l4⟩ := hl.last
          by_cases hnil : of s.node seen = []
          · exact hm (p10 hnil).symm
          · obtain ⟨x, hx⟩ := List.exists_mem_of_ne_nil _ hnil
            exact hm (by rw [← l3 x hx, p4 x hx])
        · rename_i hm
          have hm : s.max = e1.maxExpected := Classical.byContradiction hm
          split at hr
          · rename_i hi
            refine .inr (.inr ⟨hr, fun hl => hi hl.last.2.1⟩)
          · rename_i hi
            have hi : s.id = (of s.node seen).length + 1 := Classical.byContradiction hi
            have hids := ids_snoc p3 hi
            have hsum : (e1.calcSum + s.id) % U64 = sumTo (of s.node seen ++ [s]).length := by
              rw [List.length_append, List.length_singleton, p7, hi]; rfl
            have hmx : ∀ x ∈ of s.node seen ++ [s], x.max = e1.maxExpected := by
              intro x hx
              rcases List.mem_append.1 hx with hx | hx
              · exact p4 x hx
              · rw [List.mem_singleton.1 hx]; exact hm
            split at hr
            · rename_i hfin
              have hlen : (of s.node seen ++ [s]).length = e1.maxExpected := by
                rw [List.length_append, List.length_singleton]; omega
              rw [if_neg (by rw [hsum, p6, hlen]; simp)] at hr
              have hI : Inv map (es.set s.node ⟨.completed, e1.maxExpected, s.id, e1.expectSum, (e1.calcSum + s.id) % U64⟩) (seen ++ [s]) := by
                refine h.set hn (fun b' hb' => ?_)
                rw [hb] at hb'; cases hb'
                exact ⟨p1, by simp, hids, fun x hx => by rw [hmx x hx, hlen]⟩
              split at hr
              · rename_i hc
                exact .inr (.inl ⟨_, hr, hI, hI.exit.1 hc⟩)
              · rename_i hc
                exact .inl ⟨_, hr, hI, fun hd => hc (hI.exit.2 hd)⟩
            · rename_i hfin
              have hI : Inv map (es.set s.node ⟨e1.status, e1.maxExpected, s.id, e1.expectSum, (e1.calcSum + s.id) % U64⟩) (seen ++ [s]) := by
                refine h.set hn (fun b' hb' => ?_)
                rw [hb] at hb'; cases hb'
                unfold Entry
                rw [p2]
                refine ⟨p1, by simp, hids, hmx, ?_, p6, hsum, ?_, ?_⟩
                · dsimp only; rw [List.length_append, List.length_singleton]; exact hi
                · dsimp only; rw [List.length_append, List.length_singleton]; omega
                · rw [List.length_append, List.length_singleton]; omega
              refine .inl ⟨_, hr, hI, fun hd => ?_⟩
              have := (hd s.node (by rw [hb, p1])).2 s (by rw [of_snoc, if_pos rfl]; simp)
              rw [of_snoc, if_pos rfl, List.length_append, List.length_singleton] at this
              omega


/-- The subscriber's treatment of a sequence of signals. -/
def judge (es : List Expect) : List Signal → M Res
  | [] => .ok (.more es)
  | s :: xs =>
    match signal es s with
    | .error f => .error f
    | .ok (.more es) => judge es xs
    | .ok r => .ok r

theorem judge_append (es : List Expect) (xs ys : List Signal) : judge es (xs ++ ys) =
    match judge es xs with
    | .error f => .error f
    | .ok (.more es) => judge es ys
    | .ok r => .ok r := by
  induction xs generalizing es with
  | nil => rfl
  | cons s xs ih =>
    rw [List.cons_append, judge, judge]
    cases signal es s with
    | error f => rfl
    | ok r => cases r with
      | more es' => exact ih es'
      | last es' => rfl
      | corrupt => rfl

theorem packet_judge (es : List Expect) (data : List UInt8) (h : 20 ∣ data.length) : packet es data = judge es (signalsIn data) := by
  induction es, data using packet.induct with
  | case1 es => rw [packet, if_pos rfl, signalsIn, if_pos rfl]; rfl
  | case2 es data h1 h2 =>
    have := List.length_pos_iff.2 h1
    omega
  | case3 es data h1 h2 f hf => rw [packet, if_neg h1, if_neg h2, hf, signalsIn, if_neg h1, judge, hf]
  | case4 es data h1 h2 es' hf ih =>
    rw [packet, if_neg h1, if_neg h2, hf, signalsIn, if_neg h1, judge, hf]
    exact ih (by rw [List.length_drop]; unfold SIGNAL_LEN; omega)
  | case5 es data h1 h2 r hr hf =>
    rw [packet, if_neg h1, if_neg h2, hf, signalsIn, if_neg h1, judge, hf]
    cases r with
    | more es' => exact absurd rfl (fun e => hr es' e)
    | last es' => rfl
    | corrupt => rfl

/-- The packets in a row are the signals in a row; as long as the test goes on, all packets are marked dispatched, and with the end of the test one is not. -/
theorem run_judge : ∀ (ps : List (List UInt8)) (es : List Expect), (∀ p ∈ ps, 20 ∣ p.length) →
    match judge es (ps.flatMap signalsIn) with
    | .error f => run es ps = .error f
    | .ok (.more es') => run es ps = .ok (.more es', ps.length)
    | .ok r => ∃ d, run es ps = .ok (r, d) ∧ d < ps.length := by
  intro ps
  induction ps with
  | nil => intro es _; rfl
  | cons p ps ih =>
    intro es h
    have h1 := packet_judge es p (h p (by simp))
    rw [List.flatMap_cons, judge_append, ← h1]
    rw [run]
    cases packet es p with
    | error f => rfl
    | ok r => cases r with
      | more es' =>
        have := ih es' (fun q hq => h q (by simp [hq]))
        dsimp only
        revert this
        cases judge es' (ps.flatMap signalsIn) with
        | error f => intro this; dsimp only at this ⊢; rw [this]
        | ok r => cases r with
          | more es'' => intro this; dsimp only at this ⊢; rw [this]; rfl
          | last es'' => intro this; obtain ⟨d, h1, h2⟩ := this; exact ⟨d + 1, by rw [h1], by simpa using h2⟩
          | corrupt => intro this; obtain ⟨d, h1, h2⟩ := this; exact ⟨d + 1, by rw [h1], by simpa using h2⟩
      | last es' => exact ⟨0, rfl, by simp⟩
      | corrupt => exact ⟨0, rfl, by simp⟩

theorem judge_inv {map : List Bool} : ∀ (xs : List Signal) {es : List Expect} {seen : List Signal}, Inv map es seen →
    (∀ s ∈ xs, s.id < U32 ∧ s.max < INT_MAX) →
    (∃ es', judge es xs = .ok (.more es') ∧ Inv map es' (seen ++ xs) ∧ ∀ j, 0 < j → j ≤ xs.length → ¬ Done map (seen ++ xs.take j)) ∨
    (∃ es' k, judge es xs = .ok (.last es') ∧ 0 < k ∧ k ≤ xs.length ∧ Inv map es' (seen ++ xs.take k) ∧ Done map (seen ++ xs.take k)) ∨
    (∃ k, judge es xs = .error .exit255 ∧ k < xs.length ∧ Legal map (seen ++ xs.take k) ∧ ¬ Legal map (seen ++ xs.take (k + 1)) ∧
      ∀ j, 0 < j → j ≤ k → ¬ Done map (seen ++ xs.take j)) := by
  intro xs
  induction xs with
  | nil =>
    intro es seen h _
    exact .inl ⟨es, rfl, by rw [List.append_nil]; exact h, fun j h1 h2 => by simp at h2; omega⟩
  | cons s xs ih =>
    intro es seen h hx
    have e : ∀ j, seen ++ (s :: xs).take (j + 1) = seen ++ [s] ++ xs.take j := by intro j; rw [List.take_succ_cons]; simp
    rcases signal_inv h (hx s (by simp)).1 (hx s (by simp)).2 with ⟨es1, h1, h2, h3⟩ | ⟨es1, h1, h2, h3⟩ | ⟨h1, h2⟩
    · have hnd : ∀ k, (∀ j, 0 < j → j ≤ k → ¬ Done map (seen ++ [s] ++ xs.take j)) →
          ∀ j, 0 < j → j ≤ k + 1 → ¬ Done map (seen ++ (s :: xs).take j) := by
        intro k hk j j1 j2
        obtain ⟨j, rfl⟩ : ∃ i, j = i + 1 := ⟨j - 1, by omega⟩
        rw [e]
        by_cases hj : j = 0
        · rw [hj, List.take_zero, List.append_nil]; exact h3
        · exact hk j (by omega) (by omega)
      rcases ih h2 (fun s hs => hx s (by simp [hs])) with ⟨es2, k1, k2, k3⟩ | ⟨es2, k, k1, k2, k3, k4, k5⟩ | ⟨k, k1, k2, k3, k4, k5⟩
      · exact .inl ⟨es2, by rw [judge, h1]; exact k1, by simpa using k2, hnd _ k3⟩
      · exact .inr (.inl ⟨es2, k + 1, by rw [judge, h1]; exact k1, by omega, by simpa using k3, by rw [e]; exact k4, by rw [e]; exact k5⟩)
      · exact .inr (.inr ⟨k + 1, by rw [judge, h1]; exact k1, by simpa using k2, by rw [e]; exact k3, by rw [e]; exact k4, hnd _ k5⟩)
    · exact .inr (.inl ⟨es1, 1, by rw [judge, h1], by omega, by simp, by rw [e 0]; simpa using h2, by rw [e 0]; simpa using h3⟩)
    · exact .inr (.inr ⟨0, by rw [judge, h1], by simp, by simpa using h.legal, by rw [e 0]; simpa using h2, fun j _ _ => by omega⟩)

theorem Follows.prefix {xs ys : List Signal} (h : Follows (xs ++ ys)) : Follows xs := by
  obtain ⟨h1, m, h2, h3⟩ := h
  refine ⟨?_, m, fun x hx => h2 x (by simp [hx]), h3.imp id (fun h => by rw [List.length_append] at h; omega)⟩
  rw [List.map_append, List.length_append, ← List.range'_append_1] at h1
  exact List.append_inj_left h1 (by simp)

theorem Legal.prefix {map : List Bool} {xs ys : List Signal} (h : Legal map (xs ++ ys)) : Legal map xs := by
  refine ⟨fun s hs => h.1 s (by simp [hs]), fun n => ?_⟩
  have := h.2 n
  unfold of at this
  rw [List.filter_append] at this
  exact this.prefix

theorem Legal.take {map : List Bool} {xs : List Signal} {j k : Nat} (h : Legal map (xs.take k)) (hj : j ≤ k) : Legal map (xs.take j) := by
  have e : xs.take k = xs.take j ++ (xs.drop j).take (k - j) := by
    have := List.take_add (l := xs) (i := j) (j := k - j)
    rwa [show j + (k - j) = k by omega] at this
  rw [e] at h
  exact h.prefix

theorem leDec_four (xs : List UInt8) : leDec (xs.take 4) < U32 := leDec_take_lt _ 4 _ (by decide)

theorem mem_signalsIn {data : List UInt8} {s : Signal} (h : s ∈ signalsIn data) : s.id < U32 := by
  induction data using signalsIn.induct with
  | case1 => rw [signalsIn, if_pos rfl] at h; cases h
  | case2 data hn ih =>
    rw [signalsIn, if_neg hn] at h
    rcases List.mem_cons.1 h with rfl | h
    · exact leDec_four _
    · exact ih h

/-- C85: the verdict of the self-test, for every sequence of payloads made of whole signals that announce a maximum below the largest `int`. The test goes on
exactly if all signals so far are a correct beginning and at no point they were all there; it ends, successfully, exactly if at some point they were a correct
beginning and all there; and otherwise, at the first signal that does not fit, it raises the alarm: a signal lost, repeated, out of order, of an unexpected
publisher or with another maximum never goes unnoticed, and there is no alarm without one. -/
theorem C85_verdict {map : List Bool} {ps : List (List UInt8)} (hl : ∀ p ∈ ps, 20 ∣ p.length)
    (hm : ∀ s ∈ ps.flatMap signalsIn, s.max < 2147483647) :
    ((∃ es d, run (start map) ps = .ok (.more es, d)) ↔
      Legal map (ps.flatMap signalsIn) ∧ ∀ j, 0 < j → j ≤ (ps.flatMap signalsIn).length → ¬ Done map ((ps.flatMap signalsIn).take j)) ∧
    ((∃ es d, run (start map) ps = .ok (.last es, d)) ↔
      ∃ k, 0 < k ∧ k ≤ (ps.flatMap signalsIn).length ∧ Legal map ((ps.flatMap signalsIn).take k) ∧ Done map ((ps.flatMap signalsIn).take k)) ∧
    (run (start map) ps = .error .exit255 ↔
      ∃ k, k < (ps.flatMap signalsIn).length ∧ ¬ Legal map ((ps.flatMap signalsIn).take (k + 1)) ∧
        ∀ j, 0 < j → j ≤ k → ¬ Done map ((ps.flatMap signalsIn).take j)) ∧
    ∀ d, run (start map) ps ≠ .ok (.corrupt, d) := by
  have hr := run_judge ps (start map) hl
  have hid : ∀ s ∈ ps.flatMap signalsIn, s.id < U32 := by
    intro s hs
    obtain ⟨p, _, h⟩ := List.mem_flatMap.1 hs
    exact mem_signalsIn h
  obtain ⟨xs, hxs⟩ : ∃ xs, xs = ps.flatMap signalsIn := ⟨_, rfl⟩
  rw [← hxs] at hr hm hid ⊢
  have hall : xs.take xs.length = xs := List.take_length
  rcases judge_inv xs (Inv.start map) (fun s hs => ⟨hid s hs, hm s hs⟩) with ⟨es', k1, k2, k3⟩ | ⟨es', k, k1, k2, k3, k4, k5⟩ | ⟨k, k1, k2, k3, k4, k5⟩
  · rw [k1] at hr
    have hr : run (start map) ps = .ok (.more es', ps.length) := hr
    rw [hr]
    simp only [List.nil_append] at k2 k3
    refine ⟨⟨fun _ => ⟨k2.legal, k3⟩, fun _ => ⟨_, _, rfl⟩⟩, ⟨(fun ⟨_, _, h⟩ => by cases h), fun ⟨k, a, b, _, d⟩ => absurd d (k3 k a b)⟩,
      ⟨(fun h => by cases h), fun ⟨k, a, b, _⟩ => absurd (Legal.take (by rw [hall]; exact k2.legal) (by omega)) b⟩, (fun d h => by cases h)⟩
  · rw [k1] at hr
    obtain ⟨d, hr, _⟩ := hr
    rw [hr]
    simp only [List.nil_append] at k4 k5
    refine ⟨⟨(fun ⟨_, _, h⟩ => by cases h), fun ⟨_, h⟩ => absurd k5 (h k k2 k3)⟩, ⟨fun _ => ⟨k, k2, k3, k4.legal, k5⟩, fun _ => ⟨_, _, rfl⟩⟩,
      ⟨(fun h => by cases h), fun ⟨j, a, b, c⟩ => ?_⟩, (fun d h => by cases h)⟩
    by_cases hj : k ≤ j
    · exact absurd k5 (c k k2 hj)
    · exact absurd (k4.legal.take (by omega)) b
  · rw [k1] at hr
    have hr : run (start map) ps = .error .exit255 := hr
    rw [hr]
    simp only [List.nil_append] at k3 k4 k5
    refine ⟨⟨(fun ⟨_, _, h⟩ => by cases h), fun ⟨h, _⟩ => ?_⟩, ⟨(fun ⟨_, _, h⟩ => by cases h), fun ⟨j, a, b, c, d⟩ => ?_⟩,
      ⟨fun _ => ⟨k, k2, k4, k5⟩, fun _ => rfl⟩, (fun d h => by cases h)⟩
    · exact absurd (Legal.take (by rw [hall]; exact h) (by omega)) k4
    · by_cases hj : j ≤ k
      · exact absurd d (k5 j a hj)
      · exact absurd (c.take (by omega)) k4

/-- `signal` does not look at the filler. -/
theorem signal_filler (es : List Expect) (s t : Signal) (h1 : s.node = t.node) (h2 : s.id = t.id) (h3 : s.max = t.max) : signal es s = signal es t := by
  unfold signal
  rw [h1, h2, h3]

/-- C85 for a payload that is not made of whole signals: its last bytes are judged like the signal of which they are the beginning if there are at least
twelve of them, and otherwise memory beyond the payload is read. -/
theorem C85_ragged (es : List Expect) (bs : List UInt8) (h0 : 0 < bs.length) (h1 : bs.length < 20) :
    (bs.length < 12 → packet es bs = .error .oob) ∧
    (12 ≤ bs.length → packet es bs = packet es (bs ++ List.replicate (20 - bs.length) 0)) := by
  have hn : bs ≠ [] := List.length_pos_iff.1 h0
  constructor
  · intro h
    rw [packet, if_neg hn, if_pos h]
  · intro h
    have e : signal es (Signal.dec bs) = signal es (Signal.dec (bs ++ List.replicate (20 - bs.length) 0)) := by
      refine signal_filler _ _ _ ?_ ?_ ?_
      · show leDec (bs.take 4) = leDec ((bs ++ _).take 4)
        rw [List.take_append_of_le_length (by omega)]
      · show leDec ((bs.drop 4).take 4) = leDec (((bs ++ _).drop 4).take 4)
        rw [List.drop_append_of_le_length (by omega), List.take_append_of_le_length (by rw [List.length_drop]; omega)]
      · show leDec ((bs.drop 8).take 4) = leDec (((bs ++ _).drop 8).take 4)
        rw [List.drop_append_of_le_length (by omega), List.take_append_of_le_length (by rw [List.length_drop]; omega)]
    have hl : (bs ++ List.replicate (20 - bs.length) (0 : UInt8)).length = 20 := by simp; omega
    have hn' : bs ++ List.replicate (20 - bs.length) (0 : UInt8) ≠ [] := by
      intro e; rw [e] at hl; cases hl
    rw [packet, if_neg hn, if_neg (by omega)]
    conv => rhs; rw [packet, if_neg hn', if_neg (by omega)]
    rw [e]
    rw [show bs.drop SIGNAL_LEN = [] from List.drop_eq_nil_of_le (by show bs.length ≤ 20; omega),
      show (bs ++ List.replicate (20 - bs.length) (0 : UInt8)).drop SIGNAL_LEN = [] from List.drop_eq_nil_of_le (by rw [hl]; exact Nat.le_refl _)]

/-- C85: every packet whose signals have been judged is marked dispatched, except the one that ends the test. -/
theorem C85_dispatched {map : List Bool} {ps : List (List UInt8)} (hl : ∀ p ∈ ps, 20 ∣ p.length) {r : Res} {d : Nat}
    (h : run (start map) ps = .ok (r, d)) : (∃ es, r = .more es ∧ d = ps.length) ∨ ((∀ es, r ≠ .more es) ∧ d < ps.length) := by
  have hr := run_judge ps (start map) hl
  revert hr
  cases judge (start map) (ps.flatMap signalsIn) with
  | error f => intro hr; dsimp only at hr; rw [hr] at h; cases h
  | ok q => cases q with
    | more es => intro hr; dsimp only at hr; rw [hr] at h; cases h; exact .inl ⟨_, rfl, rfl⟩
    | last es => intro hr; obtain ⟨d', hr, h2⟩ := hr; rw [hr] at h; cases h; exact .inr ⟨fun _ => (by simp), h2⟩
    | corrupt => intro hr; obtain ⟨d', hr, h2⟩ := hr; rw [hr] at h; cases h; exact .inr ⟨fun _ => (by simp), h2⟩

/-! ## The publisher's packets -/

theorem length_enc (s : Signal) : s.enc.length = 20 := by simp [Signal.enc]

theorem dec_enc {s : Signal} (h1 : s.node < U32) (h2 : s.id < U32) (h3 : s.max < U32) (h4 : s.filler < U64) (rest : List UInt8) :
    Signal.dec (s.enc ++ rest) = s := by
  have e1 : (s.enc ++ rest).take 4 = leEnc 4 s.node := by
    simp only [Signal.enc, List.append_assoc]; exact take_of_len (length_leEnc 4 _)
  have d4 : (s.enc ++ rest).drop 4 = leEnc 4 s.id ++ (leEnc 4 s.max ++ (leEnc 8 s.filler ++ rest)) := by
    simp only [Signal.enc, List.append_assoc]; exact drop_of_len (length_leEnc 4 _)
  have d8 : (s.enc ++ rest).drop 8 = leEnc 4 s.max ++ (leEnc 8 s.filler ++ rest) := by
    rw [show 8 = 4 + 4 from rfl, ← List.drop_drop, d4]; exact drop_of_len (length_leEnc 4 _)
  have d12 : (s.enc ++ rest).drop 12 = leEnc 8 s.filler ++ rest := by
    rw [show 12 = 8 + 4 from rfl, ← List.drop_drop, d8]; exact drop_of_len (length_leEnc 4 _)
  unfold Signal.dec
  rw [e1, d4, d8, d12, take_of_len (length_leEnc 4 _), take_of_len (length_leEnc 4 _), take_of_len (length_leEnc 8 _),
    leDec_leEnc 4 _ (by simpa using h1), leDec_leEnc 4 _ (by simpa using h2), leDec_leEnc 4 _ (by simpa using h3), leDec_leEnc 8 _ (by simpa using h4)]

/-- The signal number `i` of a publisher that sends `count`. -/
def sig (node count i : Nat) : Signal := ⟨node, i, count, 0⟩

theorem signalsIn_encs {node count : Nat} (h1 : node < U32) (h2 : count < U32) : ∀ (is : List Nat), (∀ i ∈ is, i < U32) →
    signalsIn (is.flatMap (fun i => (sig node count i).enc)) = is.map (sig node count) := by
  intro is
  induction is with
  | nil => intro _; rw [List.flatMap_nil, signalsIn, if_pos rfl]; rfl
  | cons i is ih =>
    intro h
    rw [List.flatMap_cons, signalsIn, if_neg, dec_enc h1 (h i (by simp)) h2 (show 0 < U64 by decide), drop_of_len (length_enc _), ih (fun j hj => h j (by simp [hj]))]
    · rfl
    · intro e
      have := congrArg List.length e
      rw [List.length_append, length_enc] at this
      simp at this

/-- The inner loop: as many signals as there are left, or fit. -/
theorem fill_spec (node count : Nat) (payload : List UInt8) (ind : Nat) : ∃ k, k = min (count + 1 - ind) ((RMC_MAX_PAYLOAD - payload.length) / 20) ∧
    fill node count payload ind = (payload ++ (List.range' ind k).flatMap (fun i => (sig node count i).enc), ind + k) := by
  induction payload, ind using fill.induct node count with
  | case1 p i h ih =>
    obtain ⟨k, h1, h2⟩ := ih
    rw [List.length_append, length_enc] at h1
    unfold SIGNAL_LEN at h
    refine ⟨k + 1, by omega, ?_⟩
    rw [fill, if_pos (by unfold SIGNAL_LEN; exact h), h2, List.range'_succ, List.flatMap_cons, List.append_assoc, show i + 1 + k = i + (k + 1) by omega]
    rfl
  | case2 p i h =>
    unfold SIGNAL_LEN at h
    refine ⟨0, by omega, ?_⟩
    rw [fill, if_neg (by unfold SIGNAL_LEN; exact h)]
    simp

theorem payloads_cons {node count ind : Nat} (h : ind ≤ count) :
    payloads node count ind = (List.range' ind (min (count + 1 - ind) 3265)).flatMap (fun i => (sig node count i).enc) ::
      payloads node count (ind + min (count + 1 - ind) 3265) := by
  obtain ⟨k, h1, h2⟩ := fill_spec node count [] ind
  have e : (RMC_MAX_PAYLOAD - ([] : List UInt8).length) / 20 = 3265 := by decide
  rw [e] at h1
  rw [payloads, dif_pos h, h2, ← h1]
  rfl

theorem payloads_nil {node count ind : Nat} (h : ¬ ind ≤ count) : payloads node count ind = [] := by rw [payloads, dif_neg h]

theorem length_encs (node count : Nat) (is : List Nat) : (is.flatMap (fun i => (sig node count i).enc)).length = 20 * is.length := by
  induction is with
  | nil => rfl
  | cons i is ih => rw [List.flatMap_cons, List.length_append, length_enc, ih, List.length_cons]; omega

/-- C86: the packets of the test publisher: signals one to `count`, in order and each once, whole ones in every packet, each packet full but for the last,
none larger than the library takes. -/
theorem C86_packets {node count : Nat} (hn : node < 4294967296) (hc : count < 4294967296) :
    (payloads node count 1).flatMap signalsIn = (List.range' 1 count).map (fun i => ⟨node, i, count, 0⟩) ∧
    (∀ p ∈ payloads node count 1, 20 ∣ p.length ∧ 0 < p.length ∧ p.length ≤ RMC_MAX_PAYLOAD) ∧
    (payloads node count 1).length = (count + 3264) / 3265 := by
  have key : ∀ n ind, count + 1 - ind = n → 0 < ind →
      (payloads node count ind).flatMap signalsIn = (List.range' ind n).map (sig node count) ∧
      (∀ p ∈ payloads node count ind, 20 ∣ p.length ∧ 0 < p.length ∧ p.length ≤ RMC_MAX_PAYLOAD) ∧
      (payloads node count ind).length = (n + 3264) / 3265 := by
    intro n
    induction n using Nat.strongRecOn with
    | ind n ih =>
      intro ind hi h0
      by_cases h : ind ≤ count
      · rw [payloads_cons h, hi]
        obtain ⟨k, hk⟩ : ∃ k, k = min n 3265 := ⟨_, rfl⟩
        rw [← hk]
        obtain ⟨a, b, c⟩ := ih (n - k) (by omega) (ind + k) (by omega) (by omega)
        refine ⟨?_, ?_, ?_⟩
        · rw [List.flatMap_cons, a, signalsIn_encs hn hc _ (fun i hi => by rw [List.mem_range'_1] at hi; simp only [U32]; omega), ← List.map_append]
          congr 1
          rw [List.range'_append_1]
          congr 1; omega
        · intro p hp
          rcases List.mem_cons.1 hp with rfl | hp
          · rw [length_encs, List.length_range']
            refine ⟨⟨k, rfl⟩, by omega, ?_⟩
            unfold RMC_MAX_PAYLOAD; omega
          · exact b p hp
        · rw [List.length_cons, c]; omega
      · rw [payloads_nil h]
        have : n = 0 := by omega
        rw [this]
        simp
  have := key count 1 (by omega) (by omega)
  exact this

theorem signalsIn_ne {data : List UInt8} (h : 0 < data.length) : signalsIn data ≠ [] := by
  rw [signalsIn, if_neg (List.length_pos_iff.1 h)]; simp

theorem of_all {node : Nat} {xs : List Signal} (h : ∀ s ∈ xs, s.node = node) (n : Nat) : of n xs = if n = node then xs else [] := by
  unfold of
  split
  · rename_i e
    rw [List.filter_eq_self]; intro s hs; rw [h s hs, e]; simp
  · rename_i e
    rw [List.filter_eq_nil_iff]; intro s hs; rw [h s hs]; simpa using fun e' => e e'.symm

/-- All the signals of a publisher. -/
theorem legal_all {map : List Bool} {node count : Nat} (hm : map[node]? = some true) : Legal map ((List.range' 1 count).map (sig node count)) := by
  have hn : ∀ s ∈ (List.range' 1 count).map (sig node count), s.node = node := by
    intro s hs; obtain ⟨i, _, rfl⟩ := List.mem_map.1 hs; rfl
  refine ⟨fun s hs => by rw [hn s hs]; exact hm, fun n => ?_⟩
  rw [of_all hn]
  split
  · refine ⟨?_, count, fun x hx => ?_, .inr (by simp)⟩
    · rw [List.map_map, List.length_map, List.length_range']
      exact (List.map_congr_left (fun _ _ => rfl)).trans (List.map_id _)
    · obtain ⟨i, _, rfl⟩ := List.mem_map.1 hx; rfl
  · exact ⟨rfl, 0, by simp, .inl rfl⟩

/-- C86: the self-test and the library together: the test publisher has queued a part of its packets, in order. If the first packet delivered is the first one
queued, there is no alarm, and with no other publisher expected the test ends successfully exactly when all packets have been delivered. If the first packet
delivered is another one, the alarm is raised. -/
theorem C86_end_to_end {E : Env} {s : Sys} (h : Sys.Reached E s) (hu : SubCtx.Up s.sub E.slot) {node count : Nat} (hn : node < 4294967296)
    (hc : 0 < count) (hm : count < 2147483647) (hq : (queuedPkts s.pub.pub.log).map (·.2.data) <+: payloads node count 1)
    {map : List Bool} (hmap : map[node]? = some true) {ps : List (List UInt8)}
    (hps : ps = (SubCtx.deliveredAt E.slot s.sub.log).map (·.payload.data)) :
    (((SubCtx.deliveredAt E.slot s.sub.log).head?.all (fun x => decide (x.pid = 1))) = true →
      ∃ es d, run (start map) ps = .ok (.more es, d) ∨ run (start map) ps = .ok (.last es, d)) ∧
    (((SubCtx.deliveredAt E.slot s.sub.log).head?.all (fun x => decide (x.pid = 1))) = false → run (start map) ps = .error .exit255) ∧
    ((∀ n, map[n]? = some true → n = node) → ((∃ es d, run (start map) ps = .ok (.last es, d)) ↔ ps = payloads node count 1)) := by
  obtain ⟨b, h1, h2⟩ := Sys.C49_end_to_end h hu
  obtain ⟨n, hi, _⟩ := h.inv
  obtain ⟨ops, g1, _, _⟩ := hi.pub
  rw [Sys.queued_ids g1] at h2
  rw [← hps] at h1
  obtain ⟨L, hL⟩ : ∃ L, L = (SubCtx.deliveredAt E.slot s.sub.log).length := ⟨_, rfl⟩
  rw [← hL] at h1 h2
  have hlen : ps.length = L := by rw [hps, List.length_map, hL]
  obtain ⟨a1, a2, a3⟩ := C86_packets (node := node) (count := count) hn (by omega)
  obtain ⟨tail, ht⟩ := hq
  -- the payloads: some not delivered, those delivered, the others
  have hcut : ∃ pre post, payloads node count 1 = pre ++ ps ++ post ∧ (ps ≠ [] → pre.length = b) := by
    obtain ⟨Q, hQ⟩ : ∃ Q, Q = (queuedPkts s.pub.pub.log).map (·.2.data) := ⟨_, rfl⟩
    rw [← hQ] at h1 ht
    refine ⟨Q.take b, (Q.drop b).drop L ++ tail, ?_, fun hne => ?_⟩
    · have e1 : Q.drop b = ps ++ (Q.drop b).drop L := by
        have := List.take_append_drop L (Q.drop b)
        rw [← h1] at this; exact this.symm
      have e2 := List.take_append_drop b Q
      rw [← ht]
      rw [e1] at e2
      calc Q ++ tail = Q.take b ++ (ps ++ (Q.drop b).drop L) ++ tail := by rw [e2]
        _ = _ := by simp only [List.append_assoc]
    · rw [List.length_take]
      have : 0 < ps.length := List.length_pos_iff.2 hne
      rw [h1, List.length_take, List.length_drop] at this
      omega
  obtain ⟨pre, post, hcut, hpre⟩ := hcut
  have hdiv : ∀ p ∈ ps, 20 ∣ p.length := fun p hp => (a2 p (by rw [hcut]; simp [hp])).1
  have hsig : pre.flatMap signalsIn ++ (ps.flatMap signalsIn ++ post.flatMap signalsIn) = (List.range' 1 count).map (sig node count) := by
    rw [hcut, List.flatMap_append, List.flatMap_append, List.append_assoc] at a1
    exact a1
  have hmem : ∀ x ∈ ps.flatMap signalsIn, x.node = node ∧ x.max = count := by
    intro x hx
    have : x ∈ (List.range' 1 count).map (sig node count) := by rw [← hsig]; simp only [List.mem_append]; exact .inr (.inl hx)
    obtain ⟨i, _, rfl⟩ := List.mem_map.1 this
    exact ⟨rfl, rfl⟩
  obtain ⟨v1, v2, v3, v4⟩ := C85_verdict (map := map) hdiv (fun x hx => by rw [(hmem x hx).2]; exact hm)
  have hpos : ∀ q ∈ payloads node count 1, signalsIn q ≠ [] := fun q hq => signalsIn_ne (a2 q hq).2.1
  have hne_of : ∀ qs : List (List UInt8), (∀ q ∈ qs, q ∈ payloads node count 1) → qs ≠ [] → qs.flatMap signalsIn ≠ [] := by
    intro qs hqs hne e
    obtain ⟨q, hq⟩ := List.exists_mem_of_ne_nil _ hne
    rw [List.flatMap_eq_nil_iff] at e
    exact hpos q (hqs q hq) (e q hq)
  -- the first packet
  have hhead : ps ≠ [] → ((SubCtx.deliveredAt E.slot s.sub.log).head?.all (fun x => decide (x.pid = 1)) = true ↔ b = 0) := by
    intro hne
    have hd : ((SubCtx.deliveredAt E.slot s.sub.log).head?).map (·.pid) = some (b + 1) := by
      rw [← List.head?_map, h2, List.head?_take, if_neg (by have := List.length_pos_iff.2 hne; omega), List.head?_drop, List.getElem?_range']
      · simp; omega
      · have : 0 < ps.length := List.length_pos_iff.2 hne
        rw [h1, List.length_take, List.length_drop, List.length_map] at this
        omega
    cases hx : (SubCtx.deliveredAt E.slot s.sub.log).head? with
    | none => rw [hx] at hd; cases hd
    | some x =>
      rw [hx] at hd
      have hd : x.pid = b + 1 := Option.some.inj hd
      simp only [Option.all_some, decide_eq_true_eq]
      omega
  have halarm : ps ≠ [] → b ≠ 0 → run (start map) ps = .error .exit255 := by
    intro hne hb
    have hx := hne_of ps (fun q hq => by rw [hcut]; simp [hq]) hne
    have hy := hne_of pre (fun q hq => by rw [hcut]; simp [hq]) (fun e => hb (by rw [← hpre hne, e]; rfl))
    rw [v3]
    refine ⟨0, List.length_pos_iff.2 hx, fun hl => ?_, fun j _ _ => by omega⟩
    obtain ⟨x, xs, hxs⟩ := List.exists_cons_of_ne_nil hx
    rw [hxs] at hl hsig
    have hl : Legal map ([] ++ [x]) := hl
    have hid := hl.last.2.1
    have := congrArg (fun l => l[(pre.flatMap signalsIn).length]?) hsig
    simp only [List.getElem?_append_right (Nat.le_refl _), Nat.sub_self, List.cons_append, List.getElem?_cons_zero, List.getElem?_map] at this
    cases hg : (List.range' 1 count)[(pre.flatMap signalsIn).length]? with
    | none => rw [hg] at this; cases this
    | some i =>
      rw [hg] at this
      have this := Option.some.inj this
      obtain ⟨hi1, hi2⟩ := List.getElem?_eq_some_iff.1 hg
      rw [List.getElem_range'] at hi2
      rw [this] at hid
      have hid : i = 0 + 1 := hid
      have := List.length_pos_iff.2 hy
      omega
  have hlegal : ps = [] ∨ b = 0 → Legal map (ps.flatMap signalsIn) := by
    intro hb
    rcases hb with rfl | hb
    · exact ⟨fun s hs => (by cases hs), fun n => ⟨rfl, 0, by simp [of], .inl rfl⟩⟩
    · by_cases hne : ps = []
      · rw [hne]; exact ⟨fun s hs => (by cases hs), fun n => ⟨rfl, 0, by simp [of], .inl rfl⟩⟩
      · have e : pre = [] := List.length_eq_zero_iff.1 (by rw [hpre hne, hb])
        rw [e] at hsig
        have hl := legal_all (map := map) (node := node) (count := count) hmap
        rw [← hsig] at hl
        exact Legal.prefix (ys := post.flatMap signalsIn) hl
  have hgood : ps = [] ∨ b = 0 → ∃ es d, run (start map) ps = .ok (.more es, d) ∨ run (start map) ps = .ok (.last es, d) := by
    intro hb
    have hl := hlegal hb
    by_cases hk : ∃ k, 0 < k ∧ k ≤ (ps.flatMap signalsIn).length ∧ Done map ((ps.flatMap signalsIn).take k)
    · obtain ⟨k, k1, k2, k3⟩ := hk
      obtain ⟨es, d, e⟩ := v2.2 ⟨k, k1, k2, Legal.take (k := (ps.flatMap signalsIn).length) (by rw [List.take_length]; exact hl) k2, k3⟩
      exact ⟨es, d, .inr e⟩
    · obtain ⟨es, d, e⟩ := v1.2 ⟨hl, fun j j1 j2 hd => hk ⟨j, j1, j2, hd⟩⟩
      exact ⟨es, d, .inl e⟩
  refine ⟨fun hf => ?_, fun hf => ?_, fun honly => ⟨fun hlast => ?_, fun hall => ?_⟩⟩
  · by_cases hne : ps = []
    · exact hgood (.inl hne)
    · exact hgood (.inr ((hhead hne).1 hf))
  · by_cases hne : ps = []
    · have : SubCtx.deliveredAt E.slot s.sub.log = [] := List.map_eq_nil_iff.1 (hps.symm.trans hne)
      rw [this] at hf; cases hf
    · exact halarm hne (fun hb => by rw [(hhead hne).2 hb] at hf; cases hf)
  · obtain ⟨k, k1, k2, k3, k4⟩ := v2.1 hlast
    by_cases hb : ps = [] ∨ b = 0
    · obtain ⟨d1, d2⟩ := k4 node hmap
      have hof : of node ((ps.flatMap signalsIn).take k) = (ps.flatMap signalsIn).take k := by
        rw [of_all (node := node) (fun s hs => (hmem s (List.mem_of_mem_take hs)).1), if_pos rfl]
      rw [hof] at d1 d2
      obtain ⟨x, hx⟩ := List.exists_mem_of_ne_nil _ d1
      have hk := d2 x hx
      rw [(hmem x (List.mem_of_mem_take hx)).2, List.length_take] at hk
      have htot := congrArg List.length hsig
      simp only [List.length_append, List.length_map, List.length_range'] at htot
      have hpn : pre = [] := Classical.byContradiction (fun hne => by
        have := List.length_pos_iff.2 (hne_of pre (fun q hq => by rw [hcut]; simp [hq]) hne); omega)
      have hqn : post = [] := Classical.byContradiction (fun hne => by
        have := List.length_pos_iff.2 (hne_of post (fun q hq => by rw [hcut]; simp [hq]) hne); omega)
      rw [hcut, hpn, hqn]; simp
    · obtain ⟨es, d, e⟩ := hlast
      rw [halarm (fun e => hb (.inl e)) (fun e => hb (.inr e))] at e
      cases e
  · rw [hall] at v2 ⊢
    rw [a1] at v2
    refine v2.2 ⟨count, hc, by simp, ?_⟩
    have e : ((List.range' 1 count).map (fun i => Signal.mk node i count 0)).take count = (List.range' 1 count).map (sig node count) := by
      rw [List.take_of_length_le (by simp)]; rfl
    rw [e]
    refine ⟨legal_all hmap, fun n hn' => ?_⟩
    have hnode : ∀ s ∈ (List.range' 1 count).map (sig node count), s.node = node := by
      intro s hs; obtain ⟨i, _, rfl⟩ := List.mem_map.1 hs; rfl
    rw [honly n hn', of_all hnode, if_pos rfl]
    refine ⟨fun e => ?_, fun x hx => ?_⟩
    · have := congrArg List.length e
      simp at this; omega
    · obtain ⟨i, _, rfl⟩ := List.mem_map.1 hx
      simp [sig]


/-- Non-vacuity of C85: publisher 1 sends three signals. -/
def exSig (i : Nat) : List UInt8 := (sig 1 3 i).enc

/-- All three come in, in two packets: the test ends, the second packet is not marked dispatched. -/
example : (∀ p ∈ [exSig 1 ++ exSig 2, exSig 3], 20 ∣ p.length) ∧ decide (∀ s ∈ [exSig 1 ++ exSig 2, exSig 3].flatMap signalsIn, s.max < 2147483647) = true ∧
    decide (run (start [false, true]) [exSig 1 ++ exSig 2, exSig 3] =
      .ok (.last [⟨.inactive, 0, 0, 0, 0⟩, ⟨.completed, 3, 3, 6, 6⟩], 1)) = true := by decide +kernel

/-- Two of them; one lost; one repeated; of another publisher; another maximum; after the end, with another publisher expected. -/
example : decide (run (start [false, true]) [exSig 1, exSig 2] = .ok (.more [⟨.inactive, 0, 0, 0, 0⟩, ⟨.inProgress, 3, 2, 6, 3⟩], 2) ∧
    run (start [false, true]) [exSig 1, exSig 3] = .error .exit255 ∧
    run (start [false, true]) [exSig 1, exSig 1] = .error .exit255 ∧
    run (start [true, false]) [exSig 1] = .error .exit255 ∧
    run (start [true]) [exSig 1] = .error .exit255 ∧
    run (start [false, true]) [exSig 1, (sig 1 2 2).enc] = .error .exit255 ∧
    run (start [true, true]) [exSig 1, exSig 2 ++ exSig 3, exSig 4] = .error .exit255) = true := by decide +kernel

/-- What the hypotheses of C85_verdict exclude: a maximum of the largest `int` or more, where the index of a loop overflows; and a payload with a part of a
signal at its end, of which bytes after the end of the payload are read. -/
theorem C85_large : run (start [false, true]) [(sig 1 2147483647 1).enc] = .error .overflow ∧
    run (start [false, true]) [exSig 1 ++ [1, 0, 0, 0]] = .error .oob := by
  have : decide (run (start [false, true]) [(sig 1 2147483647 1).enc] = .error .overflow ∧
    run (start [false, true]) [exSig 1 ++ [1, 0, 0, 0]] = .error .oob) = true := by decide +kernel
  exact of_decide_eq_true this

/-- With more signals than fit into 32 bits the test publisher announces a maximum that is too small: with 2^32 signals, zero. -/
theorem C86_large : ∀ k, Signal.dec (sig 1 (4294967296 + k) 1).enc = Signal.dec (sig 1 k 1).enc := by
  intro k
  have h4 : leEnc 4 (4294967296 + k) = leEnc 4 k := by
    have e : ∀ n v w, leEnc n (v + 256 ^ n * w) = leEnc n v := by
      intro n
      induction n with
      | zero => intro v w; rfl
      | succ n ih =>
        intro v w
        have e1 : (v + 256 ^ (n + 1) * w) / 256 = v / 256 + 256 ^ n * w := by
          rw [Nat.pow_succ, Nat.mul_comm (256 ^ n) 256, Nat.mul_assoc, Nat.add_mul_div_left _ _ (by decide)]
        have e2 : (v + 256 ^ (n + 1) * w) % 256 = v % 256 := by
          rw [Nat.pow_succ, Nat.mul_comm (256 ^ n) 256, Nat.mul_assoc, Nat.add_mul_mod_self_left]
        simp only [leEnc, e1, ih]
        congr 1
        apply UInt8.toNat_inj.1
        simp [e2]
    have := e 4 k 1
    rwa [Nat.add_comm] at this
  simp only [sig, Signal.enc, h4]

/-- Non-vacuity of C86: the only packet of a test with one signal is queued, multicast and delivered: the test ends successfully. -/
def exSelf : List SysOp :=
  [.sub (.write 0 (.ok 0) none (.ok 0)), .accept 0 (.ok 5 1) none, .pub (.queue ⟨1, (sig 1 1 1).enc, false⟩ false), .pub (.writeMcast [⟨.ok 10, []⟩]),
   .sub (.readMcast [Sys.exMc 1 (sig 1 1 1).enc 1000])]

example : ∃ s, Sys.Reached Sys.exE s ∧ decide (SubCtx.Up s.sub 0 ∧ (queuedPkts s.pub.pub.log).map (·.2.data) = payloads 1 1 1 ∧
    (SubCtx.deliveredAt 0 s.sub.log).map (·.pid) = [1] ∧ (SubCtx.deliveredAt 0 s.sub.log).map (·.payload.data) = payloads 1 1 1) = true :=
  Sys.reached_of (ops := exSelf) (P := fun s => decide _) (by decide) (by decide +kernel)

/-- The two packets of a test with 3266 signals. -/
def exFull : List UInt8 := (List.range' 1 3265).flatMap (fun i => (sig 1 3266 i).enc)
def exRest : List UInt8 := (sig 1 3266 3266).enc

theorem exFull_payloads : payloads 1 3266 1 = [exFull, exRest] := by
  rw [payloads_cons (by decide), payloads_cons (by decide), payloads_nil (by decide)]
  rfl

/-- The first packet, written so that it is computed quickly. -/
def exEncs : Nat → Nat → List UInt8
  | 0, _ => []
  | n + 1, i => 1 :: 0 :: 0 :: 0 :: UInt8.ofNat (i % 256) :: UInt8.ofNat (i / 256 % 256) :: 0 :: 0 :: 194 :: 12 :: 0 :: 0 :: 0 :: 0 :: 0 :: 0 :: 0 :: 0 :: 0 :: 0 ::
      exEncs n (i + 1)

theorem exEncs_eq (n i : Nat) (h : i + n < 65536) : exEncs n i = (List.range' i n).flatMap (fun i => (sig 1 3266 i).enc) := by
  induction n generalizing i with
  | zero => rfl
  | succ n ih =>
    have h1 : i / 256 / 256 = 0 := by omega
    have e : (sig 1 3266 i).enc = [1, 0, 0, 0, UInt8.ofNat (i % 256), UInt8.ofNat (i / 256 % 256), 0, 0, 194, 12, 0, 0, 0, 0, 0, 0, 0, 0, 0, 0] := by
      have h0 : leEnc 4 i = [UInt8.ofNat (i % 256), UInt8.ofNat (i / 256 % 256), 0, 0] := by simp [leEnc, h1]
      simp only [Signal.enc, sig, h0]
      rfl
    rw [exEncs, ih (i + 1) (by omega), List.range'_succ, List.flatMap_cons, e]
    rfl

/-- Comparison of lists of bytes from left to right. -/
def same : List UInt8 → List UInt8 → Bool
  | [], [] => true
  | a :: as, b :: bs => match decide (a = b) with
    | true => same as bs
    | false => false
  | _, _ => false

theorem same_eq {as bs : List UInt8} (h : same as bs = true) : as = bs := by
  induction as generalizing bs with
  | nil => cases bs with
    | nil => rfl
    | cons b bs => cases h
  | cons a as ih => cases bs with
    | nil => cases h
    | cons b bs =>
      rw [same] at h
      split at h
      · rename_i e; rw [of_decide_eq_true e, ih h]
      · cases h

/-- The subscriber is connected and accepted before the first packet is queued; the first packet is lost by the multicast network, the second one comes in. -/
def exSelfLost : List SysOp :=
  [.sub (.write 0 (.ok 0) none (.ok 0)), .accept 0 (.ok 5 1) none, .pub (.queue ⟨1, exEncs 3265 1, false⟩ false), .pub (.queue ⟨2, exRest, false⟩ false),
   .pub (.writeMcast [⟨.ok 10, []⟩, ⟨.ok 20, []⟩]), .sub (.readMcast [Sys.exMc 2 exRest 1000])]

def samePair : List (List UInt8) → List UInt8 → List UInt8 → Bool
  | [x, y], a, b => match same x a with
    | true => same y b
    | false => false
  | _, _, _ => false

theorem samePair_eq {l : List (List UInt8)} {a b : List UInt8} (h : samePair l a b = true) : l = [a, b] := by
  unfold samePair at h
  split at h
  · split at h
    · rename_i e; rw [same_eq e, same_eq h]
    · cases h
  · cases h

/-- C86: so the self-test is not always passed: with the subscriber connected before the first packet is queued, the loss of that one datagram makes the test
raise the alarm, although the publisher still holds the packet and would send it again. -/
theorem C86_false : ∃ s, Sys.Reached Sys.exE s ∧ SubCtx.Up s.sub 0 ∧ s.err = false ∧ PubCtx.sentTo 0 s.pub.pub.log = [1, 2] ∧
    s.pub.pub.outstanding 0 = [1, 2] ∧ (queuedPkts s.pub.pub.log).map (·.2.data) = payloads 1 3266 1 ∧
    run (start [false, true]) ((SubCtx.deliveredAt 0 s.sub.log).map (·.payload.data)) = .error .exit255 := by
  obtain ⟨s, h, h2⟩ := Sys.reached_of (ops := exSelfLost) (P := fun s => decide (SubCtx.Up s.sub 0 ∧ s.err = false ∧ PubCtx.sentTo 0 s.pub.pub.log = [1, 2] ∧
    s.pub.pub.outstanding 0 = [1, 2] ∧ run (start [false, true]) ((SubCtx.deliveredAt 0 s.sub.log).map (fun x => x.payload.data)) = .error .exit255 ∧
    samePair ((queuedPkts s.pub.pub.log).map (fun x => x.2.data)) (exEncs 3265 1) exRest = true)) (by decide) (by decide +kernel)
  obtain ⟨a, b, c, d, f, e⟩ := of_decide_eq_true h2
  refine ⟨s, h, a, b, c, d, ?_, f⟩
  rw [samePair_eq e, exFull_payloads, exEncs_eq 3265 1 (by decide)]
  rfl

end Selftest
end Rmc
