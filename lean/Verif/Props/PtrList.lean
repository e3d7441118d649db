import Verif.PtrListLemmas

/-!
# C08, C09: intrusive lists

Specification side: an abstract state `Abs` is just a finite sequence of (address, data) for every
list, plus the nodes that are allocated but on no list. `AStep` says, in terms of sequences only,
what each operation of the list API is documented to do. The theorems say that the pointer
implementation does exactly this, for every history.
-/

set_option linter.unusedSimpArgs false
set_option linter.unusedVariables false

namespace Rmc
namespace PtrList

variable {α : Type}

/-! ## Specification -/

/-- What a client sees: the sequence held by each list, and the detached nodes. -/
structure Abs (α : Type) where
  lists : Nat → List (Nat × α)
  det : Nat → Option α

namespace Abs
/-- Replace the sequence of list `l`. -/
def setL (A : Abs α) (l : Nat) (xs : List (Nat × α)) : Abs α :=
  { A with lists := fun k => if k = l then xs else A.lists k }
/-- Replace the detached status of node `p`. -/
def setD (A : Abs α) (p : Nat) (d : Option α) : Abs α :=
  { A with det := fun q => if q = p then d else A.det q }
/-- An address malloc may return: not in use. -/
def Fresh (A : Abs α) (a : Nat) : Prop := A.det a = none ∧ ∀ l, a ∉ (A.lists l).map Prod.fst
end Abs

/-- The heap represents the abstract state: every list is well linked (forward links from the head,
backward links from the tail, owner pointers and count all agree with the sequence), detached
nodes are allocated, and nothing else is allocated. -/
structure Refines (s : Heap α) (A : Abs α) : Prop where
  reps : ∀ l, Rep s l (A.lists l)
  det : ∀ p d, A.det p = some d → Detached s p d
  all : ∀ p n, s.node p = some n → (A.det p).isSome ∨ ∃ l, p ∈ (A.lists l).map Prod.fst

/-- Calls of the list API. `a` is the address malloc returns. -/
inductive Op (α : Type) where
  | pushHead (l a : Nat) (d : α)
  | pushTail (l a : Nat) (d : α)
  | pushHeadNode (l p : Nat)
  | pushTailNode (l p : Nat)
  | insertBeforeNode (nx p : Nat)
  | insertAfterNode (pv p : Nat)
  | insertBefore (nx a : Nat) (d : α)
  | insertAfter (pv a : Nat) (d : α)
  | unlink (p : Nat)
  | delete (p : Nat)
  | popHead (l : Nat)
  | popTail (l : Nat)
  | popHeadNode (l : Nat)
  | popTailNode (l : Nat)
  | empty (l : Nat)
  | insertSorted (l a : Nat) (d : α)
  | insertSortedNode (l p : Nat)
  | insertSortedRev (l a : Nat) (d : α)
  | insertSortedNodeRev (l p : Nat)

/-- Values returned. -/
inductive Ret (α : Type) where
  | unit
  | data (d : Option α)
  | node (p : Option Nat)

/-- The model's execution of a call. rmc_list_template.h:162-168 and 190-196 `_insert_before`,
`_insert_after` allocate a node and call the node variant. `fuel` is the loop bound (any value not
smaller than the list length will do). -/
def exec (cmp : α → α → Int) (fuel : Nat) (s : Heap α) : Op α → M (Heap α × Ret α)
  | .pushHead l a d => do let s ← PtrList.pushHead s l a d; return (s, .unit)
  | .pushTail l a d => do let s ← PtrList.pushTail s l a d; return (s, .unit)
  | .pushHeadNode l p => do let s ← PtrList.pushHeadNode s l p; return (s, .unit)
  | .pushTailNode l p => do let s ← PtrList.pushTailNode s l p; return (s, .unit)
  | .insertBeforeNode nx p => do let s ← PtrList.insertBeforeNode s nx p; return (s, .unit)
  | .insertAfterNode pv p => do let s ← PtrList.insertAfterNode s pv p; return (s, .unit)
  | .insertBefore nx a d => do let s ← PtrList.insertBeforeNode (allocNode s a d) nx a; return (s, .unit)
  | .insertAfter pv a d => do let s ← PtrList.insertAfterNode (allocNode s a d) pv a; return (s, .unit)
  | .unlink p => do let s ← PtrList.unlink s p; return (s, .unit)
  | .delete p => do let s ← PtrList.delete s p; return (s, .unit)
  | .popHead l => do let r ← PtrList.popHead s l; return (r.2, .data r.1)
  | .popTail l => do let r ← PtrList.popTail s l; return (r.2, .data r.1)
  | .popHeadNode l => do let r ← PtrList.popHeadNode s l; return (r.2, .node r.1)
  | .popTailNode l => do let r ← PtrList.popTailNode s l; return (r.2, .node r.1)
  | .empty l => do let s ← PtrList.empty s l fuel; return (s, .unit)
  | .insertSorted l a d => do let s ← PtrList.insertSorted s l a d cmp fuel; return (s, .unit)
  | .insertSortedNode l p => do let s ← PtrList.insertSortedNode s l p cmp fuel; return (s, .unit)
  | .insertSortedRev l a d => do let s ← PtrList.insertSortedRev s l a d cmp fuel; return (s, .unit)
  | .insertSortedNodeRev l p => do let s ← PtrList.insertSortedNodeRev s l p cmp fuel; return (s, .unit)

/-- The documented effect of every call, on sequences. The hypotheses are the documented
preconditions: malloc returns an unused address, a node being linked is on no list, a reference node
is on a list. -/
inductive AStep (cmp : α → α → Int) : Abs α → Op α → Abs α → Ret α → Prop
  | pushHead {A l a d} : A.Fresh a → AStep cmp A (.pushHead l a d) (A.setL l ((a, d) :: A.lists l)) .unit
  | pushTail {A l a d} : A.Fresh a → AStep cmp A (.pushTail l a d) (A.setL l (A.lists l ++ [(a, d)])) .unit
  | pushHeadNode {A l p d} : A.det p = some d →
      AStep cmp A (.pushHeadNode l p) ((A.setD p none).setL l ((p, d) :: A.lists l)) .unit
  | pushTailNode {A l p d} : A.det p = some d →
      AStep cmp A (.pushTailNode l p) ((A.setD p none).setL l (A.lists l ++ [(p, d)])) .unit
  | insertBeforeNode {A l nx p d e pre post} : A.det p = some d → A.lists l = pre ++ (nx, e) :: post →
      AStep cmp A (.insertBeforeNode nx p) ((A.setD p none).setL l (pre ++ (p, d) :: (nx, e) :: post)) .unit
  | insertAfterNode {A l pv p d e pre post} : A.det p = some d → A.lists l = pre ++ (pv, e) :: post →
      AStep cmp A (.insertAfterNode pv p) ((A.setD p none).setL l (pre ++ (pv, e) :: (p, d) :: post)) .unit
  | insertBefore {A l nx a d e pre post} : A.Fresh a → A.lists l = pre ++ (nx, e) :: post →
      AStep cmp A (.insertBefore nx a d) (A.setL l (pre ++ (a, d) :: (nx, e) :: post)) .unit
  | insertAfter {A l pv a d e pre post} : A.Fresh a → A.lists l = pre ++ (pv, e) :: post →
      AStep cmp A (.insertAfter pv a d) (A.setL l (pre ++ (pv, e) :: (a, d) :: post)) .unit
  | unlink {A l p d pre post} : A.lists l = pre ++ (p, d) :: post →
      AStep cmp A (.unlink p) ((A.setL l (pre ++ post)).setD p (some d)) .unit
  | delete {A l p d pre post} : A.lists l = pre ++ (p, d) :: post →
      AStep cmp A (.delete p) (A.setL l (pre ++ post)) .unit
  | popHead {A l} : AStep cmp A (.popHead l) (A.setL l (A.lists l).tail)
      (.data ((A.lists l).head?.map Prod.snd))
  | popTail {A l} : AStep cmp A (.popTail l) (A.setL l (A.lists l).dropLast)
      (.data ((A.lists l).getLast?.map Prod.snd))
  | popHeadNodeNil {A l} : A.lists l = [] → AStep cmp A (.popHeadNode l) A (.node none)
  | popHeadNode {A l p d xs} : A.lists l = (p, d) :: xs →
      AStep cmp A (.popHeadNode l) ((A.setL l xs).setD p (some d)) (.node (some p))
  | popTailNodeNil {A l} : A.lists l = [] → AStep cmp A (.popTailNode l) A (.node none)
  | popTailNode {A l p d xs} : A.lists l = xs ++ [(p, d)] →
      AStep cmp A (.popTailNode l) ((A.setL l xs).setD p (some d)) (.node (some p))
  | empty {A l} : AStep cmp A (.empty l) (A.setL l []) .unit
  /- sorted insertion: the new element goes immediately before the first element (from the head) that
  does not compare greater -/
  | insertSorted {A l a d pre post} : A.Fresh a → A.lists l = pre ++ post →
      (∀ x ∈ pre, cmp d x.2 < 0) → (∀ x, post.head? = some x → cmp d x.2 ≥ 0) →
      AStep cmp A (.insertSorted l a d) (A.setL l (pre ++ (a, d) :: post)) .unit
  | insertSortedNode {A l p d pre post} : A.det p = some d → A.lists l = pre ++ post →
      (∀ x ∈ pre, cmp d x.2 < 0) → (∀ x, post.head? = some x → cmp d x.2 ≥ 0) →
      AStep cmp A (.insertSortedNode l p) ((A.setD p none).setL l (pre ++ (p, d) :: post)) .unit
  | insertSortedRev {A l a d pre post} : A.Fresh a → A.lists l = pre ++ post →
      (∀ x ∈ post, cmp d x.2 < 0) → (∀ x, pre.getLast? = some x → cmp d x.2 ≥ 0) →
      AStep cmp A (.insertSortedRev l a d) (A.setL l (pre ++ (a, d) :: post)) .unit
  | insertSortedNodeRev {A l p d pre post} : A.det p = some d → A.lists l = pre ++ post →
      (∀ x ∈ post, cmp d x.2 < 0) → (∀ x, pre.getLast? = some x → cmp d x.2 ≥ 0) →
      AStep cmp A (.insertSortedNodeRev l p) ((A.setD p none).setL l (pre ++ (p, d) :: post)) .unit

/-! ## Refinement -/

theorem Refines.detNotIn {s : Heap α} {A : Abs α} (h : Refines s A) {p : Nat} {d : α}
    (hp : A.det p = some d) (l : Nat) : p ∉ (A.lists l).map Prod.fst :=
  (h.reps l).not_mem_of_detached (h.det p d hp)

theorem Refines.fresh {s : Heap α} {A : Abs α} (h : Refines s A) {a : Nat} (ha : A.Fresh a) :
    s.node a = none := by
  cases hn : s.node a with
  | none => rfl
  | some n =>
    rcases h.all a n hn with h1 | ⟨l, h2⟩
    · rw [ha.1] at h1; simp at h1
    · exact absurd h2 (ha.2 l)

theorem alloc_refines {s : Heap α} {A : Abs α} (h : Refines s A) {a : Nat} {d : α} (ha : A.Fresh a) :
    Refines (allocNode s a d) (A.setD a (some d)) := by
  have hf := h.fresh ha
  refine ⟨fun l => allocNode_rep hf (h.reps l), ?_, ?_⟩
  · intro p e hp
    by_cases hpa : p = a
    · subst hpa
      simp [Abs.setD] at hp; subst hp
      exact allocNode_detached
    · simp [Abs.setD, hpa] at hp
      obtain ⟨nx, pv, hn⟩ := h.det p e hp
      exact ⟨nx, pv, by simp [allocNode, hpa, hn]⟩
  · intro p n hn
    by_cases hpa : p = a
    · subst hpa; left; simp [Abs.setD]
    · simp [allocNode, hpa] at hn
      simpa [Abs.setD, hpa] using h.all p n hn

theorem link_refines {s s' : Heap α} {A : Abs α} (h : Refines s A) {l p : Nat} {d : α}
    {pre post : List (Nat × α)} (hp : A.det p = some d) (e : A.lists l = pre ++ post)
    (hL : Linked s s' l p d pre post) : Refines s' ((A.setD p none).setL l (pre ++ (p, d) :: post)) := by
  have hr := h.reps l
  rw [e] at hr
  have hnot : p ∉ (pre ++ post).map Prod.fst := by rw [← e]; exact h.detNotIn hp l
  have hnode : ∀ q, q ≠ p → ((s.node q).isSome ↔ (s'.node q).isSome) := by
    intro q hq
    by_cases h1 : pre.getLast?.map Prod.fst = some q
    · rw [hL.left q h1]; simp
    · by_cases h2 : post.head?.map Prod.fst = some q
      · rw [hL.right q h2]; simp
      · rw [hL.other q hq h1 h2]
  refine ⟨?_, ?_, ?_⟩
  · intro k
    by_cases hk : k = l
    · subst hk; simp only [Abs.setL, if_true]; exact hL.rep hr hnot
    · simp only [Abs.setL, hk, if_false, Abs.setD]
      refine hL.frame hr hk (h.reps k) (h.detNotIn hp k)
  · intro q f hq
    simp only [Abs.setL, Abs.setD] at hq
    by_cases hqp : q = p
    · simp [hqp] at hq
    · simp only [hqp, if_false] at hq
      have hqn : q ∉ (pre ++ post).map Prod.fst := by rw [← e]; exact h.detNotIn hq l
      obtain ⟨nx, pv, hn⟩ := h.det q f hq
      refine ⟨nx, pv, ?_⟩
      rw [hL.other q hqp ?_ ?_, hn]
      · intro hc
        obtain ⟨⟨b, g⟩, hb, rfl⟩ := Option.map_eq_some_iff.mp hc
        apply hqn
        simp only [List.map_append, List.mem_append]; left
        exact List.mem_map.mpr ⟨_, List.mem_of_getLast? hb, rfl⟩
      · intro hc
        obtain ⟨⟨b, g⟩, hb, rfl⟩ := Option.map_eq_some_iff.mp hc
        apply hqn
        simp only [List.map_append, List.mem_append]; right
        exact List.mem_map.mpr ⟨_, List.mem_of_head? hb, rfl⟩
  · intro q n hn
    by_cases hqp : q = p
    · subst hqp; right; exact ⟨l, by simp [Abs.setL]⟩
    · have : (s.node q).isSome := (hnode q hqp).mpr (by simp [hn])
      obtain ⟨m, hm⟩ := Option.isSome_iff_exists.mp this
      rcases h.all q m hm with h1 | ⟨k, h2⟩
      · left; simpa [Abs.setL, Abs.setD, hqp] using h1
      · right
        refine ⟨k, ?_⟩
        by_cases hk : k = l
        · subst hk
          rw [e] at h2
          simp only [Abs.setL, if_true, List.map_append, List.mem_append, List.map_cons, List.mem_cons] at h2 ⊢
          rcases h2 with h2 | h2
          · exact Or.inl h2
          · exact Or.inr (Or.inr h2)
        · simpa [Abs.setL, hk, Abs.setD] using h2

theorem unlink_refines {s s' : Heap α} {A : Abs α} (h : Refines s A) {l p : Nat} {d : α}
    {pre post : List (Nat × α)} (e : A.lists l = pre ++ (p, d) :: post)
    (hU : Unlinked s s' l p d pre post) : Refines s' ((A.setL l (pre ++ post)).setD p (some d)) := by
  have hr := h.reps l
  rw [e] at hr
  have hnode : ∀ q, q ≠ p → ((s.node q).isSome ↔ (s'.node q).isSome) := by
    intro q hq
    by_cases h1 : pre.getLast?.map Prod.fst = some q
    · rw [hU.left q h1]; simp
    · by_cases h2 : post.head?.map Prod.fst = some q
      · rw [hU.right q h2]; simp
      · rw [hU.other q hq h1 h2]
  refine ⟨?_, ?_, ?_⟩
  · intro k
    by_cases hk : k = l
    · subst hk; simp only [Abs.setL, if_true, Abs.setD]; exact hU.rep hr
    · simp only [Abs.setL, hk, if_false, Abs.setD]
      exact hU.frame hr hk (h.reps k)
  · intro q f hq
    simp only [Abs.setL, Abs.setD] at hq
    by_cases hqp : q = p
    · subst hqp; simp at hq; subst hq; exact hU.gone
    · simp only [hqp, if_false] at hq
      have hqn : q ∉ (pre ++ (p, d) :: post).map Prod.fst := by rw [← e]; exact h.detNotIn hq l
      obtain ⟨nx, pv, hn⟩ := h.det q f hq
      refine ⟨nx, pv, ?_⟩
      rw [hU.other q hqp ?_ ?_, hn]
      · intro hc
        obtain ⟨⟨b, g⟩, hb, rfl⟩ := Option.map_eq_some_iff.mp hc
        apply hqn
        simp only [List.map_append, List.mem_append]; left
        exact List.mem_map.mpr ⟨_, List.mem_of_getLast? hb, rfl⟩
      · intro hc
        obtain ⟨⟨b, g⟩, hb, rfl⟩ := Option.map_eq_some_iff.mp hc
        apply hqn
        simp only [List.map_append, List.mem_append, List.map_cons, List.mem_cons]; right; right
        exact List.mem_map.mpr ⟨_, List.mem_of_head? hb, rfl⟩
  · intro q n hn
    by_cases hqp : q = p
    · subst hqp; left; simp [Abs.setD]
    · have : (s.node q).isSome := (hnode q hqp).mpr (by simp [hn])
      obtain ⟨m, hm⟩ := Option.isSome_iff_exists.mp this
      rcases h.all q m hm with h1 | ⟨k, h2⟩
      · left; simpa [Abs.setL, Abs.setD, hqp] using h1
      · right
        refine ⟨k, ?_⟩
        by_cases hk : k = l
        · subst hk
          rw [e] at h2
          simp only [Abs.setL, Abs.setD, if_true, List.map_append, List.mem_append, List.map_cons,
            List.mem_cons] at h2 ⊢
          rcases h2 with h2 | h2 | h2
          · exact Or.inl h2
          · exact absurd h2 hqp
          · exact Or.inr h2
        · simpa [Abs.setL, hk, Abs.setD] using h2

theorem free_refines {s : Heap α} {A : Abs α} (h : Refines s A) {p : Nat} {d : α}
    (hp : A.det p = some d) : ∃ s', freeNode s p = .ok s' ∧ Refines s' (A.setD p none) := by
  obtain ⟨nx, pv, hn⟩ := h.det p d hp
  refine ⟨_, by simp [freeNode, hn]; rfl, ?_, ?_, ?_⟩
  · intro k
    refine (h.reps k).frame rfl ?_
    intro q hq
    have : q ≠ p := by rintro rfl; exact h.detNotIn hp k hq
    simp [this]
  · intro q e hq
    by_cases hqp : q = p
    · simp [Abs.setD, hqp] at hq
    · simp [Abs.setD, hqp] at hq
      obtain ⟨nx', pv', hn'⟩ := h.det q e hq
      exact ⟨nx', pv', by simp [hqp, hn']⟩
  · intro q n hq
    by_cases hqp : q = p
    · simp [hqp] at hq
    · simp [hqp] at hq
      simpa [Abs.setD, hqp] using h.all q n hq

theorem setD_setD (A : Abs α) (p : Nat) (x y : Option α) : (A.setD p x).setD p y = A.setD p y := by
  unfold Abs.setD; congr 1; funext q; by_cases h : q = p <;> simp [h]
theorem setD_self (A : Abs α) (p : Nat) (h : A.det p = none) : A.setD p none = A := by
  cases A; unfold Abs.setD; congr 1; funext q; by_cases h' : q = p <;> simp [h']
  simpa using h.symm
theorem setL_self (A : Abs α) (l : Nat) : A.setL l (A.lists l) = A := by
  cases A; unfold Abs.setL; congr 1; funext q; by_cases h' : q = l <;> simp [h']
theorem setL_setL (A : Abs α) (l : Nat) (xs ys : List (Nat × α)) : (A.setL l xs).setL l ys = A.setL l ys := by
  unfold Abs.setL; congr 1; funext q; by_cases h : q = l <;> simp [h]
theorem setL_setD (A : Abs α) (l p : Nat) (xs : List (Nat × α)) (x : Option α) :
    (A.setL l xs).setD p x = (A.setD p x).setL l xs := rfl

theorem delete_refines {s : Heap α} {A : Abs α} (h : Refines s A) {l p : Nat} {d : α}
    {pre post : List (Nat × α)} (e : A.lists l = pre ++ (p, d) :: post) :
    ∃ s', delete s p = .ok s' ∧ Refines s' (A.setL l (pre ++ post)) := by
  have hr := h.reps l
  rw [e] at hr
  obtain ⟨s1, e1, hU⟩ := unlink_unlinked hr
  have h1 := unlink_refines h e hU
  obtain ⟨s2, e2, h2⟩ := free_refines h1 (p := p) (d := d) (by simp [Abs.setD])
  refine ⟨s2, by simp [delete, e1, bind, Except.bind, e2], ?_⟩
  rw [setD_setD, setD_self] at h2
  · exact h2
  · cases hd : A.det p with
    | none => simpa [Abs.setL] using hd
    | some x => exact absurd (by rw [e]; simp) (h.detNotIn hd l)

theorem empty_refines {l : Nat} {fuel : Nat} : ∀ {s : Heap α} {A : Abs α}, Refines s A →
    (A.lists l).length ≤ fuel → ∃ s', empty s l fuel = .ok s' ∧ Refines s' (A.setL l []) := by
  induction fuel with
  | zero =>
    intro s A h hf
    have hnil : A.lists l = [] := List.length_eq_zero_iff.mp (by omega)
    have hz : size s l = 0 := by unfold size; rw [(h.reps l).cnt, hnil]; rfl
    refine ⟨s, by simp [empty, hz], ?_⟩
    rw [← hnil, setL_self]; exact h
  | succ fuel ih =>
    intro s A h hf
    cases hx : A.lists l with
    | nil =>
      have hz : size s l = 0 := by unfold size; rw [(h.reps l).cnt, hx]; rfl
      refine ⟨s, by simp [empty, hz], ?_⟩
      rw [← hx, setL_self]; exact h
    | cons x xs =>
      obtain ⟨p, d⟩ := x
      have hz : size s l ≠ 0 := by unfold size; rw [(h.reps l).cnt, hx]; simp
      have hh : head s l = some p := by unfold head; rw [(h.reps l).hd, hx]; rfl
      obtain ⟨s1, e1, h1⟩ := delete_refines h (pre := []) hx
      rw [hx] at hf
      obtain ⟨s2, e2, h2⟩ := ih h1 (by simp [Abs.setL] at hf ⊢; omega)
      refine ⟨s2, by simp only [empty, hz, if_false, hh, e1, bind, Except.bind, e2], ?_⟩
      rw [setL_setL] at h2; exact h2

theorem insSpec_unique {cmp : α → α → Int} {p : Nat} {d : α} {pre post : List (Nat × α)}
    (h1 : ∀ x ∈ pre, cmp d x.2 < 0) (h2 : ∀ x, post.head? = some x → cmp d x.2 ≥ 0) :
    insSpec cmp p d (pre ++ post) = pre ++ (p, d) :: post := by
  cases post with
  | nil => rw [List.append_nil, insSpec_none h1]
  | cons x post => obtain ⟨q, e⟩ := x; exact insSpec_split h1 (h2 _ rfl)

theorem insertSortedNode_refines {s : Heap α} {A : Abs α} (h : Refines s A) {l p : Nat} {d : α}
    {cmp : α → α → Int} {fuel : Nat} {pre post : List (Nat × α)} (hp : A.det p = some d)
    (e : A.lists l = pre ++ post) (hf : (A.lists l).length ≤ fuel)
    (h1 : ∀ x ∈ pre, cmp d x.2 < 0) (h2 : ∀ x, post.head? = some x → cmp d x.2 ≥ 0) :
    ∃ s', insertSortedNode s l p cmp fuel = .ok s' ∧
      Refines s' ((A.setD p none).setL l (pre ++ (p, d) :: post)) := by
  obtain ⟨s', pre', post', a1, a2, a3, a4⟩ := insertSortedNode_linked (h.reps l) (h.det p d hp) cmp hf
  rw [e, insSpec_unique h1 h2] at a4
  refine ⟨s', a1, ?_⟩
  rw [a4]
  exact link_refines h hp a2 a3

theorem insertSortedNodeRev_refines {s : Heap α} {A : Abs α} (h : Refines s A) {l p : Nat} {d : α}
    {cmp : α → α → Int} {fuel : Nat} {pre post : List (Nat × α)} (hp : A.det p = some d)
    (e : A.lists l = pre ++ post) (hf : (A.lists l).length ≤ fuel)
    (h1 : ∀ x ∈ post, cmp d x.2 < 0) (h2 : ∀ x, pre.getLast? = some x → cmp d x.2 ≥ 0) :
    ∃ s', insertSortedNodeRev s l p cmp fuel = .ok s' ∧
      Refines s' ((A.setD p none).setL l (pre ++ (p, d) :: post)) := by
  obtain ⟨s', pre', post', a1, a2, a3, a4⟩ := insertSortedNodeRev_linked (h.reps l) (h.det p d hp) cmp hf
  have : insSpecRev cmp p d (A.lists l) = pre ++ (p, d) :: post := by
    unfold insSpecRev
    rw [e, List.reverse_append, insSpec_unique]
    · simp
    · intro x hx; exact h1 x (List.mem_reverse.mp hx)
    · intro x hx; rw [List.head?_reverse] at hx; exact h2 x hx
  rw [this] at a4
  refine ⟨s', a1, ?_⟩
  rw [a4]
  exact link_refines h hp a2 a3

/-- **C08** One call: whenever its documented precondition holds the pointer code does not fault, returns
the documented value, and leaves a heap in which every list is well linked and holds exactly the
documented sequence; lists not mentioned by the call keep their sequence. -/
theorem C08_step {cmp : α → α → Int} {s : Heap α} {A A' : Abs α} {op : Op α} {r : Ret α} {fuel : Nat}
    (h : Refines s A) (hs : AStep cmp A op A' r) (hf : ∀ l, (A.lists l).length ≤ fuel) :
    ∃ s', exec cmp fuel s op = .ok (s', r) ∧ Refines s' A' := by
  have afterAlloc : ∀ {a d}, A.Fresh a → Refines (allocNode s a d) (A.setD a (some d)) :=
    fun ha => alloc_refines h ha
  have back : ∀ {a} {d : α} {l xs}, A.Fresh a →
      ((A.setD a (some d)).setD a none).setL l xs = A.setL l xs := by
    intro a d l xs ha; rw [setD_setD, setD_self _ _ ha.1]
  cases hs with
  | @pushHead l a d ha =>
    have h1 := afterAlloc (d := d) ha
    obtain ⟨s', e1, hL⟩ := pushHeadNode_linked (h1.reps l) (h1.det a d (by simp [Abs.setD]))
    refine ⟨s', by simp [exec, pushHead, e1, bind, Except.bind, pure, Except.pure], ?_⟩
    have := link_refines h1 (by simp [Abs.setD]) rfl hL
    rw [back ha] at this; exact this
  | @pushTail l a d ha =>
    have h1 := afterAlloc (d := d) ha
    obtain ⟨s', e1, hL⟩ := pushTailNode_linked (h1.reps l) (h1.det a d (by simp [Abs.setD]))
    refine ⟨s', by simp [exec, pushTail, e1, bind, Except.bind, pure, Except.pure], ?_⟩
    have := link_refines h1 (by simp [Abs.setD]) (by simp) hL
    rw [back ha] at this; exact this
  | @pushHeadNode l p d hp =>
    obtain ⟨s', e1, hL⟩ := pushHeadNode_linked (h.reps l) (h.det p d hp)
    exact ⟨s', by simp [exec, e1, bind, Except.bind, pure, Except.pure], link_refines h hp rfl hL⟩
  | @pushTailNode l p d hp =>
    obtain ⟨s', e1, hL⟩ := pushTailNode_linked (h.reps l) (h.det p d hp)
    exact ⟨s', by simp [exec, e1, bind, Except.bind, pure, Except.pure], link_refines h hp (by simp) hL⟩
  | @insertBeforeNode l nx p d e pre post hp he =>
    have hr := h.reps l
    rw [he] at hr
    obtain ⟨s', e1, hL⟩ := insertBeforeNode_linked hr (h.det p d hp)
    exact ⟨s', by simp [exec, e1, bind, Except.bind, pure, Except.pure], link_refines h hp he hL⟩
  | @insertAfterNode l pv p d e pre post hp he =>
    have hr := h.reps l
    rw [he] at hr
    obtain ⟨s', e1, hL⟩ := insertAfterNode_linked hr (h.det p d hp)
    refine ⟨s', by simp [exec, e1, bind, Except.bind, pure, Except.pure], ?_⟩
    have := link_refines h hp (by rw [he]; simp) hL
    simpa using this
  | @insertBefore l nx a d e pre post ha he =>
    have h1 := afterAlloc (d := d) ha
    have hr := h1.reps l
    simp only [Abs.setD, he] at hr
    obtain ⟨s', e1, hL⟩ := insertBeforeNode_linked hr (h1.det a d (by simp [Abs.setD]))
    refine ⟨s', by simp [exec, e1, bind, Except.bind, pure, Except.pure], ?_⟩
    have := link_refines h1 (by simp [Abs.setD]) he hL
    rw [back ha] at this; exact this
  | @insertAfter l pv a d e pre post ha he =>
    have h1 := afterAlloc (d := d) ha
    have hr := h1.reps l
    simp only [Abs.setD, he] at hr
    obtain ⟨s', e1, hL⟩ := insertAfterNode_linked hr (h1.det a d (by simp [Abs.setD]))
    refine ⟨s', by simp [exec, e1, bind, Except.bind, pure, Except.pure], ?_⟩
    have := link_refines h1 (by simp [Abs.setD]) (by simp only [Abs.setD, he]; simp) hL
    rw [back ha] at this; simpa using this
  | @unlink l p d pre post he =>
    have hr := h.reps l
    rw [he] at hr
    obtain ⟨s', e1, hU⟩ := unlink_unlinked hr
    exact ⟨s', by simp [exec, e1, bind, Except.bind, pure, Except.pure], unlink_refines h he hU⟩
  | @delete l p d pre post he =>
    obtain ⟨s', e1, h1⟩ := delete_refines h he
    exact ⟨s', by simp [exec, e1, bind, Except.bind, pure, Except.pure], h1⟩
  | @popHead l =>
    cases hx : A.lists l with
    | nil =>
      have : head s l = none := by unfold head; rw [(h.reps l).hd, hx]; rfl
      refine ⟨s, by simp [exec, popHead, this, bind, Except.bind, pure, Except.pure], ?_⟩
      have hh := setL_self A l
      rw [hx] at hh; simp only [List.tail_nil]; rw [hh]; exact h
    | cons x xs =>
      obtain ⟨p, d⟩ := x
      obtain ⟨s', e1, h1⟩ := delete_refines h (pre := []) hx
      have hh : head s l = some p := by unfold head; rw [(h.reps l).hd, hx]; rfl
      have hc := (h.reps l).cell [] p d xs hx
      exact ⟨s', by simp [exec, popHead, hh, deref, hc, e1, bind, Except.bind, pure, Except.pure], h1⟩
  | @popTail l =>
    rcases List.eq_nil_or_concat (A.lists l) with hx | ⟨ys, ⟨p, d⟩, hx⟩
    · have : tail s l = none := by unfold tail; rw [(h.reps l).tl, hx]; rfl
      refine ⟨s, by simp [exec, popTail, this, hx, bind, Except.bind, pure, Except.pure], ?_⟩
      have hh := setL_self A l
      rw [hx] at hh ⊢; simp only [List.dropLast_nil]; rw [hh]; exact h
    · rw [List.concat_eq_append] at hx
      obtain ⟨s', e1, h1⟩ := delete_refines h (pre := ys) (post := []) hx
      have hh : tail s l = some p := by unfold tail; rw [(h.reps l).tl, hx]; simp
      have hc := (h.reps l).cell ys p d [] hx
      refine ⟨s', by simp [exec, popTail, hh, hx, deref, hc, e1, bind, Except.bind, pure, Except.pure], ?_⟩
      rw [hx]; simpa using h1
  | @popHeadNodeNil l hx =>
    have : head s l = none := by unfold head; rw [(h.reps l).hd, hx]; rfl
    exact ⟨s, by simp [exec, popHeadNode, this, bind, Except.bind, pure, Except.pure], h⟩
  | @popHeadNode l p d xs hx =>
    have hr := h.reps l
    rw [hx] at hr
    obtain ⟨s', e1, hU⟩ := unlink_unlinked (pre := []) hr
    have hh : head s l = some p := by unfold head; rw [(h.reps l).hd, hx]; rfl
    exact ⟨s', by simp [exec, popHeadNode, hh, e1, bind, Except.bind, pure, Except.pure],
      unlink_refines h (pre := []) hx hU⟩
  | @popTailNodeNil l hx =>
    have : tail s l = none := by unfold tail; rw [(h.reps l).tl, hx]; rfl
    exact ⟨s, by simp [exec, popTailNode, this, bind, Except.bind, pure, Except.pure], h⟩
  | @popTailNode l p d xs hx =>
    have hr := h.reps l
    rw [hx] at hr
    obtain ⟨s', e1, hU⟩ := unlink_unlinked (post := []) hr
    have hh : tail s l = some p := by unfold tail; rw [(h.reps l).tl, hx]; simp
    refine ⟨s', by simp [exec, popTailNode, hh, e1, bind, Except.bind, pure, Except.pure], ?_⟩
    have := unlink_refines h (post := []) hx hU
    simpa using this
  | @empty l =>
    obtain ⟨s', e1, h1⟩ := empty_refines h (hf l)
    exact ⟨s', by simp [exec, e1, bind, Except.bind, pure, Except.pure], h1⟩
  | @insertSorted l a d pre post ha he hx1 hx2 =>
    have h1 := afterAlloc (d := d) ha
    obtain ⟨s', e1, h2⟩ := insertSortedNode_refines h1 (cmp := cmp) (fuel := fuel) (l := l) (pre := pre) (post := post)
      (p := a) (d := d) (by simp [Abs.setD]) he (hf l) hx1 hx2
    rw [back ha] at h2
    exact ⟨s', by simp [exec, PtrList.insertSorted, e1, bind, Except.bind, pure, Except.pure], h2⟩
  | @insertSortedNode l p d pre post hp he hx1 hx2 =>
    obtain ⟨s', e1, h2⟩ := insertSortedNode_refines h (cmp := cmp) (fuel := fuel) hp he (hf l) hx1 hx2
    exact ⟨s', by simp [exec, e1, bind, Except.bind, pure, Except.pure], h2⟩
  | @insertSortedRev l a d pre post ha he hx1 hx2 =>
    have h1 := afterAlloc (d := d) ha
    obtain ⟨s', e1, h2⟩ := insertSortedNodeRev_refines h1 (cmp := cmp) (fuel := fuel) (l := l) (pre := pre) (post := post)
      (p := a) (d := d) (by simp [Abs.setD]) he (hf l) hx1 hx2
    rw [back ha] at h2
    exact ⟨s', by simp [exec, PtrList.insertSortedRev, e1, bind, Except.bind, pure, Except.pure], h2⟩
  | @insertSortedNodeRev l p d pre post hp he hx1 hx2 =>
    obtain ⟨s', e1, h2⟩ := insertSortedNodeRev_refines h (cmp := cmp) (fuel := fuel) hp he (hf l) hx1 hx2
    exact ⟨s', by simp [exec, e1, bind, Except.bind, pure, Except.pure], h2⟩

/-- Histories of the specification; `n` bounds the list lengths met on the way. -/
inductive ARun (cmp : α → α → Int) (n : Nat) : Abs α → List (Op α) → Abs α → List (Ret α) → Prop
  | nil {A} : ARun cmp n A [] A []
  | cons {A B C op ops r rs} : (∀ l, (A.lists l).length ≤ n) → AStep cmp A op B r →
      ARun cmp n B ops C rs → ARun cmp n A (op :: ops) C (r :: rs)

/-- Histories of the code. -/
def run (cmp : α → α → Int) (fuel : Nat) : Heap α → List (Op α) → M (Heap α × List (Ret α))
  | s, [] => .ok (s, [])
  | s, op :: ops => do
    let (s, r) ← exec cmp fuel s op
    let (s, rs) ← run cmp fuel s ops
    return (s, r :: rs)

/-- The heap in which every list has been initialised and nothing is allocated. -/
def initial : Heap α := ⟨fun _ => none, fun _ => ⟨none, none, 0⟩⟩

theorem initial_refines : Refines (initial : Heap α) ⟨fun _ => [], fun _ => none⟩ := by
  refine ⟨?_, by simp, by simp [initial]⟩
  intro l
  refine ⟨by simp, rfl, rfl, rfl, ?_⟩
  intro pre a d post e
  simp at e

/-- **C08** Every history of calls on any number of lists: the code never faults, returns exactly what
the sequence-level specification returns and ends in a heap whose lists are well linked and hold the
specified sequences. -/
theorem C08_history {cmp : α → α → Int} {n fuel : Nat} (hn : n ≤ fuel) {A A' : Abs α} {ops : List (Op α)}
    {rs : List (Ret α)} (hr : ARun cmp n A ops A' rs) : ∀ {s : Heap α}, Refines s A →
    ∃ s', run cmp fuel s ops = .ok (s', rs) ∧ Refines s' A' := by
  induction hr with
  | nil => intro s h; exact ⟨s, rfl, h⟩
  | cons hl hs _ ih =>
    intro s h
    obtain ⟨s1, e1, h1⟩ := C08_step (fuel := fuel) h hs (fun l => Nat.le_trans (hl l) hn)
    obtain ⟨s2, e2, h2⟩ := ih h1
    exact ⟨s2, by simp [run, e1, e2, bind, Except.bind, pure, Except.pure], h2⟩

/-- Follow `next` links. -/
def walkNext (s : Heap α) : Nat → Option Nat → List Nat
  | _, none => []
  | 0, some _ => []
  | k + 1, some p => p :: (match s.node p with | some n => walkNext s k n.next | none => [])
/-- Follow `prev` links. -/
def walkPrev (s : Heap α) : Nat → Option Nat → List Nat
  | _, none => []
  | 0, some _ => []
  | k + 1, some p => p :: (match s.node p with | some n => walkPrev s k n.prev | none => [])

/-- **C08** What "well linked" means to a reader of the pointers: walking forward from the head visits the
sequence, walking backward from the tail visits its reverse, the counter is its length and every
visited node names the list as its owner. -/
theorem C08_well_linked {s : Heap α} {A : Abs α} (h : Refines s A) (l : Nat) {fuel : Nat}
    (hf : (A.lists l).length ≤ fuel) :
    walkNext s fuel (head s l) = (A.lists l).map Prod.fst ∧
    walkPrev s fuel (tail s l) = ((A.lists l).map Prod.fst).reverse ∧
    size s l = (A.lists l).length ∧
    ∀ x ∈ A.lists l, ∃ nd, s.node x.1 = some nd ∧ nd.data = x.2 ∧ nd.owner = some l := by
  have hr := h.reps l
  generalize A.lists l = xs at hr hf
  refine ⟨?_, ?_, hr.cnt, ?_⟩
  · have : ∀ post pre fuel, xs = pre ++ post → post.length ≤ fuel →
        walkNext s fuel (post.head?.map Prod.fst) = post.map Prod.fst := by
      intro post
      induction post with
      | nil => intro pre fuel _ _; cases fuel <;> rfl
      | cons x post ih =>
        intro pre fuel e hf
        obtain ⟨p, d⟩ := x
        cases fuel with
        | zero => simp at hf
        | succ fuel =>
          have := ih (pre ++ [(p, d)]) fuel (by rw [e]; simp) (by simpa using hf)
          simp [walkNext, hr.cell pre p d post e, this]
    unfold head; rw [hr.hd]
    exact this xs [] fuel rfl hf
  · have : ∀ (rpre post : List (Nat × α)) (fuel : Nat), xs = rpre.reverse ++ post → rpre.length ≤ fuel →
        walkPrev s fuel (rpre.head?.map Prod.fst) = rpre.map Prod.fst := by
      intro rpre
      induction rpre with
      | nil => intro post fuel _ _; cases fuel <;> rfl
      | cons x rpre ih =>
        intro post fuel e hf
        obtain ⟨p, d⟩ := x
        cases fuel with
        | zero => simp at hf
        | succ fuel =>
          have := ih ((p, d) :: post) fuel (by rw [e]; simp) (by simpa using hf)
          have hc := hr.cell rpre.reverse p d post (by rw [e]; simp)
          rw [List.getLast?_reverse] at hc
          simp [walkPrev, hc, this]
    unfold tail; rw [hr.tl, ← List.head?_reverse, ← List.map_reverse]
    exact this xs.reverse [] fuel (by simp) (by simpa using hf)
  · intro x hx
    obtain ⟨n, h1, h2, h3⟩ := hr.owner hx
    exact ⟨n, h1, h3, h2⟩

/-! ## C09 -/

/-- A comparator that compares an integer key, which is what every comparator in the library does
(pub.c:97-106, sub.c:24-33, rmc_sub_packet.c:17-28): 1, 0, -1 as the key is greater, equal, smaller. -/
def KeyCmp (key : α → Int) (cmp : α → α → Int) : Prop :=
  ∀ a b, cmp a b = if key a > key b then 1 else if key a < key b then -1 else 0

/-- Descending by key from head to tail. -/
def SortedDesc (key : α → Int) (xs : List (Nat × α)) : Prop := xs.Pairwise fun x y => key x.2 ≥ key y.2
/-- Ascending by key from head to tail. -/
def SortedAsc (key : α → Int) (xs : List (Nat × α)) : Prop := xs.Pairwise fun x y => key x.2 ≤ key y.2

theorem KeyCmp.neg {key : α → Int} {cmp : α → α → Int} (h : KeyCmp key cmp) {a b : α} :
    cmp a b < 0 ↔ key a < key b := by rw [h a b]; somega
theorem KeyCmp.nonneg {key : α → Int} {cmp : α → α → Int} (h : KeyCmp key cmp) {a b : α} :
    cmp a b ≥ 0 ↔ key b ≤ key a := by rw [h a b]; somega

/-- **C09** Sorted insertion from the head into a list that is in descending order: the call succeeds, the
list is still in descending order, it holds exactly one element more, and among equal keys the new
element is nearest to the head. -/
theorem C09_insertSorted {key : α → Int} {cmp : α → α → Int} (hc : KeyCmp key cmp) {s : Heap α} {A : Abs α}
    (h : Refines s A) {l a : Nat} {d : α} (ha : A.Fresh a) (hs : SortedDesc key (A.lists l)) {fuel : Nat}
    (hf : (A.lists l).length ≤ fuel) :
    ∃ s' xs, insertSorted s l a d cmp fuel = .ok s' ∧ Refines s' (A.setL l xs) ∧ SortedDesc key xs ∧
      (∃ pre post, A.lists l = pre ++ post ∧ xs = pre ++ (a, d) :: post ∧
        (∀ x ∈ pre, key x.2 > key d) ∧ (∀ x ∈ post, key x.2 ≤ key d)) := by
  have key1 : ∃ pre post, A.lists l = pre ++ post ∧ (∀ x ∈ pre, cmp d x.2 < 0) ∧
      (∀ x, post.head? = some x → cmp d x.2 ≥ 0) := by
    rcases seekSpec_split cmp d (A.lists l) with ⟨_, h2⟩ | ⟨pre, p, e, post, h1, _, h3, h4⟩
    · exact ⟨A.lists l, [], by simp, h2, by simp⟩
    · exact ⟨pre, (p, e) :: post, h1, h4, by intro x hx; simp at hx; subst hx; exact h3⟩
  obtain ⟨pre, post, e, h1, h2⟩ := key1
  have h3 : ∀ x ∈ pre, key x.2 > key d := fun x hx => hc.neg.mp (h1 x hx)
  rw [e] at hs
  have hs' := hs
  unfold SortedDesc at hs
  rw [List.pairwise_append] at hs
  obtain ⟨q1, q2, q3⟩ := hs
  have h4 : ∀ x ∈ post, key x.2 ≤ key d := by
    intro x hx
    cases post with
    | nil => simp at hx
    | cons y post =>
      have hy := hc.nonneg.mp (h2 y rfl)
      rcases List.mem_cons.mp hx with rfl | hx
      · exact hy
      · have := (List.pairwise_cons.mp q2).1 x hx; omega
  obtain ⟨s', e1, h5⟩ := insertSortedNode_refines (alloc_refines h (d := d) ha) (cmp := cmp) (fuel := fuel)
    (l := l) (pre := pre) (post := post) (p := a) (d := d) (by simp [Abs.setD]) e hf h1 h2
  rw [setD_setD, setD_self _ _ ha.1] at h5
  refine ⟨s', _, e1, h5, ?_, pre, post, e, rfl, h3, h4⟩
  unfold SortedDesc
  rw [List.pairwise_append, List.pairwise_cons]
  refine ⟨q1, ⟨fun x hx => h4 x hx, q2⟩, ?_⟩
  intro x hx y hy
  rcases List.mem_cons.mp hy with rfl | hy
  · have := h3 x hx; simp only; omega
  · exact q3 x hx y hy

/-- **C09** Sorted insertion from the tail into a list in ascending order. -/
theorem C09_insertSortedRev {key : α → Int} {cmp : α → α → Int} (hc : KeyCmp key cmp) {s : Heap α} {A : Abs α}
    (h : Refines s A) {l a : Nat} {d : α} (ha : A.Fresh a) (hs : SortedAsc key (A.lists l)) {fuel : Nat}
    (hf : (A.lists l).length ≤ fuel) :
    ∃ s' xs, insertSortedRev s l a d cmp fuel = .ok s' ∧ Refines s' (A.setL l xs) ∧ SortedAsc key xs ∧
      (∃ pre post, A.lists l = pre ++ post ∧ xs = pre ++ (a, d) :: post ∧
        (∀ x ∈ pre, key x.2 ≤ key d) ∧ (∀ x ∈ post, key x.2 > key d)) := by
  have key1 : ∃ pre post, A.lists l = pre ++ post ∧ (∀ x ∈ post, cmp d x.2 < 0) ∧
      (∀ x, pre.getLast? = some x → cmp d x.2 ≥ 0) := by
    rcases seekSpec_split cmp d (A.lists l).reverse with ⟨_, h2⟩ | ⟨pre, p, e, post, h1, _, h3, h4⟩
    · exact ⟨[], A.lists l, by simp, fun x hx => h2 x (List.mem_reverse.mpr hx), by simp⟩
    · refine ⟨post.reverse ++ [(p, e)], pre.reverse, ?_, fun x hx => h4 x (List.mem_reverse.mp hx), ?_⟩
      · have := congrArg List.reverse h1; simpa using this
      · intro x hx; simp at hx; subst hx; exact h3
  obtain ⟨pre, post, e, h1, h2⟩ := key1
  have h3 : ∀ x ∈ post, key x.2 > key d := fun x hx => hc.neg.mp (h1 x hx)
  rw [e] at hs
  unfold SortedAsc at hs
  rw [List.pairwise_append] at hs
  obtain ⟨q1, q2, q3⟩ := hs
  have h4 : ∀ x ∈ pre, key x.2 ≤ key d := by
    intro x hx
    rcases List.eq_nil_or_concat pre with rfl | ⟨ys, y, rfl⟩
    · simp at hx
    · rw [List.concat_eq_append] at hx q1 h2
      have hy := hc.nonneg.mp (h2 y (by simp))
      rcases List.mem_append.mp hx with hx | hx
      · have := (List.pairwise_append.mp q1).2.2 x hx y (by simp); omega
      · simp at hx; subst hx; exact hy
  obtain ⟨s', e1, h5⟩ := insertSortedNodeRev_refines (alloc_refines h (d := d) ha) (cmp := cmp) (fuel := fuel)
    (l := l) (pre := pre) (post := post) (p := a) (d := d) (by simp [Abs.setD]) e hf h1 h2
  rw [setD_setD, setD_self _ _ ha.1] at h5
  refine ⟨s', _, e1, h5, ?_, pre, post, e, rfl, h4, h3⟩
  unfold SortedAsc
  rw [List.pairwise_append, List.pairwise_cons]
  refine ⟨q1, ⟨fun x hx => Int.le_of_lt (h3 x hx), q2⟩, ?_⟩
  intro x hx y hy
  rcases List.mem_cons.mp hy with rfl | hy
  · exact h4 x hx
  · exact q3 x hx y hy

/-- **C09** The search functions of the template, for comparators that return 1 on a match and 0 to go on
(pub.c:68-73, rmc_sub_packet.c:84-87): a node is returned iff an element matches, it is the first one from
the end the search starts at, and it matches. -/
theorem C09_find {s : Heap α} {A : Abs α} (h : Refines s A) {l : Nat} {d : α} {fuel : Nat}
    (hf : (A.lists l).length ≤ fuel) (matches_ : α → α → Prop) [∀ a b, Decidable (matches_ a b)]
    {cmp : α → α → Int} (hc : ∀ a b, cmp a b = if matches_ a b then 1 else 0) :
    findNode s l cmp d fuel = .ok (((A.lists l).find? fun x => decide (matches_ d x.2)).map Prod.fst) ∧
    findNodeRev s l cmp d fuel = .ok (((A.lists l).reverse.find? fun x => decide (matches_ d x.2)).map Prod.fst) := by
  have key : ∀ xs : List (Nat × α),
      findSpec cmp d xs = (xs.find? fun x => decide (matches_ d x.2)).map Prod.fst := by
    intro xs
    induction xs with
    | nil => rfl
    | cons x xs ih =>
      obtain ⟨p, e⟩ := x
      simp only [findSpec, List.find?_cons, hc]
      by_cases hm : matches_ d e
      · simp [hm]
      · simp [hm, ih]
  exact ⟨by rw [findNode_eq (h.reps l) cmp d hf, key], by rw [findNodeRev_eq (h.reps l) cmp d hf, key]⟩

/-- **C09** The early-stopping search from the tail (sub.c:36-55: 1 on an equal key, -1 as soon as the key
looked for is greater, 0 otherwise) on a list in ascending order: a node is found iff some element has
the key. -/
theorem C09_find_sorted_rev {key : α → Int} {s : Heap α} {A : Abs α} (h : Refines s A) {l : Nat} {d : α}
    {fuel : Nat} (hf : (A.lists l).length ≤ fuel) (hs : SortedAsc key (A.lists l)) {cmp : α → α → Int}
    (hc : ∀ a b, cmp a b = if key a = key b then 1 else if key a > key b then -1 else 0) :
    ∃ r, findNodeRev s l cmp d fuel = .ok r ∧ (r.isSome ↔ ∃ x ∈ A.lists l, key x.2 = key d) ∧
      ∀ p, r = some p → ∃ e, (p, e) ∈ A.lists l ∧ key e = key d := by
  refine ⟨_, findNodeRev_eq (h.reps l) cmp d hf, ?_⟩
  have hs' : (A.lists l).reverse.Pairwise fun x y => key x.2 ≥ key y.2 := by
    rw [List.pairwise_reverse]; exact hs
  have main : ∀ xs : List (Nat × α), (xs.Pairwise fun x y => key x.2 ≥ key y.2) →
      ((findSpec cmp d xs).isSome ↔ ∃ x ∈ xs, key x.2 = key d) ∧
      ∀ p, findSpec cmp d xs = some p → ∃ e, (p, e) ∈ xs ∧ key e = key d := by
    intro xs
    induction xs with
    | nil => intro _; simp [findSpec]
    | cons x xs ih =>
      intro hp
      obtain ⟨p, e⟩ := x
      obtain ⟨h1, h2⟩ := List.pairwise_cons.mp hp
      obtain ⟨i1, i2⟩ := ih h2
      by_cases h3 : key d = key e
      · have : cmp d e = 1 := by rw [hc]; simp [h3]
        simp only [findSpec, this]
        refine ⟨by simp [h3], ?_⟩
        intro q hq
        simp at hq; subst hq
        exact ⟨e, by simp, h3.symm⟩
      · by_cases h4 : key d > key e
        · have : cmp d e = -1 := by rw [hc]; simp [h3, h4]
          simp only [findSpec, this]
          refine ⟨?_, by simp⟩
          simp only [if_true, Option.isSome_none, Bool.false_eq_true, false_iff, not_exists, not_and]
          intro y hy
          rcases List.mem_cons.mp hy with rfl | hy
          · exact fun h5 => h3 h5.symm
          · have := h1 y hy; simp only at this; omega
        · have : cmp d e = 0 := by rw [hc]; simp [h3, h4]
          simp only [findSpec, this]
          refine ⟨?_, ?_⟩
          · simp only [i1, List.mem_cons, ne_eq, not_true, if_false, show ¬ ((0 : Int) = -1) by omega]
            constructor
            · rintro ⟨y, hy, h5⟩; exact ⟨y, Or.inr hy, h5⟩
            · rintro ⟨y, rfl | hy, h5⟩
              · exact absurd h5.symm h3
              · exact ⟨y, hy, h5⟩
          · intro q hq
            obtain ⟨f, hf1, hf2⟩ := i2 q (by simpa using hq)
            exact ⟨f, List.mem_cons_of_mem _ hf1, hf2⟩
  obtain ⟨m1, m2⟩ := main _ hs'
  refine ⟨by simpa using m1, fun p hp => ?_⟩
  obtain ⟨e, h1, h2⟩ := m2 p hp
  exact ⟨e, List.mem_reverse.mp h1, h2⟩

/-! ## Non-vacuity -/

/-- A concrete history through two lists, including moving a node from one list to the other, which
meets every hypothesis of `C08_history`. -/
example : ∃ A' rs, ARun (α := Nat) (fun a b => if a > b then 1 else if a < b then -1 else 0) 5
    ⟨fun _ => [], fun _ => none⟩
    [.insertSorted 0 10 3, .insertSorted 0 11 7, .insertSorted 0 12 5, .popTailNode 0, .pushHeadNode 1 10]
    A' rs ∧ A'.lists 0 = [(11, 7), (12, 5)] ∧ A'.lists 1 = [(10, 3)] := by
  refine ⟨_, _, .cons (by simp) (.insertSorted (pre := []) (post := []) ⟨rfl, by simp⟩ rfl (by simp) (by simp))
    (.cons (by intro l; by_cases h : l = 0 <;> simp [Abs.setL, h])
      (.insertSorted (pre := []) (post := [(10, 3)]) ⟨rfl, ?_⟩ rfl (by simp) (by simp))
    (.cons (by intro l; by_cases h : l = 0 <;> simp [Abs.setL, h])
      (.insertSorted (pre := [(11, 7)]) (post := [(10, 3)]) ⟨rfl, ?_⟩ rfl (by simp) (by simp))
    (.cons (by intro l; by_cases h : l = 0 <;> simp [Abs.setL, h])
      (.popTailNode (xs := [(11, 7), (12, 5)]) (p := 10) (d := 3) rfl)
    (.cons (by intro l; by_cases h : l = 0 <;> simp [Abs.setL, Abs.setD, h])
      (.pushHeadNode (d := 3) rfl) .nil)))), ?_, ?_⟩
  · intro l; by_cases h : l = 0 <;> simp [Abs.setL, h]
  · intro l; by_cases h : l = 0 <;> simp [Abs.setL, h]
  · simp [Abs.setL, Abs.setD]
  · simp [Abs.setL, Abs.setD]

/-- The publisher's comparator is a key comparator and a two-element list in descending order satisfies
the hypothesis of `C09_insertSorted`. -/
example : KeyCmp (fun n : Nat => (n : Int)) (fun a b => if a > b then 1 else if a < b then -1 else 0) ∧
    SortedDesc (fun n : Nat => (n : Int)) [(11, 7), (12, 5)] := by
  constructor
  · intro a b; simp only [gt_iff_lt]; somega
  · simp [SortedDesc]

end PtrList
end Rmc
