import Verif.PtrList

/-! # Lemmas: the pointer-level list operations implement list operations -/

set_option linter.unusedSimpArgs false

namespace Rmc
namespace PtrList

variable {α : Type}

/-- `Rep s l xs`: list header `l` of heap `s` represents the sequence `xs` of (address, data), i.e.
forward links, backward links, owner fields, head, tail and count all agree with it. -/
structure Rep (s : Heap α) (l : Nat) (xs : List (Nat × α)) : Prop where
  nodup : (xs.map Prod.fst).Nodup
  hd : (s.hdr l).head = xs.head?.map Prod.fst
  tl : (s.hdr l).tail = xs.getLast?.map Prod.fst
  cnt : (s.hdr l).count = xs.length
  cell : ∀ pre a d post, xs = pre ++ (a, d) :: post →
    s.node a = some ⟨d, post.head?.map Prod.fst, pre.getLast?.map Prod.fst, some l⟩

/-- A node that is allocated and on no list. -/
def Detached (s : Heap α) (p : Nat) (d : α) : Prop :=
  ∃ nx pv, s.node p = some ⟨d, nx, pv, none⟩

theorem Rep.owner {s : Heap α} {l : Nat} {xs : List (Nat × α)} (h : Rep s l xs) {a : Nat} {d : α}
    (ha : (a, d) ∈ xs) : ∃ n, s.node a = some n ∧ n.owner = some l ∧ n.data = d := by
  obtain ⟨pre, post, e⟩ := List.append_of_mem ha
  exact ⟨_, h.cell pre a d post e, rfl, rfl⟩

theorem Rep.not_mem_of_detached {s : Heap α} {l : Nat} {xs : List (Nat × α)} (h : Rep s l xs)
    {p : Nat} {d : α} (hp : Detached s p d) : p ∉ xs.map Prod.fst := by
  intro hm
  obtain ⟨⟨a, e⟩, ha, rfl⟩ := List.mem_map.mp hm
  obtain ⟨n, h1, h2, _⟩ := h.owner ha
  obtain ⟨nx, pv, h3⟩ := hp
  rw [h3] at h1
  cases h1
  simp at h2

theorem Rep.disjoint {s : Heap α} {l k : Nat} {xs ys : List (Nat × α)} (h : Rep s l xs)
    (h' : Rep s k ys) (hne : l ≠ k) {p : Nat} (hp : p ∈ xs.map Prod.fst) : p ∉ ys.map Prod.fst := by
  intro hm
  obtain ⟨⟨a, e⟩, ha, rfl⟩ := List.mem_map.mp hp
  obtain ⟨⟨b, f⟩, hb, e2⟩ := List.mem_map.mp hm
  simp only at e2; subst e2
  obtain ⟨n, h1, h2, _⟩ := h.owner ha
  obtain ⟨m, h3, h4, _⟩ := h'.owner hb
  rw [h1] at h3; cases h3
  rw [h2] at h4; cases h4
  exact hne rfl

/-- A list untouched by an operation is still represented. -/
theorem Rep.frame {s s' : Heap α} {k : Nat} {ys : List (Nat × α)} (h : Rep s k ys)
    (hh : s'.hdr k = s.hdr k) (hn : ∀ q ∈ ys.map Prod.fst, s'.node q = s.node q) : Rep s' k ys := by
  obtain ⟨h1, h2, h3, h4, h5⟩ := h
  refine ⟨h1, by rw [hh]; exact h2, by rw [hh]; exact h3, by rw [hh]; exact h4, ?_⟩
  intro pre a d post e
  rw [hn a (by rw [e]; simp)]
  exact h5 pre a d post e

/-- The generic insertion: what the heap must look like after linking `p` between `pre` and
`post`. -/
structure Linked (s s' : Heap α) (l p : Nat) (d : α) (pre post : List (Nat × α)) : Prop where
  new : s'.node p = some ⟨d, post.head?.map Prod.fst, pre.getLast?.map Prod.fst, some l⟩
  left : ∀ q, pre.getLast?.map Prod.fst = some q →
    s'.node q = (s.node q).map fun n => { n with next := some p }
  right : ∀ q, post.head?.map Prod.fst = some q →
    s'.node q = (s.node q).map fun n => { n with prev := some p }
  other : ∀ q, q ≠ p → pre.getLast?.map Prod.fst ≠ some q → post.head?.map Prod.fst ≠ some q →
    s'.node q = s.node q
  hdrO : ∀ k, k ≠ l → s'.hdr k = s.hdr k
  hdrL : s'.hdr l = ⟨(pre ++ (p, d) :: post).head?.map Prod.fst,
    (pre ++ (p, d) :: post).getLast?.map Prod.fst, (pre ++ post).length + 1⟩

theorem Linked.rep {s s' : Heap α} {l p : Nat} {d : α} {pre post : List (Nat × α)}
    (hL : Linked s s' l p d pre post) (h : Rep s l (pre ++ post))
    (hp : p ∉ (pre ++ post).map Prod.fst) : Rep s' l (pre ++ (p, d) :: post) := by
  obtain ⟨h1, h2, h3, h4, h5⟩ := h
  have hp' : p ∉ pre.map Prod.fst ∧ p ∉ post.map Prod.fst := by
    simpa [List.map_append, List.mem_append, not_or] using hp
  refine ⟨?_, by rw [hL.hdrL], by rw [hL.hdrL], by rw [hL.hdrL]; simp; omega, ?_⟩
  · simp only [List.map_append, List.map_cons] at *
    rw [List.nodup_append] at h1 ⊢
    obtain ⟨a1, a2, a3⟩ := h1
    refine ⟨a1, List.nodup_cons.mpr ⟨hp'.2, a2⟩, ?_⟩
    intro x hx y hy hxy
    rcases List.mem_cons.mp hy with rfl | hy
    · subst hxy; exact hp'.1 hx
    · exact a3 x hx y hy hxy
  · intro pre' a e post' heq
    rcases List.append_eq_append_iff.mp heq with ⟨c, e1, e2⟩ | ⟨c, e1, e2⟩
    · -- pre' = pre ++ c, (p,d)::post = c ++ (a,e)::post'
      cases c with
      | nil =>
        simp only [List.nil_append, List.cons.injEq, Prod.mk.injEq] at e2
        obtain ⟨⟨rfl, rfl⟩, rfl⟩ := e2
        simp only [List.append_nil] at e1
        subst e1
        exact hL.new
      | cons y c =>
        simp only [List.cons_append, List.cons.injEq] at e2
        obtain ⟨rfl, e2⟩ := e2
        have hc := h5 (pre ++ c) a e post' (by rw [e2]; simp)
        have hap : a ≠ p := by
          rintro rfl
          apply hp'.2; rw [e2]; simp
        cases c with
        | nil =>
          simp only [List.nil_append] at e2
          simp only [List.append_nil] at hc
          rw [hL.right a (by rw [e2]; rfl), hc, e1]
          simp
        | cons z c =>
          have hne : pre.getLast?.map Prod.fst ≠ some a := by
            intro hc'
            obtain ⟨⟨b, f⟩, hb, rfl⟩ := Option.map_eq_some_iff.mp hc'
            have hbm := List.mem_of_getLast? hb
            rw [List.map_append, List.nodup_append] at h1
            exact h1.2.2 b (List.mem_map.mpr ⟨_, hbm, rfl⟩) b (by rw [e2]; simp) rfl
          have hne2 : post.head?.map Prod.fst ≠ some a := by
            rw [e2]
            intro hc'
            simp at hc'
            rw [List.map_append, List.nodup_append] at h1
            have := h1.2.1
            rw [e2] at this
            simp [hc'] at this
          rw [hL.other a hap hne hne2, hc, e1]
          simp [List.getLast?_append, List.getLast?_cons]
    · -- pre = pre' ++ c, (a,e)::post' = c ++ (p,d)::post
      cases c with
      | nil =>
        simp only [List.nil_append, List.cons.injEq, Prod.mk.injEq] at e2
        obtain ⟨⟨rfl, rfl⟩, rfl⟩ := e2
        simp only [List.append_nil] at e1
        subst e1
        exact hL.new
      | cons y c =>
        simp only [List.cons_append, List.cons.injEq] at e2
        obtain ⟨rfl, e2⟩ := e2
        have hc := h5 pre' a e (c ++ post) (by rw [e1]; simp)
        have hap : a ≠ p := by
          rintro rfl
          apply hp'.1; rw [e1]; simp
        cases c with
        | nil =>
          simp only [List.nil_append] at e2 hc
          rw [hL.left a (by rw [e1]; simp), hc, e2]
          simp
        | cons z c =>
          have hne : pre.getLast?.map Prod.fst ≠ some a := by
            rw [e1]
            intro hc'
            rw [List.map_append, List.nodup_append] at h1
            have hnd := h1.1
            rw [e1, List.map_append, List.nodup_append] at hnd
            have hnd2 := hnd.2.1
            simp only [List.map_cons, List.nodup_cons] at hnd2
            rw [List.getLast?_append, List.getLast?_cons_cons] at hc'
            obtain ⟨⟨b, f⟩, hb, rfl⟩ := Option.map_eq_some_iff.mp hc'
            have hlast : (z :: c).getLast? = some (b, f) := by
              cases hz : (z :: c).getLast? with
              | none => simp at hz
              | some w => rw [hz] at hb; simpa using hb
            apply hnd2.1
            rw [← List.map_cons]
            exact List.mem_map.mpr ⟨_, List.mem_of_getLast? hlast, rfl⟩
          have hne2 : post.head?.map Prod.fst ≠ some a := by
            intro hc'
            obtain ⟨⟨b, f⟩, hb, rfl⟩ := Option.map_eq_some_iff.mp hc'
            have hbm := List.mem_of_head? hb
            rw [List.map_append, List.nodup_append] at h1
            exact h1.2.2 b (by rw [e1]; simp) b (List.mem_map.mpr ⟨_, hbm, rfl⟩) rfl
          rw [hL.other a hap hne hne2, hc, e2]
          simp

/-- Another list is not affected by an insertion. -/
theorem Linked.frame {s s' : Heap α} {l p : Nat} {d : α} {pre post : List (Nat × α)}
    (hL : Linked s s' l p d pre post) (h : Rep s l (pre ++ post)) {k : Nat} (hk : k ≠ l)
    {ys : List (Nat × α)} (hy : Rep s k ys) (hp : p ∉ ys.map Prod.fst) : Rep s' k ys := by
  refine hy.frame (hL.hdrO k hk) ?_
  intro q hq
  have hqx : q ∉ (pre ++ post).map Prod.fst := hy.disjoint h hk hq
  apply hL.other q (by rintro rfl; exact hp hq)
  · intro hc
    obtain ⟨⟨b, f⟩, hb, rfl⟩ := Option.map_eq_some_iff.mp hc
    exact hqx (by simp only [List.map_append, List.mem_append]; left
                  exact List.mem_map.mpr ⟨_, List.mem_of_getLast? hb, rfl⟩)
  · intro hc
    obtain ⟨⟨b, f⟩, hb, rfl⟩ := Option.map_eq_some_iff.mp hc
    exact hqx (by simp only [List.map_append, List.mem_append]; right
                  exact List.mem_map.mpr ⟨_, List.mem_of_head? hb, rfl⟩)

theorem pushHeadNode_linked {s : Heap α} {l p : Nat} {d : α} {xs : List (Nat × α)}
    (h : Rep s l xs) (hp : Detached s p d) :
    ∃ s', pushHeadNode s l p = .ok s' ∧ Linked s s' l p d [] xs := by
  have hnm := h.not_mem_of_detached hp
  obtain ⟨nx, pv, hn⟩ := hp
  obtain ⟨h1, h2, h3, h4, h5⟩ := h
  cases xs with
  | nil =>
    simp only [List.head?_nil, Option.map_none, List.getLast?_nil, List.length_nil] at h2 h3 h4
    refine ⟨⟨fun q => if q = p then some ⟨d, none, none, some l⟩ else s.node q,
      fun k => if k = l then ⟨some p, some p, 1⟩ else s.hdr k⟩, ?_, ?_⟩
    · simp [pushHeadNode, deref, hn, setNode, setHdr, h2, h3, h4, bind, Except.bind, pure, Except.pure]
      funext k; split <;> simp_all
    · refine ⟨by simp, by simp, by simp, ?_, ?_, by simp⟩
      · intro q hq _ _; simp [hq]
      · intro k hk; simp [hk]
  | cons x xs =>
    obtain ⟨a, e⟩ := x
    simp only [List.head?_cons, Option.map_some] at h2
    have hc := h5 [] a e xs rfl
    have hap : a ≠ p := by rintro rfl; simp at hnm
    have htl : ((a, e) :: xs).getLast?.map Prod.fst ≠ none := by
      simp [List.getLast?_cons]
    refine ⟨⟨fun q => if q = a then some ⟨e, xs.head?.map Prod.fst, some p, some l⟩
        else if q = p then some ⟨d, some a, none, some l⟩ else s.node q,
      fun k => if k = l then ⟨some p, ((a, e) :: xs).getLast?.map Prod.fst, xs.length + 1 + 1⟩ else s.hdr k⟩, ?_, ?_⟩
    · simp [pushHeadNode, deref, hn, setNode, setHdr, h2, h3, h4, hc, hap, bind, Except.bind, pure, Except.pure, htl]
      funext k; split <;> simp_all
    · refine ⟨by simp [hap.symm], by simp, ?_, ?_, ?_, by simp [List.getLast?_cons]⟩
      · intro q hq
        simp only [List.head?_cons, Option.map_some, Option.some.injEq] at hq
        subst hq; simp [hc]
      · intro q hq _ hq2
        simp only [List.head?_cons, Option.map_some, ne_eq, Option.some.injEq] at hq2
        simp [hq, Ne.symm hq2]
      · intro k hk; simp [hk]

theorem pushTailNode_linked {s : Heap α} {l p : Nat} {d : α} {xs : List (Nat × α)}
    (h : Rep s l xs) (hp : Detached s p d) :
    ∃ s', pushTailNode s l p = .ok s' ∧ Linked s s' l p d xs [] := by
  have hnm := h.not_mem_of_detached hp
  obtain ⟨nx, pv, hn⟩ := hp
  obtain ⟨h1, h2, h3, h4, h5⟩ := h
  rcases List.eq_nil_or_concat xs with rfl | ⟨ys, x, rfl⟩
  · simp only [List.head?_nil, Option.map_none, List.getLast?_nil, List.length_nil] at h2 h3 h4
    refine ⟨⟨fun q => if q = p then some ⟨d, none, none, some l⟩ else s.node q,
      fun k => if k = l then ⟨some p, some p, 1⟩ else s.hdr k⟩, ?_, ?_⟩
    · simp [pushTailNode, deref, hn, setNode, setHdr, h2, h3, h4, bind, Except.bind, pure, Except.pure]
      funext k; split <;> simp_all
    · refine ⟨by simp, by simp, by simp, ?_, ?_, by simp⟩
      · intro q hq _ _; simp [hq]
      · intro k hk; simp [hk]
  · obtain ⟨a, e⟩ := x
    simp only [List.concat_eq_append, List.getLast?_append, List.getLast?_singleton,
      Option.some_or, Option.map_some] at *
    have hc := h5 ys a e [] rfl
    have hap : a ≠ p := by rintro rfl; simp at hnm
    have hhd : (ys ++ [(a, e)]).head?.map Prod.fst ≠ none := by
      cases ys <;> simp
    refine ⟨⟨fun q => if q = a then some ⟨e, some p, ys.getLast?.map Prod.fst, some l⟩
        else if q = p then some ⟨d, none, some a, some l⟩ else s.node q,
      fun k => if k = l then ⟨(ys ++ [(a, e)]).head?.map Prod.fst, some p, ys.length + 1 + 1⟩ else s.hdr k⟩, ?_, ?_⟩
    · simp [pushTailNode, deref, hn, setNode, setHdr, h2, h3, h4, hc, hap, bind, Except.bind, pure, Except.pure]
      funext k; split <;> simp_all
    · refine ⟨by simp [hap.symm], ?_, by simp, ?_, ?_, ?_⟩
      · intro q hq
        simp at hq
        subst hq; simp [hc]
      · intro q hq hq2 _
        simp at hq2
        simp [hq, Ne.symm hq2]
      · intro k hk; simp [hk]
      · simp

theorem insertBeforeNode_linked {s : Heap α} {l p nx : Nat} {d e : α} {pre post : List (Nat × α)}
    (h : Rep s l (pre ++ (nx, e) :: post)) (hp : Detached s p d) :
    ∃ s', insertBeforeNode s nx p = .ok s' ∧ Linked s s' l p d pre ((nx, e) :: post) := by
  have hc := h.cell pre nx e post rfl
  rcases List.eq_nil_or_concat pre with rfl | ⟨ys, x, rfl⟩
  · obtain ⟨s', e1, e2⟩ := pushHeadNode_linked h hp
    refine ⟨s', ?_, e2⟩
    have : head s l = some nx := by unfold head; rw [h.hd]; rfl
    simp [insertBeforeNode, deref, hc, bind, Except.bind, this, e1]
  · have hnm := h.not_mem_of_detached hp
    obtain ⟨a, f⟩ := x
    simp only [List.concat_eq_append] at *
    have hca := h.cell ys a f ((nx, e) :: post) (by simp)
    obtain ⟨nx', pv', hn⟩ := hp
    have hnd := h.nodup
    have hhd : head s l ≠ some nx := by
      unfold head; rw [h.hd]
      intro hbad
      simp only [List.map_append, List.map_cons, List.append_assoc, List.singleton_append, List.map_nil] at hnd
      cases ys with
      | nil =>
        simp at hbad hnd; exact hnd.1.1 hbad
      | cons y ys =>
        simp at hbad hnd; exact hnd.1.2.2.1 hbad
    have hanx : a ≠ nx := by
      intro hbad; subst hbad
      simp [List.nodup_append] at hnd
    have hap : a ≠ p := by rintro rfl; simp at hnm
    have hnxp : nx ≠ p := by rintro rfl; simp at hnm
    simp only [List.getLast?_append, List.getLast?_singleton, Option.some_or, Option.map_some,
      List.head?_cons] at hc hca
    refine ⟨⟨fun q => if q = p then some ⟨d, some nx, some a, some l⟩
        else if q = nx then some ⟨e, post.head?.map Prod.fst, some p, some l⟩
        else if q = a then some ⟨f, some p, ys.getLast?.map Prod.fst, some l⟩ else s.node q,
      fun k => if k = l then { s.hdr l with count := (s.hdr l).count + 1 } else s.hdr k⟩, ?_, ?_⟩
    · have hhd' : ¬ some nx = head s l := fun hh => hhd hh.symm
      simp [insertBeforeNode, deref, hc, hca, hn, setNode, setHdr, hap, hnxp, hanx, hanx.symm,
        hap.symm, hnxp.symm, bind, Except.bind, pure, Except.pure, hhd']
      funext q
      by_cases h1 : q = p
      · simp [h1, hnxp.symm]
      · by_cases h2 : q = nx
        · simp [h2, hnxp]
        · by_cases h3 : q = a <;> simp [h1, h2, h3]
    · refine ⟨by simp, ?_, ?_, ?_, ?_, ?_⟩
      · intro q hq
        simp at hq; subst hq
        simp [hap, hanx, hca]
      · intro q hq
        simp at hq; subst hq
        simp [hnxp, hc]
      · intro q h1 h2 h3
        simp at h2 h3
        simp [h1, Ne.symm h2, Ne.symm h3]
      · intro k hk; simp [hk]
      · have hh := h.hd; have ht := h.tl; have hn := h.cnt
        simp only [if_true, hh, ht, hn]
        congr 1
        · cases ys <;> simp
        · simp [List.getLast?_append, List.getLast?_cons]

theorem insertAfterNode_linked {s : Heap α} {l p pv : Nat} {d e : α} {pre post : List (Nat × α)}
    (h : Rep s l (pre ++ (pv, e) :: post)) (hp : Detached s p d) :
    ∃ s', insertAfterNode s pv p = .ok s' ∧ Linked s s' l p d (pre ++ [(pv, e)]) post := by
  have hc := h.cell pre pv e post rfl
  cases post with
  | nil =>
    obtain ⟨s', e1, e2⟩ := pushTailNode_linked h hp
    refine ⟨s', ?_, e2⟩
    have : tail s l = some pv := by unfold tail; rw [h.tl]; simp
    simp [insertAfterNode, deref, hc, bind, Except.bind, this, e1]
  | cons x post =>
    have hnm := h.not_mem_of_detached hp
    obtain ⟨a, f⟩ := x
    have hca := h.cell (pre ++ [(pv, e)]) a f post (by simp)
    obtain ⟨nx', pv', hn⟩ := hp
    have hnd := h.nodup
    have hapv : a ≠ pv := by
      intro hbad; subst hbad
      simp [List.nodup_append] at hnd
    have htl : tail s l ≠ some pv := by
      unfold tail; rw [h.tl]
      intro hbad
      simp only [List.getLast?_append, List.getLast?_cons_cons] at hbad
      obtain ⟨⟨b, g⟩, hb, rfl⟩ := Option.map_eq_some_iff.mp hbad
      have hlast : ((a, f) :: post).getLast? = some (b, g) := by
        cases hz : ((a, f) :: post).getLast? with
        | none => simp at hz
        | some w => rw [hz] at hb; simpa using hb
      have hmem : b ∈ ((a, f) :: post).map Prod.fst :=
        List.mem_map.mpr ⟨_, List.mem_of_getLast? hlast, rfl⟩
      simp only [List.map_append, List.map_cons, List.nodup_append, List.nodup_cons] at hnd
      exact hnd.2.1.1 (by simpa using hmem)
    have hap : a ≠ p := by rintro rfl; simp at hnm
    have hpvp : pv ≠ p := by rintro rfl; simp at hnm
    simp only [List.getLast?_append, List.getLast?_singleton, Option.some_or, Option.map_some,
      List.head?_cons] at hc hca
    refine ⟨⟨fun q => if q = p then some ⟨d, some a, some pv, some l⟩
        else if q = pv then some ⟨e, some p, pre.getLast?.map Prod.fst, some l⟩
        else if q = a then some ⟨f, post.head?.map Prod.fst, some p, some l⟩ else s.node q,
      fun k => if k = l then { s.hdr l with count := (s.hdr l).count + 1 } else s.hdr k⟩, ?_, ?_⟩
    · have htl' : ¬ some pv = tail s l := fun hh => htl hh.symm
      simp [insertAfterNode, deref, hc, hca, hn, setNode, setHdr, hap, hpvp, hapv, hapv.symm,
        hap.symm, hpvp.symm, bind, Except.bind, pure, Except.pure, htl']
      funext q
      by_cases h1 : q = p
      · simp [h1, hpvp.symm]
      · by_cases h2 : q = pv
        · simp [h2, hpvp]
        · by_cases h3 : q = a <;> simp [h1, h2, h3]
    · refine ⟨by simp, ?_, ?_, ?_, ?_, ?_⟩
      · intro q hq
        simp at hq; subst hq
        simp [hpvp, hc]
      · intro q hq
        simp at hq; subst hq
        simp [hap, hapv, hca]
      · intro q h1 h2 h3
        simp at h2 h3
        simp [h1, Ne.symm h2, Ne.symm h3]
      · intro k hk; simp [hk]
      · have hh := h.hd; have ht := h.tl; have hn := h.cnt
        simp only [if_true, hh, ht, hn]
        congr 1
        · cases pre <;> simp
        · simp [List.getLast?_append, List.getLast?_cons]
        · simp

/-- The generic removal. -/
structure Unlinked (s s' : Heap α) (l p : Nat) (d : α) (pre post : List (Nat × α)) : Prop where
  gone : ∃ nx pv, s'.node p = some ⟨d, nx, pv, none⟩
  left : ∀ q, pre.getLast?.map Prod.fst = some q →
    s'.node q = (s.node q).map fun n => { n with next := post.head?.map Prod.fst }
  right : ∀ q, post.head?.map Prod.fst = some q →
    s'.node q = (s.node q).map fun n => { n with prev := pre.getLast?.map Prod.fst }
  other : ∀ q, q ≠ p → pre.getLast?.map Prod.fst ≠ some q → post.head?.map Prod.fst ≠ some q →
    s'.node q = s.node q
  hdrO : ∀ k, k ≠ l → s'.hdr k = s.hdr k
  hdrL : s'.hdr l = ⟨(pre ++ post).head?.map Prod.fst,
    (pre ++ post).getLast?.map Prod.fst, (pre ++ post).length⟩

theorem Unlinked.rep {s s' : Heap α} {l p : Nat} {d : α} {pre post : List (Nat × α)}
    (hL : Unlinked s s' l p d pre post) (h : Rep s l (pre ++ (p, d) :: post)) :
    Rep s' l (pre ++ post) := by
  obtain ⟨h1, h2, h3, h4, h5⟩ := h
  have h1' := h1
  simp only [List.map_append, List.map_cons, List.nodup_append, List.nodup_cons] at h1
  obtain ⟨n1, ⟨n2, n3⟩, n4⟩ := h1
  have hpp : p ∉ pre.map Prod.fst := fun hm => n4 p hm p List.mem_cons_self rfl
  have hdisj : ∀ a, a ∈ pre.map Prod.fst → a ∉ post.map Prod.fst :=
    fun a ha hb => n4 a ha a (List.mem_cons_of_mem _ hb) rfl
  refine ⟨?_, by rw [hL.hdrL], by rw [hL.hdrL], by rw [hL.hdrL], ?_⟩
  · rw [List.map_append, List.nodup_append]
    exact ⟨n1, n3, fun a ha b hb hab => hdisj a ha (hab ▸ hb)⟩
  · intro pre' a e post' heq
    rcases List.append_eq_append_iff.mp heq with ⟨c, e1, e2⟩ | ⟨c, e1, e2⟩
    · -- pre' = pre ++ c, post = c ++ (a,e)::post'
      have hc := h5 (pre ++ (p, d) :: c) a e post' (by rw [e2]; simp)
      have hapost : a ∈ post.map Prod.fst := by rw [e2]; simp
      have hap : a ≠ p := by rintro rfl; exact n2 hapost
      cases c with
      | nil =>
        simp only [List.nil_append, List.append_nil] at e1 e2
        subst e1
        rw [hL.right a (by rw [e2]; rfl), hc]
        simp
      | cons z c =>
        have hne : pre.getLast?.map Prod.fst ≠ some a := by
          intro hc'
          obtain ⟨⟨b, f⟩, hb, rfl⟩ := Option.map_eq_some_iff.mp hc'
          exact hdisj b (List.mem_map.mpr ⟨_, List.mem_of_getLast? hb, rfl⟩) hapost
        have hne2 : post.head?.map Prod.fst ≠ some a := by
          rw [e2]
          intro hc'
          simp at hc'
          rw [e2] at n3
          simp [hc'] at n3
        rw [hL.other a hap hne hne2, hc, e1]
        simp [List.getLast?_append, List.getLast?_cons]
    · -- pre = pre' ++ c, (a,e)::post' = c ++ post
      cases c with
      | nil =>
        simp only [List.nil_append, List.append_nil] at e1 e2
        subst e1
        have hc := h5 (pre ++ [(p, d)]) a e post' (by rw [← e2]; simp)
        rw [hL.right a (by rw [← e2]; rfl), hc]
        simp
      | cons y c =>
        simp only [List.cons_append, List.cons.injEq] at e2
        obtain ⟨rfl, e2⟩ := e2
        have hc := h5 pre' a e (c ++ (p, d) :: post) (by rw [e1]; simp)
        have hapre : a ∈ pre.map Prod.fst := by rw [e1]; simp
        have hap : a ≠ p := by rintro rfl; exact hpp hapre
        cases c with
        | nil =>
          simp only [List.nil_append] at e2 hc
          rw [hL.left a (by rw [e1]; simp), hc, e2]
          simp
        | cons z c =>
          have hne : pre.getLast?.map Prod.fst ≠ some a := by
            rw [e1]
            intro hc'
            have hnd := n1
            rw [e1, List.map_append, List.nodup_append] at hnd
            have hnd2 := hnd.2.1
            simp only [List.map_cons, List.nodup_cons] at hnd2
            rw [List.getLast?_append, List.getLast?_cons_cons] at hc'
            obtain ⟨⟨b, f⟩, hb, rfl⟩ := Option.map_eq_some_iff.mp hc'
            have hlast : (z :: c).getLast? = some (b, f) := by
              cases hz : (z :: c).getLast? with
              | none => simp at hz
              | some w => rw [hz] at hb; simpa using hb
            apply hnd2.1
            rw [← List.map_cons]
            exact List.mem_map.mpr ⟨_, List.mem_of_getLast? hlast, rfl⟩
          have hne2 : post.head?.map Prod.fst ≠ some a := by
            intro hc'
            obtain ⟨⟨b, f⟩, hb, rfl⟩ := Option.map_eq_some_iff.mp hc'
            exact hdisj b hapre (List.mem_map.mpr ⟨_, List.mem_of_head? hb, rfl⟩)
          rw [hL.other a hap hne hne2, hc, e2]
          simp

theorem Unlinked.frame {s s' : Heap α} {l p : Nat} {d : α} {pre post : List (Nat × α)}
    (hL : Unlinked s s' l p d pre post) (h : Rep s l (pre ++ (p, d) :: post)) {k : Nat} (hk : k ≠ l)
    {ys : List (Nat × α)} (hy : Rep s k ys) : Rep s' k ys := by
  refine hy.frame (hL.hdrO k hk) ?_
  intro q hq
  have hqx : q ∉ (pre ++ (p, d) :: post).map Prod.fst := hy.disjoint h hk hq
  apply hL.other q
  · rintro rfl; apply hqx; simp
  · intro hc
    obtain ⟨⟨b, f⟩, hb, rfl⟩ := Option.map_eq_some_iff.mp hc
    exact hqx (by simp only [List.map_append, List.mem_append]; left
                  exact List.mem_map.mpr ⟨_, List.mem_of_getLast? hb, rfl⟩)
  · intro hc
    obtain ⟨⟨b, f⟩, hb, rfl⟩ := Option.map_eq_some_iff.mp hc
    exact hqx (by simp only [List.map_append, List.mem_append, List.map_cons, List.mem_cons]; right; right
                  exact List.mem_map.mpr ⟨_, List.mem_of_head? hb, rfl⟩)

theorem unlink_unlinked {s : Heap α} {l p : Nat} {d : α} {pre post : List (Nat × α)}
    (h : Rep s l (pre ++ (p, d) :: post)) :
    ∃ s', unlink s p = .ok s' ∧ Unlinked s s' l p d pre post := by
  have hc := h.cell pre p d post rfl
  have hnd := h.nodup
  have hhd := h.hd
  have htl := h.tl
  have hcnt := h.cnt
  simp only [List.map_append, List.map_cons, List.nodup_append, List.nodup_cons] at hnd
  obtain ⟨n1, ⟨n2, n3⟩, n4⟩ := hnd
  have hpp : p ∉ pre.map Prod.fst := fun hm => n4 p hm p List.mem_cons_self rfl
  have hdisj : ∀ a, a ∈ pre.map Prod.fst → a ∉ post.map Prod.fst :=
    fun a ha hb => n4 a ha a (List.mem_cons_of_mem _ hb) rfl
  rcases List.eq_nil_or_concat pre with rfl | ⟨ys, ⟨a, f⟩, rfl⟩
  · cases post with
    | nil =>
      simp only [List.nil_append, List.head?_nil, List.getLast?_nil, Option.map_none] at hc
      simp only [List.nil_append, List.head?_cons, Option.map_some, List.getLast?_singleton,
        List.length_singleton] at hhd htl hcnt
      refine ⟨⟨fun q => if q = p then some ⟨d, none, none, none⟩ else s.node q,
        fun k => if k = l then ⟨none, none, 0⟩ else s.hdr k⟩, ?_, ?_⟩
      · simp [unlink, deref, hc, setNode, setHdr, hhd, htl, hcnt, bind, Except.bind]
        funext k; split <;> simp_all
      · refine ⟨⟨none, none, by simp⟩, by simp, by simp, ?_, ?_, by simp⟩
        · intro q hq _ _; simp [hq]
        · intro k hk; simp [hk]
    | cons x post =>
      obtain ⟨b, g⟩ := x
      have hcb := h.cell [(p, d)] b g post rfl
      have hbp : b ≠ p := by rintro rfl; simp at n2
      simp only [List.nil_append, List.head?_cons, List.getLast?_nil, Option.map_none,
        Option.map_some, List.getLast?_singleton] at hc hcb
      have hlast : ((p, d) :: (b, g) :: post).getLast? = ((b, g) :: post).getLast? := by
        simp [List.getLast?_cons]
      simp only [List.nil_append, List.head?_cons, Option.map_some, hlast, List.length_cons] at hhd htl hcnt
      have htlp : Option.map Prod.fst ((b, g) :: post).getLast? ≠ some p := by
        intro hbad
        obtain ⟨⟨c, w⟩, hb, rfl⟩ := Option.map_eq_some_iff.mp hbad
        exact n2 (List.mem_map.mpr ⟨_, List.mem_of_getLast? hb, rfl⟩)
      refine ⟨⟨fun q => if q = p then some ⟨d, some b, none, none⟩
          else if q = b then some ⟨g, post.head?.map Prod.fst, none, some l⟩ else s.node q,
        fun k => if k = l then ⟨some b, ((b, g) :: post).getLast?.map Prod.fst, post.length + 1⟩ else s.hdr k⟩, ?_, ?_⟩
      · simp [unlink, deref, hc, hcb, setNode, setHdr, hhd, htl, hcnt, bind, Except.bind, hbp, hbp.symm, htlp]
        funext k; split <;> simp_all
      · refine ⟨⟨_, _, by simp; exact ⟨rfl, rfl⟩⟩, by simp, ?_, ?_, ?_, by simp⟩
        · intro q hq
          simp at hq; subst hq
          simp [hbp, hcb]
        · intro q hq _ hq2
          simp at hq2
          simp [hq, Ne.symm hq2]
        · intro k hk; simp [hk]
  · simp only [List.concat_eq_append] at *
    have hca := h.cell ys a f ((p, d) :: post) (by simp)
    have hap : a ≠ p := by rintro rfl; simp at hpp
    have hheadne : (ys ++ [(a, f)]).head?.map Prod.fst ≠ some p := by
      intro hbad
      obtain ⟨⟨c, w⟩, hb, rfl⟩ := Option.map_eq_some_iff.mp hbad
      exact hpp (List.mem_map.mpr ⟨_, List.mem_of_head? hb, rfl⟩)
    have hheadeq : (ys ++ [(a, f)] ++ (p, d) :: post).head? = (ys ++ [(a, f)]).head? := by
      cases ys <;> simp
    rw [hheadeq] at hhd
    cases post with
    | nil =>
      simp only [List.getLast?_append, List.getLast?_singleton, Option.some_or, Option.map_some,
        List.head?_cons, List.head?_nil, Option.map_none] at hc hca htl
      simp only [List.length_append, List.length_cons, List.length_nil] at hcnt
      refine ⟨⟨fun q => if q = p then some ⟨d, none, some a, none⟩
          else if q = a then some ⟨f, none, ys.getLast?.map Prod.fst, some l⟩ else s.node q,
        fun k => if k = l then ⟨(ys ++ [(a, f)]).head?.map Prod.fst, some a, ys.length + 1⟩ else s.hdr k⟩, ?_, ?_⟩
      · simp only [unlink, deref, hc, hca, setNode, setHdr, hhd, htl, hcnt, bind, Except.bind, hap,
          hap.symm, hheadne, if_false, if_true]
        simp
        funext k; split <;> simp_all
      · refine ⟨⟨_, _, by simp; exact ⟨rfl, rfl⟩⟩, ?_, by simp, ?_, ?_, by simp⟩
        · intro q hq
          simp at hq; subst hq
          simp [hap, hca]
        · intro q hq hq2 _
          simp at hq2
          simp [hq, Ne.symm hq2]
        · intro k hk; simp [hk]
    | cons x post =>
      obtain ⟨b, g⟩ := x
      have hcb := h.cell (ys ++ [(a, f)] ++ [(p, d)]) b g post (by simp)
      have hbp : b ≠ p := by rintro rfl; simp at n2
      have hab : a ≠ b := by
        rintro rfl
        exact hdisj a (by simp) (by simp)
      have hlast : (ys ++ [(a, f)] ++ (p, d) :: (b, g) :: post).getLast? = ((b, g) :: post).getLast? := by
        simp [List.getLast?_append, List.getLast?_cons]
      rw [hlast] at htl
      have htlp : Option.map Prod.fst ((b, g) :: post).getLast? ≠ some p := by
        intro hbad
        obtain ⟨⟨c, w⟩, hb, rfl⟩ := Option.map_eq_some_iff.mp hbad
        exact n2 (List.mem_map.mpr ⟨_, List.mem_of_getLast? hb, rfl⟩)
      simp only [List.getLast?_append, List.getLast?_singleton, Option.some_or, Option.map_some,
        List.head?_cons] at hc hca hcb
      simp only [List.length_append, List.length_cons, List.length_nil] at hcnt
      refine ⟨⟨fun q => if q = p then some ⟨d, some b, some a, none⟩
          else if q = a then some ⟨f, some b, ys.getLast?.map Prod.fst, some l⟩
          else if q = b then some ⟨g, post.head?.map Prod.fst, some a, some l⟩ else s.node q,
        fun k => if k = l then ⟨(ys ++ [(a, f)]).head?.map Prod.fst, ((b, g) :: post).getLast?.map Prod.fst,
          ys.length + 1 + (post.length + 1)⟩ else s.hdr k⟩, ?_, ?_⟩
      · simp only [unlink, deref, hc, hca, hcb, setNode, setHdr, hhd, htl, hcnt, bind, Except.bind, hap,
          hap.symm, hbp, hbp.symm, hab, hab.symm, hheadne, htlp, if_false, if_true]
        congr 2
        · funext q
          by_cases h1 : q = p
          · simp [h1]
          · by_cases h2 : q = a
            · simp [h2, hap, hab]
            · by_cases h3 : q = b
              · simp [h3, hbp, hab.symm]
              · simp [h1, h2, h3]
      · refine ⟨⟨_, _, by simp; exact ⟨rfl, rfl⟩⟩, ?_, ?_, ?_, ?_, by simp [List.getLast?_append, List.getLast?_cons]; try omega⟩
        · intro q hq
          simp at hq; subst hq
          simp [hap, hca]
        · intro q hq
          simp at hq; subst hq
          simp [hbp, hab.symm, hcb]
        · intro q h1 h2 h3
          simp at h2 h3
          simp [h1, Ne.symm h2, Ne.symm h3]
        · intro k hk; simp [hk]

/-! ## delete, pops -/

theorem Unlinked.detached {s s' : Heap α} {l p : Nat} {d : α} {pre post : List (Nat × α)}
    (hL : Unlinked s s' l p d pre post) : Detached s' p d := hL.gone

theorem delete_rep {s : Heap α} {l p : Nat} {d : α} {pre post : List (Nat × α)}
    (h : Rep s l (pre ++ (p, d) :: post)) :
    ∃ s', delete s p = .ok s' ∧ Rep s' l (pre ++ post) ∧ s'.node p = none ∧
      (∀ k ys, k ≠ l → Rep s k ys → Rep s' k ys) ∧
      (∀ q e, Detached s q e → Detached s' q e) ∧
      (∀ q, q ∉ (pre ++ (p, d) :: post).map Prod.fst → s'.node q = s.node q) := by
  obtain ⟨s1, e1, hU⟩ := unlink_unlinked h
  have hr := hU.rep h
  obtain ⟨nx, pv, hp⟩ := hU.gone
  have hnd := h.nodup
  simp only [List.map_append, List.map_cons, List.nodup_append, List.nodup_cons] at hnd
  obtain ⟨n1, ⟨n2, n3⟩, n4⟩ := hnd
  have hpx : p ∉ (pre ++ post).map Prod.fst := by
    simp only [List.map_append, List.mem_append, not_or]
    exact ⟨fun hm => n4 p hm p List.mem_cons_self rfl, n2⟩
  have hother : ∀ q, q ∉ (pre ++ (p, d) :: post).map Prod.fst → s1.node q = s.node q := by
    intro q hq
    apply hU.other q
    · rintro rfl; apply hq; simp
    · intro hc
      obtain ⟨⟨b, f⟩, hb, rfl⟩ := Option.map_eq_some_iff.mp hc
      exact hq (by simp only [List.map_append, List.mem_append]; left
                   exact List.mem_map.mpr ⟨_, List.mem_of_getLast? hb, rfl⟩)
    · intro hc
      obtain ⟨⟨b, f⟩, hb, rfl⟩ := Option.map_eq_some_iff.mp hc
      exact hq (by simp only [List.map_append, List.mem_append, List.map_cons, List.mem_cons]; right; right
                   exact List.mem_map.mpr ⟨_, List.mem_of_head? hb, rfl⟩)
  refine ⟨⟨fun q => if q = p then none else s1.node q, s1.hdr⟩, ?_, ?_, by simp, ?_, ?_, ?_⟩
  · simp [delete, e1, bind, Except.bind, freeNode, hp]
  · refine hr.frame rfl ?_
    intro q hq
    have : q ≠ p := by rintro rfl; exact hpx hq
    simp [this]
  · intro k ys hk hy
    have hy1 := hU.frame h hk hy
    refine hy1.frame rfl ?_
    intro q hq
    have : q ≠ p := by
      rintro rfl
      obtain ⟨⟨a, e⟩, ha, rfl⟩ := List.mem_map.mp hq
      obtain ⟨n, h1, h2, _⟩ := hy1.owner ha
      rw [hp] at h1; cases h1; simp at h2
    simp [this]
  · intro q e hq
    have hqx := h.not_mem_of_detached hq
    have hqp : q ≠ p := by rintro rfl; apply hqx; simp
    obtain ⟨nx', pv', hn⟩ := hq
    exact ⟨nx', pv', by simp only [hqp, if_false]; rw [hother q hqx]; exact hn⟩
  · intro q hq
    have hqp : q ≠ p := by rintro rfl; apply hq; simp
    simp only [hqp, if_false]
    exact hother q hq

theorem popHead_rep {s : Heap α} {l : Nat} {xs : List (Nat × α)} (h : Rep s l xs) :
    ∃ s', popHead s l = .ok (xs.head?.map Prod.snd, s') ∧ Rep s' l xs.tail ∧
      (∀ k ys, k ≠ l → Rep s k ys → Rep s' k ys) := by
  cases xs with
  | nil =>
    refine ⟨s, ?_, h, fun _ _ _ h' => h'⟩
    have : head s l = none := by unfold head; rw [h.hd]; rfl
    simp [popHead, this]
  | cons x xs =>
    obtain ⟨p, d⟩ := x
    obtain ⟨s', e1, e2, _, e4, _⟩ := delete_rep (pre := []) h
    refine ⟨s', ?_, e2, e4⟩
    have : head s l = some p := by unfold head; rw [h.hd]; rfl
    have hc := h.cell [] p d xs rfl
    simp [popHead, this, deref, hc, bind, Except.bind, e1, pure, Except.pure]

theorem popTail_rep {s : Heap α} {l : Nat} {xs : List (Nat × α)} (h : Rep s l xs) :
    ∃ s', popTail s l = .ok (xs.getLast?.map Prod.snd, s') ∧ Rep s' l xs.dropLast ∧
      (∀ k ys, k ≠ l → Rep s k ys → Rep s' k ys) := by
  rcases List.eq_nil_or_concat xs with rfl | ⟨ys, ⟨p, d⟩, rfl⟩
  · refine ⟨s, ?_, h, fun _ _ _ h' => h'⟩
    have : tail s l = none := by unfold tail; rw [h.tl]; rfl
    simp [popTail, this]
  · simp only [List.concat_eq_append] at *
    obtain ⟨s', e1, e2, _, e4, _⟩ := delete_rep (pre := ys) (post := []) h
    refine ⟨s', ?_, by simpa using e2, e4⟩
    have : tail s l = some p := by unfold tail; rw [h.tl]; simp
    have hc := h.cell ys p d [] rfl
    simp [popTail, this, deref, hc, bind, Except.bind, e1, pure, Except.pure]

theorem popHeadNode_rep {s : Heap α} {l : Nat} {xs : List (Nat × α)} (h : Rep s l xs) :
    ∃ s', popHeadNode s l = .ok (xs.head?.map Prod.fst, s') ∧ Rep s' l xs.tail ∧
      (∀ x, xs.head? = some x → Detached s' x.1 x.2) ∧
      (∀ k ys, k ≠ l → Rep s k ys → Rep s' k ys) := by
  cases xs with
  | nil =>
    refine ⟨s, ?_, h, by simp, fun _ _ _ h' => h'⟩
    have : head s l = none := by unfold head; rw [h.hd]; rfl
    simp [popHeadNode, this]
  | cons x xs =>
    obtain ⟨p, d⟩ := x
    obtain ⟨s', e1, hU⟩ := unlink_unlinked (pre := []) h
    refine ⟨s', ?_, hU.rep h, ?_, fun k ys hk hy => hU.frame h hk hy⟩
    · have : head s l = some p := by unfold head; rw [h.hd]; rfl
      simp [popHeadNode, this, bind, Except.bind, e1, pure, Except.pure]
    · intro x hx; simp at hx; subst hx; exact hU.gone

theorem popTailNode_rep {s : Heap α} {l : Nat} {xs : List (Nat × α)} (h : Rep s l xs) :
    ∃ s', popTailNode s l = .ok (xs.getLast?.map Prod.fst, s') ∧ Rep s' l xs.dropLast ∧
      (∀ x, xs.getLast? = some x → Detached s' x.1 x.2) ∧
      (∀ k ys, k ≠ l → Rep s k ys → Rep s' k ys) := by
  rcases List.eq_nil_or_concat xs with rfl | ⟨ys, ⟨p, d⟩, rfl⟩
  · refine ⟨s, ?_, h, by simp, fun _ _ _ h' => h'⟩
    have : tail s l = none := by unfold tail; rw [h.tl]; rfl
    simp [popTailNode, this]
  · simp only [List.concat_eq_append] at *
    obtain ⟨s', e1, hU⟩ := unlink_unlinked (pre := ys) (post := []) h
    refine ⟨s', ?_, by simpa using hU.rep h, ?_, fun k ys hk hy => hU.frame h hk hy⟩
    · have : tail s l = some p := by unfold tail; rw [h.tl]; simp
      simp [popTailNode, this, bind, Except.bind, e1, pure, Except.pure]
    · intro x hx; simp at hx; subst hx; exact hU.gone

/-! ## traversals -/

/-- What `_find_node` looks for, on a plain sequence: the first element whose comparison is
non-zero; nothing if that comparison is -1. -/
def findSpec (cmp : α → α → Int) (d : α) : List (Nat × α) → Option Nat
  | [] => none
  | (p, e) :: xs => if cmp d e = -1 then none else if cmp d e ≠ 0 then some p else findSpec cmp d xs

theorem findLoop_fwd {s : Heap α} {l : Nat} {xs : List (Nat × α)} (h : Rep s l xs)
    (cmp : α → α → Int) (d : α) (post pre : List (Nat × α)) (e : xs = pre ++ post) (fuel : Nat)
    (hf : post.length ≤ fuel) :
    findLoop s cmp d true fuel (post.head?.map Prod.fst) = .ok (findSpec cmp d post) := by
  induction post generalizing pre fuel with
  | nil => cases fuel <;> rfl
  | cons x post ih =>
    obtain ⟨p, f⟩ := x
    cases fuel with
    | zero => simp at hf
    | succ fuel =>
      have hc := h.cell pre p f post e
      have := ih (pre ++ [(p, f)]) (by rw [e]; simp) fuel (by simpa using hf)
      simp only [List.head?_cons, Option.map_some, findLoop, deref, hc, bind, Except.bind, findSpec,
        if_true, this, pure, Except.pure]
      split
      · rfl
      · split <;> rfl

theorem findLoop_rev {s : Heap α} {l : Nat} {xs : List (Nat × α)} (h : Rep s l xs)
    (cmp : α → α → Int) (d : α) (rpre : List (Nat × α)) (post : List (Nat × α))
    (e : xs = rpre.reverse ++ post) (fuel : Nat) (hf : rpre.length ≤ fuel) :
    findLoop s cmp d false fuel (rpre.head?.map Prod.fst) = .ok (findSpec cmp d rpre) := by
  induction rpre generalizing post fuel with
  | nil => cases fuel <;> rfl
  | cons x rpre ih =>
    obtain ⟨p, f⟩ := x
    cases fuel with
    | zero => simp at hf
    | succ fuel =>
      have hc := h.cell rpre.reverse p f post (by rw [e]; simp)
      have := ih ((p, f) :: post) (by rw [e]; simp) fuel (by simpa using hf)
      simp only [List.getLast?_reverse] at hc
      simp only [List.head?_cons, Option.map_some, findLoop, deref, hc, bind, Except.bind, findSpec,
        this, pure, Except.pure, Bool.false_eq_true, if_false]
      split
      · rfl
      · split <;> rfl

theorem findNode_eq {s : Heap α} {l : Nat} {xs : List (Nat × α)} (h : Rep s l xs)
    (cmp : α → α → Int) (d : α) {fuel : Nat} (hf : xs.length ≤ fuel) :
    findNode s l cmp d fuel = .ok (findSpec cmp d xs) := by
  unfold findNode head
  rw [h.hd]
  exact findLoop_fwd h cmp d xs [] rfl fuel hf

theorem findNodeRev_eq {s : Heap α} {l : Nat} {xs : List (Nat × α)} (h : Rep s l xs)
    (cmp : α → α → Int) (d : α) {fuel : Nat} (hf : xs.length ≤ fuel) :
    findNodeRev s l cmp d fuel = .ok (findSpec cmp d xs.reverse) := by
  unfold findNodeRev tail
  rw [h.tl, ← List.head?_reverse]
  exact findLoop_rev h cmp d xs.reverse [] (by simp) fuel (by simpa using hf)

/-- The first element with `cmp(new, element) ≥ 0`. -/
def seekSpec (cmp : α → α → Int) (d : α) : List (Nat × α) → Option Nat
  | [] => none
  | (p, e) :: xs => if cmp d e ≥ 0 then some p else seekSpec cmp d xs

theorem seekLoop_fwd {s : Heap α} {l : Nat} {xs : List (Nat × α)} (h : Rep s l xs)
    (cmp : α → α → Int) (d : α) (post pre : List (Nat × α)) (e : xs = pre ++ post) (fuel : Nat)
    (hf : post.length ≤ fuel) :
    seekLoop s cmp d true fuel (post.head?.map Prod.fst) = .ok (seekSpec cmp d post) := by
  induction post generalizing pre fuel with
  | nil => cases fuel <;> rfl
  | cons x post ih =>
    obtain ⟨p, f⟩ := x
    cases fuel with
    | zero => simp at hf
    | succ fuel =>
      have hc := h.cell pre p f post e
      have := ih (pre ++ [(p, f)]) (by rw [e]; simp) fuel (by simpa using hf)
      simp only [List.head?_cons, Option.map_some, seekLoop, deref, hc, bind, Except.bind, seekSpec,
        if_true, this, pure, Except.pure]
      split <;> rfl

theorem seekLoop_rev {s : Heap α} {l : Nat} {xs : List (Nat × α)} (h : Rep s l xs)
    (cmp : α → α → Int) (d : α) (rpre : List (Nat × α)) (post : List (Nat × α))
    (e : xs = rpre.reverse ++ post) (fuel : Nat) (hf : rpre.length ≤ fuel) :
    seekLoop s cmp d false fuel (rpre.head?.map Prod.fst) = .ok (seekSpec cmp d rpre) := by
  induction rpre generalizing post fuel with
  | nil => cases fuel <;> rfl
  | cons x rpre ih =>
    obtain ⟨p, f⟩ := x
    cases fuel with
    | zero => simp at hf
    | succ fuel =>
      have hc := h.cell rpre.reverse p f post (by rw [e]; simp)
      have := ih ((p, f) :: post) (by rw [e]; simp) fuel (by simpa using hf)
      simp only [List.getLast?_reverse] at hc
      simp only [List.head?_cons, Option.map_some, seekLoop, deref, hc, bind, Except.bind, seekSpec,
        this, pure, Except.pure, Bool.false_eq_true, if_false]
      split <;> rfl

/-- Split a sequence where the sorted insertion stops. -/
theorem seekSpec_split (cmp : α → α → Int) (d : α) (xs : List (Nat × α)) :
    (seekSpec cmp d xs = none ∧ ∀ x ∈ xs, cmp d x.2 < 0) ∨
    (∃ pre p e post, xs = pre ++ (p, e) :: post ∧ seekSpec cmp d xs = some p ∧ cmp d e ≥ 0 ∧
      ∀ x ∈ pre, cmp d x.2 < 0) := by
  induction xs with
  | nil => left; exact ⟨rfl, by simp⟩
  | cons x xs ih =>
    obtain ⟨p, e⟩ := x
    by_cases hc : cmp d e ≥ 0
    · right
      exact ⟨[], p, e, xs, rfl, by simp [seekSpec, hc], hc, by simp⟩
    · rcases ih with ⟨h1, h2⟩ | ⟨pre, q, f, post, h1, h2, h3, h4⟩
      · left
        refine ⟨by simp [seekSpec, hc, h1], ?_⟩
        intro y hy
        rcases List.mem_cons.mp hy with rfl | hy
        · simp only; omega
        · exact h2 y hy
      · right
        refine ⟨(p, e) :: pre, q, f, post, by rw [h1]; rfl, by simp [seekSpec, hc, h2], h3, ?_⟩
        intro y hy
        rcases List.mem_cons.mp hy with rfl | hy
        · simp only; omega
        · exact h4 y hy

/-- Sorted insertion from the head: the result on sequences. -/
def insSpec (cmp : α → α → Int) (p : Nat) (d : α) : List (Nat × α) → List (Nat × α)
  | [] => [(p, d)]
  | (q, e) :: xs => if cmp d e ≥ 0 then (p, d) :: (q, e) :: xs else (q, e) :: insSpec cmp p d xs

/-- Sorted insertion from the tail: the mirror image. -/
def insSpecRev (cmp : α → α → Int) (p : Nat) (d : α) (xs : List (Nat × α)) : List (Nat × α) :=
  (insSpec cmp p d xs.reverse).reverse

theorem insSpec_none {cmp : α → α → Int} {p : Nat} {d : α} {xs : List (Nat × α)}
    (h : ∀ x ∈ xs, cmp d x.2 < 0) : insSpec cmp p d xs = xs ++ [(p, d)] := by
  induction xs with
  | nil => rfl
  | cons x xs ih =>
    obtain ⟨q, e⟩ := x
    have h1 : cmp d e < 0 := h (q, e) List.mem_cons_self
    have h2 : ¬ cmp d e ≥ 0 := by omega
    simp only [insSpec, h2, if_false, List.cons_append]
    rw [ih fun x hx => h x (List.mem_cons_of_mem _ hx)]

theorem insSpec_split {cmp : α → α → Int} {p : Nat} {d : α} {pre post : List (Nat × α)} {q : Nat} {e : α}
    (h : ∀ x ∈ pre, cmp d x.2 < 0) (hc : cmp d e ≥ 0) :
    insSpec cmp p d (pre ++ (q, e) :: post) = pre ++ (p, d) :: (q, e) :: post := by
  induction pre with
  | nil => simp [insSpec, hc]
  | cons x xs ih =>
    obtain ⟨r, f⟩ := x
    have h1 : cmp d f < 0 := h (r, f) List.mem_cons_self
    have h2 : ¬ cmp d f ≥ 0 := by omega
    simp only [insSpec, h2, if_false, List.cons_append]
    rw [ih fun x hx => h x (List.mem_cons_of_mem _ hx)]

theorem insertSortedNode_linked {s : Heap α} {l p : Nat} {d : α} {xs : List (Nat × α)}
    (h : Rep s l xs) (hp : Detached s p d) (cmp : α → α → Int) {fuel : Nat} (hf : xs.length ≤ fuel) :
    ∃ s' pre post, insertSortedNode s l p cmp fuel = .ok s' ∧ xs = pre ++ post ∧
      Linked s s' l p d pre post ∧ insSpec cmp p d xs = pre ++ (p, d) :: post := by
  have hseek := seekLoop_fwd h cmp d xs [] rfl fuel hf
  have hhd : head s l = xs.head?.map Prod.fst := h.hd
  have hp' := hp
  obtain ⟨nx, pv, hn⟩ := hp'
  rcases seekSpec_split cmp d xs with ⟨h1, h2⟩ | ⟨pre, q, e, post, h1, h2, h3, h4⟩
  · obtain ⟨s', e1, e2⟩ := pushTailNode_linked h hp
    refine ⟨s', xs, [], ?_, by simp, e2, insSpec_none h2⟩
    simp only [insertSortedNode, deref, hn, bind, Except.bind, hhd, hseek, h1, e1]
  · subst h1
    obtain ⟨s', e1, e2⟩ := insertBeforeNode_linked h hp
    refine ⟨s', pre, (q, e) :: post, ?_, rfl, e2, insSpec_split h4 h3⟩
    simp only [insertSortedNode, deref, hn, bind, Except.bind, hhd, hseek, h2, e1]

theorem insertSortedNodeRev_linked {s : Heap α} {l p : Nat} {d : α} {xs : List (Nat × α)}
    (h : Rep s l xs) (hp : Detached s p d) (cmp : α → α → Int) {fuel : Nat} (hf : xs.length ≤ fuel) :
    ∃ s' pre post, insertSortedNodeRev s l p cmp fuel = .ok s' ∧ xs = pre ++ post ∧
      Linked s s' l p d pre post ∧ insSpecRev cmp p d xs = pre ++ (p, d) :: post := by
  have hseek := seekLoop_rev h cmp d xs.reverse [] (by simp) fuel (by simpa using hf)
  have htl : tail s l = xs.reverse.head?.map Prod.fst := by
    rw [List.head?_reverse]; exact h.tl
  have hp' := hp
  obtain ⟨nx, pv, hn⟩ := hp'
  rcases seekSpec_split cmp d xs.reverse with ⟨h1, h2⟩ | ⟨pre, q, e, post, h1, h2, h3, h4⟩
  · obtain ⟨s', e1, e2⟩ := pushHeadNode_linked h hp
    refine ⟨s', [], xs, ?_, by simp, e2, ?_⟩
    · simp only [insertSortedNodeRev, deref, hn, bind, Except.bind, htl, hseek, h1, e1]
    · unfold insSpecRev
      rw [insSpec_none h2]; simp
  · have hx : xs = post.reverse ++ (q, e) :: pre.reverse := by
      have := congrArg List.reverse h1
      simpa using this
    have h' := h
    rw [hx] at h'
    obtain ⟨s', e1, e2⟩ := insertAfterNode_linked h' hp
    refine ⟨s', post.reverse ++ [(q, e)], pre.reverse, ?_, by rw [hx]; simp, e2, ?_⟩
    · simp only [insertSortedNodeRev, deref, hn, bind, Except.bind, htl, hseek, h2, e1]
    · unfold insSpecRev
      rw [h1, insSpec_split h4 h3]; simp

theorem empty_rep {s : Heap α} {l : Nat} {xs : List (Nat × α)} (h : Rep s l xs) {fuel : Nat}
    (hf : xs.length ≤ fuel) :
    ∃ s', empty s l fuel = .ok s' ∧ Rep s' l [] ∧
      (∀ k ys, k ≠ l → Rep s k ys → Rep s' k ys) ∧ (∀ x ∈ xs, s'.node x.1 = none) := by
  induction xs generalizing s fuel with
  | nil =>
    have hz : size s l = 0 := by unfold size; rw [h.cnt]; rfl
    refine ⟨s, ?_, h, fun _ _ _ h' => h', by simp⟩
    cases fuel <;> simp [empty, hz]
  | cons x xs ih =>
    obtain ⟨p, d⟩ := x
    cases fuel with
    | zero => simp at hf
    | succ fuel =>
      have hz : size s l ≠ 0 := by unfold size; rw [h.cnt]; simp
      obtain ⟨s1, e1, e2, e3, e4, _, _⟩ := delete_rep (pre := []) h
      have hnd := h.nodup
      simp only [List.map_cons, List.nodup_cons] at hnd
      obtain ⟨s2, f1, f2, f3, f4⟩ := ih e2 (fuel := fuel) (by simpa using hf)
      refine ⟨s2, ?_, f2, fun k ys hk hy => f3 k ys hk (e4 k ys hk hy), ?_⟩
      · have hh : head s l = some p := by unfold head; rw [h.hd]; rfl
        simp only [empty, hz, if_false, hh, e1, bind, Except.bind, f1]
      · intro y hy
        rcases List.mem_cons.mp hy with rfl | hy
        · -- freed nodes stay freed: they are not on the list any more
          have aux : ∀ (ys : List (Nat × α)) (t t' : Heap α) (fu : Nat), Rep t l ys → t.node p = none →
              empty t l fu = .ok t' → t'.node p = none := by
            intro ys
            induction ys with
            | nil =>
              intro t t' fu ht hp he
              have hz : size t l = 0 := by unfold size; rw [ht.cnt]; rfl
              cases fu <;> simp [empty, hz] at he <;> rw [← he] <;> exact hp
            | cons y ys ih2 =>
              intro t t' fu ht hp he
              obtain ⟨q, w⟩ := y
              cases fu with
              | zero =>
                have hz : size t l ≠ 0 := by unfold size; rw [ht.cnt]; simp
                simp [empty, hz] at he
              | succ fu =>
                have hz : size t l ≠ 0 := by unfold size; rw [ht.cnt]; simp
                have hh : head t l = some q := by unfold head; rw [ht.hd]; rfl
                obtain ⟨t1, g1, g2, g3, _, _, g6⟩ := delete_rep (pre := []) ht
                simp only [empty, hz, if_false, hh, g1, bind, Except.bind] at he
                refine ih2 t1 t' fu g2 ?_ he
                by_cases hpq : p ∈ ((q, w) :: ys).map Prod.fst
                · obtain ⟨⟨a, e⟩, ha, rfl⟩ := List.mem_map.mp hpq
                  obtain ⟨n, h1, _⟩ := ht.owner ha
                  rw [hp] at h1; simp at h1
                · rw [g6 p hpq]; exact hp
          exact aux xs s1 s2 fuel e2 e3 f1
        · exact f4 y hy

/-- What `_for_each` shows to the callback: elements up to and including the first rejected one. -/
def visitSpec (f : α → Bool) : List (Nat × α) → List α
  | [] => []
  | (_, e) :: xs => if f e then e :: visitSpec f xs else [e]

theorem forEach_fwd {s : Heap α} {l : Nat} {xs : List (Nat × α)} (h : Rep s l xs)
    (f : α → Bool) (post pre : List (Nat × α)) (e : xs = pre ++ post) (fuel : Nat)
    (hf : post.length ≤ fuel) :
    forEachLoop s f true fuel (post.head?.map Prod.fst) = .ok (visitSpec f post) := by
  induction post generalizing pre fuel with
  | nil => cases fuel <;> rfl
  | cons x post ih =>
    obtain ⟨p, g⟩ := x
    cases fuel with
    | zero => simp at hf
    | succ fuel =>
      have hc := h.cell pre p g post e
      have := ih (pre ++ [(p, g)]) (by rw [e]; simp) fuel (by simpa using hf)
      simp only [List.head?_cons, Option.map_some, forEachLoop, deref, hc, bind, Except.bind, visitSpec,
        if_true, this, pure, Except.pure]
      split <;> rfl

theorem forEach_rev {s : Heap α} {l : Nat} {xs : List (Nat × α)} (h : Rep s l xs)
    (f : α → Bool) (rpre : List (Nat × α)) (post : List (Nat × α))
    (e : xs = rpre.reverse ++ post) (fuel : Nat) (hf : rpre.length ≤ fuel) :
    forEachLoop s f false fuel (rpre.head?.map Prod.fst) = .ok (visitSpec f rpre) := by
  induction rpre generalizing post fuel with
  | nil => cases fuel <;> rfl
  | cons x rpre ih =>
    obtain ⟨p, g⟩ := x
    cases fuel with
    | zero => simp at hf
    | succ fuel =>
      have hc := h.cell rpre.reverse p g post (by rw [e]; simp)
      have := ih ((p, g) :: post) (by rw [e]; simp) fuel (by simpa using hf)
      simp only [List.getLast?_reverse] at hc
      simp only [List.head?_cons, Option.map_some, forEachLoop, deref, hc, bind, Except.bind, visitSpec,
        this, pure, Except.pure, Bool.false_eq_true, if_false]
      split <;> rfl

/-! ## allocation -/

theorem allocNode_detached {s : Heap α} {a : Nat} {d : α} : Detached (allocNode s a d) a d :=
  ⟨none, none, by simp [allocNode]⟩

theorem allocNode_rep {s : Heap α} {a : Nat} {d : α} (hf : s.node a = none) {k : Nat}
    {ys : List (Nat × α)} (h : Rep s k ys) : Rep (allocNode s a d) k ys := by
  refine h.frame rfl ?_
  intro q hq
  obtain ⟨⟨b, e⟩, hb, rfl⟩ := List.mem_map.mp hq
  obtain ⟨n, h1, _⟩ := h.owner hb
  have : b ≠ a := by rintro rfl; rw [hf] at h1; simp at h1
  simp [allocNode, this]

theorem init_rep (s : Heap α) (l : Nat) : Rep (init s l) l [] := by
  refine ⟨by simp, by simp [init, setHdr], by simp [init, setHdr], by simp [init, setHdr], ?_⟩
  intro pre a d post e
  simp at e

end PtrList
end Rmc
