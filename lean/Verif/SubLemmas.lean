import Verif.Sub

/-! # Lemmas about the model of sub.c -/

set_option linter.unusedSimpArgs false
set_option linter.unusedVariables false

namespace Rmc
namespace SubPub

theorem inc64_eq {n : Nat} (h : n + 1 < U64) : inc64 n = n + 1 := by
  unfold inc64; exact Nat.mod_eq_of_lt h

theorem dec64_eq {n : Nat} (h0 : 0 < n) (h : n < U64) : dec64 n = n - 1 := by
  unfold dec64; simp only [U64] at *; omega

/-! ## The received list -/

/-- Strictly ascending packet ids. -/
def Asc (l : List SPkt) : Prop := l.Pairwise (fun x y => x.pid < y.pid)

theorem findDup_iff {pid : Nat} : ∀ {l : List SPkt}, l.Pairwise (fun x y => y.pid < x.pid) →
    (findDup pid l = true ↔ ∃ x ∈ l, x.pid = pid) := by
  intro l
  induction l with
  | nil => intro _; simp [findDup]
  | cons h t ih =>
    intro hp
    rw [List.pairwise_cons] at hp
    unfold findDup
    split
    · rename_i e; simp [e]
    · rename_i e
      split
      · rename_i g
        simp only [Bool.false_eq_true, List.mem_cons, exists_eq_or_imp, false_iff, not_or, not_exists, not_and]
        refine ⟨fun h => e h.symm, fun x hx he => ?_⟩
        have := hp.1 x hx; omega
      · rename_i g
        rw [ih hp.2]
        simp only [List.mem_cons, exists_eq_or_imp]
        constructor
        · intro h; exact Or.inr h
        · rintro (h | h)
          · exact absurd h.symm e
          · exact h

theorem asc_reverse {l : List SPkt} : l.reverse.Pairwise (fun x y => y.pid < x.pid) ↔ Asc l := by
  unfold Asc; rw [List.pairwise_reverse]

theorem isDuplicate_iff {s : SubPub} (h : Asc s.received) (h0 : s.maxReady ≠ 0) (pid : Nat) :
    isDuplicate s pid = true ↔ pid ≤ s.maxReady ∨ ∃ x ∈ s.received, x.pid = pid := by
  unfold isDuplicate
  rw [if_neg h0]
  split
  · rename_i g; simp [g]
  · rename_i g
    rw [findDup_iff (asc_reverse.mpr h)]
    simp [g]

theorem insertDesc_mem {x y : SPkt} : ∀ {l : List SPkt}, y ∈ insertDesc x l ↔ y = x ∨ y ∈ l := by
  intro l
  induction l with
  | nil => simp [insertDesc]
  | cons h t ih =>
    unfold insertDesc
    split
    · simp
    · simp only [List.mem_cons, ih]; grind

theorem insertDesc_desc {x : SPkt} : ∀ {l : List SPkt}, l.Pairwise (fun a b => b.pid < a.pid) →
    (∀ y ∈ l, y.pid ≠ x.pid) → (insertDesc x l).Pairwise (fun a b => b.pid < a.pid) := by
  intro l
  induction l with
  | nil => intro _ _; simp [insertDesc]
  | cons h t ih =>
    intro hp hx
    have hp' := List.pairwise_cons.mp hp
    unfold insertDesc
    split
    · rename_i g
      rw [List.pairwise_cons]
      refine ⟨?_, hp⟩
      intro y hy
      have h1 := hx h (by simp)
      rcases List.mem_cons.mp hy with rfl | hy
      · omega
      · have := hp'.1 y hy; omega
    · rename_i g
      rw [List.pairwise_cons]
      refine ⟨?_, ih hp'.2 (fun y hy => hx y (by simp [hy]))⟩
      intro y hy
      rcases insertDesc_mem.mp hy with rfl | hy
      · omega
      · exact hp'.1 y hy

theorem processLoop_spec : ∀ (l : List SPkt) (m : Nat), Asc l → m ≠ 0 → (∀ x ∈ l, m < x.pid ∧ x.pid < U64) →
    ∃ k, processLoop m l = (m + k, l.take k, l.drop k) ∧ (l.take k).map (·.pid) = List.range' (m + 1) k ∧
      (∀ x ∈ l.drop k, m + k + 1 < x.pid) := by
  intro l
  induction l with
  | nil => intro m _ _ _; exact ⟨0, rfl, rfl, by simp⟩
  | cons p l ih =>
    intro m ha h0 hm
    have hp := hm p (by simp)
    have ha' := List.pairwise_cons.mp ha
    have hi : inc64 m = m + 1 := inc64_eq (by omega)
    by_cases he : p.pid = m + 1
    · obtain ⟨k, h1, h2, h3⟩ := ih (m + 1) ha'.2 (by omega) (fun x hx => by
        have := ha'.1 x hx; have := (hm x (by simp [hx])).2; omega)
      refine ⟨k + 1, ?_, ?_, ?_⟩
      · unfold processLoop
        rw [if_neg (by rw [hi]; simp [he]), hi, h1]
        simp only [List.take_succ_cons, List.drop_succ_cons, Prod.mk.injEq, and_true]; omega
      · simp only [List.take_succ_cons, List.map_cons, List.range'_succ, h2, he]
      · intro x hx
        have := h3 x (by simpa using hx); omega
    · refine ⟨0, ?_, rfl, ?_⟩
      · unfold processLoop
        rw [if_pos ⟨h0, by rw [hi]; exact he⟩]
        simp
      · intro x hx
        rw [List.drop_zero] at hx
        rcases List.mem_cons.mp hx with rfl | hx
        · omega
        · have := ha'.1 x hx; omega

/-! ## The interval list -/

/-- Sorted, disjoint, non-adjacent, non-empty intervals. -/
def IvWF (l : List Intv) : Prop :=
  l.Pairwise (fun i j => i.last + 1 < j.first) ∧ ∀ i ∈ l, 0 < i.first ∧ i.first ≤ i.last ∧ i.last + 1 < U64

/-- Packet `q` is in one of the intervals. -/
def covers (l : List Intv) (q : Nat) : Prop := ∃ i ∈ l, i.first ≤ q ∧ q ≤ i.last

/-- Each interval's timestamp is the earliest reception time of the packets in it. -/
def IvTs (recv : Nat → Int) (l : List Intv) : Prop :=
  ∀ i ∈ l, (∀ q, i.first ≤ q → q ≤ i.last → i.ts ≤ recv q) ∧ ∃ q, i.first ≤ q ∧ q ≤ i.last ∧ recv q = i.ts

theorem covers_append {l m : List Intv} {q : Nat} : covers (l ++ m) q ↔ covers l q ∨ covers m q := by
  unfold covers; grind

theorem covers_cons {i : Intv} {m : List Intv} {q : Nat} :
    covers (i :: m) q ↔ (i.first ≤ q ∧ q ≤ i.last) ∨ covers m q := by
  unfold covers; grind

theorem covers_nil {q : Nat} : covers [] q ↔ False := by unfold covers; simp

theorem covers_reverse {l : List Intv} {q : Nat} : covers l.reverse q ↔ covers l q := by
  unfold covers; simp

/-- Result of the loop. -/
def AddOK (recv : Nat → Int) (pid : Nat) (l l' : List Intv) : Prop :=
  IvWF l' ∧ (∀ q, covers l' q ↔ covers l q ∨ q = pid) ∧ IvTs recv l'

theorem ivwf_iff {l m : List Intv} : IvWF (l ++ m) ↔ IvWF l ∧ IvWF m ∧ ∀ i ∈ l, ∀ j ∈ m, i.last + 1 < j.first := by
  unfold IvWF; rw [List.pairwise_append]; grind

theorem ivwf_cons {i : Intv} {m : List Intv} : IvWF (i :: m) ↔
    (0 < i.first ∧ i.first ≤ i.last ∧ i.last + 1 < U64) ∧ IvWF m ∧ ∀ j ∈ m, i.last + 1 < j.first := by
  unfold IvWF; rw [List.pairwise_cons]; grind

theorem addLoop_spec {recv : Nat → Int} {pid : Nat} {ts : Int} (h0 : 0 < pid) (h1 : pid + 1 < U64)
    (hr : recv pid = ts) : ∀ (rev after : List Intv), IvWF (rev.reverse ++ after) → ¬ covers (rev.reverse ++ after) pid →
    (∀ i ∈ after, pid + 1 < i.first) → IvTs recv (rev.reverse ++ after) →
    (∀ q, covers (rev.reverse ++ after) q → recv q ≤ ts) →
    AddOK recv pid (rev.reverse ++ after) (addIntervalLoop pid ts rev after) := by
  intro rev
  induction rev with
  | nil =>
    intro after hw hc ha ht hm
    simp only [List.reverse_nil, List.nil_append, addIntervalLoop] at *
    refine ⟨ivwf_cons.mpr ⟨⟨h0, Nat.le_refl _, h1⟩, hw, ha⟩, ?_, ?_⟩
    · intro q; rw [covers_cons]; simp only; constructor <;> intro h <;> grind
    · intro i hi
      rcases List.mem_cons.mp hi with rfl | hi
      · refine ⟨fun q h2 h3 => ?_, pid, Nat.le_refl _, Nat.le_refl _, hr⟩
        have : q = pid := by simp only at h2 h3; omega
        subst this; rw [hr]; exact Int.le_refl _
      · exact ht i hi
  | cons i rev ih =>
    intro after hw hc ha ht hm
    have hw0 := hw
    rw [List.reverse_cons, List.append_assoc, ivwf_iff, List.singleton_append, ivwf_cons] at hw
    obtain ⟨w1, ⟨w2, w3, w4⟩, w5⟩ := hw
    have w6 : ∀ j ∈ rev, j.last + 1 < i.first := fun j hj => w5 j (by simpa using hj) i (by simp)
    have hi1 : inc64 i.last = i.last + 1 := inc64_eq w2.2.2
    have hd1 : dec64 i.first = i.first - 1 := dec64_eq w2.1 (by omega)
    have hci : ¬ (i.first ≤ pid ∧ pid ≤ i.last) := by
      intro h; apply hc; rw [List.reverse_cons, List.append_assoc, covers_append]
      exact Or.inr (by rw [List.singleton_append, covers_cons]; exact Or.inl h)
    have htr : IvTs recv rev.reverse := fun j hj => ht j (by simp at hj ⊢; grind)
    have hti := ht i (by simp)
    have hta : IvTs recv after := fun j hj => ht j (by simp; grind)
    have hmi : ∀ q, i.first ≤ q → q ≤ i.last → recv q ≤ ts := by
      intro q h2 h3; apply hm; rw [List.reverse_cons, List.append_assoc, covers_append, List.singleton_append, covers_cons]
      exact Or.inr (Or.inl ⟨h2, h3⟩)
    have hcov : ∀ q, covers ((i :: rev).reverse ++ after) q ↔ covers rev q ∨ (i.first ≤ q ∧ q ≤ i.last) ∨ covers after q := by
      intro q; rw [List.reverse_cons, List.append_assoc, covers_append, List.singleton_append, covers_cons, covers_reverse]
    unfold addIntervalLoop
    rw [hi1, hd1]
    split
    · -- after i
      rename_i hgt
      refine ⟨?_, ?_, ?_⟩
      · rw [ivwf_iff]
        refine ⟨w1, ?_, ?_⟩
        · rw [ivwf_cons, ivwf_cons]
          refine ⟨w2, ⟨⟨h0, Nat.le_refl _, h1⟩, w3, ha⟩, ?_⟩
          intro j hj
          rcases List.mem_cons.mp hj with rfl | hj
          · exact hgt
          · exact w4 j hj
        · intro a ha' j hj
          have := w6 a (by simpa using ha')
          rcases List.mem_cons.mp hj with rfl | hj
          · exact this
          · rcases List.mem_cons.mp hj with rfl | hj
            · simp only; omega
            · have := ha j hj; omega
      · intro q
        rw [hcov, covers_append, covers_cons, covers_cons, covers_reverse]; simp only; grind
      · intro j hj
        simp only [List.mem_append, List.mem_cons] at hj
        rcases hj with hj | rfl | rfl | hj
        · exact htr j hj
        · exact hti
        · refine ⟨fun q h2 h3 => ?_, pid, Nat.le_refl _, Nat.le_refl _, hr⟩
          have : q = pid := by simp only at h2 h3; omega
          subst this; rw [hr]; exact Int.le_refl _
        · exact hta j hj
    · rename_i hgt
      split
      · -- extend upwards
        rename_i heq
        have hw' : IvWF (rev.reverse ++ ⟨i.first, pid, i.ts⟩ :: after) := by
          rw [ivwf_iff]
          refine ⟨w1, ?_, ?_⟩
          · rw [ivwf_cons]
            exact ⟨⟨w2.1, by simp only; omega, h1⟩, w3, ha⟩
          · intro a ha' j hj
            have h6 := w6 a (by simpa using ha')
            rcases List.mem_cons.mp hj with rfl | hj
            · exact h6
            · have := ha j hj; omega
        have hc' : ∀ q, covers (rev.reverse ++ ⟨i.first, pid, i.ts⟩ :: after) q ↔
            covers ((i :: rev).reverse ++ after) q ∨ q = pid := by
          intro q
          rw [hcov, covers_append, covers_cons, covers_reverse]; simp only
          have : (i.first ≤ q ∧ q ≤ pid) ↔ (i.first ≤ q ∧ q ≤ i.last) ∨ q = pid := by omega
          grind
        have ht' : IvTs recv (rev.reverse ++ ⟨i.first, pid, i.ts⟩ :: after) := by
          intro j hj
          simp only [List.mem_append, List.mem_cons] at hj
          rcases hj with hj | rfl | hj
          · exact htr j hj
          · obtain ⟨q, q1, q2, q3⟩ := hti.2
            refine ⟨fun q' h2 h3 => ?_, q, q1, by simp only; omega, q3⟩
            simp only at h2 h3 ⊢
            by_cases hq : q' = pid
            · subst hq; rw [hr, ← q3]; exact hmi q q1 q2
            · exact hti.1 q' h2 (by omega)
          · exact hta j hj
        cases after with
        | nil => exact ⟨hw', hc', ht'⟩
        | cons n after' =>
          have hn := ha n (by simp)
          have hnf : dec64 n.first = n.first - 1 := dec64_eq (by omega) (by
            have := (ivwf_cons.mp w3).1; omega)
          simp only
          rw [if_neg (by rw [hnf]; omega)]
          exact ⟨hw', hc', ht'⟩
      · rename_i hne
        split
        · -- extend downwards
          rename_i heq
          have hw' : IvWF (rev.reverse ++ ⟨pid, i.last, i.ts⟩ :: after) ∨ ∃ p ∈ rev, p.last + 1 = pid := by
            by_cases hx : ∃ p ∈ rev, p.last + 1 = pid
            · exact Or.inr hx
            · left
              rw [ivwf_iff]
              refine ⟨w1, ?_, ?_⟩
              · rw [ivwf_cons]
                exact ⟨⟨h0, by simp only; omega, w2.2.2⟩, w3, w4⟩
              · intro a ha' j hj
                have ha'' : a ∈ rev := by simpa using ha'
                have h6 := w6 a ha''
                rcases List.mem_cons.mp hj with rfl | hj
                · have : a.last + 1 ≠ pid := fun h => hx ⟨a, ha'', h⟩
                  simp only; omega
                · have := ha j hj; omega
          have hc' : ∀ q, covers (rev.reverse ++ ⟨pid, i.last, i.ts⟩ :: after) q ↔
              covers ((i :: rev).reverse ++ after) q ∨ q = pid := by
            intro q
            rw [hcov, covers_append, covers_cons, covers_reverse]; simp only
            have : (pid ≤ q ∧ q ≤ i.last) ↔ (i.first ≤ q ∧ q ≤ i.last) ∨ q = pid := by omega
            grind
          have ht' : IvTs recv (rev.reverse ++ ⟨pid, i.last, i.ts⟩ :: after) := by
            intro j hj
            simp only [List.mem_append, List.mem_cons] at hj
            rcases hj with hj | rfl | hj
            · exact htr j hj
            · obtain ⟨q, q1, q2, q3⟩ := hti.2
              refine ⟨fun q' h2 h3 => ?_, q, by simp only; omega, q2, q3⟩
              simp only at h2 h3 ⊢
              by_cases hq : q' = pid
              · subst hq; rw [hr, ← q3]; exact hmi q q1 q2
              · exact hti.1 q' (by omega) h3
            · exact hta j hj
          cases rev with
          | nil =>
            refine ⟨?_, hc', ht'⟩
            rcases hw' with h | ⟨p, hp, _⟩
            · exact h
            · simp at hp
          | cons p rev' =>
            have hpm : inc64 p.last = p.last + 1 := inc64_eq (w1.2 p (by simp)).2.2
            simp only
            rw [hpm]
            have w1' := w1
            rw [List.reverse_cons, ivwf_iff, ivwf_cons] at w1'
            have wp := w1'.2.1.1
            have h6p := w6 p (by simp)
            split
            · -- merge
              rename_i hmg
              have htp := ht p (by simp)
              have hmp : ∀ q, p.first ≤ q → q ≤ p.last → recv q ≤ ts := by
                intro q h2 h3; apply hm; rw [hcov]; left; exact ⟨p, by simp, h2, h3⟩
              refine ⟨?_, ?_, ?_⟩
              · rw [ivwf_iff]
                refine ⟨w1'.1, ?_, ?_⟩
                · rw [ivwf_cons]
                  exact ⟨⟨wp.1, by simp only; omega, w2.2.2⟩, w3, w4⟩
                · intro a ha' j hj
                  have hap := w1'.2.2 a ha' p (by simp)
                  rcases List.mem_cons.mp hj with rfl | hj
                  · exact hap
                  · have := ha j hj; omega
              · intro q
                rw [hcov, covers_append, covers_cons, covers_reverse, covers_cons]; simp only
                have : (p.first ≤ q ∧ q ≤ i.last) ↔ (p.first ≤ q ∧ q ≤ p.last) ∨ (i.first ≤ q ∧ q ≤ i.last) ∨ q = pid := by
                  omega
                grind
              · intro j hj
                simp only [List.mem_append, List.mem_cons] at hj
                rcases hj with hj | rfl | hj
                · exact htr j (by simp at hj ⊢; grind)
                · obtain ⟨q, q1, q2, q3⟩ := hti.2
                  obtain ⟨r, r1, r2, r3⟩ := htp.2
                  constructor
                  · intro q' h2 h3
                    simp only at h2 h3 ⊢
                    have hlt : i.ts ≤ ts := by rw [← q3]; exact hmi q q1 q2
                    have hlp : p.ts ≤ ts := by rw [← r3]; exact hmp r r1 r2
                    by_cases hq : q' = pid
                    · subst hq; rw [hr]; split <;> omega
                    · by_cases hlo : q' ≤ p.last
                      · have := htp.1 q' h2 hlo; split <;> omega
                      · have := hti.1 q' (by omega) h3; split <;> omega
                  · simp only
                    split
                    · exact ⟨q, by omega, q2, q3⟩
                    · exact ⟨r, r1, by omega, r3⟩
                · exact hta j hj
            · rename_i hnm
              refine ⟨?_, hc', ht'⟩
              rcases hw' with h | ⟨p', hp', he⟩
              · exact h
              · exfalso
                rcases List.mem_cons.mp hp' with rfl | hp''
                · exact hnm he
                · have := w1'.2.2 p' (by simpa using hp'') p (by simp)
                  omega
        · rename_i hne2
          have := ih (i :: after) (by simpa using hw0) (by simpa using hc) (by
            intro j hj
            rcases List.mem_cons.mp hj with rfl | hj
            · omega
            · exact ha j hj) (by simpa using ht) (by simpa using hm)
          simpa using this

theorem addInterval_spec {recv : Nat → Int} {pid : Nat} {ts : Int} (h0 : 0 < pid) (h1 : pid + 1 < U64)
    (hr : recv pid = ts) {l : List Intv} (hw : IvWF l) (hc : ¬ covers l pid) (ht : IvTs recv l)
    (hm : ∀ q, covers l q → recv q ≤ ts) : AddOK recv pid l (addInterval l pid ts) := by
  have := addLoop_spec h0 h1 hr l.reverse [] (by simpa using hw) (by simpa using hc) (by simp) (by simpa using ht)
    (by simpa using hm)
  simpa [addInterval] using this


/-! ## Histories -/

/-- What happens to the record of one publisher: a packet arrives (by multicast if `mcast`, else as a resend over
TCP), or the oldest interval is taken off the list to be acknowledged (rmc_sub_timeout.c:67). -/
inductive Op where
  | arrive (p : SPkt) (mcast : Bool) (ts : Int)
  | popIv
  deriving DecidableEq, Repr

/-- A publisher's record, everything that was appended to dispatch_ready, and the intervals taken off. -/
structure Hist where
  s : SubPub
  out : List SPkt
  acked : List Intv
  deriving DecidableEq, Repr

def Hist.init : Hist := ⟨SubPub.init, [], []⟩

/-- One step. -/
def Hist.step (h : Hist) : Op → Hist
  | .arrive p m ts => let r := arrive h.s p m ts; { h with s := r.1, out := h.out ++ r.2 }
  | .popIv =>
    match h.s.intervals with
    | [] => h
    | i :: rest => { h with s := { h.s with intervals := rest }, acked := h.acked ++ [i] }

def Hist.run (h : Hist) (ops : List Op) : Hist := ops.foldl Hist.step h

/-- The arrivals of a history, in order. -/
def arrivals (ops : List Op) : List (SPkt × Bool × Int) :=
  ops.filterMap fun op => match op with | .arrive p m ts => some (p, m, ts) | _ => none

/-- The first arrival of packet `pid`. -/
def first (pid : Nat) (as : List (SPkt × Bool × Int)) : Option (SPkt × Bool × Int) := as.find? (fun a => a.1.pid == pid)

theorem first_append {pid : Nat} {as : List (SPkt × Bool × Int)} {a : SPkt × Bool × Int} :
    first pid (as ++ [a]) = match first pid as with | some x => some x | none => if a.1.pid = pid then some a else none := by
  unfold first
  rw [List.find?_append]
  cases as.find? (fun a => a.1.pid == pid) with
  | some x => rfl
  | none =>
    simp only [Option.none_or, List.find?_cons, List.find?_nil]
    by_cases h : a.1.pid = pid
    · simp [h]
    · rw [show (a.1.pid == pid) = false by simpa using h, if_neg h]

theorem first_some {pid : Nat} {as : List (SPkt × Bool × Int)} {a : SPkt × Bool × Int} (h : first pid as = some a) :
    a.1.pid = pid ∧ a ∈ as := by
  unfold first at h
  exact ⟨by simpa using List.find?_some h, List.mem_of_find?_eq_some h⟩

theorem first_none {pid : Nat} {as : List (SPkt × Bool × Int)} :
    first pid as = none ↔ ∀ a ∈ as, a.1.pid ≠ pid := by
  unfold first; rw [List.find?_eq_none]; simp

/-- State of the history after arrivals `as`, the first with id `b`. -/
structure HInv (b : Nat) (as : List (SPkt × Bool × Int)) (h : Hist) : Prop where
  seq : ∃ n, h.out.map (·.pid) = List.range' b n ∧ 0 < n ∧ h.s.maxReady + 1 = b + n
  outFirst : ∀ x ∈ h.out, (first x.pid as).map (·.1) = some x
  asc : Asc h.s.received
  gap : ∀ x ∈ h.s.received, h.s.maxReady + 1 < x.pid
  wait : ∀ pid, h.s.maxReady < pid → ∀ x, (first pid as).map (·.1) = some x → x ∈ h.s.received
  waitFirst : ∀ x ∈ h.s.received, (first x.pid as).map (·.1) = some x
  iv : IvWF h.s.intervals
  ivDisj : ∀ q, covers h.s.intervals q → ¬ covers h.acked q
  ivEq : ∀ q, (covers h.s.intervals q ∨ covers h.acked q) ↔ b ≤ q ∧ ∃ x ts, first q as = some (x, true, ts)

/-- Packet ids a publisher can send. -/
def validPid (pid : Nat) : Prop := 0 < pid ∧ pid + 1 < U64

theorem HInv.max_pos {b : Nat} {as : List (SPkt × Bool × Int)} {h : Hist} (hb : 0 < b) (hi : HInv b as h) :
    h.s.maxReady ≠ 0 ∧ b ≤ h.s.maxReady := by
  obtain ⟨n, _, h1, h2⟩ := hi.seq; omega

/-- A duplicate is exactly a packet that was accepted before, or is older than the first one. -/
theorem HInv.dup {b : Nat} {as : List (SPkt × Bool × Int)} {h : Hist} (hb : 0 < b) (hi : HInv b as h) (pid : Nat) :
    isDuplicate h.s pid = true ↔ pid < b ∨ first pid as ≠ none := by
  rw [isDuplicate_iff hi.asc (hi.max_pos hb).1]
  obtain ⟨n, h1, h2, h3⟩ := hi.seq
  constructor
  · rintro (hle | ⟨x, hx, rfl⟩)
    · by_cases hlt : pid < b
      · exact Or.inl hlt
      · right
        have : pid ∈ h.out.map (·.pid) := by rw [h1, List.mem_range'_1]; omega
        obtain ⟨x, hx, rfl⟩ := List.mem_map.mp this
        have := hi.outFirst x hx
        intro hn; rw [hn] at this; simp at this
    · right
      have := hi.waitFirst x hx
      intro hn; rw [hn] at this; simp at this
  · rintro (hlt | hf)
    · left; omega
    · by_cases hle : pid ≤ h.s.maxReady
      · exact Or.inl hle
      · right
        cases hq : first pid as with
        | none => exact absurd hq hf
        | some a =>
          have := hi.wait pid (by omega) a.1 (by rw [hq]; rfl)
          exact ⟨a.1, this, (first_some hq).1⟩

theorem covers_first_ne {b : Nat} {as : List (SPkt × Bool × Int)} {h : Hist} (hi : HInv b as h) {q : Nat}
    (hq : first q as = none) : ¬ covers h.s.intervals q ∧ ¬ covers h.acked q := by
  have := (hi.ivEq q).mp
  constructor <;> intro hc
  · obtain ⟨_, x, ts, he⟩ := this (Or.inl hc); rw [hq] at he; cases he
  · obtain ⟨_, x, ts, he⟩ := this (Or.inr hc); rw [hq] at he; cases he

theorem addInterval_plain {pid : Nat} {ts : Int} (hv : validPid pid) {l : List Intv} (hw : IvWF l) (hc : ¬ covers l pid) :
    IvWF (addInterval l pid ts) ∧ ∀ q, covers (addInterval l pid ts) q ↔ covers l q ∨ q = pid := by
  -- forget the timestamps: the result's intervals do not depend on them
  have key : ∀ (rev after rev' after' : List Intv) (t t' : Int), rev.map (fun i => (i.first, i.last)) = rev'.map (fun i => (i.first, i.last)) →
      after.map (fun i => (i.first, i.last)) = after'.map (fun i => (i.first, i.last)) →
      (addIntervalLoop pid t rev after).map (fun i => (i.first, i.last)) =
      (addIntervalLoop pid t' rev' after').map (fun i => (i.first, i.last)) := by
    intro rev
    induction rev with
    | nil =>
      intro after rev' after' t t' h1 h2
      have : rev' = [] := by simpa using h1.symm
      subst this
      simp [addIntervalLoop, h2]
    | cons i rev ih =>
      intro after rev' after' t t' h1 h2
      cases rev' with
      | nil => simp at h1
      | cons i' rev' =>
        simp only [List.map_cons, List.cons.injEq, Prod.mk.injEq] at h1
        obtain ⟨⟨e1, e2⟩, e3⟩ := h1
        unfold addIntervalLoop
        rw [e1, e2]
        split
        · simp [h2, e1, e2, e3]
        · split
          · cases after with
            | nil =>
              have : after' = [] := by simpa using h2.symm
              subst this
              simp [e3, e1]
            | cons n after =>
              cases after' with
              | nil => simp at h2
              | cons n' after' =>
                simp only [List.map_cons, List.cons.injEq, Prod.mk.injEq] at h2
                obtain ⟨⟨f1, f2⟩, f3⟩ := h2
                simp only [f1]
                split <;> simp [e3, e1, f1, f2, f3]
          · split
            · cases rev with
              | nil =>
                have : rev' = [] := by simpa using e3.symm
                subst this
                simp [h2, e2]
              | cons n rev =>
                cases rev' with
                | nil => simp at e3
                | cons n' rev' =>
                  simp only [List.map_cons, List.cons.injEq, Prod.mk.injEq] at e3
                  obtain ⟨⟨f1, f2⟩, f3⟩ := e3
                  simp only [f2]
                  split <;> simp [h2, e2, f1, f2, f3]
            · exact ih (i :: after) rev' (i' :: after') t t' e3 (by simp [h2, e1, e2])
  have hcov : ∀ {l l' : List Intv}, l.map (fun i => (i.first, i.last)) = l'.map (fun i => (i.first, i.last)) →
      (∀ q, covers l q ↔ covers l' q) := by
    intro l l' he q
    have e : ∀ l : List Intv, covers l q ↔ ∃ p ∈ l.map (fun i => (i.first, i.last)), p.1 ≤ q ∧ q ≤ p.2 := by
      intro l
      unfold covers
      constructor
      · rintro ⟨i, h1, h2⟩; exact ⟨_, List.mem_map.mpr ⟨i, h1, rfl⟩, h2⟩
      · rintro ⟨p, h1, h2⟩; obtain ⟨i, h3, rfl⟩ := List.mem_map.mp h1; exact ⟨i, h3, h2⟩
    rw [e l, e l', he]
  have hwf : ∀ {l l' : List Intv}, l.map (fun i => (i.first, i.last)) = l'.map (fun i => (i.first, i.last)) → IvWF l → IvWF l' := by
    intro l l' he hw
    have e : ∀ l : List Intv, IvWF l ↔ (l.map (fun i => (i.first, i.last))).Pairwise (fun i j => i.2 + 1 < j.1) ∧
        ∀ i ∈ l.map (fun i => (i.first, i.last)), 0 < i.1 ∧ i.1 ≤ i.2 ∧ i.2 + 1 < U64 := by
      intro l; unfold IvWF; rw [List.pairwise_map]; simp
    rw [e] at hw ⊢; rw [← he]; exact hw
  have hz : (l.map (fun i => (⟨i.first, i.last, 0⟩ : Intv))).map (fun i => (i.first, i.last)) = l.map (fun i => (i.first, i.last)) := by
    rw [List.map_map]; rfl
  have hs := addInterval_spec (recv := fun _ => 0) (pid := pid) (ts := 0) hv.1 hv.2 rfl (l := l.map (fun i => ⟨i.first, i.last, 0⟩))
    (hwf hz.symm hw) (by rw [hcov hz]; exact hc) (by
      intro i hi
      obtain ⟨j, hj, rfl⟩ := List.mem_map.mp hi
      exact ⟨fun q _ _ => Int.le_refl _, j.first, Nat.le_refl _, (hw.2 j hj).2.1, rfl⟩) (fun q _ => Int.le_refl _)
  have hk : (addInterval (l.map (fun i => (⟨i.first, i.last, 0⟩ : Intv))) pid 0).map (fun i => (i.first, i.last)) =
      (addInterval l pid ts).map (fun i => (i.first, i.last)) := by
    unfold addInterval
    exact key _ _ _ _ _ _ (by rw [List.map_reverse, List.map_reverse, hz]) rfl
  refine ⟨hwf hk hs.1, ?_⟩
  intro q
  rw [← hcov hk q, hs.2.1 q, hcov hz q]


/-- The very first arrival. -/
theorem HInv_first {p : SPkt} {m : Bool} {ts : Int} (hv : validPid p.pid) :
    HInv p.pid [(p, m, ts)] (Hist.init.step (.arrive p m ts)) := by
  have hd : dec64 p.pid = p.pid - 1 := dec64_eq hv.1 (by have := hv.2; omega)
  have hi : inc64 (p.pid - 1) = p.pid := by rw [inc64_eq (by have := hv.2; omega)]; have := hv.1; omega
  have hst : Hist.init.step (.arrive p m ts) =
      ⟨⟨p.pid, if 0 < p.pid then p.pid else 0, [], if m then [⟨p.pid, p.pid, ts⟩] else []⟩, [p], []⟩ := by
    simp only [Hist.step, arrive, Hist.init, SubPub.init, isDuplicate, if_true, Bool.false_eq_true, if_false, process, received',
      List.reverse_nil, insertDesc, List.reverse_cons, List.nil_append, hd, processLoop]
    rw [hi, if_neg (by rintro ⟨_, h⟩; exact h rfl)]
    rfl
  rw [hst]
  have hf : ∀ q, first q [(p, m, ts)] = if p.pid = q then some (p, m, ts) else none := by
    intro q
    unfold first
    rw [List.find?_cons, List.find?_nil]
    by_cases h : p.pid = q
    · simp [h]
    · rw [show (p.pid == q) = false by simpa using h, if_neg h]
  refine ⟨⟨1, by simp, by omega, rfl⟩, ?_, List.Pairwise.nil, by simp, ?_, by simp, ?_, ?_, ?_⟩
  · intro x hx; simp only [List.mem_singleton] at hx; subst hx; rw [hf, if_pos rfl]; rfl
  · intro pid hlt x hx
    rw [hf] at hx
    split at hx
    · simp only at hlt; omega
    · simp at hx
  · cases m
    · exact ⟨List.Pairwise.nil, by simp⟩
    · exact ⟨by simp, by simpa using ⟨hv.1, hv.2⟩⟩
  · intro q _ hc; exact covers_nil.mp hc
  · intro q
    simp only [covers_nil, or_false]
    rw [hf]
    cases m
    · simp [covers_nil]
    · simp only [if_true, covers_cons, covers_nil, or_false]
      constructor
      · intro h
        have : p.pid = q := by omega
        subst this; exact ⟨Nat.le_refl _, p, ts, by simp⟩
      · rintro ⟨h1, x, t, h2⟩
        split at h2
        · omega
        · cases h2

theorem first_append_ne {pid : Nat} {as : List (SPkt × Bool × Int)} {a : SPkt × Bool × Int} (h : a.1.pid ≠ pid) :
    first pid (as ++ [a]) = first pid as := by
  rw [first_append]; cases first pid as <;> simp [h]

theorem first_append_old {pid : Nat} {as : List (SPkt × Bool × Int)} {a : SPkt × Bool × Int} (h : first pid as ≠ none) :
    first pid (as ++ [a]) = first pid as := by
  rw [first_append]; cases hf : first pid as with
  | none => exact absurd hf h
  | some x => rfl

theorem first_append_new {as : List (SPkt × Bool × Int)} {a : SPkt × Bool × Int} (h : first a.1.pid as = none) :
    first a.1.pid (as ++ [a]) = some a := by
  rw [first_append, h]; simp

theorem process_of_ne {s : SubPub} (h0 : s.maxReady ≠ 0) : process s =
    ({ s with maxReady := (processLoop s.maxReady s.received).1, received := (processLoop s.maxReady s.received).2.2 },
      (processLoop s.maxReady s.received).2.1) := by
  obtain ⟨mr, mc, rc, iv⟩ := s
  simp only at h0
  cases rc with
  | nil => rfl
  | cons a t => simp only [process, h0, if_false]

theorem process_intervals (s : SubPub) : (process s).1.intervals = s.intervals := rfl

/-- A later arrival. -/
theorem HInv_arrive {b : Nat} (hb : 0 < b) {as : List (SPkt × Bool × Int)} {h : Hist} (hi : HInv b as h)
    (hbound : ∀ a ∈ as, validPid a.1.pid) {p : SPkt} {m : Bool} {ts : Int} (hv : validPid p.pid) :
    HInv b (as ++ [(p, m, ts)]) (h.step (.arrive p m ts)) := by
  by_cases hd : isDuplicate h.s p.pid = true
  · -- nothing happens
    have he : h.step (.arrive p m ts) = h := by simp [Hist.step, arrive, hd]
    rw [he]
    have hd' := (hi.dup hb p.pid).mp hd
    have hsame : ∀ q, b ≤ q → first q (as ++ [(p, m, ts)]) = first q as := by
      intro q hq
      by_cases hqp : p.pid = q
      · apply first_append_old
        subst hqp
        rcases hd' with h1 | h1
        · omega
        · exact h1
      · exact first_append_ne hqp
    obtain ⟨n, s1, s2, s3⟩ := hi.seq
    have hmx := (hi.max_pos hb).2
    refine ⟨hi.seq, ?_, hi.asc, hi.gap, ?_, ?_, hi.iv, hi.ivDisj, ?_⟩
    · intro x hx
      rw [hsame]
      · exact hi.outFirst x hx
      · have : x.pid ∈ h.out.map (·.pid) := List.mem_map.mpr ⟨x, hx, rfl⟩
        rw [s1, List.mem_range'_1] at this; omega
    · intro pid hlt x hx
      rw [hsame pid (by omega)] at hx
      exact hi.wait pid hlt x hx
    · intro x hx
      rw [hsame x.pid (by have := hi.gap x hx; omega)]
      exact hi.waitFirst x hx
    · intro q
      rw [hi.ivEq]
      constructor
      · rintro ⟨h1, h2⟩; exact ⟨h1, by rw [hsame q h1]; exact h2⟩
      · rintro ⟨h1, h2⟩; rw [hsame q h1] at h2; exact ⟨h1, h2⟩
  · have hd' : ¬ (p.pid < b ∨ first p.pid as ≠ none) := fun hc => hd ((hi.dup hb p.pid).mpr hc)
    have hge : b ≤ p.pid := by
      by_cases hlt : p.pid < b
      · exact absurd (Or.inl hlt) hd'
      · omega
    have hnone : first p.pid as = none := by
      by_cases hn : first p.pid as = none
      · exact hn
      · exact absurd (Or.inr hn) hd'
    obtain ⟨n, s1, s2, s3⟩ := hi.seq
    obtain ⟨hm0, hmb⟩ := hi.max_pos hb
    have hnd : ¬ (p.pid ≤ h.s.maxReady ∨ ∃ x ∈ h.s.received, x.pid = p.pid) := by
      intro hc; exact hd ((isDuplicate_iff hi.asc hm0 p.pid).mpr hc)
    have hgt : h.s.maxReady < p.pid := by
      by_cases hc : p.pid ≤ h.s.maxReady
      · exact absurd (Or.inl hc) hnd
      · omega
    have hne : ∀ x ∈ h.s.received, x.pid ≠ p.pid := fun x hx he => hnd (Or.inr ⟨x, hx, he⟩)
    -- the list after insertion
    obtain ⟨L, hL⟩ : ∃ L, L = (insertDesc p h.s.received.reverse).reverse := ⟨_, rfl⟩
    have hLmem : ∀ x, x ∈ L ↔ x = p ∨ x ∈ h.s.received := by
      intro x; rw [hL]; simp only [List.mem_reverse, insertDesc_mem]
    have hLasc : Asc L := by
      rw [← asc_reverse]
      rw [hL, List.reverse_reverse]
      exact insertDesc_desc (asc_reverse.mpr hi.asc) (fun y hy => hne y (by simpa using hy))
    have hval : ∀ x ∈ h.s.received, x.pid < U64 := by
      intro x hx
      have := hi.waitFirst x hx
      cases hq : first x.pid as with
      | none => rw [hq] at this; simp at this
      | some a =>
        have h1 := first_some hq
        have := (hbound a h1.2).2
        rw [← h1.1]; omega
    obtain ⟨k, k1, k2, k3⟩ := processLoop_spec L h.s.maxReady hLasc hm0 (by
      intro x hx
      rcases (hLmem x).mp hx with rfl | hx
      · exact ⟨hgt, by have := hv.2; omega⟩
      · exact ⟨by have := hi.gap x hx; omega, hval x hx⟩)
    have hst : h.step (.arrive p m ts) =
        { h with s := ⟨h.s.maxReady + k, if h.s.maxReceived < p.pid then p.pid else h.s.maxReceived, L.drop k,
                       if m then addInterval h.s.intervals p.pid ts else h.s.intervals⟩,
                 out := h.out ++ L.take k } := by
      simp only [Hist.step, arrive, hd, Bool.false_eq_true, if_false]
      have hrm : (received' h.s p m ts).maxReady = h.s.maxReady := rfl
      have hrr : (received' h.s p m ts).received = L := by rw [hL]; rfl
      rw [process_of_ne (by rw [hrm]; exact hm0), hrm, hrr, k1]
      rfl
    have hsplit : ∀ x, x ∈ L ↔ x ∈ L.take k ∨ x ∈ L.drop k := by
      intro x
      have := List.mem_append (a := x) (s := L.take k) (t := L.drop k)
      rwa [List.take_append_drop] at this
    have htake : ∀ x ∈ L.take k, x.pid ≤ h.s.maxReady + k := by
      intro x hx
      have : x.pid ∈ (L.take k).map (·.pid) := List.mem_map.mpr ⟨x, hx, rfl⟩
      rw [k2, List.mem_range'_1] at this; omega
    have hfp : first p.pid (as ++ [(p, m, ts)]) = some (p, m, ts) := first_append_new (a := (p, m, ts)) hnone
    have hfL : ∀ x ∈ L, (first x.pid (as ++ [(p, m, ts)])).map (·.1) = some x := by
      intro x hx
      rcases (hLmem x).mp hx with rfl | hx
      · rw [hfp]; rfl
      · rw [first_append_ne (fun he => hne x hx he.symm)]; exact hi.waitFirst x hx
    obtain ⟨c1, c2⟩ := covers_first_ne hi hnone
    obtain ⟨a1, a2⟩ := addInterval_plain (ts := ts) hv hi.iv c1
    rw [hst]
    refine ⟨⟨n + k, ?_, by omega, by simp only; omega⟩, ?_, ?_, ?_, ?_, ?_, ?_, ?_, ?_⟩
    · rw [List.map_append, s1, k2, s3]
      have := List.range'_append (s := b) (m := n) (n := k) (step := 1)
      simpa using this
    · intro x hx
      rcases List.mem_append.mp hx with hx | hx
      · rw [first_append_old]
        · exact hi.outFirst x hx
        · intro hc; have := hi.outFirst x hx; rw [hc] at this; simp at this
      · exact hfL x ((hsplit x).mpr (Or.inl hx))
    · exact hLasc.sublist (List.drop_sublist _ _)
    · exact k3
    · intro pid hlt x hx
      simp only at hlt
      have hxL : x ∈ L := by
        rw [hLmem]
        by_cases hpp : p.pid = pid
        · subst hpp; rw [hfp] at hx; left; simpa using hx.symm
        · rw [first_append_ne hpp] at hx
          exact Or.inr (hi.wait pid (by omega) x hx)
      have hxp : x.pid = pid := by
        cases hq : first pid (as ++ [(p, m, ts)]) with
        | none => rw [hq] at hx; simp at hx
        | some a => rw [hq] at hx; simp only [Option.map_some, Option.some.injEq] at hx; subst hx; exact (first_some hq).1
      rcases (hsplit x).mp hxL with ht | ht
      · have := htake x ht; omega
      · exact ht
    · intro x hx
      exact hfL x ((hsplit x).mpr (Or.inr hx))
    · show IvWF (if m then addInterval h.s.intervals p.pid ts else h.s.intervals)
      split
      · exact a1
      · exact hi.iv
    · show ∀ q, covers (if m then addInterval h.s.intervals p.pid ts else h.s.intervals) q → ¬ covers h.acked q
      intro q hc
      split at hc
      · rcases (a2 q).mp hc with hc | rfl
        · exact hi.ivDisj q hc
        · exact c2
      · exact hi.ivDisj q hc
    · intro q
      show (covers (if m then addInterval h.s.intervals p.pid ts else h.s.intervals) q ∨ covers h.acked q) ↔ _
      have hq := hi.ivEq q
      by_cases hqp : p.pid = q
      · subst hqp
        rw [hfp]
        cases m
        · simp only [Bool.false_eq_true, if_false]
          constructor
          · rintro (hc | hc)
            · exact absurd hc c1
            · exact absurd hc c2
          · rintro ⟨_, x, t, he⟩; simp at he
        · simp only [if_true]
          constructor
          · intro _; exact ⟨hge, p, ts, rfl⟩
          · intro _; exact Or.inl ((a2 _).mpr (Or.inr rfl))
      · rw [first_append_ne hqp, ← hq]
        cases m
        · simp
        · simp only [if_true, a2 q]
          constructor
          · rintro ((hc | hc) | hc)
            · exact Or.inl hc
            · exact absurd hc.symm hqp
            · exact Or.inr hc
          · rintro (hc | hc)
            · exact Or.inl (Or.inl hc)
            · exact Or.inr hc

theorem HInv_pop {b : Nat} {as : List (SPkt × Bool × Int)} {h : Hist} (hi : HInv b as h) :
    HInv b as (h.step .popIv) := by
  simp only [Hist.step]
  split
  · exact hi
  · rename_i i rest he
    have hw := hi.iv
    rw [he] at hw
    have hw' := ivwf_cons.mp hw
    refine ⟨hi.seq, hi.outFirst, hi.asc, hi.gap, hi.wait, hi.waitFirst, hw'.2.1, ?_, ?_⟩
    · intro q hc ha
      rw [covers_append, covers_cons] at ha
      have hcc : covers h.s.intervals q := by rw [he, covers_cons]; exact Or.inr hc
      rcases ha with ha | ha | ha
      · exact hi.ivDisj q hcc ha
      · obtain ⟨j, hj, j1, j2⟩ := hc
        have := hw'.2.2 j hj; omega
      · exact covers_nil.mp ha
    · intro q
      rw [← hi.ivEq, he, covers_append, covers_cons, covers_cons]
      simp only [covers_nil, or_false]
      grind

/-- Nothing has arrived yet. -/
def Fresh (h : Hist) : Prop := h = Hist.init

/-- The state after a history in which all arriving packets have valid ids. -/
theorem HInv_run : ∀ (ops : List Op), (∀ a ∈ arrivals ops, validPid a.1.pid) →
    match arrivals ops with
    | [] => Hist.init.run ops = Hist.init
    | a :: _ => HInv a.1.pid (arrivals ops) (Hist.init.run ops) := by
  intro ops
  suffices H : ∀ r : List Op, (∀ a ∈ arrivals r.reverse, validPid a.1.pid) →
      match arrivals r.reverse with
      | [] => Hist.init.run r.reverse = Hist.init
      | a :: _ => HInv a.1.pid (arrivals r.reverse) (Hist.init.run r.reverse) by
    have := H ops.reverse
    rwa [List.reverse_reverse] at this
  intro r
  induction r with
  | nil => intro _; rfl
  | cons op r ih =>
    intro hv
    rw [List.reverse_cons] at hv ⊢
    have har : arrivals (r.reverse ++ [op]) = arrivals r.reverse ++ arrivals [op] := by
      unfold arrivals; rw [List.filterMap_append]
    have hrun : Hist.init.run (r.reverse ++ [op]) = (Hist.init.run r.reverse).step op := by
      unfold Hist.run; rw [List.foldl_append]; rfl
    rw [har] at hv ⊢
    rw [hrun]
    have ih' := ih (fun a ha => hv a (by simp [ha]))
    generalize Hist.init.run r.reverse = h at ih' ⊢
    generalize arrivals r.reverse = as at ih' hv ⊢
    cases op with
    | popIv =>
      have : arrivals [Op.popIv] = [] := rfl
      rw [this, List.append_nil]
      cases as with
      | nil => simp only at ih' ⊢; rw [ih']; rfl
      | cons a as => exact HInv_pop ih'
    | arrive p m ts =>
      have : arrivals [Op.arrive p m ts] = [(p, m, ts)] := rfl
      rw [this] at hv ⊢
      cases as with
      | nil =>
        simp only at ih'
        rw [ih']
        exact HInv_first (hv (p, m, ts) (by simp))
      | cons a as =>
        exact HInv_arrive (hv a (by simp)).1 ih' (fun x hx => hv x (by simp at hx ⊢; grind)) (hv (p, m, ts) (by simp))


/-! ## Reception times -/

/-- When packet `q` was first received. -/
def recvTs (as : List (SPkt × Bool × Int)) (q : Nat) : Int := ((first q as).map (·.2.2)).getD 0

theorem HTs_arrive {b : Nat} (hb : 0 < b) {as : List (SPkt × Bool × Int)} {h : Hist} (hi : HInv b as h)
    (ht : IvTs (recvTs as) h.s.intervals) {p : SPkt} {m : Bool} {ts : Int} (hv : validPid p.pid)
    (hmono : ∀ a ∈ as, a.2.2 ≤ ts) :
    IvTs (recvTs (as ++ [(p, m, ts)])) (h.step (.arrive p m ts)).s.intervals := by
  have hcov : ∀ q, covers h.s.intervals q → first q as ≠ none := by
    intro q hc hn
    exact (covers_first_ne hi hn).1 hc
  have hsame : ∀ q, covers h.s.intervals q → recvTs (as ++ [(p, m, ts)]) q = recvTs as q := by
    intro q hc; unfold recvTs; rw [first_append_old (hcov q hc)]
  have hold : IvTs (recvTs (as ++ [(p, m, ts)])) h.s.intervals := by
    intro i him
    obtain ⟨h1, q, q1, q2, q3⟩ := ht i him
    refine ⟨fun q' a1 a2 => ?_, q, q1, q2, ?_⟩
    · rw [hsame q' ⟨i, him, a1, a2⟩]; exact h1 q' a1 a2
    · rw [hsame q ⟨i, him, q1, q2⟩]; exact q3
  by_cases hd : isDuplicate h.s p.pid = true
  · have he : h.step (.arrive p m ts) = h := by simp [Hist.step, arrive, hd]
    rw [he]; exact hold
  · have hint : (h.step (.arrive p m ts)).s.intervals = if m then addInterval h.s.intervals p.pid ts else h.s.intervals := by
      simp only [Hist.step, arrive, hd, Bool.false_eq_true, if_false]
      rw [process_of_ne (s := received' h.s p m ts) (hi.max_pos hb).1]
      rfl
    rw [hint]
    split
    · have hnone : first p.pid as = none := by
        by_cases hn : first p.pid as = none
        · exact hn
        · exact absurd ((hi.dup hb p.pid).mpr (Or.inr hn)) hd
      have hr : recvTs (as ++ [(p, m, ts)]) p.pid = ts := by
        unfold recvTs; rw [first_append_new (a := (p, m, ts)) hnone]; rfl
      refine (addInterval_spec hv.1 hv.2 hr hi.iv (covers_first_ne hi hnone).1 hold ?_).2.2
      intro q hc
      rw [hsame q hc]
      cases hq : first q as with
      | none => exact absurd hq (hcov q hc)
      | some a =>
        unfold recvTs; rw [hq]
        exact hmono a (first_some hq).2
    · exact hold

theorem HTs_pop {as : List (SPkt × Bool × Int)} {h : Hist} (ht : IvTs (recvTs as) h.s.intervals) :
    IvTs (recvTs as) (h.step .popIv).s.intervals := by
  simp only [Hist.step]
  split
  · exact ht
  · rename_i i rest he
    intro j hj
    exact ht j (by rw [he]; simp [show j ∈ rest from hj])

end SubPub
end Rmc
