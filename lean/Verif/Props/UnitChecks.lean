import Verif.Props.UnitTests
import Verif.PtrListLemmas
import Verif.PubLemmas

/-! # What the checks of the project's unit tests accept (C95) -/

namespace Rmc
namespace UnitTest

theorem bind_ok' {α β : Type} {x : M α} {f : α → M β} {r : β} (h : x >>= f = .ok r) : ∃ a, x = .ok a ∧ f a = .ok r := by
  cases x with
  | error e => cases h
  | ok a => exact ⟨a, rfl, h⟩

theorem ok_bind' {α β : Type} (a : α) (f : α → M β) : ((.ok a : M α) >>= f) = f a := rfl

/-- **C95** (the order). `_compare_pid` is the order of the numbers. -/
theorem C95_compare (a b : Nat) : (comparePid a b < 0 ↔ a < b) ∧ (comparePid a b = 0 ↔ a = b) ∧ (0 < comparePid a b ↔ b < a) := by
  unfold comparePid
  split
  · omega
  · split <;> omega

/-- **C95** (interval lists). `test_interval_list` accepts exactly the list of the intervals given. -/
theorem C95_interval_list : ∀ (is : List Intv) (as : List (Nat × Nat)),
    intervalList is as = .ok () ↔ is.map (fun i => (i.first, i.last)) = as
  | [], [] => by simp [intervalList]
  | [], a :: as => by simp [intervalList]
  | i :: is, [] => by simp [intervalList]
  | i :: is, a :: as => by
    have ih := C95_interval_list is as
    obtain ⟨a1, a2⟩ := a
    rw [intervalList, want_bind, List.map_cons, List.cons.injEq, ← ih]
    by_cases h : (i.first == a1 && i.last == a2) = true
    · rw [if_pos h]
      simp only [Bool.and_eq_true, beq_iff_eq] at h
      simp [h.1, h.2]
    · rw [if_neg h]
      simp only [Bool.and_eq_true, beq_iff_eq] at h
      constructor
      · intro e; cases e
      · rintro ⟨e, _⟩
        cases e
        exact absurd ⟨rfl, rfl⟩ h

/-- **C95** (one interval). The check of a node of the interval list accepts exactly the two numbers given. -/
theorem C95_interval_at {s : SubSt} {k first last : Nat} : intervalAt s k first last = .ok () ↔
    ∃ i, s.pub.intervals[k]? = some i ∧ i.first = first ∧ i.last = last := by
  unfold intervalAt
  split
  · rename_i h
    constructor
    · intro e; cases e
    · rintro ⟨i, e, _⟩; rw [h] at e; cases e
  · rename_i i h
    rw [want_ok, Bool.and_eq_true, beq_iff_eq, beq_iff_eq]
    constructor
    · rintro ⟨a, b⟩; exact ⟨i, h, a, b⟩
    · rintro ⟨j, e, a, b⟩; rw [h] at e; cases e; exact ⟨a, b⟩

theorem sequenceS_up : ∀ (l : List SPkt) {pid n : Nat}, pid + l.length < U64 →
    (sequenceS true pid l = .ok n ↔ n = l.length ∧ l.map (·.pid) = List.range' pid l.length) := by
  intro l
  induction l with
  | nil =>
    intro pid n _
    rw [sequenceS]
    constructor
    · intro e; cases e; exact ⟨rfl, rfl⟩
    · rintro ⟨e, _⟩; rw [e]; rfl
  | cons p ps ih =>
    intro pid n hl
    rw [List.length_cons] at hl
    have hn : SubPub.inc64 pid = pid + 1 := by unfold SubPub.inc64; exact Nat.mod_eq_of_lt (by omega)
    rw [sequenceS, want_bind, if_pos rfl, hn, List.map_cons, List.length_cons, List.range'_succ, List.cons.injEq]
    by_cases h : (p.pid == pid) = true
    · rw [if_pos h]
      have hp : p.pid = pid := by simpa using h
      constructor
      · intro e
        obtain ⟨m, e1, e2⟩ := bind_ok' e
        cases e2
        obtain ⟨k1, k2⟩ := (ih (by omega)).1 e1
        exact ⟨by rw [k1], hp, k2⟩
      · rintro ⟨k1, _, k2⟩
        rw [(ih (n := ps.length) (by omega)).2 ⟨rfl, k2⟩, k1]; rfl
    · rw [if_neg h]
      constructor
      · intro e; cases e
      · rintro ⟨_, k, _⟩; exact absurd (by simpa using k) h

theorem sequenceS_down : ∀ (l : List SPkt) {pid n : Nat}, l.length ≤ pid + 1 → pid < U64 →
    (sequenceS false pid l = .ok n ↔ n = l.length ∧ l.map (·.pid) = (List.range' (pid + 1 - l.length) l.length).reverse) := by
  intro l
  induction l with
  | nil =>
    intro pid n _ _
    rw [sequenceS]
    constructor
    · intro e; cases e; exact ⟨rfl, rfl⟩
    · rintro ⟨e, _⟩; rw [e]; rfl
  | cons p ps ih =>
    intro pid n hl hb
    rw [List.length_cons] at hl
    have e2 : (List.range' (pid + 1 - (ps.length + 1)) (ps.length + 1)).reverse = pid :: (List.range' (pid - ps.length) ps.length).reverse := by
      rw [List.range'_concat, List.reverse_append, show pid + 1 - (ps.length + 1) = pid - ps.length by omega]
      rw [List.reverse_singleton, List.singleton_append]
      have : pid - ps.length + 1 * ps.length = pid := by omega
      rw [this]
    rw [sequenceS, want_bind]
    simp only [Bool.false_eq_true, if_false]
    rw [List.map_cons, List.length_cons, e2, List.cons.injEq]
    have hih : ∀ m, sequenceS false (SubPub.dec64 pid) ps = .ok m ↔ m = ps.length ∧ ps.map (·.pid) = (List.range' (pid - ps.length) ps.length).reverse := by
      intro m
      cases ps with
      | nil =>
        rw [sequenceS]
        constructor
        · intro e; cases e; exact ⟨rfl, rfl⟩
        · rintro ⟨e, _⟩; rw [e]; rfl
      | cons q qs =>
        rw [List.length_cons] at hl ih ⊢
        have hn : SubPub.dec64 pid = pid - 1 := by unfold SubPub.dec64; simp only [U64] at *; omega
        rw [hn, ih (by omega) (by omega), show pid - 1 + 1 - (qs.length + 1) = pid - (qs.length + 1) by omega]
    by_cases h : (p.pid == pid) = true
    · rw [if_pos h]
      have hp : p.pid = pid := by simpa using h
      constructor
      · intro e
        obtain ⟨m, e1, e2⟩ := bind_ok' e
        cases e2
        obtain ⟨k1, k2⟩ := (hih m).1 e1
        exact ⟨by rw [k1], hp, k2⟩
      · rintro ⟨k1, _, k2⟩
        rw [(hih ps.length).2 ⟨rfl, k2⟩, k1]; rfl
    · rw [if_neg h]
      constructor
      · intro e; cases e
      · rintro ⟨_, k, _⟩; exact absurd (by simpa using k) h

/-- **C95** (packet lists). `test_sequence` accepts exactly the lists that count up from `start`, or down if `stop` is not larger, and says how long they are; where
they end it does not look at. -/
theorem C95_packet_list {l : List SPkt} {start stop n : Nat} (h1 : start + l.length < U64) (h2 : l.length ≤ start + 1) :
    testSequenceS l start stop = .ok n ↔ n = l.length ∧
      l.map (·.pid) = if start < stop then List.range' start l.length else (List.range' (start + 1 - l.length) l.length).reverse := by
  unfold testSequenceS
  by_cases h : start < stop
  · rw [decide_eq_true h, if_pos h]; exact sequenceS_up l h1
  · rw [decide_eq_false h, if_neg h]; exact sequenceS_down l h2 (by omega)

/-- Arithmetic below 2^32. -/
local macro "om32" : tactic => `(tactic| (try simp only [U32] at *) <;> omega)

/-- Counting through the numbers of a list: `none` if one differs. -/
def countOff (up : Bool) : Nat → List Nat → Option Nat
  | pid, [] => some pid
  | pid, d :: ds => if d = pid then countOff up (if up then add32 pid 1 else sub32 pid 1) ds else none

theorem walk_fwd {h : Heap Nat} {xs : List (Nat × Nat)} (hr : PtrList.Rep h 0 xs) (up : Bool) : ∀ (post pre : List (Nat × Nat)), xs = pre ++ post →
    ∀ (fuel pid : Nat), post.length ≤ fuel → walk h true up fuel (post.head?.map Prod.fst) pid = .ok (countOff up pid (post.map Prod.snd)) := by
  intro post
  induction post with
  | nil => intro pre e fuel pid hf; cases fuel <;> rfl
  | cons x post ih =>
    intro pre e fuel pid hf
    obtain ⟨p, d⟩ := x
    cases fuel with
    | zero => simp at hf
    | succ fuel =>
      have hc := hr.cell pre p d post e
      have := ih (pre ++ [(p, d)]) (by rw [e]; simp) fuel (if up then add32 pid 1 else sub32 pid 1) (by simpa using hf)
      simp only [List.head?_cons, Option.map_some, walk, PtrList.deref, hc, bind, Except.bind, if_true, List.map_cons, countOff]
      split
      · exact this
      · rfl

theorem walk_bwd {h : Heap Nat} {xs : List (Nat × Nat)} (hr : PtrList.Rep h 0 xs) (up : Bool) : ∀ (rpre post : List (Nat × Nat)), xs = rpre.reverse ++ post →
    ∀ (fuel pid : Nat), rpre.length ≤ fuel → walk h false up fuel (rpre.head?.map Prod.fst) pid = .ok (countOff up pid (rpre.map Prod.snd)) := by
  intro rpre
  induction rpre with
  | nil => intro post e fuel pid hf; cases fuel <;> rfl
  | cons x rpre ih =>
    intro post e fuel pid hf
    obtain ⟨p, d⟩ := x
    cases fuel with
    | zero => simp at hf
    | succ fuel =>
      have hc := hr.cell rpre.reverse p d post (by rw [e]; simp)
      have := ih ((p, d) :: post) (by rw [e]; simp) fuel (if up then add32 pid 1 else sub32 pid 1) (by simpa using hf)
      simp only [List.getLast?_reverse] at hc
      simp only [List.head?_cons, Option.map_some, walk, PtrList.deref, hc, bind, Except.bind, Bool.false_eq_true, if_false, List.map_cons, countOff]
      split
      · exact this
      · rfl

/-- Counting up: the numbers are consecutive. -/
theorem countOff_up : ∀ (ds : List Nat) {pid q : Nat}, pid + ds.length < U32 → (countOff true pid ds = some q ↔ ds = List.range' pid ds.length ∧ q = pid + ds.length) := by
  intro ds
  induction ds with
  | nil => intro pid q h; simp [countOff]; exact ⟨fun e => e.symm, fun e => e.symm⟩
  | cons d ds ih =>
    intro pid q h
    rw [List.length_cons] at h ⊢
    rw [countOff, List.range'_succ]
    have ha : add32 pid 1 = pid + 1 := by unfold add32; exact Nat.mod_eq_of_lt (by om32)
    by_cases hd : d = pid
    · rw [if_pos hd, if_pos rfl, ha, ih (by om32)]
      rw [hd, List.cons.injEq]
      constructor
      · rintro ⟨a, b⟩; exact ⟨⟨rfl, a⟩, by om32⟩
      · rintro ⟨⟨_, a⟩, b⟩; exact ⟨a, by om32⟩
    · rw [if_neg hd]
      constructor
      · intro e; cases e
      · rintro ⟨e, _⟩; rw [List.cons.injEq] at e; exact absurd e.1 hd

/-- Counting down: the numbers go down by one, around zero. -/
theorem countOff_down : ∀ (ds : List Nat) {pid q : Nat}, pid < U32 → countOff false pid ds = some q → ds.length < U32 →
    q = (pid + U32 - ds.length) % U32 ∧ (ds.length ≤ pid + 1 → ds = (List.range' (pid + 1 - ds.length) ds.length).reverse) := by
  intro ds
  induction ds with
  | nil =>
    intro pid q h e _
    cases e
    simp
    exact (Nat.mod_eq_of_lt h).symm
  | cons d ds ih =>
    intro pid q h e hl
    rw [List.length_cons] at hl ⊢
    rw [countOff] at e
    split at e
    · rename_i hd
      have hs : (if false = true then add32 pid 1 else sub32 pid 1) = (pid + (U32 - 1)) % U32 := by
        rw [if_neg (by decide)]; unfold sub32; rfl
      rw [hs] at e
      have hlt : (pid + (U32 - 1)) % U32 < U32 := Nat.mod_lt _ (by decide)
      obtain ⟨k1, k2⟩ := ih hlt e (by om32)
      refine ⟨by rw [k1]; om32, ?_⟩
      intro hle
      rw [hd, show pid + 1 - (ds.length + 1) = pid - ds.length by om32]
      have e2 : List.range' (pid - ds.length) (ds.length + 1) = List.range' (pid - ds.length) ds.length ++ [pid] := by
        rw [List.range'_concat]; congr 2; om32
      rw [e2, List.reverse_append]
      show _ = pid :: _
      congr 1
      by_cases hp : pid = 0
      · have : ds.length = 0 := by om32
        have : ds = [] := List.length_eq_zero_iff.1 this
        rw [this]; rfl
      · have hm : (pid + (U32 - 1)) % U32 = pid - 1 := by om32
        rw [hm] at k2
        have := k2 (by om32)
        rw [show pid - 1 + 1 - ds.length = pid - ds.length by om32] at this
        exact this
    · cases e

theorem countOff_down_ok : ∀ (n pid : Nat), n ≤ pid + 1 → pid < U32 → countOff false pid (List.range' (pid + 1 - n) n).reverse =
    some ((pid + U32 - n) % U32) := by
  intro n
  induction n with
  | zero => intro pid h h1; simp [countOff]; exact (Nat.mod_eq_of_lt h1).symm
  | succ n ih =>
    intro pid h h1
    have e2 : List.range' (pid + 1 - (n + 1)) (n + 1) = List.range' (pid + 1 - (n + 1)) n ++ [pid] := by
      rw [List.range'_concat]; congr 2; om32
    rw [e2, List.reverse_append]
    show countOff false pid (pid :: (List.range' (pid + 1 - (n + 1)) n).reverse) = _
    rw [countOff, if_pos rfl]
    by_cases hp : pid = 0
    · have hn : n = 0 := by om32
      subst hn; subst hp
      simp [countOff, sub32]
    · have hs : (if false = true then add32 pid 1 else sub32 pid 1) = pid - 1 := by
        rw [if_neg (by decide)]; unfold sub32; om32
      rw [hs, show pid + 1 - (n + 1) = pid - 1 + 1 - n by om32, ih (pid - 1) (by om32) (by om32)]
      congr 1; om32

/-- **C95** (linked lists). `_test_sequence` accepts exactly the lists that count from `start` to `stop`, up or down, for every list that is in order and all
numbers and lengths far from 2^32 (of any other list it either says that it is wrong, or it dereferences a null pointer for its message). -/
theorem C95_list_sequence {s : ListSt} {xs : List (Nat × Nat)} (h : PtrList.Rep s.h 0 xs) (hl : xs.length ≤ 100) {start stop : Nat}
    (h1 : start + 100 < U32) (h2 : stop + 100 < U32) : testSequence s start stop = .ok true ↔
      xs.map Prod.snd = if start < stop then List.range' start (stop + 1 - start) else (List.range' stop (start + 1 - stop)).reverse := by
  have hf : ∀ up pid, walk s.h true up 100 (PtrList.head s.h 0) pid = .ok (countOff up pid (xs.map Prod.snd)) := by
    intro up pid
    show walk s.h true up 100 (s.h.hdr 0).head pid = _
    rw [h.hd]
    exact walk_fwd h up xs [] rfl 100 pid hl
  have hb : ∀ up pid, walk s.h false up 100 (PtrList.tail s.h 0) pid = .ok (countOff up pid (xs.map Prod.snd).reverse) := by
    intro up pid
    show walk s.h false up 100 (s.h.hdr 0).tail pid = _
    rw [h.tl, ← List.head?_reverse, ← List.map_reverse]
    exact walk_bwd h up xs.reverse [] (by simp) 100 pid (by simpa using hl)
  obtain ⟨ds, hds⟩ : ∃ ds, ds = xs.map Prod.snd := ⟨_, rfl⟩
  have hdl : ds.length ≤ 100 := by rw [hds, List.length_map]; exact hl
  rw [← hds] at hf hb ⊢
  unfold testSequence
  dsimp only
  rw [hf, ok_bind']
  by_cases hlt : start < stop
  · rw [if_pos hlt, decide_eq_true hlt]
    simp only [if_true, Bool.not_true]
    cases hc : countOff true start ds with
    | none =>
      dsimp only
      constructor
      · intro e; cases e
      · intro e
        have : countOff true start ds = some (start + ds.length) := (countOff_up ds (by om32)).2 ⟨by rw [e]; simp, rfl⟩
        rw [hc] at this; cases this
    | some q =>
      dsimp only
      obtain ⟨k1, k2⟩ := (countOff_up ds (by om32)).1 hc
      have hq : sub32 q 1 = stop ↔ ds.length = stop + 1 - start := by
        rw [k2]; unfold sub32; om32
      by_cases hlen : ds.length = stop + 1 - start
      · rw [if_neg (by rw [hq.2 hlen]; simp), hb, ok_bind']
        have e : ds.reverse = (List.range' (stop + 1 - (stop + 1 - start)) (stop + 1 - start)).reverse := by
          rw [k1, hlen]; congr 2; om32
        rw [e, countOff_down_ok _ _ (by om32) (by om32)]
        dsimp only
        rw [if_neg]
        · rw [k1, hlen]; simp; rfl
        · unfold add32; om32
      · rw [if_pos (fun e => hlen (hq.1 e))]
        constructor
        · intro e; cases e
        · intro e; exact absurd (by rw [e]; simp) hlen
  · rw [if_neg hlt, decide_eq_false hlt]
    simp only [Bool.false_eq_true, if_false, Bool.not_false]
    cases hc : countOff false start ds with
    | none =>
      dsimp only
      constructor
      · intro e; cases e
      · intro e
        have := countOff_down_ok (start + 1 - stop) start (by om32) (by om32)
        rw [show start + 1 - (start + 1 - stop) = stop by om32, ← e, hc] at this
        cases this
    | some q =>
      dsimp only
      obtain ⟨k1, k2⟩ := countOff_down ds (by om32) hc (by om32)
      have hq : add32 q 1 = stop ↔ ds.length = start + 1 - stop := by
        rw [k1]; unfold add32; om32
      by_cases hlen : ds.length = start + 1 - stop
      · rw [if_neg (by rw [hq.2 hlen]; simp), hb, ok_bind']
        have k3 := k2 (by om32)
        rw [hlen, show start + 1 - (start + 1 - stop) = stop by om32] at k3
        have : countOff true stop ds.reverse = some (stop + ds.length) := by
          have := (countOff_up (q := stop + ds.length) (pid := stop) ds.reverse (by rw [List.length_reverse]; om32)).2
          refine this ⟨?_, by rw [List.length_reverse]⟩
          rw [List.length_reverse, hlen, k3, List.reverse_reverse]
        rw [this]
        dsimp only
        rw [if_neg]
        · rw [← k3]; simp; rfl
        · unfold sub32; om32
      · rw [if_pos (fun e => hlen (hq.1 e))]
        constructor
        · intro e; cases e
        · intro e; exact absurd (by rw [e]; simp) hlen

/-- Non-vacuity: a list in order, checked in the right and in the wrong direction. -/
example : (do
    let s ← pushTail ⟨PtrList.init ⟨fun _ => none, fun _ => ⟨none, none, 0⟩⟩ 0, 1⟩ 3
    let s ← pushTail s 2
    let s ← pushTail s 1
    let a ← testSequence s 3 1
    let b ← testSequence s 1 3
    return (a, b)) = (.ok (true, false) : M (Bool × Bool)) := by kernel_refl

end UnitTest
end Rmc
