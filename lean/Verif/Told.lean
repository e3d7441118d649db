import Verif.Polls
import Verif.ConnLemmas

/-! # Specification: the descriptors an event loop is told about -/

set_option linter.unusedSimpArgs false

namespace Rmc

/-- The state of one index in an event loop, as far as descriptors go: `none` after a misuse (added twice or without a descriptor, modified or removed
while not registered, or with a descriptor other than the one registered), otherwise the descriptor registered, if any. -/
def toldStep (i : Nat) (st : Option (Option Nat)) (e : PollEv) : Option (Option Nat) :=
  match st, e with
  | none, _ => none
  | some r, .add j d _ => if j = i then (if r = none ∧ d ≠ none then some d else none) else some r
  | some r, .modify j d _ _ => if j = i then (if r ≠ none ∧ d = r then some r else none) else some r
  | some r, .remove j d => if j = i then (if r ≠ none ∧ d = r then some none else none) else some r

/-- The state of index `i` after a sequence of poll callbacks. -/
def told (i : Nat) (es : List PollEv) : Option (Option Nat) := es.foldl (toldStep i) (some none)

theorem told_snoc (i : Nat) (xs : List PollEv) (e : PollEv) : told i (xs ++ [e]) = toldStep i (told i xs) e := by
  unfold told; rw [List.foldl_append]; rfl

theorem told_other {i : Nat} {e : PollEv} (h : e.idx ≠ i) (xs : List PollEv) : told i (xs ++ [e]) = told i xs := by
  rw [told_snoc]
  cases told i xs with
  | none => cases e <;> rfl
  | some r => cases e <;> simp_all [toldStep, PollEv.idx]

theorem told_back {i d : Nat} {e : PollEv} (he : ∀ x a, e ≠ .add i (some x) a) {xs : List PollEv} (h : told i (xs ++ [e]) = some (some d)) :
    told i xs = some (some d) := by
  by_cases hi : e.idx = i
  · rw [told_snoc] at h
    cases ht : told i xs with
    | none => rw [ht] at h; cases e <;> cases h
    | some r =>
      rw [ht] at h
      cases e with
      | add j x a =>
        have hj : j = i := hi
        subst hj
        exfalso
        simp only [toldStep, if_pos] at h
        split at h
        · rename_i hx
          cases x with
          | none => exact hx.2 rfl
          | some x => exact he x a rfl
        · cases h
      | modify j x a b =>
        have hj : j = i := hi
        subst hj
        simp only [toldStep, if_pos] at h
        split at h
        · exact h
        · cases h
      | remove j x =>
        have hj : j = i := hi
        subst hj
        simp only [toldStep, if_pos] at h
        split at h <;> cases h
  · rw [told_other hi] at h; exact h

/-- At no time is a descriptor registered for two indices. -/
def Dist (es : List PollEv) : Prop :=
  ∀ pre, pre <+: es → ∀ i j d, told i pre = some (some d) → told j pre = some (some d) → i = j

theorem Dist.nil : Dist [] := by
  intro pre h i j d h1
  have : pre = [] := List.prefix_nil.1 h
  subst this
  cases h1

theorem Dist.snoc {xs : List PollEv} {e : PollEv} (h : Dist xs)
    (he : ∀ i j d, told i (xs ++ [e]) = some (some d) → told j (xs ++ [e]) = some (some d) → i = j) : Dist (xs ++ [e]) := by
  intro pre hp
  rcases List.prefix_concat_iff.1 hp with hp | hp
  · rw [hp]; exact he
  · exact h pre hp

theorem Dist.quiet {xs : List PollEv} {e : PollEv} (h : Dist xs) (he : ∀ i x a, e ≠ .add i (some x) a) : Dist (xs ++ [e]) :=
  h.snoc fun i j d h1 h2 => h xs List.prefix_rfl i j d (told_back (he i) h1) (told_back (he j) h2)

theorem Dist.add {xs : List PollEv} {k d : Nat} {a : Act} (h : Dist xs) (hd : ∀ j, told j xs ≠ some (some d)) :
    Dist (xs ++ [.add k (some d) a]) := by
  have key : ∀ j x, told j (xs ++ [.add k (some d) a]) = some (some x) → (j = k ∧ x = d) ∨ (j ≠ k ∧ told j xs = some (some x)) := by
    intro j x hj
    by_cases e : k = j
    · subst e
      left
      refine ⟨rfl, ?_⟩
      rw [told_snoc] at hj
      cases ht : told k xs with
      | none => rw [ht] at hj; cases hj
      | some r =>
        rw [ht] at hj
        simp only [toldStep, if_pos] at hj
        split at hj
        · exact (Option.some.inj (Option.some.inj hj)).symm
        · cases hj
    · rw [told_other (by exact e)] at hj
      exact .inr ⟨fun x => e x.symm, hj⟩
  refine h.snoc fun i j x h1 h2 => ?_
  rcases key i x h1 with ⟨e1, e2⟩ | ⟨e1, e2⟩ <;> rcases key j x h2 with ⟨e3, e4⟩ | ⟨e3, e4⟩
  · rw [e1, e3]
  · rw [e2] at e4; exact absurd e4 (hd j)
  · rw [e4] at e2; exact absurd e2 (hd i)
  · exact h xs List.prefix_rfl i j x e2 e4

namespace ConnVec

/-- Specification: the descriptor at an index: `m` at that of the multicast socket, `l` at that of the listen socket, that of a slot elsewhere. -/
def descOf (v : ConnVec) (m l : Option Nat) (i : Nat) : Option Nat :=
  if i = MULTICAST_INDEX then m else if i = LISTEN_INDEX then l else (v.conns i).desc

/-- At the index of the listen socket only read events are asked for. -/
def listens : PollEv → Prop
  | .add i _ a => i = LISTEN_INDEX → a = .R
  | .modify i _ o n => i = LISTEN_INDEX → o = .R ∧ n = .R
  | .remove _ _ => True

/-- An index in use. -/
def Idx (v : ConnVec) (i : Nat) : Prop := i < v.size ∨ i = LISTEN_INDEX ∨ i = MULTICAST_INDEX

/-- The event loop knows the descriptors of the indices in `K`. (`K NIL_INDEX` stands for keeping track of the descriptors across indices.) -/
structure TInv (K : Nat → Prop) (v : ConnVec) (m l : Option Nat) : Prop where
  sz : v.size ≤ LISTEN_INDEX
  ok : ∀ i, K i → i < v.size ∨ i = LISTEN_INDEX ∨ i = MULTICAST_INDEX → told i v.polls = some (descOf v m l i)
  other : ∀ i, ¬ Idx v i → told i v.polls = some none
  dist : K NIL_INDEX → Dist v.polls
  lst : ∀ e ∈ v.polls, listens e

theorem lst_snoc {es : List PollEv} (h : ∀ e ∈ es, listens e) {e : PollEv} (he : listens e) : ∀ x ∈ es ++ [e], listens x := by
  intro x hx
  rcases List.mem_append.1 hx with hx | hx
  · exact h x hx
  · rw [List.mem_singleton.1 hx]; exact he

theorem descOf_lt {v : ConnVec} {m l : Option Nat} {i : Nat} (h : i < v.size) (hs : v.size ≤ LISTEN_INDEX) : descOf v m l i = (v.conns i).desc := by
  have h1 : LISTEN_INDEX = 32765 := rfl
  have h2 : MULTICAST_INDEX = 32766 := rfl
  unfold descOf
  rw [if_neg (by omega), if_neg (by omega)]

variable {K : Nat → Prop} {v v' : ConnVec} {m l : Option Nat}

theorem TInv.same (h : TInv K v m l) (h1 : v'.size = v.size) (h2 : v'.polls = v.polls) (h3 : ∀ i, (v'.conns i).desc = (v.conns i).desc) :
    TInv K v' m l := by
  refine ⟨by rw [h1]; exact h.sz, fun i hk hi => ?_, by unfold Idx; rw [h1, h2]; exact h.other, by rw [h2]; exact h.dist, by rw [h2]; exact h.lst⟩
  rw [h1] at hi
  rw [h2, h.ok i hk hi]
  unfold descOf
  rw [h3]

theorem TInv.modify (h : TInv K v m l) {i : Nat} {d : Option Nat} (hr : Idx v i) (hd : d = descOf v m l i) (hn : K i → descOf v m l i ≠ none) (o n : Act)
    (hli : i = LISTEN_INDEX → o = .R ∧ n = .R) :
    TInv K (v.poll (.modify i d o n)) m l := by
  subst hd
  refine ⟨h.sz, fun j hk hj => ?_, fun j hj => ?_, fun hk => (h.dist hk).quiet (by simp), lst_snoc h.lst hli⟩
  rotate_left
  · show told j (v.polls ++ [_]) = _
    rw [told_other (by exact fun (e : i = j) => hj (e ▸ hr))]; exact h.other j hj
  show told j (v.polls ++ [_]) = _
  by_cases e : i = j
  · subst e
    rw [told_snoc, h.ok i hk hj]
    show (if i = i then (if descOf v m l i ≠ none ∧ descOf v m l i = descOf v m l i then some (descOf v m l i) else none) else _) = _
    rw [if_pos rfl, if_pos ⟨hn hk, rfl⟩]
    rfl
  · rw [told_other (by exact e), h.ok j hk hj]
    rfl

theorem TInv.setSame (h : TInv K v m l) {i : Nat} {x : Conn} (hx : x.desc = (v.conns i).desc) : TInv K (v.set i x) m l := by
  refine h.same rfl rfl fun j => ?_
  show (if j = i then x else v.conns j).desc = _
  by_cases e : j = i
  · subst e; rw [if_pos rfl, hx]
  · rw [if_neg e]

/-- A slot is registered, its descriptor is the one given. -/
theorem TInv.opens (h : TInv K v m l) {i d : Nat} {a : Act} (hi : i < v.size) (hd : (v.conns i).desc = none) (h1 : v'.size = v.size)
    (h2 : v'.polls = v.polls ++ [.add i (some d) a]) (h3 : (v'.conns i).desc = some d) (h4 : ∀ j, j ≠ i → (v'.conns j).desc = (v.conns j).desc)
    (hf : K NIL_INDEX → (∀ j, Idx v j → K j) ∧ ∀ j, Idx v j → descOf v m l j ≠ some d) : TInv K v' m l := by
  refine ⟨by rw [h1]; exact h.sz, fun j hk hj => ?_, fun j hj => ?_, fun hk => ?_, by
    rw [h2]; exact lst_snoc h.lst (fun e => absurd hi (by have := h.sz; omega))⟩
  rotate_left
  · unfold Idx at hj
    rw [h1] at hj
    rw [h2, told_other (by exact fun (e : i = j) => hj (.inl (e ▸ hi)))]; exact h.other j hj
  · rw [h2]
    refine (h.dist hk).add fun j hj => ?_
    by_cases hji : Idx v j
    · rw [h.ok j ((hf hk).1 j hji) hji] at hj
      exact (hf hk).2 j hji (Option.some.inj hj)
    · rw [h.other j hji] at hj; cases hj
  rw [h1] at hj
  rw [h2]
  by_cases e : i = j
  · subst e
    rw [told_snoc, h.ok i hk hj, descOf_lt hi h.sz, hd, descOf_lt (by rw [h1]; exact hi) (by rw [h1]; exact h.sz), h3]
    simp [toldStep]
  · rw [told_other (by exact e), h.ok j hk hj]
    unfold descOf
    rw [h4 j (fun x => e x.symm)]

/-- A slot is taken off, with the descriptor it has. -/
theorem TInv.shuts (h : TInv K v m l) {i : Nat} (hi : i < v.size) (hd : (v.conns i).desc ≠ none) (h1 : v'.size = v.size)
    (h2 : v'.polls = v.polls ++ [.remove i (v.conns i).desc]) (h3 : (v'.conns i).desc = none) (h4 : ∀ j, j ≠ i → (v'.conns j).desc = (v.conns j).desc) :
    TInv K v' m l := by
  refine ⟨by rw [h1]; exact h.sz, fun j hk hj => ?_, fun j hj => ?_, fun hk => by rw [h2]; exact (h.dist hk).quiet (by simp),
    by rw [h2]; exact lst_snoc h.lst trivial⟩
  rotate_left
  · unfold Idx at hj
    rw [h1] at hj
    rw [h2, told_other (by exact fun (e : i = j) => hj (.inl (e ▸ hi)))]; exact h.other j hj
  rw [h1] at hj
  rw [h2]
  by_cases e : i = j
  · subst e
    rw [told_snoc, h.ok i hk hj, descOf_lt hi h.sz, descOf_lt (by rw [h1]; exact hi) (by rw [h1]; exact h.sz), h3]
    simp [toldStep, hd]
  · rw [told_other (by exact e), h.ok j hk hj]
    unfold descOf
    rw [h4 j (fun x => e x.symm)]

theorem resetMax_same (v : ConnVec) : (resetMax v).size = v.size ∧ (resetMax v).polls = v.polls ∧ (resetMax v).conns = v.conns := by
  unfold resetMax
  split <;> exact ⟨rfl, rfl, rfl⟩

theorem TInv.close (h : TInv K v m l) {i : Nat} (hd : (v.conns i).mode ≠ .closed → (v.conns i).desc ≠ none) : TInv K (close v i).2 m l := by
  unfold ConnVec.close
  by_cases hi : i ≥ v.size
  · rw [if_pos hi]; exact h
  rw [if_neg hi]
  by_cases hm : (v.conns i).mode = .closed
  · rw [if_pos hm]; exact h
  rw [if_neg hm]
  dsimp only
  obtain ⟨w, hw⟩ : ∃ w, w = set (fd (poll v (.remove i (v.conns i).desc)) (.closed (v.conns i).desc)) i (resetConn v.bufSize (v.conns i) i) := ⟨_, rfl⟩
  have key : TInv K w m l := by
    refine h.shuts (by omega) (hd hm) (by rw [hw]; rfl) (by rw [hw]; rfl) ?_ ?_
    · rw [hw]; show (if i = i then _ else _ : Conn).desc = _; rw [if_pos rfl]; rfl
    · intro j hj; rw [hw]; show (if j = i then _ else _ : Conn).desc = _; rw [if_neg hj]; rfl
  obtain ⟨r1, r2, r3⟩ := resetMax_same w
  refine TInv.same (v := if i = w.maxInd then resetMax w else w) ?_ ?_ ?_ ?_
  · split
    · exact key.same r1 r2 (fun j => by rw [r3])
    · exact key
  all_goals rw [hw]; first | rfl | exact fun _ => rfl

end ConnVec
end Rmc
