import Verif.CircBufLemmas
import Verif.Proto

set_option linter.unusedSimpArgs false

namespace Rmc

namespace CircBuf

theorem free_start {b : CircBuf} (h : WF b) (n : Nat) (h0 : n ≠ 0) :
    (free b n).1.start = if bytes (free b n).1 = [] then 0 else (b.start + n) % b.size := by
  have hlt := inUse_lt h
  · by_cases h1 : n ≥ inUse b
    · have e : bytes (free b n).1 = [] := by
        rw [(free_spec h n).2.2.1]
        exact List.drop_of_length_le (by rw [length_bytes]; exact h1)
      rw [if_pos e]
      unfold free
      simp only [h0, if_false, h1, if_true]
    · have e : bytes (free b n).1 ≠ [] := by
        rw [(free_spec h n).2.2.1]
        intro e
        have := congrArg List.length e
        rw [List.length_drop, length_bytes, List.length_nil] at this
        omega
      rw [if_neg e]
      unfold free
      simp only [h0, if_false, h1]
      have := h.start_lt
      have := h.le
      rw [add32_eq (by simp only [U32]; omega)]

theorem inUse_zero_iff {b : CircBuf} : inUse b = 0 ↔ bytes b = [] := by
  rw [← length_bytes]; exact List.length_eq_zero_iff

theorem read_one {b : CircBuf} (h : WF b) {c : UInt8} {cs : List UInt8} (hb : bytes b = c :: cs) :
    CircBuf.read b 1 = .ok (0, [c]) := by
  unfold CircBuf.read
  rw [readOffset_ok h (Nat.zero_le _) offsetSafe_zero, hb]
  simp

end CircBuf

namespace Proto
open CircBuf

variable {σ : Type}

namespace Lang

theorem split_fuel {L : Lang σ} (hL : L.OK) : ∀ (f g : Nat) (xs : List UInt8), xs.length < f → xs.length < g →
    split L.frame f xs = split L.frame g xs := by
  intro f
  induction f with
  | zero => intro g xs h1; omega
  | succ f ih =>
    intro g xs h1 h2
    cases g with
    | zero => omega
    | succ g =>
      simp only [split]
      by_cases hx : xs = []
      · simp [hx]
      · simp only [hx, if_false]
        cases hf : L.frame xs with
        | more => rfl
        | bad => rfl
        | cmd n =>
          obtain ⟨p1, p2⟩ := hL.pos xs n hf
          simp only
          rw [ih g (xs.drop n) (by rw [List.length_drop]; omega) (by rw [List.length_drop]; omega)]

theorem split_eq {L : Lang σ} (hL : L.OK) (xs : List UInt8) :
    split L.frame (xs.length + 1) xs =
      if xs = [] then ([], 0, [])
      else match L.frame xs with
        | .more => ([], EAGAIN, xs)
        | .bad => ([], EPROTO, xs)
        | .cmd n => (xs.take n :: L.commands (xs.drop n), L.status (xs.drop n), L.rest (xs.drop n)) := by
  rw [split]
  by_cases hx : xs = []
  · simp [hx]
  · simp only [hx, if_false]
    cases hf : L.frame xs with
    | more => rfl
    | bad => rfl
    | cmd n =>
      obtain ⟨p1, p2⟩ := hL.pos xs n hf
      simp only
      rw [split_fuel hL xs.length ((xs.drop n).length + 1) (xs.drop n) (by rw [List.length_drop]; omega)
        (by omega)]
      rfl

theorem commands_nil {L : Lang σ} : L.commands [] = [] := rfl
theorem status_nil {L : Lang σ} : L.status [] = 0 := rfl
theorem rest_nil {L : Lang σ} : L.rest [] = [] := rfl

theorem split_cmd {L : Lang σ} (hL : L.OK) {xs : List UInt8} {n : Nat} (h : L.frame xs = .cmd n) :
    L.commands xs = xs.take n :: L.commands (xs.drop n) ∧ L.status xs = L.status (xs.drop n) ∧
    L.rest xs = L.rest (xs.drop n) := by
  have hx : xs ≠ [] := by rintro rfl; have := hL.pos _ _ h; simp at this; omega
  unfold commands status rest
  rw [split_eq hL xs]
  simp only [hx, if_false, h]
  exact ⟨rfl, rfl, rfl⟩

theorem split_more {L : Lang σ} {xs : List UInt8} (hx : xs ≠ []) (h : L.frame xs = .more) :
    L.commands xs = [] ∧ L.status xs = EAGAIN ∧ L.rest xs = xs := by
  unfold commands status rest
  simp [split, hx, h]

theorem split_bad {L : Lang σ} {xs : List UInt8} (hx : xs ≠ []) (h : L.frame xs = .bad) :
    L.commands xs = [] ∧ L.status xs = EPROTO ∧ L.rest xs = xs := by
  unfold commands status rest
  simp [split, hx, h]

/-- Parsing a stream in two parts, keeping the leftover, is parsing it at once. -/
theorem split_append {L : Lang σ} (hL : L.OK) : ∀ (k : Nat) (xs ys : List UInt8), xs.length ≤ k →
    L.commands (xs ++ ys) = L.commands xs ++ L.commands (L.rest xs ++ ys) ∧
    L.status (xs ++ ys) = L.status (L.rest xs ++ ys) ∧ L.rest (xs ++ ys) = L.rest (L.rest xs ++ ys) := by
  intro k
  induction k with
  | zero =>
    intro xs ys h
    have : xs = [] := List.length_eq_zero_iff.mp (by omega)
    subst this
    simp [commands_nil, rest_nil]
  | succ k ih =>
    intro xs ys h
    by_cases hx : xs = []
    · subst hx; simp [commands_nil, rest_nil]
    · cases hf : L.frame xs with
      | more => obtain ⟨a, b, c⟩ := split_more hx hf; simp [a, c]
      | bad => obtain ⟨a, b, c⟩ := split_bad hx hf; simp [a, c]
      | cmd n =>
        obtain ⟨p1, p2⟩ := hL.pos xs n hf
        obtain ⟨a, b, c⟩ := split_cmd hL hf
        obtain ⟨a', b', c'⟩ := split_cmd hL (hL.cmd_append xs ys n hf)
        rw [List.take_append_of_le_length p2] at a'
        rw [List.drop_append_of_le_length p2] at a' b' c'
        obtain ⟨i1, i2, i3⟩ := ih (xs.drop n) ys (by rw [List.length_drop]; omega)
        rw [a, a', b', c', c, i1, i2, i3]
        simp

theorem rest_length {L : Lang σ} (hL : L.OK) : ∀ (k : Nat) (xs : List UInt8), xs.length ≤ k →
    ∃ c, xs = c ++ L.rest xs := by
  intro k
  induction k with
  | zero =>
    intro xs h
    have : xs = [] := List.length_eq_zero_iff.mp (by omega)
    subst this; exact ⟨[], rfl⟩
  | succ k ih =>
    intro xs h
    by_cases hx : xs = []
    · subst hx; exact ⟨[], rfl⟩
    · cases hf : L.frame xs with
      | more => obtain ⟨a, b, c⟩ := split_more hx hf; exact ⟨[], by simp [c]⟩
      | bad => obtain ⟨a, b, c⟩ := split_bad hx hf; exact ⟨[], by simp [c]⟩
      | cmd n =>
        obtain ⟨p1, p2⟩ := hL.pos xs n hf
        obtain ⟨a, b, c⟩ := split_cmd hL hf
        obtain ⟨w, hw⟩ := ih (xs.drop n) (by rw [List.length_drop]; omega)
        refine ⟨xs.take n ++ w, ?_⟩
        rw [c, List.append_assoc, ← hw, List.take_append_drop]

/-- The commands and the leftover make up the stream: nothing is lost or invented. -/
theorem flatten_commands {L : Lang σ} (hL : L.OK) : ∀ (k : Nat) (xs : List UInt8), xs.length ≤ k →
    (L.commands xs).flatten ++ L.rest xs = xs := by
  intro k
  induction k with
  | zero =>
    intro xs h
    have : xs = [] := List.length_eq_zero_iff.mp (by omega)
    subst this; rfl
  | succ k ih =>
    intro xs h
    by_cases hx : xs = []
    · subst hx; rfl
    · cases hf : L.frame xs with
      | more => obtain ⟨a, b, c⟩ := split_more hx hf; simp [a, c]
      | bad => obtain ⟨a, b, c⟩ := split_bad hx hf; simp [a, c]
      | cmd n =>
        obtain ⟨p1, p2⟩ := hL.pos xs n hf
        obtain ⟨a, b, c⟩ := split_cmd hL hf
        have hw := ih (xs.drop n) (by rw [List.length_drop]; omega)
        rw [a, c, List.flatten_cons, List.append_assoc, hw, List.take_append_drop]

end Lang

/-- Executing a list of commands. -/
def effects (L : Lang σ) (s : σ) (cs : List (List UInt8)) : M σ := cs.foldlM L.eff s

theorem effects_cons (L : Lang σ) (s : σ) (c : List UInt8) (cs : List (List UInt8)) :
    effects L s (c :: cs) = L.eff s c >>= fun s' => effects L s' cs := rfl

theorem effects_append (L : Lang σ) (s : σ) (cs ds : List (List UInt8)) :
    effects L s (cs ++ ds) = effects L s cs >>= fun s' => effects L s' ds := by
  unfold effects; rw [List.foldlM_append]

/-- What a read must do, in terms of the command language. -/
def Outcome (L : Lang σ) (s : σ) (size start : Nat) (xs : List UInt8) (r : M (Nat × σ × CircBuf)) : Prop :=
  match effects L s (L.commands xs) with
  | .error f => r = .error f
  | .ok s' => ∃ b', r = .ok (L.status xs, s', b') ∧ WF b' ∧ b'.size = size ∧ bytes b' = L.rest xs ∧
      b'.start = if L.rest xs = [] then 0 else (start + (xs.length - (L.rest xs).length)) % size

theorem processLoop_spec {t : Table σ} {L : Lang σ} (hL : L.OK) (hT : Implements t L) :
    ∀ (fuel : Nat) (s : σ) (b : CircBuf) (c : UInt8) (cs : List UInt8), WF b → bytes b = c :: cs →
      (bytes b).length ≤ fuel → L.safeFrom b.size ((bytes b).length + 1) b.start (bytes b) →
      Outcome L s b.size b.start (bytes b) (processLoop t fuel s b c) := by
  intro fuel
  induction fuel with
  | zero => intro s b c cs _ hb hf; rw [hb] at hf; simp at hf
  | succ fuel ih =>
    intro s b c cs hw hb hf hs
    have hne : bytes b ≠ [] := by rw [hb]; simp
    rw [Lang.safeFrom, if_neg hne] at hs
    have himp := hT s b c cs hw hb hs.1
    have hself : b.start = if bytes b = [] then 0
        else (b.start + ((bytes b).length - (bytes b).length)) % b.size := by
      rw [if_neg hne, Nat.sub_self, Nat.add_zero, Nat.mod_eq_of_lt hw.start_lt]
    unfold Outcome
    cases hfr : L.frame (bytes b) with
    | bad =>
      rw [hfr] at himp
      obtain ⟨a1, a2, a3⟩ := Lang.split_bad hne hfr
      simp only at himp
      rw [a1, a2, a3]
      simp only [effects, List.foldlM_nil, pure, Except.pure]
      exact ⟨b, by simp [processLoop, himp], hw, rfl, rfl, hself⟩
    | more =>
      rw [hfr] at himp
      obtain ⟨a1, a2, a3⟩ := Lang.split_more hne hfr
      obtain ⟨h, h1, h2⟩ := himp
      rw [a1, a2, a3]
      simp only [effects, List.foldlM_nil, pure, Except.pure]
      refine ⟨b, ?_, hw, rfl, rfl, hself⟩
      simp only [processLoop, h1, h2, bind, Except.bind, pure, Except.pure]
      rw [if_pos (by decide)]
    | cmd n =>
      rw [hfr] at himp
      obtain ⟨p1, p2⟩ := hL.pos _ _ hfr
      obtain ⟨a1, a2, a3⟩ := Lang.split_cmd hL hfr
      obtain ⟨h, h1, h2⟩ := himp
      rw [a1, a2, a3, effects_cons]
      cases he : L.eff s ((bytes b).take n) with
      | error f =>
        rw [he] at h2
        simp only at h2
        simp only [bind, Except.bind, processLoop, h1, h2]
      | ok s1 =>
        rw [he] at h2
        obtain ⟨b1, g1, g2, g3, g4, g5⟩ := h2
        simp only [bind, Except.bind]
        rw [← g4]
        by_cases hz : bytes b1 = []
        · have hu : inUse b1 = 0 := inUse_zero_iff.mpr hz
          rw [hz, Lang.commands_nil, Lang.status_nil, Lang.rest_nil]
          simp only [effects, List.foldlM_nil, pure, Except.pure]
          refine ⟨b1, ?_, g2, g3, hz, by rw [g5, if_pos hz]; simp⟩
          simp only [processLoop, h1, g1, bind, Except.bind, pure, Except.pure, hu, ne_eq,
            not_true_eq_false, if_false, if_true]
        · have hu : inUse b1 ≠ 0 := fun h => hz (inUse_zero_iff.mp h)
          obtain ⟨d, ds, hd⟩ := List.exists_cons_of_ne_nil hz
          have hst : b1.start = (b.start + n) % b.size := by rw [g5, if_neg hz]
          have hlen : (bytes b1).length = (bytes b).length - n := by rw [g4, List.length_drop]
          have hs2 := hs.2
          rw [hfr] at hs2
          simp only at hs2
          rw [← g4, ← hst, ← g3] at hs2
          have hsf : L.safeFrom b1.size ((bytes b1).length + 1) b1.start (bytes b1) := by
            -- less fuel is enough
            have aux : ∀ (f g : Nat) (pos : Nat) (xs : List UInt8), xs.length < f → xs.length < g →
                L.safeFrom b1.size f pos xs → L.safeFrom b1.size g pos xs := by
              intro f
              induction f with
              | zero => intro g pos xs h1; omega
              | succ f ihf =>
                intro g pos xs h1 h2 h3
                cases g with
                | zero => omega
                | succ g =>
                  simp only [Lang.safeFrom] at h3 ⊢
                  by_cases hx : xs = []
                  · simp [hx]
                  · simp only [hx, if_false] at h3 ⊢
                    refine ⟨h3.1, ?_⟩
                    cases hf : L.frame xs with
                    | more => trivial
                    | bad => trivial
                    | cmd m =>
                      have h4 := h3.2
                      rw [hf] at h4
                      obtain ⟨q1, q2⟩ := hL.pos xs m hf
                      exact ihf g _ _ (by rw [List.length_drop]; omega) (by rw [List.length_drop]; omega) h4
            exact aux _ _ _ _ (by omega) (by omega) hs2
          have hrec := ih s1 b1 d ds g2 hd (by omega) hsf
          unfold Outcome at hrec
          rw [g3] at hrec
          have hr := read_one g2 hd
          have hpl : processLoop t (fuel + 1) s b c = processLoop t fuel s1 b1 d := by
            simp only [processLoop, h1, g1, bind, Except.bind, pure, Except.pure, hu, ne_eq,
              not_true_eq_false, if_false, hr, List.headD_cons]
          rw [hpl]
          obtain ⟨w, hw'⟩ := Lang.rest_length hL _ (bytes b1) (Nat.le_refl _)
          have hwl := congrArg List.length hw'
          rw [List.length_append] at hwl
          have hpos : (b1.start + ((bytes b1).length - (L.rest (bytes b1)).length)) % b.size =
              (b.start + ((bytes b).length - (L.rest (bytes b1)).length)) % b.size := by
            rw [hst, Nat.mod_add_mod]
            congr 1
            omega
          rw [hpos] at hrec
          exact hrec

theorem safeFrom_of_true {L : Lang σ} (h : ∀ a b c, L.safe a b c) (size : Nat) :
    ∀ (f pos : Nat) (xs : List UInt8), L.safeFrom size f pos xs := by
  intro f
  induction f with
  | zero => intro _ _; trivial
  | succ f ih =>
    intro pos xs
    simp only [Lang.safeFrom]
    split
    · trivial
    · refine ⟨h _ _ _, ?_⟩
      split
      · exact ih _ _
      · trivial

theorem processTcpRead_spec {t : Table σ} {L : Lang σ} (hL : L.OK) (hT : Implements t L) {fuel : Nat} {s : σ}
    {b : CircBuf} (hw : WF b) (hne : bytes b ≠ []) (hf : (bytes b).length ≤ fuel)
    (hs : L.safeFrom b.size ((bytes b).length + 1) b.start (bytes b)) :
    Outcome L s b.size b.start (bytes b) (processTcpRead t fuel s b) := by
  obtain ⟨c, cs, hb⟩ := List.exists_cons_of_ne_nil hne
  have := processLoop_spec hL hT fuel s b c cs hw hb hf hs
  have hr := read_one hw hb
  have e : processTcpRead t fuel s b = processLoop t fuel s b c := by
    simp only [processTcpRead, hr, bind, Except.bind, ne_eq, not_true_eq_false, if_false, List.headD_cons]
  rw [e]; exact this

/-- After allocating everything that is free, the read leaves the buffer trimmable iff `ReadSafe`. -/
theorem trimSafe_iff {b c : CircBuf} {e : Nat} {s1 s2 : Region} (h : WF b)
    (hA : alloc b (available b) = (e, s1, s2, c)) (ha : available b ≠ 0) {b' : CircBuf} (hsz : b'.size = b.size)
    (hst : b'.start = b.start) (hsp : b'.stop = c.stop) (n : Nat) :
    TrimSafe b' (n + inUse b) ↔ ReadSafe b n := by
  have hiu := inUse_eq h
  have hav := available_eq h
  have hal := alloc_ok h (Nat.le_refl (available b))
  rw [hA] at hal
  obtain ⟨w1, w2, w3, w4, w5⟩ := h
  unfold TrimSafe ReadSafe
  rw [hsz, hst, hsp]
  split at hal <;> simp only [Prod.mk.injEq] at hal <;> obtain ⟨_, _, _, rfl⟩ := hal <;> simp only <;>
    split at hiu <;> somega

theorem tcpRead_spec {t : Table σ} {L : Lang σ} (hL : L.OK) (hT : Implements t L) {fuel : Nat} {s : σ}
    {b : CircBuf} (hw : WF b) {xs : List UInt8} (hx : xs ≠ []) (hlen : xs.length ≤ available b)
    (hrs : ReadSafe b xs.length) (hf : b.size ≤ fuel)
    (hs : L.safeFrom b.size ((bytes b ++ xs).length + 1) b.start (bytes b ++ xs)) :
    Outcome L s b.size b.start (bytes b ++ xs) (tcpRead t fuel s b (some xs)) := by
  have ha : available b ≠ 0 := by
    have : 0 < xs.length := List.length_pos_iff.mpr hx
    omega
  generalize hA : alloc b (available b) = r
  obtain ⟨e, s1, s2, c⟩ := r
  have he : e = 0 := by
    have := alloc_ok hw (Nat.le_refl (available b))
    rw [hA] at this
    split at this <;> simp only [Prod.mk.injEq] at this <;> exact this.1
  subst he
  obtain ⟨b', k1, k2, k3, k4, k5, k6, k7⟩ := alloc_scatter hw (Nat.le_refl _) hA hlen
  have hts := (trimSafe_iff hw hA ha k3 k4 k5 xs.length).mpr hrs
  have hlt := inUse_lt hw
  have hav := available_eq hw
  have hle := hw.le
  have hadd : add32 xs.length (inUse b) = xs.length + inUse b := add32_eq (by simp only [U32]; omega)
  obtain ⟨t1, t2, t3, t4, _⟩ := trim_spec k2 hts
  have tb : bytes (trim b' (xs.length + inUse b)) = bytes b ++ xs := by
    rw [trim_bytes k2 hts, Nat.add_comm, k7]
  have hsp := processTcpRead_spec hL hT (fuel := fuel) (s := s) t1 (by rw [tb]; simp [hx])
    (by rw [length_bytes, t4]; omega) (by rw [tb, t2, t3, k3, k4]; exact hs)
  rw [tb, t2, t3, k3, k4] at hsp
  have htk : xs.take (available b) = xs := List.take_of_length_le hlen
  have : tcpRead t fuel s b (some xs) = processTcpRead t fuel s (trim b' (xs.length + inUse b)) := by
    unfold tcpRead
    dsimp only
    rw [if_neg ha, hA]
    dsimp only
    rw [if_neg (by simp), Option.getD_some, htk, if_neg hx, k1, hadd]
    rfl
  rw [this]
  exact hsp

end Proto
end Rmc
