import Verif.Log

/-!
# C64, C65: logging and the clock (rmc_log.c, rmc_log.h, time.c)
-/

namespace Rmc
namespace Log

/-! ## C64: logging is memory safe -/

theorem length_digits : ∀ (k n : Nat), n < 10 ^ (k + 1) → (digits n).length ≤ k + 1 := by
  intro k
  induction k with
  | zero =>
    intro n h
    unfold digits
    rw [if_pos (by simpa using h)]; simp
  | succ k ih =>
    intro n h
    unfold digits
    split
    · simp
    · rw [List.length_append]
      have := ih (n / 10) (by rw [Nat.div_lt_iff_lt_mul (by omega)]; rw [Nat.pow_succ] at h; omega)
      simp; omega

theorem esc_length (s : State) (x : String) : (esc s x).length ≤ x.toList.length + 1 := by
  unfold esc; split <;> simp

theorem indexColor_length (s : State) (i : Int) : (indexColor s i).length ≤ 19 := by
  have h : ∀ x : String, x.toList.length ≤ 18 → (esc s x).length ≤ 19 := by
    intro x hx; have := esc_length s x; omega
  unfold indexColor
  repeat' split
  all_goals exact h _ (by decide)

/-- The longest index string: beyond index 8 there is no color but a reset sequence. -/
theorem indexColor_long (s : State) {i : Int} (h : 8 < i) : (indexColor s i).length ≤ 4 := by
  have h' : ∀ x : String, x.toList.length ≤ 3 → (esc s x).length ≤ 4 := by
    intro x hx; have := esc_length s x; omega
  unfold indexColor
  repeat' split
  all_goals first | omega | exact h' _ (by decide)

/-- C64: whatever the index and the colors, the index string fits the 32 bytes reserved for it. -/
theorem C64_index_fits (s : State) {index : Nat} (h : index < 65536) : ∃ cs, indexStr s index = .ok cs := by
  have hn : (noColor s).length ≤ 4 := by
    have := esc_length s "[0m"; exact Nat.le_trans this (by decide)
  have ho : (orange s).length ≤ 19 := Nat.le_trans (esc_length s _) (by decide)
  have hy : (yellow s).length ≤ 19 := Nat.le_trans (esc_length s _) (by decide)
  have hu : ("[UDP]".toList).length = 5 := by decide
  have hc : ("[CTL]".toList).length = 5 := by decide
  have hs : ("     ".toList).length = 5 := by decide
  have hd : (digits index).length ≤ 5 := length_digits 4 index (by omega)
  have hd3 : (digits3 index).length = max 3 (digits index).length := by
    unfold digits3; simp; omega
  unfold indexStr INDEX_STR
  rw [if_pos]
  · exact ⟨_, rfl⟩
  · unfold indexText
    split
    · omega
    · split
      · simp only [List.length_append]; omega
      · split
        · simp only [List.length_append]; omega
        · have := indexColor_length s index
          by_cases h8 : 8 < (index : Int)
          · have := indexColor_long s h8
            simp only [List.length_append, List.length_cons, List.length_nil]; omega
          · have : (digits index).length ≤ 1 := length_digits 0 index (by omega)
            simp only [List.length_append, List.length_cons, List.length_nil]; omega

/-- A call of the logging functions that passes an index of 16 bits, as the prototype enforces. -/
def Op.small : Op → Prop
  | .msg m _ => m.index < 65536
  | _ => True

theorem rmcLog_total (tty : Nat → Bool) (s : State) {m : Msg} (h : m.index < 65536) (now : Int) :
    ∃ s', rmcLog tty s m now = .ok s' := by
  unfold rmcLog
  dsimp only
  split
  · obtain ⟨cs, e⟩ := C64_index_fits { { s with file := some (s.file.getD 0) } with calculated := true, useColor := if tty (s.file.getD 0) then 1 else 0 } h
    rw [e]; exact ⟨_, rfl⟩
  · obtain ⟨cs, e⟩ := C64_index_fits { s with file := some (s.file.getD 0) } h
    rw [e]; exact ⟨_, rfl⟩

/-- C64: no history of logging calls faults, as long as the log file is not set to the null pointer. -/
theorem C64_no_fault (tty : Nat → Bool) : ∀ (ops : List Op) (s : State), (∀ o ∈ ops, o.small) → (Op.file none) ∉ ops →
    ∃ s', run tty s ops = .ok s' := by
  intro ops
  induction ops with
  | nil => intro s _ _; exact ⟨s, rfl⟩
  | cons o os ih =>
    intro s h hn
    have key : ∃ r, step tty s o = .ok r := by
      cases o with
      | msg m now =>
        dsimp only [step, macroLog]
        split
        · obtain ⟨s', e⟩ := rmcLog_total tty s (h (.msg m now) (by simp)) now
          rw [e]; exact ⟨_, rfl⟩
        · exact ⟨_, rfl⟩
      | level n now =>
        dsimp only [step, setLevel]
        split
        · obtain ⟨s', e⟩ := rmcLog_total tty s (m := illegalLevel n) (show 65535 < 65536 by decide) now
          rw [e]; exact ⟨_, rfl⟩
        · exact ⟨_, rfl⟩
      | color n => exact ⟨_, rfl⟩
      | file f =>
        cases f with
        | none => exact absurd (by simp) hn
        | some g =>
          dsimp only [step, setFile]
          split <;> exact ⟨_, rfl⟩
      | start now => exact ⟨_, rfl⟩
    obtain ⟨r, hr⟩ := key
    obtain ⟨s', e⟩ := ih r.2 (fun x hx => h x (by simp [hx])) (fun hx => hn (by simp [hx]))
    exact ⟨s', by unfold run; rw [hr]; exact e⟩

theorem ok_of {α : Type} {x : M α} (h : x.toOption.isSome = true) : ∃ s, x = .ok s := by
  cases x with
  | error e => cases h
  | ok s => exact ⟨s, rfl⟩

/-- C64 fails for the null file: set back to the default after a first message, the library calls fileno(NULL), although before
the first message a null file is accepted and stands for stdout. -/
theorem C64_null_false :
    run (fun _ => true) init [.level 6 0, .msg ⟨6, [], 1, 0, []⟩ 0, .file none] = .error .nullDeref ∧
    ∃ s, run (fun _ => true) init [.file none, .level 6 0, .msg ⟨6, [], 1, 0, []⟩ 0] = .ok s := by
  constructor
  · decide +kernel
  · exact ok_of (by decide +kernel)

/-! ## C65: what is logged -/

/-- Specification: the configured level after a history, the last legal one given. -/
def levelOf (ops : List Op) : Int :=
  ops.foldl (fun l o => match o with | .level n _ => if 0 ≤ n ∧ n ≤ 6 then n else l | _ => l) 0

/-- Specification: the color setting after a history, -1 (automatic) by default. -/
def colorOf (ops : List Op) : Int := ops.foldl (fun l o => match o with | .color n => n | _ => l) (-1)

/-- Specification: where messages go after a history: the last file given, stdout by default. -/
def destOf (ops : List Op) : Nat := ops.foldl (fun l o => match o with | .file f => f.getD 0 | _ => l) 0

/-- Specification: the start time after a history. -/
def startOf (ops : List Op) : Int := ops.foldl (fun l o => match o with | .start t => t | _ => l) 0

/-- Specification: colors are used if asked for; in automatic mode if the destination is a terminal. -/
def colored (tty : Nat → Bool) (ops : List Op) : Bool := if colorOf ops = -1 then tty (destOf ops) else decide (colorOf ops ≠ 0)

structure Sim (tty : Nat → Bool) (s : State) (lv cm : Int) (d : Nat) (st : Int) : Prop where
  level : s.level = lv
  dest : s.file.getD 0 = d
  start : s.startTime = st
  color : (s.calculated = false ∧ s.useColor = cm) ∨
    (s.calculated = true ∧ cm = -1 ∧ s.file = some d ∧ s.useColor = if tty d then 1 else 0)

/-- The state `rmc_log` formats the message in. -/
def seen (tty : Nat → Bool) (s : State) : State :=
  if s.useColor = -1 then { s with file := some (s.file.getD 0), calculated := true, useColor := if tty (s.file.getD 0) then 1 else 0 }
  else { s with file := some (s.file.getD 0) }

theorem rmcLog_eq {tty : Nat → Bool} {s s' : State} {m : Msg} {now : Int} (h : rmcLog tty s m now = .ok s') :
    ∃ ix, indexStr (seen tty s) m.index = .ok ix ∧
      s' = { seen tty s with out := s.out ++ [(s.file.getD 0,
        levelColor (seen tty s) m.level ++ levelTag m.level ++ noColor (seen tty s) ++ [' '] ++
          decimal (if s.startTime ≠ 0 then (now - s.startTime).tdiv 1000 else 0) ++ [' '] ++ ix ++ [' '] ++ faint (seen tty s) ++ m.file ++
          [':'] ++ digits m.line ++ noColor (seen tty s) ++ [' '] ++ m.text ++ ['\n'])] } := by
  unfold rmcLog at h
  unfold seen
  dsimp only at h
  by_cases hc : s.useColor = -1
  · rw [if_pos hc] at h ⊢
    cases hi : indexStr { { s with file := some (s.file.getD 0) } with calculated := true, useColor := if tty (s.file.getD 0) then 1 else 0 } m.index with
    | error e => rw [hi] at h; cases h
    | ok ix =>
      rw [hi] at h
      exact ⟨ix, rfl, (Except.ok.inj h).symm⟩
  · rw [if_neg hc] at h ⊢
    cases hi : indexStr { s with file := some (s.file.getD 0) } m.index with
    | error e => rw [hi] at h; cases h
    | ok ix =>
      rw [hi] at h
      exact ⟨ix, rfl, (Except.ok.inj h).symm⟩

theorem Sim.seen {tty : Nat → Bool} {s : State} {lv cm st : Int} {d : Nat} (h : Sim tty s lv cm d st) : Sim tty (seen tty s) lv cm d st := by
  unfold Log.seen
  have hd := h.dest
  by_cases hc : s.useColor = -1
  · rw [if_pos hc]
    refine ⟨h.level, rfl.trans hd, h.start, .inr ⟨rfl, ?_, by rw [hd], by rw [hd]⟩⟩
    rcases h.color with ⟨_, e⟩ | ⟨_, e, _⟩
    · exact e.symm.trans hc
    · exact e
  · rw [if_neg hc]
    refine ⟨h.level, rfl.trans hd, h.start, ?_⟩
    rcases h.color with e | ⟨e1, e2, _, e4⟩
    · exact .inl e
    · exact .inr ⟨e1, e2, by rw [hd], e4⟩

theorem rmcLog_sim {tty : Nat → Bool} {s s' : State} {m : Msg} {now : Int} {lv cm st : Int} {d : Nat} (h : Sim tty s lv cm d st)
    (hx : rmcLog tty s m now = .ok s') : Sim tty s' lv cm d st := by
  obtain ⟨_, _, e⟩ := rmcLog_eq hx
  subst e
  exact ⟨h.seen.level, h.seen.dest, h.seen.start, h.seen.color⟩

theorem step_sim {tty : Nat → Bool} {s : State} {r : Nat × State} {ops : List Op} {o : Op}
    (h : Sim tty s (levelOf ops) (colorOf ops) (destOf ops) (startOf ops)) (hx : step tty s o = .ok r) :
    Sim tty r.2 (levelOf (ops ++ [o])) (colorOf (ops ++ [o])) (destOf (ops ++ [o])) (startOf (ops ++ [o])) := by
  simp only [levelOf, colorOf, destOf, startOf, List.foldl_append, List.foldl_cons, List.foldl_nil] at h ⊢
  cases o with
  | msg m now =>
    dsimp only [step] at hx
    cases hm : macroLog tty s m now with
    | error e => rw [hm] at hx; cases hx
    | ok s' =>
      rw [hm] at hx; cases hx
      unfold macroLog at hm
      split at hm
      · exact rmcLog_sim h hm
      · cases hm; exact h
  | level n now =>
    dsimp only [step, setLevel] at hx
    split at hx
    · rename_i hn
      cases hm : rmcLog tty s (illegalLevel n) now with
      | error e => rw [hm] at hx; cases hx
      | ok s' =>
        rw [hm] at hx; cases hx
        have h' := rmcLog_sim h hm
        dsimp only
        rw [if_neg (by unfold NONE DEBUG at hn; omega)]
        exact h'
    · rename_i hn
      cases hx
      dsimp only
      rw [if_pos (by unfold NONE DEBUG at hn; omega)]
      exact ⟨rfl, h.dest, h.start, h.color⟩
  | color n => cases hx; exact ⟨h.level, h.dest, h.start, .inl ⟨rfl, rfl⟩⟩
  | start now => cases hx; exact ⟨h.level, h.dest, rfl, h.color⟩
  | file f =>
    dsimp only [step, setFile] at hx
    by_cases hc : s.calculated = true
    · rw [if_pos hc] at hx
      cases f with
      | none => cases hx
      | some g =>
        cases hx
        rcases h.color with ⟨e, _⟩ | ⟨_, e, _⟩
        · rw [hc] at e; cases e
        · exact ⟨h.level, rfl, h.start, .inr ⟨hc, e, rfl, rfl⟩⟩
    · rw [if_neg hc] at hx
      cases hx
      rcases h.color with e | ⟨e, _⟩
      · exact ⟨h.level, rfl, h.start, .inl e⟩
      · exact absurd e hc

theorem run_sim {tty : Nat → Bool} : ∀ (os : List Op) {ops : List Op} {s s' : State},
    Sim tty s (levelOf ops) (colorOf ops) (destOf ops) (startOf ops) → run tty s os = .ok s' →
    Sim tty s' (levelOf (ops ++ os)) (colorOf (ops ++ os)) (destOf (ops ++ os)) (startOf (ops ++ os)) := by
  intro os
  induction os with
  | nil => intro ops s s' h hx; cases hx; simpa using h
  | cons o os ih =>
    intro ops s s' h hx
    unfold run at hx
    cases hr : step tty s o with
    | error e => rw [hr] at hx; cases hx
    | ok r =>
      rw [hr] at hx
      have := ih (step_sim h hr) hx
      simpa using this

theorem Sim.colored {tty : Nat → Bool} {s : State} {ops : List Op}
    (h : Sim tty s (levelOf ops) (colorOf ops) (destOf ops) (startOf ops)) : (Log.seen tty s).useColor ≠ 0 ↔ colored tty ops = true := by
  unfold Log.colored Log.seen
  rcases h.color with ⟨_, e⟩ | ⟨e1, e2, e3, e4⟩
  · by_cases hc : s.useColor = -1
    · rw [if_pos hc, if_pos (e.symm.trans hc)]
      dsimp only
      rw [h.dest]
      cases tty (destOf ops) <;> simp
    · rw [if_neg hc, if_neg (by rw [← e]; exact hc)]
      dsimp only
      rw [e]; simp
  · rw [if_pos e2]
    rw [if_neg (by rw [e4]; split <;> decide)]
    dsimp only
    rw [e4]
    cases tty (destOf ops) <;> simp

/-- Specification: the characters seen on a terminal, without the escape sequences (from ESC to the next `m`). -/
def visible : Bool → List Char → List Char
  | _, [] => []
  | false, c :: cs => if c = '\x1b' then visible true cs else c :: visible false cs
  | true, c :: cs => if c = 'm' then visible false cs else visible true cs

theorem visible_plain {xs : List Char} (h : '\x1b' ∉ xs) (ys : List Char) : visible false (xs ++ ys) = xs ++ visible false ys := by
  induction xs with
  | nil => rfl
  | cons x xs ih =>
    rw [List.cons_append, visible, if_neg (by intro e; exact h (by simp [e])), ih (by simp_all)]
    rfl

theorem visible_esc {xs : List Char} (h : 'm' ∉ xs) (ys : List Char) : visible true (xs ++ 'm' :: ys) = visible false ys := by
  induction xs with
  | nil => simp [visible]
  | cons x xs ih =>
    rw [List.cons_append, visible, if_neg (by intro e; exact h (by simp [e])), ih (by simp_all)]

/-- An escape sequence of the library. -/
def IsEsc (s : State) (l : List Char) : Prop := l = [] ∧ s.useColor = 0 ∨ s.useColor ≠ 0 ∧ ∃ xs, 'm' ∉ xs ∧ l = '\x1b' :: xs ++ ['m']

theorem esc_isEsc (s : State) {x y : String} (h : x.toList = y.toList ++ ['m']) (hy : 'm' ∉ y.toList) : IsEsc s (esc s x) := by
  unfold IsEsc esc
  by_cases hc : s.useColor = 0
  · left; simp [hc]
  · right; rw [if_pos hc]; exact ⟨hc, y.toList, hy, by rw [h]; rfl⟩

theorem IsEsc.visible {s : State} {l : List Char} (h : IsEsc s l) (ys : List Char) : Log.visible false (l ++ ys) = Log.visible false ys := by
  rcases h with ⟨e, _⟩ | ⟨_, xs, hx, e⟩
  · rw [e]; rfl
  · rw [e]
    have : '\x1b' :: xs ++ ['m'] ++ ys = '\x1b' :: (xs ++ 'm' :: ys) := by simp
    rw [this, Log.visible, if_pos rfl, visible_esc hx]

theorem darkBlue_esc (s : State) : IsEsc s (darkBlue s) := esc_isEsc s (y := "[38;2;0;0;255") (by decide) (by decide)
theorem darkGreen_esc (s : State) : IsEsc s (darkGreen s) := esc_isEsc s (y := "[38;2;0;204;0") (by decide) (by decide)
theorem lightBlue_esc (s : State) : IsEsc s (lightBlue s) := esc_isEsc s (y := "[38;2;0;255;255") (by decide) (by decide)
theorem lightGreen_esc (s : State) : IsEsc s (lightGreen s) := esc_isEsc s (y := "[38;2;153;255;153") (by decide) (by decide)
theorem lightRed_esc (s : State) : IsEsc s (lightRed s) := esc_isEsc s (y := "[38;2;255;204;204") (by decide) (by decide)
theorem darkRed_esc (s : State) : IsEsc s (darkRed s) := esc_isEsc s (y := "[38;2;255;0;0") (by decide) (by decide)
theorem noColor_esc (s : State) : IsEsc s (noColor s) := esc_isEsc s (y := "[0") (by decide) (by decide)
theorem faint_esc (s : State) : IsEsc s (faint s) := esc_isEsc s (y := "[2") (by decide) (by decide)
theorem orange_esc (s : State) : IsEsc s (orange s) := esc_isEsc s (y := "[38;2;255;128;0") (by decide) (by decide)
theorem yellow_esc (s : State) : IsEsc s (yellow s) := esc_isEsc s (y := "[38;2;255;255;0") (by decide) (by decide)
theorem red_esc (s : State) : IsEsc s (red s) := esc_isEsc s (y := "[38;2;192;0;0") (by decide) (by decide)
theorem green_esc (s : State) : IsEsc s (green s) := esc_isEsc s (y := "[38;2;0;255;0") (by decide) (by decide)
theorem blue_esc (s : State) : IsEsc s (blue s) := esc_isEsc s (y := "[38;2;0;128;255") (by decide) (by decide)
theorem flashingRed_esc (s : State) : IsEsc s (flashingRed s) := esc_isEsc s (y := "[5;38;2;192;0;0") (by decide) (by decide)

attribute [local irreducible] flashingRed lightRed red darkRed orange yellow lightBlue blue darkBlue lightGreen green darkGreen faint noColor

theorem indexColor_esc (s : State) (i : Int) : IsEsc s (indexColor s i) := by
  unfold indexColor
  split
  · exact faint_esc s
  split
  · exact darkBlue_esc s
  split
  · exact darkGreen_esc s
  split
  · exact lightBlue_esc s
  split
  · exact lightGreen_esc s
  split
  · exact lightRed_esc s
  split
  · exact green_esc s
  split
  · exact blue_esc s
  split
  · exact darkRed_esc s
  split
  · exact red_esc s
  · exact noColor_esc s

theorem levelColor_esc (s : State) (l : Int) : IsEsc s (levelColor s l) := by
  unfold levelColor
  split
  · exact noColor_esc s
  split
  · exact green_esc s
  split
  · exact blue_esc s
  split
  · exact orange_esc s
  split
  · exact red_esc s
  split
  · exact flashingRed_esc s
  · exact noColor_esc s

/-- Specification: how an index is shown: 5 characters for the special ones, else at least three digits in brackets. -/
def showIndex (i : Nat) : List Char :=
  if i = 0x7FFF then "     ".toList else if i = 0x7FFE then "[UDP]".toList else if i = 0x7FFD then "[CTL]".toList
  else '[' :: List.replicate (3 - (digits i).length) '0' ++ digits i ++ [']']

/-- Specification: the tag of a level. -/
def showLevel (l : Int) : List Char :=
  (["[F]", "[E]", "[W]", "[I]", "[C]", "[D]"].map String.toList).getD (l - 1).toNat "[?]".toList

theorem showLevel_eq (l : Int) (h : 1 ≤ l) : levelTag l = showLevel l := by
  by_cases h6 : l ≤ 6
  · have : l = 1 ∨ l = 2 ∨ l = 3 ∨ l = 4 ∨ l = 5 ∨ l = 6 := by omega
    rcases this with e | e | e | e | e | e <;> subst e <;> decide
  · unfold levelTag DEBUG COMMENT INFO WARNING ERROR FATAL showLevel
    repeat rw [if_neg (by omega)]
    rw [List.getD_eq_getElem?_getD, List.getElem?_eq_none (by simp; omega)]
    rfl

/-- Specification: the line written for a message, without colors. -/
def line (start now : Int) (m : Msg) : List Char :=
  showLevel m.level ++ " ".toList ++ decimal (if start = 0 then 0 else (now - start).tdiv 1000) ++ " ".toList ++ showIndex m.index ++
    " ".toList ++ m.file ++ ":".toList ++ digits m.line ++ " ".toList ++ m.text ++ "\n".toList

theorem ofNat_ne_esc {n : Nat} (h : n < 10) : Char.ofNat (48 + n) ≠ '\x1b' := by
  have : n = 0 ∨ n = 1 ∨ n = 2 ∨ n = 3 ∨ n = 4 ∨ n = 5 ∨ n = 6 ∨ n = 7 ∨ n = 8 ∨ n = 9 := by omega
  rcases this with e | e | e | e | e | e | e | e | e | e <;> subst e <;> decide

theorem digits_esc (n : Nat) : '\x1b' ∉ digits n := by
  induction n using Nat.strongRecOn with
  | ind n ih =>
    unfold digits
    split
    · rename_i h
      intro hm
      exact ofNat_ne_esc h (List.mem_singleton.mp hm).symm
    · rename_i h
      intro hm
      rcases List.mem_append.mp hm with hm | hm
      · exact ih (n / 10) (by omega) hm
      · exact ofNat_ne_esc (Nat.mod_lt n (by omega)) (List.mem_singleton.mp hm).symm

theorem decimal_esc (n : Int) : '\x1b' ∉ decimal n := by
  unfold decimal
  split
  · intro h
    rcases List.mem_cons.mp h with h | h
    · cases h
    · exact digits_esc _ h
  · exact digits_esc _

theorem indexStr_visible {s : State} {i : Nat} {ix : List Char} (h : indexStr s i = .ok ix) (ys : List Char) :
    visible false (ix ++ ys) = showIndex i ++ visible false ys := by
  unfold indexStr at h
  split at h
  case isFalse => cases h
  case isTrue =>
  have e := Except.ok.inj h
  clear h
  subst e
  unfold showIndex indexText
  by_cases h1 : i = NIL_INDEX
  · rw [if_pos h1, if_pos (show i = 0x7FFF from h1)]; exact visible_plain (by decide) ys
  rw [if_neg h1, if_neg (show ¬ i = 0x7FFF from h1)]
  by_cases h2 : i = MULTICAST_INDEX
  · rw [if_pos h2, if_pos (show i = 0x7FFE from h2), List.append_assoc, List.append_assoc, (orange_esc s).visible, visible_plain (by decide), (noColor_esc s).visible]
  rw [if_neg h2, if_neg (show ¬ i = 0x7FFE from h2)]
  by_cases h3 : i = LISTEN_INDEX
  · rw [if_pos h3, if_pos (show i = 0x7FFD from h3), List.append_assoc, List.append_assoc, (yellow_esc s).visible, visible_plain (by decide), (noColor_esc s).visible]
  rw [if_neg h3, if_neg (show ¬ i = 0x7FFD from h3), List.append_assoc, List.append_assoc, (indexColor_esc s i).visible, visible_plain, (noColor_esc s).visible]
  · unfold digits3; simp
  · unfold digits3
    intro hm
    have := digits_esc i
    simp only [List.mem_append, List.mem_cons, List.mem_replicate, List.mem_nil_iff, or_false] at hm
    rcases hm with (hm | hm | hm) | hm
    · exact absurd hm (by decide)
    · exact absurd hm.2 (by decide)
    · exact this hm
    · exact absurd hm (by decide)

theorem indexStr_plain {s : State} (hc : s.useColor = 0) {i : Nat} {ix : List Char} (h : indexStr s i = .ok ix) : ix = showIndex i := by
  have hp : ∀ {l}, IsEsc s l → l = [] := by
    intro l h
    rcases h with ⟨e, _⟩ | ⟨e, _⟩
    · exact e
    · exact absurd hc e
  unfold indexStr at h
  split at h
  case isFalse => cases h
  case isTrue =>
  have e := Except.ok.inj h
  clear h
  subst e
  unfold showIndex indexText
  rw [hp (orange_esc s), hp (yellow_esc s), hp (noColor_esc s), hp (indexColor_esc s i)]
  by_cases h1 : i = NIL_INDEX
  · rw [if_pos h1, if_pos (show i = 0x7FFF from h1)]
  rw [if_neg h1, if_neg (show ¬ i = 0x7FFF from h1)]
  by_cases h2 : i = MULTICAST_INDEX
  · rw [if_pos h2, if_pos (show i = 0x7FFE from h2)]; simp
  rw [if_neg h2, if_neg (show ¬ i = 0x7FFE from h2)]
  by_cases h3 : i = LISTEN_INDEX
  · rw [if_pos h3, if_pos (show i = 0x7FFD from h3)]; simp
  rw [if_neg h3, if_neg (show ¬ i = 0x7FFD from h3)]
  unfold digits3; simp

/-- Specification: an escape sequence of a terminal. -/
def code (x : String) : List Char := ("\x1b[" ++ x ++ "m").toList

/-- Specification: colors of levels 1 to 6: flashing red, red, orange, blue, green, none. -/
def levelHue (l : Int) : List Char :=
  (["5;38;2;192;0;0", "38;2;192;0;0", "38;2;255;128;0", "38;2;0;128;255", "38;2;0;255;0", "0"].map code).getD (l - 1).toNat (code "0")

/-- Specification: the colors of indices 0 to 8; no color from 9 on. -/
def indexHue (i : Nat) : List Char :=
  (["38;2;0;0;255", "38;2;0;204;0", "38;2;0;255;255", "38;2;153;255;153", "38;2;255;204;204", "38;2;0;255;0", "38;2;0;128;255",
    "38;2;255;0;0", "38;2;192;0;0"].map code).getD i (code "0")

/-- Specification: an index in color. -/
def paintIndex (i : Nat) : List Char :=
  if i = 0x7FFF then "     ".toList
  else (if i = 0x7FFE then code "38;2;255;128;0" else if i = 0x7FFD then code "38;2;255;255;0" else indexHue i) ++ showIndex i ++ code "0"

/-- Specification: the line written for a message, in color. -/
def paintedLine (start now : Int) (m : Msg) : List Char :=
  levelHue m.level ++ showLevel m.level ++ code "0" ++ " ".toList ++ decimal (if start = 0 then 0 else (now - start).tdiv 1000) ++ " ".toList ++
    paintIndex m.index ++ " ".toList ++ code "2" ++ m.file ++ ":".toList ++ digits m.line ++ code "0" ++ " ".toList ++ m.text ++ "\n".toList

theorem esc_on {s : State} (h : s.useColor ≠ 0) (x : String) : esc s x = '\x1b' :: x.toList := if_pos h

theorem noColor_on {s : State} (h : s.useColor ≠ 0) : noColor s = code "0" := by unfold noColor; rw [esc_on h]; decide +kernel
theorem faint_on {s : State} (h : s.useColor ≠ 0) : faint s = code "2" := by unfold faint; rw [esc_on h]; decide +kernel
theorem orange_on {s : State} (h : s.useColor ≠ 0) : orange s = code "38;2;255;128;0" := by unfold orange; rw [esc_on h]; decide +kernel
theorem yellow_on {s : State} (h : s.useColor ≠ 0) : yellow s = code "38;2;255;255;0" := by unfold yellow; rw [esc_on h]; decide +kernel

theorem levelColor_on {s : State} (h : s.useColor ≠ 0) (l : Int) (hl : 1 ≤ l) : levelColor s l = levelHue l := by
  by_cases h6 : l ≤ 6
  · have : l = 1 ∨ l = 2 ∨ l = 3 ∨ l = 4 ∨ l = 5 ∨ l = 6 := by omega
    rcases this with e | e | e | e | e | e <;> subst e <;>
      simp (config := { decide := true }) only [levelColor, DEBUG, COMMENT, INFO, WARNING, ERROR, FATAL, if_true, if_false, noColor, green, blue, orange, red, flashingRed, esc_on h] <;>
      decide +kernel
  · unfold levelColor DEBUG COMMENT INFO WARNING ERROR FATAL levelHue
    repeat rw [if_neg (by omega)]
    rw [List.getD_eq_getElem?_getD, List.getElem?_eq_none (by simp; omega), noColor_on h]
    rfl

theorem indexColor_on {s : State} (h : s.useColor ≠ 0) (i : Nat) : indexColor s i = indexHue i := by
  by_cases h9 : i < 9
  · have : i = 0 ∨ i = 1 ∨ i = 2 ∨ i = 3 ∨ i = 4 ∨ i = 5 ∨ i = 6 ∨ i = 7 ∨ i = 8 := by omega
    rcases this with e | e | e | e | e | e | e | e | e <;> subst e <;>
      simp (config := { decide := true }) only [indexColor, if_true, if_false, darkBlue, darkGreen, lightBlue, lightGreen, lightRed, green, blue, darkRed, red, esc_on h] <;>
      decide +kernel
  · unfold indexColor indexHue
    repeat rw [if_neg (by omega)]
    rw [List.getD_eq_getElem?_getD, List.getElem?_eq_none (by simp; omega), noColor_on h]
    rfl

theorem indexStr_on {s : State} (hc : s.useColor ≠ 0) {i : Nat} {ix : List Char} (h : indexStr s i = .ok ix) : ix = paintIndex i := by
  unfold indexStr at h
  split at h
  case isFalse => cases h
  case isTrue =>
  have e := Except.ok.inj h
  clear h
  subst e
  unfold paintIndex showIndex indexText
  rw [orange_on hc, yellow_on hc, noColor_on hc, indexColor_on hc i]
  by_cases h1 : i = NIL_INDEX
  · rw [if_pos h1, if_pos (show i = 0x7FFF from h1)]
  rw [if_neg h1, if_neg (show ¬ i = 0x7FFF from h1), if_neg (show ¬ i = 0x7FFF from h1)]
  by_cases h2 : i = MULTICAST_INDEX
  · rw [if_pos h2, if_pos (show i = 0x7FFE from h2), if_pos (show i = 0x7FFE from h2)]
  rw [if_neg h2, if_neg (show ¬ i = 0x7FFE from h2), if_neg (show ¬ i = 0x7FFE from h2)]
  by_cases h3 : i = LISTEN_INDEX
  · rw [if_pos h3, if_pos (show i = 0x7FFD from h3), if_pos (show i = 0x7FFD from h3)]
  rw [if_neg h3, if_neg (show ¬ i = 0x7FFD from h3), if_neg (show ¬ i = 0x7FFD from h3)]
  unfold digits3; simp

/-- C65: after every history of logging calls, a message is written if and only if its level does not exceed the configured one (the last
legal level given); it is one line with tag, elapsed milliseconds, index, source position and text, written to the last file
given. If colors are off (as asked for, or because the destination is no terminal) the characters are exactly these; otherwise they are
these with the colors of the level and the index, which leaves the visible ones as they are if the text has no escape sequences of
its own. -/
theorem C65_message {tty : Nat → Bool} {ops : List Op} {s s' : State} (h : run tty init ops = .ok s) {m : Msg} {now : Int} {r : Nat}
    (hm : 1 ≤ m.level) (hx : step tty s (.msg m now) = .ok (r, s')) :
    (levelOf ops < m.level → s' = s) ∧
    (m.level ≤ levelOf ops → ∃ cs, s'.out = s.out ++ [(destOf ops, cs)] ∧
      (colored tty ops = false → cs = line (startOf ops) now m) ∧
      (colored tty ops = true → cs = paintedLine (startOf ops) now m) ∧
      ('\x1b' ∉ m.file ++ m.text → visible false cs = line (startOf ops) now m)) := by
  have hs : Sim tty s (levelOf ops) (colorOf ops) (destOf ops) (startOf ops) :=
    run_sim ops (ops := []) (s := init) ⟨rfl, rfl, rfl, .inl ⟨rfl, rfl⟩⟩ h
  dsimp only [step] at hx
  cases hq : macroLog tty s m now with
  | error e => rw [hq] at hx; cases hx
  | ok s1 =>
    rw [hq] at hx
    have e : s1 = s' := congrArg Prod.snd (Except.ok.inj hx)
    subst e
    unfold macroLog at hq
    rw [hs.level] at hq
    constructor
    · intro hl
      rw [if_neg (by omega)] at hq
      exact (Except.ok.inj hq).symm
    · intro hl
      rw [if_pos hl] at hq
      obtain ⟨ix, hi, e⟩ := rmcLog_eq hq
      subst e
      rw [hs.dest, hs.start]
      have et : (if startOf ops ≠ 0 then (now - startOf ops).tdiv 1000 else 0) = if startOf ops = 0 then 0 else (now - startOf ops).tdiv 1000 := by
        by_cases h0 : startOf ops = 0
        · simp [h0]
        · rw [if_pos h0, if_neg h0]
      rw [et]
      have hcol := hs.colored
      refine ⟨_, rfl, ?_, ?_, ?_⟩
      · intro hc
        have h0 : (seen tty s).useColor = 0 := by
          apply Classical.byContradiction
          intro hh
          have := hcol.1 hh
          rw [hc] at this; cases this
        have hp : ∀ {l}, IsEsc (seen tty s) l → l = [] := by
          intro l h
          rcases h with ⟨e, _⟩ | ⟨e, _⟩
          · exact e
          · exact absurd h0 e
        rw [hp (levelColor_esc _ _), hp (noColor_esc _), hp (faint_esc _), indexStr_plain h0 hi, showLevel_eq _ hm]
        unfold line
        simp
      · intro hc
        have h0 := hcol.2 hc
        rw [levelColor_on h0 _ hm, noColor_on h0, faint_on h0, indexStr_on h0 hi, showLevel_eq _ hm]
        unfold paintedLine
        simp
      · intro hf
        rw [List.mem_append, not_or] at hf
        have ht : '\x1b' ∉ levelTag m.level := by
          unfold levelTag
          repeat' split
          all_goals decide
        simp only [List.append_assoc]
        rw [(levelColor_esc _ _).visible, visible_plain ht, (noColor_esc _).visible, visible_plain (xs := [' ']) (by decide),
          visible_plain (decimal_esc _), visible_plain (xs := [' ']) (by decide), indexStr_visible hi,
          visible_plain (xs := [' ']) (by decide), (faint_esc _).visible, visible_plain hf.1, visible_plain (xs := [':']) (by decide),
          visible_plain (digits_esc _), (noColor_esc _).visible, visible_plain (xs := [' ']) (by decide), visible_plain hf.2, showLevel_eq _ hm]
        unfold line
        simp [visible]

/-- C65: a level is accepted if and only if it is legal; what is refused changes nothing but writes a warning. -/
theorem C65_level {tty : Nat → Bool} {s s' : State} {n now : Int} {r : Nat} (hx : step tty s (.level n now) = .ok (r, s')) :
    (r = 0 ↔ 0 ≤ n ∧ n ≤ 6) ∧ s'.level = (if 0 ≤ n ∧ n ≤ 6 then n else s.level) ∧
    (r ≠ 0 → ∃ cs, s'.out = s.out ++ [(s.file.getD 0, cs)]) := by
  dsimp only [step, setLevel] at hx
  split at hx
  · rename_i hn
    cases hm : rmcLog tty s (illegalLevel n) now with
    | error e => rw [hm] at hx; cases hx
    | ok s1 =>
      rw [hm] at hx
      have e1 : 1 = r := congrArg Prod.fst (Except.ok.inj hx)
      have e2 : s1 = s' := congrArg Prod.snd (Except.ok.inj hx)
      subst e1; subst e2
      have hn' : ¬ (0 ≤ n ∧ n ≤ 6) := by unfold NONE DEBUG at hn; omega
      obtain ⟨_, _, e⟩ := rmcLog_eq hm
      rw [if_neg hn']
      refine ⟨by simp [hn'], ?_, ?_⟩
      · rw [e]; unfold seen; split <;> rfl
      · intro _; rw [e]; exact ⟨_, rfl⟩
  · rename_i hn
    have hn' : 0 ≤ n ∧ n ≤ 6 := by unfold NONE DEBUG at hn; omega
    have e := Except.ok.inj hx
    have e1 : 0 = r := congrArg Prod.fst e
    have e2 : { s with level := n } = s' := congrArg Prod.snd e
    subst e1; subst e2
    rw [if_pos hn']
    exact ⟨by simp [hn'], rfl, by simp⟩

/-- A history with all kinds of calls, and what is written then. -/
example : (run (fun f => decide (f = 1)) init [.level 4 0, .start 5000, .msg ⟨5, "a.c".toList, 3, 0, "no".toList⟩ 1, .file (some 2),
    .msg ⟨4, "a.c".toList, 12, 0x7FFE, "sent".toList⟩ 12345, .level 9 12000]).map (fun s => s.out.map (fun x => (x.1, String.ofList x.2))) =
    .ok [(2, "[I] 7 [UDP] a.c:12 sent\n"), (2, "[W] 7 [65535] rmc_log.c:55 Illegal log level: 9. Legal values [0-6]\n")] := by
  decide +kernel

/-- The same on a terminal: the line is colored, what is visible is the same. -/
example : colored (fun f => decide (f = 1)) [.level 4 0, .file (some 1)] = true ∧
    (run (fun f => decide (f = 1)) init [.level 4 0, .file (some 1), .msg ⟨4, "a.c".toList, 12, 3, "x".toList⟩ 0]).map
      (fun s => s.out.map (fun x => (x.1, x.2.length, String.ofList (visible false x.2)))) =
    .ok [(1, 73, "[I] 0 [003] a.c:12 x\n")] := by
  decide +kernel

end Log

/-! ## C65: the clock -/

/-- C65: the timestamp is the time in microseconds, rounded down; later readings of the clock give timestamps that are not
smaller, for every time the 64 bits can represent (about 292 thousand years). -/
theorem C65_clock {s1 n1 s2 n2 : Int} (h1 : 0 ≤ n1 ∧ n1 < 1000000000) (h2 : 0 ≤ n2 ∧ n2 < 1000000000) (hs : 0 ≤ s1)
    (hb : s2 ≤ 9223372036853) (hle : s1 < s2 ∨ (s1 = s2 ∧ n1 ≤ n2)) :
    ∃ t1 t2, usecTimestamp s1 n1 = .ok t1 ∧ usecTimestamp s2 n2 = .ok t2 ∧ 0 ≤ t1 ∧ t1 ≤ t2 ∧
      1000 * t1 ≤ 1000000000 * s1 + n1 ∧ 1000000000 * s1 + n1 < 1000 * (t1 + 1) := by
  have e1 : n1.tdiv 1000 = n1 / 1000 := Int.tdiv_eq_ediv_of_nonneg h1.1
  have e2 : n2.tdiv 1000 = n2 / 1000 := Int.tdiv_eq_ediv_of_nonneg h2.1
  refine ⟨s1 * 1000000 + n1 / 1000, s2 * 1000000 + n2 / 1000, ?_, ?_, by omega, by omega, by omega, by omega⟩
  · unfold usecTimestamp; dsimp only; rw [e1, if_pos (by omega)]
  · unfold usecTimestamp; dsimp only; rw [e2, if_pos (by omega)]

/-- C65: the clock is read without overflow exactly if the seconds, and the seconds with the microseconds added, fit 64 bits; and the
timestamp is then the exact number of microseconds, also of negative seconds. -/
theorem C65_clock_exact {s n : Int} (h : 0 ≤ n ∧ n < 1000000000) :
    ((∃ t, usecTimestamp s n = .ok t) ↔ -2 ^ 63 ≤ 1000000 * s ∧ 1000000 * s + n / 1000 < 2 ^ 63) ∧
    ∀ t, usecTimestamp s n = .ok t → t = 1000000 * s + n / 1000 := by
  have e : n.tdiv 1000 = n / 1000 := Int.tdiv_eq_ediv_of_nonneg h.1
  unfold usecTimestamp; dsimp only; rw [e]
  constructor
  · constructor
    · rintro ⟨t, ht⟩
      split at ht
      · omega
      · cases ht
    · intro hh; rw [if_pos (by omega)]; exact ⟨_, rfl⟩
  · intro t ht
    split at ht
    · have := Except.ok.inj ht; omega
    · cases ht

/-- Non-vacuity: the last microsecond, and one more. -/
example : usecTimestamp 9223372036854 775807999 = .ok (2 ^ 63 - 1) ∧ usecTimestamp 9223372036854 775808000 = .error .oob ∧
    usecTimestamp (-9223372036854) 0 = .ok (-9223372036854000000) := by decide

example : usecTimestamp 12 345678901 = .ok 12345678 := by decide

end Rmc
