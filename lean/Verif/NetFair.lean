import Verif.NetLive
import Verif.SysFair

/-! # What a history of the network is for one of its connections -/

set_option linter.unusedSimpArgs false
set_option linter.unusedVariables false

namespace Rmc
namespace Net

/-- What an event of the network is for a connection that outlives it: nothing, or an event of its two-party system. -/
structure Proj (E : NetEnv) (s : Net) (op : NetOp) (l : Link) (t : Net) (m : Link) (sops : List SysOp) : Prop where
  run : Sys.run (env E l) (view s l) sops = some (view t m)
  calls : Sys.calls sops ≤ calls [op]
  key : m.p = l.p ∧ m.q = l.q ∧ m.slot = l.slot
  pub : ∀ o, op = .pub l.p o → sops = [.pub o]
  read : ∀ n ts, op = .subRead l.q l.slot n ts → sops = [.subRead n ts]

theorem run_single {E : Env} {s t : Sys} {op : SysOp} (h : Sys.next E s op = some t) : Sys.run E s [op] = some t := by
  show (Sys.next E s op).bind _ = _
  rw [h]; rfl

theorem afterPub_at {E : NetEnv} {s : Net} {p : Nat} {op : PubCtx.Op} (hc : Sys.callOk op = true) {r : Nat} {c' : PubCtx}
    (hx : PubCtx.step (s.pubs p) op = .ok (r, c')) {l l' : Link} (h : afterPub s p op c' l = some l') :
    (l.p ≠ p ∧ l' = l) ∨
      (l.p = p ∧ Sys.next (env E l) (view s l) (.pub op) = some ⟨c', s.subs l.q, l'.acc, l'.down, l'.up, l'.err⟩) := by
  unfold afterPub at h
  by_cases e : l.p = p
  · rw [if_pos e] at h
    right
    refine ⟨e, ?_⟩
    by_cases e2 : Sys.leaves l.acc op = true
    · rw [if_pos e2] at h
      cases h
      unfold Sys.next
      dsimp only
      rw [if_pos ⟨hc, e2⟩]
      have : (view s l).pub = s.pubs p := by rw [← e]; rfl
      rw [this, hx]
      rfl
    · rw [if_neg e2] at h; cases h
  · rw [if_neg e] at h; cases h; exact .inl ⟨e, rfl⟩

theorem afterSub_at {E : NetEnv} {N : Nat} {s : Net} (hi : NInv E N s) {q : Nat} {op : SubCtx.Op}
    (hh : ∀ r ∈ Sys.received op, heard E s r) {r : Nat} {c' : SubCtx}
    (hx : SubCtx.step (s.subs q) op = .ok (r, c')) {l l' : Link} (hl : l ∈ s.links) (h : afterSub s q op c' l = some l') :
    (l.q ≠ q ∧ l' = l) ∨
      (l.q = q ∧ Sys.next (env E l) (view s l) (.sub op) = some ⟨s.pubs l.p, c', l'.acc, l'.down, l'.up, l'.err⟩) := by
  unfold afterSub at h
  by_cases e : l.q = q
  · rw [if_pos e] at h
    right
    refine ⟨e, ?_⟩
    by_cases e2 : Sys.leavesSub l.slot op = true ∧ SubCtx.Live c' l.slot
    · rw [if_pos e2] at h
      cases h
      unfold Sys.next
      dsimp only
      rw [if_pos ⟨e2.1, fun r hr => heard_honest hi (hh r hr) hl⟩]
      have : (view s l).sub = s.subs q := by rw [← e]; rfl
      rw [this, hx]
      dsimp only
      rw [if_pos (show SubCtx.Live c' (env E l).slot from e2.2)]
      rfl
    · rw [if_neg e2] at h; cases h
  · rw [if_neg e] at h; cases h; exact .inl ⟨e, rfl⟩

/-- The views after a call of a publisher. -/
theorem view_pub {s : Net} {p : Nat} {c : PubCtx} {ls : List Link} {l m : Link} (k : m.p = l.p ∧ m.q = l.q ∧ m.slot = l.slot) :
    (l.p = p → view ⟨setAt s.pubs p c, s.subs, ls⟩ m = ⟨c, s.subs l.q, m.acc, m.down, m.up, m.err⟩) ∧
    (l.p ≠ p → view ⟨setAt s.pubs p c, s.subs, ls⟩ l = view s l) := by
  constructor
  · intro e
    unfold view; dsimp only; rw [k.1, e, setAt_same, k.2.1]
  · intro e
    unfold view; dsimp only; rw [setAt_ne _ _ e]

/-- The views after a call of a subscriber. -/
theorem view_sub {s : Net} {q : Nat} {c : SubCtx} {ls : List Link} {l m : Link} (k : m.p = l.p ∧ m.q = l.q ∧ m.slot = l.slot) :
    (l.q = q → view ⟨s.pubs, setAt s.subs q c, ls⟩ m = ⟨s.pubs l.p, c, m.acc, m.down, m.up, m.err⟩) ∧
    (l.q ≠ q → view ⟨s.pubs, setAt s.subs q c, ls⟩ l = view s l) := by
  constructor
  · intro e
    unfold view; dsimp only; rw [k.1, k.2.1, e, setAt_same]
  · intro e
    unfold view; dsimp only; rw [setAt_ne _ _ e]

theorem proj_step {E : NetEnv} {N : Nat} {s t : Net} (h : NInv E N s) {op : NetOp} (hb : N + calls [op] + 1 < U64)
    (ht : next E s op = some t) {l m : Link} (hl : l ∈ s.links) (hm : m ∈ t.links) (hq : m.q = l.q) (hs : m.slot = l.slot) :
    ∃ sops, Proj E s op l t m sops := by
  -- a link of the new state comes from one of the old state, in the same slot: from `l`
  have from_l : ∀ {f : Link → Option Link} {ls : List Link}, t.links = s.links.filterMap f → (∀ a a', f a = some a' → a'.p = a.p ∧ a'.q = a.q ∧ a'.slot = a.slot) →
      f l = some m ∧ m.p = l.p ∧ m.q = l.q ∧ m.slot = l.slot := by
    intro f ls e hf
    rw [e] at hm
    obtain ⟨a, ha, e⟩ := List.mem_filterMap.1 hm
    have k := hf a m e
    have : a = l := h.key a ha l hl (by omega) (by omega)
    subst this
    exact ⟨e, k⟩
  cases op with
  | pub p op =>
    unfold next at ht
    dsimp only at ht
    by_cases hg : p < E.np ∧ Sys.callOk op = true
    · rw [if_pos hg] at ht
      cases hx : PubCtx.step (s.pubs p) op with
      | error f => rw [hx] at ht; cases ht
      | ok x =>
        rw [hx] at ht
        have ht := Option.some.inj ht
        obtain ⟨e, k⟩ := from_l (ls := []) (by rw [← ht]) (fun a a' e => by obtain ⟨a, b, d, _⟩ := afterPub_key e; exact ⟨a, b, d⟩)
        rcases afterPub_at (E := E) hg.2 hx e with ⟨e1, e2⟩ | ⟨e1, e2⟩
        · refine ⟨[], ?_, Nat.zero_le _, k, ?_, fun n ts e => by cases e⟩
          · subst e2; rw [← ht, (view_pub k).2 e1]; rfl
          · intro o e; injection e with e; exact absurd e.symm e1
        · refine ⟨[.pub op], ?_, Nat.le_refl _, k, ?_, fun n ts e => by cases e⟩
          · rw [run_single e2, ← ht, (view_pub k).1 e1]
          · intro o e; injection e with _ e; rw [e]
    · rw [if_neg hg] at ht; cases ht
  | sub q op =>
    unfold next at ht
    dsimp only at ht
    by_cases hg : ∀ r ∈ Sys.received op, heard E s r
    · rw [if_pos hg] at ht
      cases hx : SubCtx.step (s.subs q) op with
      | error f => rw [hx] at ht; cases ht
      | ok x =>
        rw [hx] at ht
        have ht := Option.some.inj ht
        obtain ⟨e, k⟩ := from_l (ls := []) (by rw [← ht]) (fun a a' e => by obtain ⟨a, b, d, _⟩ := afterSub_key e; exact ⟨a, b, d⟩)
        rcases afterSub_at h hg hx hl e with ⟨e1, e2⟩ | ⟨e1, e2⟩
        · refine ⟨[], ?_, Nat.zero_le _, k, (fun o e => by cases e), fun n ts e => by cases e⟩
          subst e2; rw [← ht, (view_sub k).2 e1]; rfl
        · refine ⟨[.sub op], ?_, Nat.le_refl _, k, (fun o e => by cases e), fun n ts e => by cases e⟩
          rw [run_single e2, ← ht, (view_sub k).1 e1]
    · rw [if_neg hg] at ht; cases ht
  | accept q slot k0 ar cb =>
    unfold next at ht
    dsimp only at ht
    cases hf : s.links.find? (isAt q slot) with
    | none => rw [hf] at ht; cases ht
    | some a =>
      rw [hf] at ht
      dsimp only at ht
      obtain ⟨ha, hqa, hsa⟩ := found hf
      by_cases hg : a.acc = none ∧ Sys.callOk (.readListen ar cb) = true ∧ ¬ PubCtx.Connected (s.pubs a.p) k0
      · rw [if_pos hg] at ht
        cases hx : PubCtx.step (s.pubs a.p) (.readListen ar cb) with
        | error f => rw [hx] at ht; cases ht
        | ok x =>
          rw [hx] at ht
          dsimp only at ht
          by_cases hk : PubCtx.Connected x.2 k0
          · rw [if_pos hk] at ht
            have ht := Option.some.inj ht
            obtain ⟨e, k⟩ := from_l (ls := []) (by rw [← ht]) (fun b b' e => by
              by_cases hi : isAt q slot b = true
              · rw [if_pos hi] at e; cases e; exact ⟨rfl, rfl, rfl⟩
              · rw [if_neg hi] at e
                obtain ⟨a, b, d, _⟩ := afterPub_key e; exact ⟨a, b, d⟩)
            by_cases hi : isAt q slot l = true
            · rw [if_pos hi] at e
              obtain ⟨e1, e2⟩ := isAt_iff.1 hi
              have hla := h.key l hl a ha (by omega) (by omega)
              subst hla
              refine ⟨[.accept k0 ar cb], ?_, Nat.le_refl _, k, (fun o e => by cases e), fun n ts e => by cases e⟩
              rw [← ht, (view_pub k).1 rfl]
              cases e
              apply run_single
              unfold Sys.next
              dsimp only
              rw [if_pos (show (view s l).acc = none ∧ _ ∧ ¬ PubCtx.Connected (view s l).pub k0 from ⟨hg.1, hg.2.1, hg.2.2⟩)]
              have : (view s l).pub = s.pubs l.p := rfl
              rw [this, hx]
              dsimp only
              rw [if_pos hk]
              rfl
            · rw [if_neg hi] at e
              rcases afterPub_at (E := E) hg.2.1 hx e with ⟨e1, e2⟩ | ⟨e1, e2⟩
              · refine ⟨[], ?_, Nat.zero_le _, k, (fun o e => by cases e), fun n ts e => by cases e⟩
                subst e2; rw [← ht, (view_pub k).2 e1]; rfl
              · refine ⟨[.pub (.readListen ar cb)], ?_, Nat.le_refl _, k, (fun o e => by cases e), fun n ts e => by cases e⟩
                rw [run_single e2, ← ht, (view_pub k).1 e1]
          · rw [if_neg hk] at ht; cases ht
      · rw [if_neg hg] at ht; cases ht
  | pubRead q slot n =>
    unfold next at ht
    dsimp only at ht
    cases hf : s.links.find? (isAt q slot) with
    | none => rw [hf] at ht; cases ht
    | some a =>
      rw [hf] at ht
      dsimp only at ht
      obtain ⟨ha, hqa, hsa⟩ := found hf
      cases hk : a.acc with
      | none => rw [hk] at ht; cases ht
      | some k0 =>
        rw [hk] at ht
        dsimp only at ht
        by_cases hg : 0 < n ∧ n ≤ a.up.length ∧ n ≤ CircBuf.available ((s.pubs a.p).cv.conns k0).readBuf
        · rw [if_pos hg] at ht
          cases hx : PubCtx.step (s.pubs a.p) (.read k0 (some (a.up.take n))) with
          | error f => rw [hx] at ht; cases ht
          | ok x =>
            rw [hx] at ht
            dsimp only at ht
            have ht := Option.some.inj ht
            obtain ⟨e, k⟩ := from_l (ls := []) (by rw [← ht]) (fun b b' e => by
              by_cases hi : isAt q slot b = true
              · rw [if_pos hi] at e
                by_cases hco : PubCtx.Connected x.2 k0
                · rw [if_pos hco] at e; cases e; exact ⟨rfl, rfl, rfl⟩
                · rw [if_neg hco] at e; cases e
              · rw [if_neg hi] at e
                obtain ⟨a, b, d, _⟩ := afterPub_key e; exact ⟨a, b, d⟩)
            by_cases hi : isAt q slot l = true
            · rw [if_pos hi] at e
              by_cases hco : PubCtx.Connected x.2 k0
              · rw [if_pos hco] at e
                obtain ⟨e1, e2⟩ := isAt_iff.1 hi
                have hla := h.key l hl a ha (by omega) (by omega)
                subst hla
                refine ⟨[.pubRead n], ?_, Nat.le_refl _, k, (fun o e => by cases e), fun n ts e => by cases e⟩
                rw [← ht, (view_pub k).1 rfl]
                cases e
                apply run_single
                unfold Sys.next
                dsimp only
                have h1 : (view s l).acc = some k0 := hk
                rw [h1]
                dsimp only
                rw [if_pos (show 0 < n ∧ n ≤ (view s l).up.length ∧ n ≤ CircBuf.available ((view s l).pub.cv.conns k0).readBuf from hg)]
                have h2 : PubCtx.step (view s l).pub (.read k0 (some ((view s l).up.take n))) = .ok x := hx
                rw [h2]
                dsimp only
                rw [if_pos hco]
                unfold view
                dsimp only
                rw [hk]
              · rw [if_neg hco] at e; cases e
            · rw [if_neg hi] at e
              rcases afterPub_at (E := E) rfl hx e with ⟨e1, e2⟩ | ⟨e1, e2⟩
              · refine ⟨[], ?_, Nat.zero_le _, k, (fun o e => by cases e), fun n ts e => by cases e⟩
                subst e2; rw [← ht, (view_pub k).2 e1]; rfl
              · refine ⟨[.pub (.read k0 (some (a.up.take n)))], ?_, Nat.le_refl _, k, (fun o e => by cases e), fun n ts e => by cases e⟩
                rw [run_single e2, ← ht, (view_pub k).1 e1]
        · rw [if_neg hg] at ht; cases ht
  | subRead q slot n ts =>
    unfold next at ht
    dsimp only at ht
    cases hf : s.links.find? (isAt q slot) with
    | none => rw [hf] at ht; cases ht
    | some a =>
      rw [hf] at ht
      dsimp only at ht
      obtain ⟨ha, hqa, hsa⟩ := found hf
      by_cases hg : SubCtx.Up (s.subs q) slot ∧ 0 < n ∧ n ≤ a.down.length ∧ n ≤ CircBuf.available ((s.subs q).cv.conns slot).readBuf
      · rw [if_pos hg] at ht
        cases hx : SubCtx.step (s.subs q) (.read slot (some (a.down.take n)) ts) with
        | error f => rw [hx] at ht; cases ht
        | ok x =>
          rw [hx] at ht
          dsimp only at ht
          have ht := Option.some.inj ht
          obtain ⟨e, k⟩ := from_l (ls := []) (by rw [← ht]) (fun b b' e => by
            by_cases hi : isAt q slot b = true
            · rw [if_pos hi] at e
              by_cases hco : SubCtx.Up x.2 slot
              · rw [if_pos hco] at e; cases e; exact ⟨rfl, rfl, rfl⟩
              · rw [if_neg hco] at e; cases e
            · rw [if_neg hi] at e
              obtain ⟨a, b, d, _⟩ := afterSub_key e; exact ⟨a, b, d⟩)
          by_cases hi : isAt q slot l = true
          · rw [if_pos hi] at e
            by_cases hco : SubCtx.Up x.2 slot
            · rw [if_pos hco] at e
              obtain ⟨e1, e2⟩ := isAt_iff.1 hi
              have hla := h.key l hl a ha (by omega) (by omega)
              subst hla
              subst e1
              subst e2
              refine ⟨[.subRead n ts], ?_, Nat.le_refl _, k, (fun o e => by cases e), fun n ts e => by injection e with _ _ e1 e2; rw [e1, e2]⟩
              rw [← ht, (view_sub k).1 rfl]
              cases e
              apply run_single
              unfold Sys.next
              dsimp only
              rw [if_pos (show SubCtx.Up (view s l).sub (env E l).slot ∧ 0 < n ∧ n ≤ (view s l).down.length ∧
                n ≤ CircBuf.available ((view s l).sub.cv.conns (env E l).slot).readBuf from hg)]
              have h2 : SubCtx.step (view s l).sub (.read (env E l).slot (some ((view s l).down.take n)) ts) = .ok x := hx
              rw [h2]
              dsimp only
              rw [if_pos (show SubCtx.Up x.2 (env E l).slot from hco)]
              rfl
            · rw [if_neg hco] at e; cases e
          · rw [if_neg hi] at e
            have hnot : ∀ n' ts', NetOp.subRead q slot n ts ≠ .subRead l.q l.slot n' ts' := by
              intro n' ts' e
              injection e with e1 e2
              exact hi (isAt_iff.2 ⟨e1.symm, e2.symm⟩)
            rcases afterSub_at h (fun r hr => by cases hr) hx hl e with ⟨e1, e2⟩ | ⟨e1, e2⟩
            · refine ⟨[], ?_, Nat.zero_le _, k, (fun o e => by cases e), fun n ts e => absurd e (hnot n ts)⟩
              subst e2; rw [← ht, (view_sub k).2 e1]; rfl
            · refine ⟨[.sub (.read slot (some (a.down.take n)) ts)], ?_, Nat.le_refl _, k, (fun o e => by cases e), fun n ts e => absurd e (hnot n ts)⟩
              rw [run_single e2, ← ht, (view_sub k).1 e1]
      · rw [if_neg hg] at ht; cases ht
  | link p q slot =>
    unfold next at ht
    dsimp only at ht
    split at ht
    · rename_i hg
      have ht := Option.some.inj ht
      obtain ⟨g1, g2, _⟩ := hg
      have hml : m = l := by
        rw [← ht] at hm
        rcases List.mem_cons.1 hm with rfl | hm
        · have := List.find?_eq_none.1 (Option.isNone_iff_eq_none.1 g2) l hl
          exact absurd (isAt_iff.2 ⟨hq.symm, hs.symm⟩) this
        · exact h.key m hm l hl hq hs
      subst hml
      exact ⟨[], by rw [← ht]; rfl, Nat.zero_le _, ⟨rfl, rfl, rfl⟩, (fun o e => by cases e), fun n ts e => by cases e⟩
    · cases ht
  | lost q slot =>
    unfold next at ht
    have ht := Option.some.inj ht
    have hml : m = l := by
      rw [← ht] at hm
      exact h.key m (List.mem_filter.1 hm).1 l hl hq hs
    subst hml
    exact ⟨[], by rw [← ht]; rfl, Nat.zero_le _, ⟨rfl, rfl, rfl⟩, (fun o e => by cases e), fun n ts e => by cases e⟩

/-- Specification: the connection of slot `slot` of subscriber `q` is there before the history, after it and after each of its events. -/
def There (E : NetEnv) (q slot : Nat) (s : Net) (ops : List NetOp) : Prop :=
  ∀ pre post u, ops = pre ++ post → run E s pre = some u → ∃ l ∈ u.links, l.q = q ∧ l.slot = slot

theorem There.head {E : NetEnv} {q slot : Nat} {s : Net} {ops : List NetOp} (h : There E q slot s ops) : ∃ l ∈ s.links, l.q = q ∧ l.slot = slot :=
  h [] ops s rfl rfl

theorem There.right {E : NetEnv} {q slot : Nat} {s t : Net} {a b : List NetOp} (h : There E q slot s (a ++ b)) (hr : run E s a = some t) : There E q slot t b := by
  intro pre post u e hu
  refine h (a ++ pre) post u (by rw [e, List.append_assoc]) ?_
  rw [run_append, hr]; exact hu

theorem There.left {E : NetEnv} {q slot : Nat} {s : Net} {a b : List NetOp} (h : There E q slot s (a ++ b)) : There E q slot s a := by
  intro pre post u e hu
  exact h pre (post ++ b) u (by rw [e, List.append_assoc]) hu

/-- What a history of the network is for a connection that is there all the time. -/
structure ProjRun (E : NetEnv) (s : Net) (ops : List NetOp) (l : Link) (t : Net) (m : Link) (sops : List SysOp) : Prop where
  run : Sys.run (env E l) (view s l) sops = some (view t m)
  calls : Sys.calls sops ≤ calls ops
  key : m.p = l.p ∧ m.q = l.q ∧ m.slot = l.slot
  pub : ∀ pre o post, ops = pre ++ .pub l.p o :: post → ∃ u v pre' post', Net.run E s pre = some u ∧ v.p = l.p ∧ sops = pre' ++ .pub o :: post' ∧
    Sys.run (env E l) (view s l) pre' = some (view u v)
  read : ∀ n ts, .subRead l.q l.slot n ts ∈ ops → .subRead n ts ∈ sops

theorem proj_run {E : NetEnv} : ∀ (ops : List NetOp) {N : Nat} {s t : Net} {l m : Link}, NInv E N s → N + calls ops + 1 < U64 → run E s ops = some t →
    There E l.q l.slot s ops → l ∈ s.links → m ∈ t.links → m.q = l.q → m.slot = l.slot → ∃ sops, ProjRun E s ops l t m sops := by
  intro ops
  induction ops with
  | nil =>
    intro N s t l m h hb hr hth hl hm hq hs
    cases hr
    have := h.key m hm l hl hq hs
    subst this
    exact ⟨[], rfl, Nat.zero_le _, ⟨rfl, rfl, rfl⟩, fun pre o post e => by simp at e, fun n ts e => by cases e⟩
  | cons op ops ih =>
    intro N s t l m h hb hr hth hl hm hq hs
    rw [calls_cons] at hb
    have hr' : (next E s op).bind (fun u => run E u ops) = some t := hr
    cases hn : next E s op with
    | none => rw [hn] at hr'; cases hr'
    | some u =>
      rw [hn] at hr'
      have hr' : run E u ops = some t := hr'
      have hone : run E s [op] = some u := by show (next E s op).bind _ = _; rw [hn]; rfl
      have hth' : There E l.q l.slot u ops := There.right (a := [op]) hth hone
      obtain ⟨a, ha, a1, a2⟩ := hth'.head
      obtain ⟨s1, p1⟩ := proj_step h (by omega) hn hl ha a1 a2
      obtain ⟨k1, k2, k3⟩ := p1.key
      rw [← k2, ← k3] at hth'
      obtain ⟨s2, p2⟩ := ih (h.step (by omega) hn) (by omega) hr' hth' ha hm (by omega) (by omega)
      obtain ⟨j1, j2, j3⟩ := p2.key
      have henv : env E a = env E l := by unfold env; rw [k1, k3]
      have p2run := p2.run
      rw [henv] at p2run
      refine ⟨s1 ++ s2, ?_, ?_, ⟨by omega, by omega, by omega⟩, ?_, ?_⟩
      · rw [Sys.run_append, p1.run]; exact p2run
      · rw [Sys.calls_append, calls_cons]
        have := p1.calls
        have := p2.calls
        omega
      · intro pre o post e
        cases pre with
        | nil =>
          rw [List.nil_append] at e
          injection e with e1 e2
          exact ⟨s, l, [], s2, rfl, rfl, by rw [p1.pub o e1]; rfl, rfl⟩
        | cons x pre =>
          rw [List.cons_append] at e
          injection e with e1 e2
          obtain ⟨w, v, pre', post', b1, b2, b3, b4⟩ := p2.pub pre o post (by rw [e2, k1])
          rw [henv] at b4
          refine ⟨w, v, s1 ++ pre', post', ?_, by omega, by rw [b3, List.append_assoc], ?_⟩
          · rw [← e1]
            show (next E s op).bind _ = _
            rw [hn]; exact b1
          · rw [Sys.run_append, p1.run]; exact b4
      · intro n ts e
        rw [List.mem_append]
        rcases List.mem_cons.1 e with e | e
        · left; rw [p1.read n ts e.symm]; simp
        · right; exact p2.read n ts (by rw [k2, k3]; exact e)

/-- Specification: a round of the event loops of everybody: every publisher processes timeouts at a time of at least `T` when no announcement is due, unless nothing is held for its subscribers; writes
to every connection at least a byte, unless nothing is left to write; every subscriber reads something from every connection, unless nothing is on its way. Anything else may happen in between. -/
structure Round (E : NetEnv) (T : Int) (s : Net) (seg : List NetOp) (t : Net) : Prop where
  run : run E s seg = some t
  timeout : ∀ p, p < E.np → (∃ pre now cb sp post u, seg = pre ++ .pub p (.timeout now cb sp) :: post ∧ T ≤ now ∧ Net.run E s pre = some u ∧
    ¬ PubCtx.annDue (u.pubs p) now) ∨ ∀ j, PubCtx.Connected (t.pubs p) j → (t.pubs p).pub.outstanding j = []
  writes : ∀ p, p < E.np → ∀ j, PubCtx.Connected (s.pubs p) j → (∃ n, 0 < n ∧ .pub p (.write j (.ok n)) ∈ seg) ∨ CircBuf.bytes ((t.pubs p).cv.conns j).writeBuf = []
  reads : ∀ l ∈ t.links, (∃ n ts, .subRead l.q l.slot n ts ∈ seg) ∨ l.down = []

/-- Specification: a history of rounds. -/
def Rounds (E : NetEnv) (T : Int) : Net → List (List NetOp) → Net → Prop
  | s, [], t => t = s
  | s, seg :: segs, t => ∃ u, Round E T s seg u ∧ Rounds E T u segs t

theorem Rounds.run {E : NetEnv} {T : Int} : ∀ (segs : List (List NetOp)) {s t : Net}, Rounds E T s segs t → Net.run E s segs.flatten = some t := by
  intro segs
  induction segs with
  | nil => intro s t h; cases h; rfl
  | cons seg segs ih =>
    rintro s t ⟨u, h1, h2⟩
    rw [List.flatten_cons, run_append, h1.run]
    exact ih h2

/-- A round of everybody is one of the two ends of each connection. -/
theorem Round.turn {E : NetEnv} {T : Int} {N : Nat} {s t : Net} {seg : List NetOp} {l m : Link} (h : Round E T s seg t) (hi : NInv E N s) (hb : N + calls seg + 1 < U64)
    (hth : There E l.q l.slot s seg) (hl : l ∈ s.links) (hm : m ∈ t.links) (hq : m.q = l.q) (hs : m.slot = l.slot) :
    ∃ sops, Sys.Turn (env E l) T (view s l) sops (view t m) ∧ Sys.calls sops ≤ calls seg ∧ m.p = l.p := by
  obtain ⟨sops, p⟩ := proj_run seg hi hb h.run hth hl hm hq hs
  obtain ⟨k1, k2, k3⟩ := p.key
  have hp := hi.lp l hl
  have hpub : (view t m).pub = t.pubs l.p := by unfold view; dsimp only; rw [k1]
  refine ⟨sops, ⟨p.run, ?_, ?_, ?_⟩, p.calls, k1⟩
  · rw [hpub]
    rcases h.timeout l.p hp with ⟨pre, now, cb, sp, post, u, e1, e2, e3, e4⟩ | h0
    · left
      obtain ⟨w, v, pre', post', b1, b2, b3, b4⟩ := p.pub pre _ post e1
      rw [e3] at b1
      have := Option.some.inj b1
      subst this
      refine ⟨pre', now, cb, sp, post', view u v, b3, e2, b4, ?_⟩
      unfold view; dsimp only; rw [b2]; exact e4
    · exact .inr h0
  · intro j hj
    rw [hpub]
    rcases h.writes l.p hp j hj with ⟨n, h1, h2⟩ | h0
    · left
      obtain ⟨pre, post, e⟩ := List.append_of_mem h2
      obtain ⟨_, _, pre', post', _, _, b3, _⟩ := p.pub pre _ post e
      exact ⟨n, h1, by rw [b3]; simp⟩
    · exact .inr h0
  · rcases h.reads m hm with ⟨n, ts, h1⟩ | h0
    · left
      rw [k2, k3] at h1
      exact ⟨n, ts, p.read n ts h1⟩
    · exact .inr h0

theorem Rounds.turns {E : NetEnv} {T : Int} : ∀ (segs : List (List NetOp)) {N : Nat} {s t : Net} {l m : Link}, Rounds E T s segs t → NInv E N s → N + calls segs.flatten + 1 < U64 →
    There E l.q l.slot s segs.flatten → l ∈ s.links → m ∈ t.links → m.q = l.q → m.slot = l.slot →
    ∃ ss, Sys.Turns (env E l) T (view s l) ss (view t m) ∧ ss.length = segs.length ∧ Sys.calls ss.flatten ≤ calls segs.flatten ∧ m.p = l.p := by
  intro segs
  induction segs with
  | nil =>
    intro N s t l m h hi hb hth hl hm hq hs
    cases h
    have := hi.key m hm l hl hq hs
    subst this
    exact ⟨[], rfl, rfl, Nat.le_refl _, rfl⟩
  | cons seg segs ih =>
    rintro N s t l m ⟨u, h1, h2⟩ hi hb hth hl hm hq hs
    rw [List.flatten_cons] at hb hth
    rw [calls_append] at hb
    have hth' := hth.right h1.run
    obtain ⟨a, ha, a1, a2⟩ := hth'.head
    obtain ⟨s1, t1, c1, k1⟩ := h1.turn hi (by omega) hth.left hl ha a1 a2
    rw [← a1, ← a2] at hth'
    obtain ⟨ss, t2, c2, c3, k2⟩ := ih h2 (hi.run seg (by omega) h1.run) (by omega) hth' ha hm (by omega) (by omega)
    have henv : env E a = env E l := by unfold env; rw [k1, a2]
    rw [henv] at t2
    refine ⟨s1 :: ss, ⟨_, t1, t2⟩, by simp [c2], ?_, by omega⟩
    rw [List.flatten_cons, List.flatten_cons, Sys.calls_append, calls_append]
    omega

end Net
end Rmc
