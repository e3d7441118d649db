import Verif.Epoll
import Verif.Props.Fds
import Verif.Props.SubCtxPoll

/-!
# C84 for the subscriber: the event loop of the test programs
-/

set_option linter.unusedSimpArgs false
set_option linter.unusedVariables false

namespace Rmc
namespace SubCtx
open SubPub CircBuf ConnVec

theorem Micro.fds {tm : Nat} {c c' : SubCtx} (m : Micro tm c c') : c.cv.fds <+: c'.cv.fds := by
  cases m with
  | sock m es hes hfs => exact List.prefix_append _ _
  | connect addr port nid d hv hL hi hv' h1 h2 h3 h4 h5 hk hl => exact hl.2
  | noConnect hv hv' h1 h2 h3 h4 hl => exact hl.2
  | noComplete hi hm hv hv' h1 h2 h3 h4 hx hes hk hl => exact hl.2
  | close hi hs hk => exact close_fds _ _
  | _ => exact List.prefix_rfl

/-- What a slot is registered with. -/
def slotReg (x : Conn) : Option (Nat × Act) := x.desc.map fun d => (d, x.action)

/-- The registrations are those of the sockets held. -/
structure EInv (c : SubCtx) : Prop where
  slot : ∀ i, i < c.cv.size → watch i c.cv.polls = some (slotReg (c.cv.conns i))
  mc : watch MULTICAST_INDEX c.cv.polls = some none ∨ ∃ d, c.mcast = some d ∧ watch MULTICAST_INDEX c.cv.polls = some (some (d, .R))
  other : ∀ i, c.cv.size ≤ i → i ≠ MULTICAST_INDEX → watch i c.cv.polls = some none
  apart : Apart c.cv.polls
  wait : ∀ i, i < c.cv.size → (c.cv.conns i).mode = .connecting → (c.cv.conns i).action = .W

/-- Who is registered with a descriptor holds it. -/
theorem EInv.holder {c : SubCtx} (h : EInv c) {j d : Nat} {a : Act} (hj : watch j c.cv.polls = some (some (d, a))) :
    (j < c.cv.size ∧ (c.cv.conns j).desc = some d) ∨ (j = MULTICAST_INDEX ∧ c.mcast = some d) := by
  by_cases h1 : j < c.cv.size
  · rw [h.slot j h1] at hj
    have := Option.some.inj hj
    unfold slotReg at this
    cases hd : (c.cv.conns j).desc with
    | none => rw [hd] at this; cases this
    | some x =>
      rw [hd] at this
      have := congrArg Prod.fst (Option.some.inj this)
      exact .inl ⟨h1, congrArg some this⟩
  · by_cases h2 : j = MULTICAST_INDEX
    · subst h2
      rcases h.mc with e | ⟨x, e1, e2⟩
      · rw [e] at hj; cases hj
      · rw [e2] at hj
        have := congrArg Prod.fst (Option.some.inj (Option.some.inj hj))
        exact .inr ⟨rfl, by rw [e1]; exact congrArg some this⟩
    · rw [h.other j (by omega) h2] at hj; cases hj

theorem EInv.congr {c c' : SubCtx} (h : EInv c) (e : c'.cv = c.cv) (em : c'.mcast = c.mcast) : EInv c' := by
  obtain ⟨h1, h2, h3, h4, h5⟩ := h
  exact ⟨by rw [e]; exact h1, by rw [e, em]; exact h2, by rw [e]; exact h3, by rw [e]; exact h4, by rw [e]; exact h5⟩

theorem watch_quiet (i j : Nat) (d : Option Nat) (a : Act) (xs : List PollEv) : watch j (xs ++ [.modify i d a a]) = watch j xs := by
  rw [watch_snoc]
  cases watch j xs with
  | none => rfl
  | some r => by_cases h : i = j <;> simp [watchStep, h]

theorem watch_modify {i d : Nat} {o n : Act} {xs : List PollEv} (h : watch i xs = some (some (d, o))) :
    watch i (xs ++ [.modify i (some d) o n]) = some (some (d, n)) := by
  rw [watch_snoc, h]
  by_cases e : o = n
  · subst e; simp [watchStep]
  · simp [watchStep, e]

theorem watch_remove {i : Nat} {p : Option (Nat × Act)} {d : Option Nat} {xs : List PollEv} (h : watch i xs = some p)
    (hd : ∀ x a, p = some (x, a) → d = some x) : watch i (xs ++ [.remove i d]) = some none := by
  rw [watch_snoc, h]
  cases p with
  | none => simp [watchStep]
  | some q => obtain ⟨x, a⟩ := q; simp [watchStep, hd x a rfl]

/-- A slot that is held changes its action, and the event loop is told. -/
theorem EInv.act {c d : SubCtx} (h : EInv c) {i fd : Nat} {x : Conn} (hi : i < c.cv.size) (hf : (c.cv.conns i).desc = some fd)
    (h1 : d.cv.size = c.cv.size) (h2 : ∀ j, d.cv.conns j = if j = i then x else c.cv.conns j) (hx : x.desc = some fd)
    (h3 : d.cv.polls = c.cv.polls ++ [.modify i (some fd) (c.cv.conns i).action x.action]) (h4 : d.mcast = c.mcast)
    (hn : i ≠ MULTICAST_INDEX) (hm : x.mode = .connected) : EInv d := by
  have ho : ∀ j, j ≠ i → watch j d.cv.polls = watch j c.cv.polls := by
    intro j hj; rw [h3]; exact watch_other (by exact fun e => hj e.symm) _
  constructor
  · intro j hj
    rw [h1] at hj
    by_cases e : j = i
    · subst e
      rw [h2, if_pos rfl, h3]
      have := h.slot j hj
      unfold slotReg at this ⊢
      rw [hf] at this
      rw [hx]
      exact watch_modify this
    · rw [ho j e, h2, if_neg e]; exact h.slot j hj
  · rw [ho _ (fun e => hn e.symm), h4]; exact h.mc
  · intro j hj hne
    rw [h1] at hj
    rw [ho j (by omega)]; exact h.other j hj hne
  · rw [h3]; exact h.apart.snoc trivial
  · intro j hs hj
    rw [h2] at hj ⊢
    by_cases e : j = i
    · rw [if_pos e] at hj; rw [hm] at hj; cases hj
    · rw [if_neg e] at hj ⊢; exact h.wait j (by rw [← h1]; exact hs) hj

/-- Alone on a descriptor that one holds. -/
theorem EInv.alone_slot {c : SubCtx} (h : EInv c) (hl : Ledger c.cv (one c.mcast)) (ho : OsOk c.cv.fds) {i : Nat} (hi : i < c.cv.size) :
    alone c.cv.polls (.remove i (c.cv.conns i).desc) := by
  cases hd : (c.cv.conns i).desc with
  | none => trivial
  | some d =>
    intro j a hj
    rcases h.holder hj with ⟨e1, e2⟩ | ⟨e1, e2⟩
    · exact hl.distinct ho e1 hi e2 hd
    · have := hl.outside ho hi hd
      rw [e2] at this
      unfold one at this
      rw [if_pos rfl] at this
      cases this

/-- A slot is taken off. -/
theorem EInv.off {c d : SubCtx} (h : EInv c) {i : Nat} (hi : i < c.cv.size) (h1 : d.cv.size = c.cv.size)
    (h2 : ∀ j, j ≠ i → d.cv.conns j = c.cv.conns j) (hx : (d.cv.conns i).desc = none) (hxm : (d.cv.conns i).mode = .closed) {es : List PollEv}
    (h3 : d.cv.polls = c.cv.polls ++ es) (hes : es ≠ []) (he : ∀ e ∈ es, e = .remove i (c.cv.conns i).desc) (h4 : d.mcast = c.mcast)
    (hn : i ≠ MULTICAST_INDEX) (hl : Ledger c.cv (one c.mcast)) (ho : OsOk c.cv.fds) : EInv d := by
  have al := h.alone_slot hl ho hi
  have key : ∀ es : List PollEv, (∀ e ∈ es, e = .remove i (c.cv.conns i).desc) →
      (∀ j, j ≠ i → watch j (c.cv.polls ++ es) = watch j c.cv.polls) ∧
      (watch i (c.cv.polls ++ es) = if es = [] then watch i c.cv.polls else some none) ∧ Apart (c.cv.polls ++ es) := by
    intro es
    induction es using snoc_ind with
    | h0 => intro _; rw [List.append_nil]; exact ⟨fun _ _ => rfl, by rw [if_pos rfl], h.apart⟩
    | h1 xs e ih =>
      intro he
      obtain ⟨k1, k2, k3⟩ := ih (fun x hx => he x (by simp [hx]))
      have hee := he e (by simp)
      subst hee
      rw [← List.append_assoc]
      refine ⟨fun j hj => ?_, ?_, ?_⟩
      · rw [watch_other (by exact fun e => hj e.symm)]; exact k1 j hj
      · rw [if_neg (by simp)]
        by_cases hxs : xs = []
        · rw [if_pos hxs] at k2
          rw [h.slot i hi] at k2
          refine watch_remove k2 fun x a e => ?_
          unfold slotReg at e
          cases hd : (c.cv.conns i).desc with
          | none => rw [hd] at e; cases e
          | some z => rw [hd] at e; exact congrArg some (congrArg Prod.fst (Option.some.inj e))
        · rw [if_neg hxs] at k2
          exact watch_remove k2 (fun x a e => by cases e)
      · refine k3.snoc ?_
        cases hd : (c.cv.conns i).desc with
        | none => trivial
        | some z =>
          intro j a hj
          by_cases e : j = i
          · exact e
          · rw [hd] at al
            rw [k1 j e] at hj
            exact al j a hj
  obtain ⟨k1, k2, k3⟩ := key es he
  rw [if_neg hes] at k2
  constructor
  · intro j hj
    rw [h1] at hj
    by_cases e : j = i
    · subst e
      unfold slotReg
      rw [h3, k2, hx]; rfl
    · rw [h3, k1 j e, h2 j e]; exact h.slot j hj
  · rw [h3, k1 _ (fun e => hn e.symm), h4]; exact h.mc
  · intro j hj hne
    rw [h1] at hj
    rw [h3, k1 j (by omega)]; exact h.other j hj hne
  · rw [h3]; exact k3
  · intro j hs hj
    by_cases e : j = i
    · subst e; rw [hxm] at hj; cases hj
    · rw [h2 j e] at hj ⊢; exact h.wait j (by rw [← h1]; exact hs) hj

theorem EInv.micro {tm : Nat} {c c' : SubCtx} (m : Micro tm c c') (hc : Core c) (hl : Ledger c.cv (one c.mcast)) (ho : OsOk c'.cv.fds)
    (h : EInv c) : EInv c' := by
  have hl' := m.led hl
  have ho0 : OsOk c.cv.fds := ho.mono m.fds
  obtain ⟨L, hL⟩ := hc.v
  have hsz := hL.sz
  have hM : MULTICAST_INDEX = 32766 := rfl
  have hLI : LISTEN_INDEX = 32765 := rfl
  have up : ∀ {i}, Up c i → ∃ d, (c.cv.conns i).desc = some d := by
    intro i hu
    have := (hL.desc i hu.1).2 ((hL.mode i hu.1).1 (by rw [hu.2]; decide))
    cases hd : (c.cv.conns i).desc with
    | none => exact absurd hd this
    | some d => exact ⟨d, rfl⟩
  cases m with
  | user hx he => exact h.congr rfl rfl
  | cb hk => exact h.congr rfl rfl
  | setCb f hk => exact h.congr rfl rfl
  | annCb a => exact h.congr rfl rfl
  | sock m es hes hfs =>
    rcases hes with ⟨rfl, e⟩ | ⟨e, rfl⟩ | ⟨e, d, e2, rfl⟩ | ⟨e, rfl⟩
    · refine ⟨?_, ?_, ?_, ?_, h.wait⟩
      · show ∀ i, i < c.cv.size → watch i (c.cv.polls ++ []) = _
        rw [List.append_nil]; exact h.slot
      · show watch _ (c.cv.polls ++ []) = _ ∨ ∃ d, m = some d ∧ watch _ (c.cv.polls ++ []) = _
        rw [List.append_nil]
        rcases h.mc with e1 | ⟨d, e1, e2⟩
        · exact .inl e1
        · rcases e with e | e
          · exact .inr ⟨d, by rw [e]; exact e1, e2⟩
          · rw [e.1] at e1; cases e1
      · show ∀ i, c.cv.size ≤ i → i ≠ _ → watch i (c.cv.polls ++ []) = _
        rw [List.append_nil]; exact h.other
      · show Apart (c.cv.polls ++ [])
        rw [List.append_nil]; exact h.apart
    · refine ⟨fun i hi => ?_, ?_, fun i hi hn => ?_, h.apart.snoc trivial, h.wait⟩
      · show watch i (c.cv.polls ++ [_]) = _
        rw [watch_quiet]; exact h.slot i hi
      · show watch _ (c.cv.polls ++ [_]) = _ ∨ ∃ d, m = some d ∧ watch _ (c.cv.polls ++ [_]) = _
        rw [watch_quiet, e]; exact h.mc
      · show watch i (c.cv.polls ++ [_]) = _
        rw [watch_quiet]; exact h.other i hi hn
    · have hnone : watch MULTICAST_INDEX c.cv.polls = some none := by
        rcases h.mc with e1 | ⟨x, e1, _⟩
        · exact e1
        · rw [e] at e1; cases e1
      have hne : ∀ i, i ≠ MULTICAST_INDEX → watch i (c.cv.polls ++ [.add MULTICAST_INDEX (some d) .R]) = watch i c.cv.polls :=
        fun i hi => watch_other (by exact fun e => hi e.symm) _
      refine ⟨fun i hi => ?_, ?_, fun i hi hn => (hne i hn).trans (h.other i hi hn), h.apart.snoc ?_, h.wait⟩
      · exact (hne i (by have : i < c.cv.size := hi; omega)).trans (h.slot i hi)
      · refine .inr ⟨d, e2, ?_⟩
        show watch _ (c.cv.polls ++ [_]) = _
        rw [watch_snoc, hnone]; simp [watchStep]
      · intro j a hj
        rcases h.holder hj with ⟨e3, e4⟩ | ⟨e3, e4⟩
        · have h0 := hl'.outside ho (i := j) e3 e4
          have h0 : one m d = 0 := h0
          rw [e2] at h0
          unfold one at h0
          rw [if_pos rfl] at h0
          cases h0
        · rw [e] at e4; cases e4
    · have hne : ∀ i, i ≠ MULTICAST_INDEX → watch i (c.cv.polls ++ [.remove MULTICAST_INDEX c.mcast]) = watch i c.cv.polls :=
        fun i hi => watch_other (by exact fun e => hi e.symm) _
      refine ⟨fun i hi => ?_, .inl ?_, fun i hi hn => (hne i hn).trans (h.other i hi hn), h.apart.snoc ?_, h.wait⟩
      · exact (hne i (by have : i < c.cv.size := hi; omega)).trans (h.slot i hi)
      · show watch _ (c.cv.polls ++ [_]) = _
        rcases h.mc with e1 | ⟨x, e1, e2⟩
        · exact watch_remove e1 (fun x a e => by cases e)
        · exact watch_remove e2 (fun y a e3 => by rw [e1]; exact congrArg some (congrArg Prod.fst (Option.some.inj e3)))
      · cases hm : c.mcast with
        | none => trivial
        | some d =>
          intro j a hj
          rcases h.holder hj with ⟨e3, e4⟩ | ⟨e3, e4⟩
          · have h0 := hl.outside ho0 e3 e4
            rw [hm] at h0
            unfold one at h0
            rw [if_pos rfl] at h0
            cases h0
          · exact e3
  | dup hu hs hp hd hk => exact h.congr rfl rfl
  | recv hu hs hd ha hk => exact h.congr rfl rfl
  | @io i hu rb a es hact hes hk =>
    subst hact
    have hcn : ∀ j, slotReg (if j = i then { c.cv.conns i with readBuf := rb, action := (c.cv.conns i).action } else c.cv.conns j) =
        slotReg (c.cv.conns j) := by
      intro j; by_cases e : j = i
      · subst e; rw [if_pos rfl]; rfl
      · rw [if_neg e]
    have hw : ∀ j, watch j (c.cv.polls ++ es) = watch j c.cv.polls := by
      rcases hes with rfl | ⟨d, rfl⟩
      · intro j; rw [List.append_nil]
      · intro j; exact watch_quiet _ _ _ _ _
    refine ⟨fun j hj => ?_, ?_, fun j hj hn => (hw j).trans (h.other j hj hn), ?_, fun j hs hj => ?_⟩
    · show watch j (c.cv.polls ++ es) = some (slotReg (if j = i then _ else c.cv.conns j))
      rw [hw j, hcn j]; exact h.slot j hj
    · show watch _ (c.cv.polls ++ es) = _ ∨ ∃ d, c.mcast = some d ∧ watch _ (c.cv.polls ++ es) = _
      rw [hw]; exact h.mc
    · rcases hes with rfl | ⟨d, rfl⟩
      · show Apart (c.cv.polls ++ []); rw [List.append_nil]; exact h.apart
      · exact h.apart.snoc trivial
    · have hj : (if j = i then _ else c.cv.conns j : Conn).mode = .connecting := hj
      show (if j = i then _ else c.cv.conns j : Conn).action = _
      by_cases e : j = i
      · subst e; rw [if_pos rfl] at hj; rw [hu.2] at hj; cases hj
      · rw [if_neg e] at hj ⊢; exact h.wait j hs hj
  | taken hs hi ha => exact h.congr rfl rfl
  | dropAck ha hs hi => exact h.congr rfl rfl
  | @msg i hu b e xs hw hz hb he =>
    obtain ⟨d, hd⟩ := up hu
    refine h.act (x := { c.cv.conns i with writeBuf := b, action := (c.cv.conns i).action.setW }) hu.1 hd rfl (fun j => rfl) hd ?_ rfl
      (by have := hu.1; omega) hu.2
    show c.cv.polls ++ [.modify i (c.cv.conns i).desc _ _] = _
    rw [hd]; rfl
  | @out i hu b xs hw hz hb a es hact hes hr =>
    obtain ⟨d, hd⟩ := up hu
    subst hes
    refine h.act (x := { c.cv.conns i with writeBuf := b, action := a }) hu.1 hd rfl (fun j => rfl) hd ?_ rfl (by have := hu.1; omega) hu.2
    show c.cv.polls ++ [.modify i (c.cv.conns i).desc _ _] = _
    rw [hd]
  | @connect i addr port nid d L' hv hL' hi v hv' h1 h2 h3 h4 h5 hk hll =>
    have hfree : (c.cv.conns i).desc = none := by
      cases hd : (c.cv.conns i).desc with
      | none => rfl
      | some x => exact absurd ((hv.desc i hi).1 (by rw [hd]; simp)) hL'
    have hvi : (v.conns i).desc = some d := by rw [h4]
    have hne : ∀ j, j ≠ i → watch j v.polls = watch j c.cv.polls := by
      intro j hj; rw [h5]; exact watch_other (by exact fun e => hj e.symm) _
    refine ⟨fun j hj => ?_, ?_, fun j hj hn => ?_, ?_, fun j hs hj => ?_⟩
    · have hj : j < v.size := hj
      show watch j v.polls = some (slotReg (v.conns j))
      by_cases e : j = i
      · subst e
        rw [h5, watch_snoc, h.slot j hi]
        unfold slotReg
        rw [hfree, h4]
        simp [watchStep]
      · rw [hne j e, h3 j e]; exact h.slot j (by rw [← h1]; exact hj)
    · show watch _ v.polls = _ ∨ ∃ d, c.mcast = some d ∧ watch _ v.polls = _
      rw [hne _ (by omega)]; exact h.mc
    · have hj : v.size ≤ j := hj
      show watch j v.polls = _
      rw [hne j (by omega)]; exact h.other j (by omega) hn
    · show Apart v.polls
      rw [h5]
      refine h.apart.snoc ?_
      intro j a hj
      rcases h.holder hj with ⟨e1, e2⟩ | ⟨e1, e2⟩
      · have hji : j ≠ i := fun e => by rw [e, hfree] at e2; cases e2
        have : (v.conns j).desc = some d := by rw [h3 j hji]; exact e2
        exact hji (hl'.distinct ho (i := j) (j := i) (d := d) (by show j < v.size; omega) (by show i < v.size; omega) this hvi)
      · have h0 := hl'.outside ho (i := i) (d := d) (by show i < v.size; omega) hvi
        have h0 : one c.mcast d = 0 := h0
        rw [e2] at h0
        unfold one at h0
        rw [if_pos rfl] at h0
        cases h0
    · have hj : (v.conns j).mode = .connecting := hj
      show (v.conns j).action = .W
      by_cases e : j = i
      · subst e; rw [h4]
      · rw [h3 j e] at hj ⊢; exact h.wait j (by rw [← h1]; exact hs) hj
  | @noConnect L' hv v hv' h1 h2 h3 h4 hll =>
    have hd0 : ∀ j, j < c.cv.size → j ∉ L' → (c.cv.conns j).desc = none ∧ (v.conns j).desc = none := by
      intro j hj hn
      constructor
      · cases hd : (c.cv.conns j).desc with
        | none => rfl
        | some x => exact absurd ((hv.desc j hj).1 (by rw [hd]; simp)) hn
      · cases hd : (v.conns j).desc with
        | none => rfl
        | some x => exact absurd ((hv'.desc j (by omega)).1 (by rw [hd]; simp)) hn
    refine ⟨fun j hj => ?_, ?_, fun j hj hn => ?_, ?_, fun j hs hj => ?_⟩
    · have hj : j < v.size := hj
      show watch j v.polls = some (slotReg (v.conns j))
      rw [h3, h.slot j (by omega)]
      by_cases hjL : j ∈ L'
      · rw [h4 j hjL]
      · obtain ⟨e1, e2⟩ := hd0 j (by omega) hjL
        unfold slotReg; rw [e1, e2]; rfl
    · show watch _ v.polls = _ ∨ ∃ d, c.mcast = some d ∧ watch _ v.polls = _
      rw [h3]; exact h.mc
    · have hj : v.size ≤ j := hj
      show watch j v.polls = _
      rw [h3]; exact h.other j (by omega) hn
    · show Apart v.polls
      rw [h3]; exact h.apart
    · have hj : (v.conns j).mode = .connecting := hj
      show (v.conns j).action = .W
      by_cases hjL : j ∈ L'
      · rw [h4 j hjL] at hj ⊢; exact h.wait j (by rw [← h1]; exact hs) hj
      · exact absurd ((hv'.mode j hs).1 (by rw [hj]; decide)) hjL
  | @complete i hi hm =>
    obtain ⟨d, hd⟩ : ∃ d, (c.cv.conns i).desc = some d := by
      have := (hL.desc i hi).2 ((hL.mode i hi).1 (by rw [hm]; decide))
      cases hd : (c.cv.conns i).desc with
      | none => exact absurd hd this
      | some d => exact ⟨d, rfl⟩
    refine h.act (x := { c.cv.conns i with mode := .connected, action := .R }) hi hd rfl (fun j => rfl) hd ?_ rfl (by omega) rfl
    show c.cv.polls ++ [.modify i (c.cv.conns i).desc _ _] = _
    rw [hd]
  | @noComplete i hi hm L' hv v hv' h1 h2 h3 h4 xs hx hes hk hll =>
    obtain ⟨es, e1, e2, e3⟩ := hes
    exact h.off (d := { c with publishers := _, cv := v, log := _ }) hi h1 h3 (by show (v.conns i).desc = _; rw [h4]; rfl)
      (by show (v.conns i).mode = _; rw [h4]; rfl) e3 e1 e2 rfl (by omega) hl ho0
  | @close i s hi hs hk =>
    by_cases hiL : i ∈ L
    · obtain ⟨g1, g2, g3, g4, g5, g6, g7⟩ := (close_spec hL i).1 hiL
      exact h.off (d := closedAt c i s) hi g3 g5 (by show ((close c.cv i).2.conns i).desc = _; rw [g6]; rfl)
        (by show ((close c.cv i).2.conns i).mode = _; rw [g6]; rfl) g7 (by simp) (by simp) rfl (by omega) hl ho0
    · refine h.congr ?_ rfl
      show (close c.cv i).2 = _
      exact ((close_spec hL i).2 hiL).2

/-- What a history leaves. -/
structure EOk (c : SubCtx) : Prop where
  core : Core c
  led : Ledger c.cv (one c.mcast)
  inv : OsOk c.cv.fds → EInv c

theorem EOk.micro {tm : Nat} {c c' : SubCtx} (m : Micro tm c c') (h : EOk c) : EOk c' :=
  ⟨h.core.micro m, m.led h.led, fun ho => (h.inv (ho.mono m.fds)).micro m h.core h.led ho⟩

theorem EInv_init (mem : Nat → Conn) (n nid : Nat) : EInv (init mem n nid) := by
  refine ⟨fun i hi => rfl, .inl rfl, fun i hi hn => rfl, Apart.nil, fun i hi hm => ?_⟩
  exact absurd hm (by simp [init, ConnVec.init, resetConn])

theorem Reaches.eok {ops : List Op} {c : SubCtx} (h : Reaches ops c) : EOk c := by
  refine Reaches.induct (P := fun _ c => EOk c) ?_ ?_ h
  · intro mem n nid hn
    exact ⟨(Inv_init mem n nid hn).core, (Ledger.init mem n RMC_MAX_PACKET).weak fun _ => rfl, fun _ => EInv_init mem n nid⟩
  · intro ops op c r c' hr ih hs
    rcases step_cases hr.inv.core hr.inv.mem hs with m | ⟨_, m⟩
    · exact m.inv (P := EOk) (fun a b m h => h.micro m) ih
    · refine m.inv (P := EOk) (fun a b m h => h.micro m) ⟨ih.core.forget, ih.led, fun ho => (ih.inv ho).congr rfl rfl⟩

/-- The multicast socket is registered. -/
def McIn (c : SubCtx) : Prop := watch MULTICAST_INDEX c.cv.polls = some (c.mcast.map fun d => (d, Act.R))

theorem watch_others {i : Nat} : ∀ {ys : List PollEv}, (∀ e ∈ ys, e.idx ≠ i) → ∀ xs, watch i (xs ++ ys) = watch i xs := by
  intro ys
  induction ys using snoc_ind with
  | h0 => intro _ xs; rw [List.append_nil]
  | h1 ys y ih =>
    intro h xs
    rw [← List.append_assoc, watch_other (h y (by simp))]
    exact ih (fun e he => h e (by simp [he])) xs

theorem McIn.micro {tm : Nat} {c c' : SubCtx} (m : Micro tm c c') (ht : tm ≠ 0) (hc : Core c) (h : McIn c) : McIn c' := by
  obtain ⟨L, hL⟩ := hc.v
  have hsz := hL.sz
  have hM : MULTICAST_INDEX = 32766 := rfl
  have hLI : LISTEN_INDEX = 32765 := rfl
  have key : ∀ {d : SubCtx} {es : List PollEv}, d.mcast = c.mcast → d.cv.polls = c.cv.polls ++ es → (∀ e ∈ es, e.idx ≠ MULTICAST_INDEX) → McIn d := by
    intro d es e1 e2 e3
    unfold McIn
    rw [e2, watch_others e3, e1]
    exact h
  cases m with
  | sock m es hes hfs =>
    rcases hes with ⟨rfl, e⟩ | ⟨e, rfl⟩ | ⟨e, d, e2, rfl⟩ | ⟨e, rfl⟩
    · rcases e with e | e
      · exact key (es := []) (by exact e) rfl (by simp)
      · exact absurd e.2 ht
    · show watch _ (c.cv.polls ++ [_]) = some (m.map _)
      rw [watch_quiet, e]
      exact h
    · show watch _ (c.cv.polls ++ [_]) = some (m.map _)
      unfold McIn at h
      rw [watch_snoc, h, e2, e]; simp [watchStep]
    · show watch _ (c.cv.polls ++ [_]) = some (m.map _)
      rw [e]
      refine watch_remove h fun x a hx => ?_
      cases hm : c.mcast with
      | none => rw [hm] at hx; cases hx
      | some d => rw [hm] at hx; exact congrArg some (congrArg Prod.fst (Option.some.inj hx))
  | @io i hu rb a es hact hes hk =>
    refine key (es := es) rfl rfl ?_
    have := hu.1
    rcases hes with rfl | ⟨d, rfl⟩
    · simp
    · simp [PollEv.idx]; omega
  | @msg i hu b e xs hw hz hb he =>
    have := hu.1
    exact key (es := [_]) rfl rfl (by simp [PollEv.idx]; omega)
  | @out i hu b xs hw hz hb a es hact hes hr =>
    have := hu.1
    subst hes
    exact key (es := [_]) rfl rfl (by simp [PollEv.idx]; omega)
  | @connect i addr port nid d L' hv hL' hi v hv' h1 h2 h3 h4 h5 hk hll =>
    exact key (es := [_]) rfl h5 (by simp [PollEv.idx]; omega)
  | @noConnect L' hv v hv' h1 h2 h3 h4 hll => exact key (es := []) rfl (by rw [List.append_nil]; exact h3) (by simp)
  | @complete i hi hm => exact key (es := [_]) rfl rfl (by simp [PollEv.idx]; omega)
  | @noComplete i hi hm L' hv v hv' h1 h2 h3 h4 xs hx hes hk hll =>
    obtain ⟨es, e1, e2, e3⟩ := hes
    refine key (es := es) rfl e3 fun e he => ?_
    rw [e2 e he]
    show i ≠ _
    omega
  | @close i s hi hs hk =>
    by_cases hiL : i ∈ L
    · obtain ⟨g1, g2, g3, g4, g5, g6, g7⟩ := (close_spec hL i).1 hiL
      exact key (es := [_]) rfl g7 (by simp [PollEv.idx]; omega)
    · exact key (es := []) rfl (by
        show (close c.cv i).2.polls = _
        rw [((close_spec hL i).2 hiL).2, List.append_nil]) (by simp)
  | _ => exact h

theorem Reaches.mcIn {ops : List Op} {c : SubCtx} (h : Reaches ops c) : (∀ d e, Op.activate (.bindFailed d e) ∉ ops) → McIn c := by
  refine Reaches.induct (P := fun ops c => (∀ d e, Op.activate (.bindFailed d e) ∉ ops) → McIn c) ?_ ?_ h
  · intro mem n nid hn _
    rfl
  · intro ops c op r c' hr ih hs hb
    have ih := ih fun d e hm => hb d e (by simp [hm])
    have go : ∀ {a b : SubCtx} {tm : Nat}, tm ≠ 0 → Steps tm a b → Core a → McIn a → McIn b := fun ht st ca ra =>
      (Steps.both (P := Core) (Q := McIn) (fun _ _ m h => h.micro m) (fun _ _ m h1 h2 => h2.micro m ht h1) st ca ra).2
    by_cases hd : op = .deactivate
    · subst hd
      exact go (tm := 1) (by omega) (deactivate_steps (by omega) hr.inv.core hr.inv.mem hs).2 hr.inv.core.forget ih
    by_cases ha : ∃ x, op = .activate x
    · obtain ⟨x, rfl⟩ := ha
      have hs := Except.ok.inj hs
      unfold activate at hs
      split at hs
      · cases hs; exact ih
      · rename_i hn
        have hm : c.mcast = none := Classical.not_not.1 hn
        unfold McIn at ih
        cases x with
        | ok d =>
          cases hs
          show watch _ (c.cv.polls ++ [_]) = _
          rw [watch_snoc, ih, hm]
          simp [watchStep]
        | bindFailed d e => exact absurd (by simp) (hb d e)
        | failed e => cases hs; exact ih
        | setupFailed d e => cases hs; exact ih
    by_cases hf : ∃ f, op = .setReadyCb f
    · obtain ⟨f, rfl⟩ := hf
      cases hs; exact ih
    rcases step_quiet hr.inv.core hr.inv.mem hd (fun x e => ha ⟨x, e⟩) (fun f e => hf ⟨f, e⟩) hs with ⟨tm, ht, st⟩ | ⟨k1, k2⟩
    · exact go ht st hr.inv.core ih
    · unfold McIn at ih ⊢; rw [k1, k2]; exact ih

theorem Reaches.watched {ops : List Op} {c : SubCtx} (h : Reaches ops c) (ho : OsOk c.cv.fds) :
    ∃ w, epoll c.cv.polls = some w ∧ ∀ d i a, w d = some (i, a) ↔ watch i c.cv.polls = some (some (d, a)) := by
  have hi := h.eok.inv ho
  refine epoll_watch (es := c.cv.polls) (fun i => by
    by_cases h1 : i < c.cv.size
    · rw [hi.slot i h1]; simp
    · by_cases h2 : i = MULTICAST_INDEX
      · subst h2
        rcases hi.mc with e | ⟨d, _, e⟩ <;> rw [e] <;> simp
      · rw [hi.other i (by omega) h2]; simp) hi.apart

/-- C84 for the subscriber: with the event loop of the test programs, if the system never hands out a descriptor that is still open: no call of
epoll_ctl() ever fails; a slot that holds no connection is not registered, a connection being set up is registered for write events, a connection
that is set up is registered for read events, and for write events exactly while bytes put on it have not left yet; and nothing else is registered but
the multicast socket, for read events. -/
theorem C84_subscriber {ops : List Op} {c : SubCtx} (h : Reaches ops c) (ho : OsOk c.cv.fds) :
    ∃ w, epoll c.cv.polls = some w ∧
      (∀ i, i < c.cv.size → ¬ Live c i → ∀ d a, w d ≠ some (i, a)) ∧
      (∀ i, i < c.cv.size → (c.cv.conns i).mode = .connecting → ∃ d, (c.cv.conns i).desc = some d ∧ w d = some (i, .W)) ∧
      (∀ i, Up c i → ∃ d a, (c.cv.conns i).desc = some d ∧ w d = some (i, a) ∧ a.r = true ∧
        (a.w = true ↔ bytesOutAt i c.log ≠ (messagesAt i c.log).flatten)) ∧
      ∀ d i a, w d = some (i, a) → (i < c.cv.size ∧ (c.cv.conns i).desc = some d) ∨ (i = MULTICAST_INDEX ∧ c.mcast = some d ∧ a = .R) := by
  have he := h.eok
  have hi := he.inv ho
  obtain ⟨L, hL⟩ := he.core.v
  have hsz := hL.sz
  have hM : MULTICAST_INDEX = 32766 := rfl
  have hLI : LISTEN_INDEX = 32765 := rfl
  obtain ⟨w, e1, e2⟩ := h.watched ho
  have held : ∀ i, i < c.cv.size → (c.cv.conns i).mode ≠ .closed → ∃ d, (c.cv.conns i).desc = some d ∧ w d = some (i, (c.cv.conns i).action) := by
    intro i his hm
    have := (hL.desc i his).2 ((hL.mode i his).1 hm)
    cases hd : (c.cv.conns i).desc with
    | none => exact absurd hd this
    | some d =>
      refine ⟨d, rfl, (e2 d i _).2 ?_⟩
      rw [hi.slot i his]
      unfold slotReg
      rw [hd]; rfl
  refine ⟨w, e1, ?_, ?_, ?_, ?_⟩
  · intro i his hl d a hw
    have := (e2 d i a).1 hw
    rw [hi.slot i his] at this
    unfold slotReg at this
    have hc : (c.cv.conns i).desc = none := by
      cases hd : (c.cv.conns i).desc with
      | none => rfl
      | some x =>
        have := (hL.mode i his).2 ((hL.desc i his).1 (by rw [hd]; simp))
        exact absurd ⟨his, this⟩ hl
    rw [hc] at this
    cases this
  · intro i his hm
    obtain ⟨d, g1, g2⟩ := held i his (by rw [hm]; decide)
    rw [hi.wait i his hm] at g2
    exact ⟨d, g1, g2⟩
  · intro i hu
    obtain ⟨d, g1, g2⟩ := held i hu.1 (by rw [hu.2]; decide)
    have hs := h.inv.strm i hu
    obtain ⟨-, -, -, -, e5, e6⟩ := sess_spec i c.log
    rw [e5, e6] at hs
    obtain ⟨a1, a2⟩ := h.pollOK.act i hu
    refine ⟨d, _, g1, g2, a1, a2.trans ?_⟩
    rw [← hs]
    constructor
    · intro hb he
      exact hb (List.append_cancel_left (as := bytesOutAt i c.log) (he.symm.trans (List.append_nil _).symm))
    · intro he hb
      exact he (by rw [hb, List.append_nil])
  · intro d i a hw
    have hw := (e2 d i a).1 hw
    rcases hi.holder hw with h1 | ⟨h1, h2⟩
    · exact .inl h1
    · refine .inr ⟨h1, h2, ?_⟩
      rw [h1] at hw
      rcases hi.mc with e | ⟨x, _, e⟩
      · rw [e] at hw; cases hw
      · rw [e] at hw
        exact (congrArg Prod.snd (Option.some.inj (Option.some.inj hw))).symm

/-- C84: the multicast socket is registered, provided no bind() of an activation failed. -/
theorem C84_sub_multicast {ops : List Op} {c : SubCtx} (h : Reaches ops c) (ho : OsOk c.cv.fds) (hb : ∀ d e, Op.activate (.bindFailed d e) ∉ ops)
    {d : Nat} (hd : c.mcast = some d) : ∃ w, epoll c.cv.polls = some w ∧ w d = some (MULTICAST_INDEX, .R) := by
  obtain ⟨w, e1, e2⟩ := h.watched ho
  refine ⟨w, e1, (e2 d _ _).2 ?_⟩
  have := h.mcIn hb
  unfold McIn at this
  rw [this, hd]; rfl

/-- Specification for the examples: what the event loop watches a descriptor for. -/
def loopAt (es : List PollEv) (d : Nat) : Option (Nat × Act) := (epoll es).bind fun w => w d

/-- The hypotheses are met: with an acknowledgement to be written on slot 0, a connection being set up on slot 1, and descriptor 104, which was closed,
in use again. -/
example : ∃ c rs, Reaches (exUp ++ [.close 0, .readMcast [exDg 4 0 [] 2], .write 0 (.ok 0) none (.ok 0), .readMcast [exDg 4 5 [50] 1000, exDg 6 0 [] 3],
      .timeout 60000]) c ∧ run exS0 (exUp ++ [.close 0, .readMcast [exDg 4 0 [] 2], .write 0 (.ok 0) none (.ok 0),
      .readMcast [exDg 4 5 [50] 1000, exDg 6 0 [] 3], .timeout 60000]) = .ok (rs, c) ∧
    (osOk c.cv.fds && decide (Up c 0 ∧ (c.cv.conns 1).mode = .connecting ∧ loopAt c.cv.polls 3 = some (MULTICAST_INDEX, .R) ∧
      loopAt c.cv.polls 104 = some (0, ⟨true, true⟩) ∧ loopAt c.cv.polls 106 = some (1, .W))) = true :=
  reaches_of (P := fun rs c => _) (by decide +kernel)

/-- C84 is false after a failing bind(): the descriptor of the multicast socket is kept, so that the context counts as activated and cannot be activated
again, but the event loop never hears of it. -/
theorem C84_sub_bind_false : ∃ ops c rs, Reaches ops c ∧ OsOk c.cv.fds ∧ run exS0 ops = .ok (rs, c) ∧ rs = [98, EEXIST] ∧ socketCount c = 1 ∧
    c.mcast = some 3 ∧ ∃ w, epoll c.cv.polls = some w ∧ ∀ d, w d = none := by
  obtain ⟨c, rs, h1, h2, h3⟩ := reaches_of (ops := [.activate (.bindFailed 3 98), .activate (.ok 4)])
    (P := fun rs c => osOk c.cv.fds && decide (rs = [98, EEXIST] ∧ socketCount c = 1 ∧ c.mcast = some 3 ∧ c.cv.polls = [])) (by decide +kernel)
  rw [Bool.and_eq_true, decide_eq_true_iff] at h3
  obtain ⟨h3, h4, h5, h6, h7⟩ := h3
  exact ⟨_, c, rs, h1, osOk_ok h3, h2, h4, h5, h6, _, by rw [h7]; rfl, fun d => rfl⟩

end SubCtx
end Rmc
