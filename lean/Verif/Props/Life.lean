import Verif.Life
import Verif.Props.Fds
import Verif.Props.SubCtxConn
import Verif.Props.Settings
import Verif.Props.PubCtxRead

/-!
# C66: creating and deleting contexts
-/

namespace Rmc
namespace Life
variable {C O : Type} {K : Kind C O}

/-- Specification: the state of a block: `none` after a misuse (freed while not allocated, allocated twice), else whether it is
allocated. -/
def blockStep (k : Nat) (b : Block) (st : Option Bool) (e : MemEv) : Option Bool :=
  match st, e with
  | none, _ => none
  | some l, .alloc j x => if j = k ∧ x = b then (if l then none else some true) else some l
  | some l, .free j x => if j = k ∧ x = b then (if l then some false else none) else some l

def block (k : Nat) (b : Block) (es : List MemEv) : Option Bool := es.foldl (blockStep k b) (some false)

theorem block_append (k : Nat) (b : Block) (xs ys : List MemEv) : block k b (xs ++ ys) = ys.foldl (blockStep k b) (block k b xs) := by
  unfold block; rw [List.foldl_append]

/-- Specification: which blocks of a context are allocated, by what the program has of it. -/
def blocksOf : Handle C → Block → Bool
  | .none, _ => false
  | .half, b => b ≠ .records
  | .ready _, _ => true
  | .deleted, b => b = .records

structure Ok (w : World C) : Prop where
  fresh : ∀ k, w.next ≤ k → w.ctxs k = .none
  mem : ∀ k b, block k b w.mem = some (blocksOf (w.ctxs k) b)

theorem Ok.init : Ok (World.init : World C) := ⟨fun _ _ => rfl, fun _ _ => rfl⟩

theorem block_other {k j : Nat} (h : j ≠ k) (b : Block) (st : Option Bool) {es : List MemEv} (he : ∀ e ∈ es, ∃ x, e = .alloc k x ∨ e = .free k x) :
    es.foldl (blockStep j b) st = st := by
  induction es generalizing st with
  | nil => rfl
  | cons e es ih =>
    rw [List.foldl_cons]
    have : blockStep j b st e = st := by
      obtain ⟨x, e' | e'⟩ := he e (by simp) <;> subst e' <;> cases st <;> simp [blockStep] <;>
        intro h' <;> exact absurd h'.symm h
    rw [this]
    exact ih _ (fun e h' => he e (by simp [h']))

theorem Ok.set {w : World C} (h : Ok w) {k : Nat} {x : Handle C} {es : List MemEv} (he : ∀ e ∈ es, ∃ b, e = .alloc k b ∨ e = .free k b)
    (hb : ∀ b, es.foldl (blockStep k b) (some (blocksOf (w.ctxs k) b)) = some (blocksOf x b)) {n : Nat} (hn : w.next ≤ n) (hk : k < n) :
    Ok { w.set k x es with next := n } := by
  refine ⟨?_, ?_⟩
  · intro j hj
    show (if j = k then x else w.ctxs j) = _
    have : n ≤ j := hj
    rw [if_neg (by omega)]
    exact h.fresh j (by omega)
  · intro j b
    show block j b (w.mem ++ es) = some (blocksOf (if j = k then x else w.ctxs j) b)
    rw [block_append, h.mem]
    by_cases hj : j = k
    · subst hj; rw [if_pos rfl]; exact hb b
    · rw [if_neg hj]; exact block_other hj b _ he

theorem step_ok {w w' : World C} {o : Op O} {r : Nat} (h : Ok w) (hx : step K w o = .ok (r, w')) : Ok w' := by
  cases o with
  | create a =>
    have e := Except.ok.inj hx
    have hf := h.fresh w.next (Nat.le_refl _)
    unfold create at e
    split at e
    · have : w = w' := congrArg Prod.snd e
      subst this; exact h
    · split at e
      · have e := congrArg Prod.snd e
        rw [show w' = _ from e.symm]
        refine h.set (by simp) (fun b => ?_) (by omega) (by omega)
        rw [hf]; cases b <;> simp [blockStep, blocksOf]
      · have e := congrArg Prod.snd e
        rw [show w' = _ from e.symm]
        refine h.set (by simp) (fun b => ?_) (by omega) (by omega)
        rw [hf]; cases b <;> simp [blockStep, blocksOf]
  | delete k =>
    dsimp only [step] at hx
    unfold delete at hx
    split at hx
    · have : w = w' := congrArg Prod.snd (Except.ok.inj hx)
      subst this; exact h
    · rename_i k
      split at hx
      case h_1 => cases hx
      case h_2 => cases hx
      case h_3 => cases hx
      case h_4 c hc =>
        cases hd : K.deactivate c with
        | error e => rw [hd] at hx; cases hx
        | ok y =>
          rw [hd] at hx
          have e := congrArg Prod.snd (Except.ok.inj hx)
          rw [show w' = _ from e.symm]
          have hk : k < w.next := by
            apply Classical.byContradiction
            intro hh
            have := h.fresh k (by omega)
            rw [hc] at this; cases this
          refine h.set (n := w.next) (by simp) (fun b => ?_) (Nat.le_refl _) hk
          rw [hc]; cases b <;> simp [blockStep, blocksOf]
  | call k op =>
    dsimp only [step] at hx
    split at hx
    case h_1 => cases hx
    case h_2 => cases hx
    case h_3 => cases hx
    case h_4 c hc =>
      cases hd : K.step c op with
      | error e => rw [hd] at hx; cases hx
      | ok y =>
        rw [hd] at hx
        have e := congrArg Prod.snd (Except.ok.inj hx)
        rw [show w' = _ from e.symm]
        have hk : k < w.next := by
          apply Classical.byContradiction
          intro hh
          have := h.fresh k (by omega)
          rw [hc] at this; cases this
        refine h.set (n := w.next) (by simp) (fun b => ?_) (Nat.le_refl _) hk
        rw [hc]; rfl

theorem run_ok : ∀ (os : List (Op O)) {w w' : World C}, Ok w → run K w os = .ok w' → Ok w' := by
  intro os
  induction os with
  | nil => intro w w' h hx; cases hx; exact h
  | cons o os ih =>
    intro w w' h hx
    unfold run at hx
    cases hr : step K w o with
    | error e => rw [hr] at hx; cases hx
    | ok r => rw [hr] at hx; exact ih (step_ok h hr) hx

/-- C66: in every history of creations, deletions and other calls, on any number of contexts, no block is freed twice, or before it is
allocated; a context that can be used has all its blocks; of a deleted one the structure and the array of connections have been
freed.
Missing for the full property: the records of a deleted context and the blocks of one whose creation failed stay allocated for
ever, see `C66_false`. -/
theorem C66_blocks_partial {ops : List (Op O)} {w : World C} (h : run K World.init ops = .ok w) (k : Nat) (b : Block) :
    block k b w.mem = some (match w.ctxs k with
      | .none => false
      | .half => b ≠ .records
      | .ready _ => true
      | .deleted => b = .records) := by
  have := (run_ok ops Ok.init h).mem k b
  rw [this]
  cases w.ctxs k <;> rfl

/-- C66: creation succeeds exactly if the pointers are not null and the addresses are valid; otherwise it returns EINVAL; other
contexts are not touched. -/
theorem C66_create (w : World C) (a : Args) :
    ((create K w a).1 = 0 ↔ a.resNull = false ∧ a.groupNull = false ∧ K.valid a = true) ∧
    ((create K w a).1 ≠ 0 → (create K w a).1 = EINVAL) ∧
    ((create K w a).1 = 0 → (create K w a).2.ctxs w.next = .ready (K.make a)) ∧
    ∀ j, j ≠ w.next → (create K w a).2.ctxs j = w.ctxs j := by
  unfold create
  split
  · rename_i h
    refine ⟨⟨fun e => (by cases e), fun e => ?_⟩, fun _ => rfl, fun e => (by cases e), fun _ _ => rfl⟩
    rw [e.1, e.2.1] at h; simp at h
  · rename_i h
    have h : a.resNull = false ∧ a.groupNull = false := by simpa using h
    split
    · rename_i hv
      refine ⟨⟨fun _ => ⟨h.1, h.2, hv⟩, fun _ => rfl⟩, fun e => absurd rfl e, fun _ => ?_, fun j hj => ?_⟩
      · simp [World.set]
      · simp [World.set, hj]
    · rename_i hv
      refine ⟨⟨fun e => (by cases e), fun e => absurd e.2.2 hv⟩, fun _ => rfl, fun e => (by cases e), fun j hj => ?_⟩
      simp [World.set, hj]

/-! ### Contexts do not disturb each other -/

/-- Specification: the calls a program makes on context `k`. -/
def callsOn (k : Nat) (ops : List (Op O)) : List O :=
  ops.filterMap fun o => match o with | .call j op => if j = k then some op else none | _ => none

/-- Specification: the calls made on one context alone. -/
def alone (K : Kind C O) : C → List O → M C
  | c, [] => .ok c
  | c, o :: os => do
    let r ← K.step c o
    alone K r.2 os

theorem alone_snoc {c d e : C} {r : Nat} {o : O} : ∀ {os : List O}, alone K c os = .ok d → K.step d o = .ok (r, e) →
    alone K c (os ++ [o]) = .ok e := by
  intro os
  induction os generalizing c with
  | nil => intro h1 h2; cases h1; show (K.step _ o >>= fun r => alone K r.2 []) = _; rw [h2]; rfl
  | cons x os ih =>
    intro h1 h2
    have h1 : (K.step c x >>= fun r => alone K r.2 os) = _ := h1
    show (K.step c x >>= fun r => alone K r.2 (os ++ [o])) = _
    cases hx : K.step c x with
    | error e => rw [hx] at h1; cases h1
    | ok y => rw [hx] at h1; exact ih h1 h2

theorem run_snoc_inv {ops : List (Op O)} {o : Op O} : ∀ {w w' : World C}, run K w (ops ++ [o]) = .ok w' →
    ∃ v r, run K w ops = .ok v ∧ step K v o = .ok (r, w') := by
  induction ops with
  | nil =>
    intro w w' h
    have h : (step K w o >>= fun r => run K r.2 []) = _ := h
    cases hx : step K w o with
    | error e => rw [hx] at h; cases h
    | ok y =>
      rw [hx] at h
      have : y.2 = w' := Except.ok.inj h
      exact ⟨w, y.1, rfl, by rw [← this]; exact hx⟩
  | cons x os ih =>
    intro w w' h
    have h : (step K w x >>= fun r => run K r.2 (os ++ [o])) = _ := h
    cases hx : step K w x with
    | error e => rw [hx] at h; cases h
    | ok y =>
      rw [hx] at h
      obtain ⟨v, r, h1, h2⟩ := ih h
      exact ⟨v, r, by show (step K w x >>= fun r => run K r.2 os) = _; rw [hx]; exact h1, h2⟩

/-- C66: whatever is done with other contexts, the state of a context is the one that the calls made on it alone lead to. -/
theorem C66_isolated : ∀ {ops : List (Op O)} {w : World C}, run K World.init ops = .ok w → ∀ {k : Nat} {c : C}, w.ctxs k = .ready c →
    ∃ a, .create a ∈ ops ∧ alone K (K.make a) (callsOn k ops) = .ok c := by
  intro ops
  suffices key : ∀ (n : Nat) (ops : List (Op O)), ops.length = n → ∀ {w : World C}, run K World.init ops = .ok w →
      (∀ k, w.next ≤ k → callsOn k ops = []) ∧
      ∀ {k : Nat} {c : C}, w.ctxs k = .ready c → ∃ a, .create a ∈ ops ∧ alone K (K.make a) (callsOn k ops) = .ok c by
    intro w h
    exact (key _ ops rfl h).2
  intro n
  induction n with
  | zero =>
    intro ops hl w h
    have : ops = [] := List.length_eq_zero_iff.mp hl
    subst this
    cases h
    exact ⟨fun _ _ => rfl, fun hk => (by cases hk)⟩
  | succ n ih =>
    intro ops hl w h
    have hne : ops ≠ [] := by intro e; subst e; cases hl
    obtain ⟨os, o, e⟩ : ∃ os o, ops = os ++ [o] := ⟨_, _, (List.dropLast_concat_getLast hne).symm⟩
    subst e
    obtain ⟨v, r, h1, h2⟩ := run_snoc_inv h
    obtain ⟨hf, hc⟩ := ih os (by simp at hl; omega) h1
    have hok := run_ok os Ok.init h1
    cases o with
    | create a =>
      have hcalls : ∀ k, callsOn k (os ++ [Op.create a]) = callsOn k os := by intro k; simp [callsOn]
      have e : create K v a = (r, w) := Except.ok.inj h2
      have hnext : v.next ≤ w.next := by
        have : (create K v a).2.next = w.next := by rw [e]
        rw [← this]; unfold create; repeat' split
        all_goals simp [World.set]
      refine ⟨fun k hk => by rw [hcalls]; exact hf k (by omega), fun {k c} hk => ?_⟩
      rw [hcalls]
      have hk' : (create K v a).2.ctxs k = .ready c := by rw [e]; exact hk
      by_cases hkn : k = v.next
      · subst hkn
        rw [hf _ (Nat.le_refl _)]
        have hfr := hok.fresh _ (Nat.le_refl v.next)
        unfold create at hk'
        split at hk'
        · rw [hfr] at hk'; cases hk'
        · split at hk'
          · simp [World.set] at hk'
            exact ⟨a, by simp, by rw [← hk']; rfl⟩
          · simp [World.set] at hk'
      · rw [(C66_create v a).2.2.2 k hkn] at hk'
        obtain ⟨b, hb, hrun⟩ := hc hk'
        exact ⟨b, by simp [hb], hrun⟩
    | delete j =>
      have hcalls : ∀ k, callsOn k (os ++ [Op.delete j]) = callsOn k os := by intro k; simp [callsOn]
      dsimp only [step] at h2
      unfold delete at h2
      split at h2
      · have : v = w := congrArg Prod.snd (Except.ok.inj h2)
        subst this
        refine ⟨fun k hk => by rw [hcalls]; exact hf k hk, fun {k c} hk => ?_⟩
        obtain ⟨b, hb, hrun⟩ := hc hk
        exact ⟨b, by simp [hb], by rw [hcalls]; exact hrun⟩
      · rename_i j
        split at h2
        case h_1 => cases h2
        case h_2 => cases h2
        case h_3 => cases h2
        case h_4 d hd =>
          cases hq : K.deactivate d with
          | error e => rw [hq] at h2; cases h2
          | ok y =>
            rw [hq] at h2
            have e := congrArg Prod.snd (Except.ok.inj h2)
            have e : v.set j .deleted [.free j .conns, .free j .ctx] = w := e
            subst e
            refine ⟨fun k hk => by rw [hcalls]; exact hf k hk, fun {k c} hk => ?_⟩
            have hk : (if k = j then Handle.deleted else v.ctxs k) = .ready c := hk
            split at hk
            · cases hk
            · obtain ⟨b, hb, hrun⟩ := hc hk
              exact ⟨b, by simp [hb], by rw [hcalls]; exact hrun⟩
    | call j op =>
      dsimp only [step] at h2
      split at h2
      case h_1 => cases h2
      case h_2 => cases h2
      case h_3 => cases h2
      case h_4 d hd =>
        cases hq : K.step d op with
        | error e => rw [hq] at h2; cases h2
        | ok y =>
          rw [hq] at h2
          have e : v.set j (.ready y.2) [] = w := congrArg Prod.snd (Except.ok.inj h2)
          subst e
          have hj : j < v.next := by
            apply Classical.byContradiction
            intro hh
            have := hok.fresh j (by omega)
            rw [hd] at this; cases this
          have hother : ∀ k, k ≠ j → callsOn k (os ++ [Op.call j op]) = callsOn k os := by
            intro k hk; simp [callsOn, Ne.symm hk]
          refine ⟨fun k hk => ?_, fun {k c} hk => ?_⟩
          · have hk : v.next ≤ k := hk
            rw [hother k (by omega)]; exact hf k hk
          · have hk : (if k = j then Handle.ready y.2 else v.ctxs k) = .ready c := hk
            split at hk
            · rename_i hkj
              have hy : y.2 = c := by injection hk
              subst hkj
              obtain ⟨b, hb, hrun⟩ := hc hd
              refine ⟨b, by simp [hb], ?_⟩
              have : callsOn k (os ++ [Op.call k op]) = callsOn k os ++ [op] := by simp [callsOn]
              rw [this]
              exact alone_snoc hrun (r := y.1) (by rw [hq, ← hy])
            · rename_i hkj
              obtain ⟨b, hb, hrun⟩ := hc hk
              exact ⟨b, by simp [hb], by rw [hother k hkj]; exact hrun⟩

theorem alone_pub : ∀ {os : List PubCtx.Op} {c c' : PubCtx}, alone pub c os = .ok c' → ∃ rs, PubCtx.run c os = .ok (rs, c') := by
  intro os
  induction os with
  | nil => intro c c' h; cases h; exact ⟨[], rfl⟩
  | cons o os ih =>
    intro c c' h
    have h : (PubCtx.step c o >>= fun r => alone pub r.2 os) = _ := h
    cases hx : PubCtx.step c o with
    | error e => rw [hx] at h; cases h
    | ok y =>
      rw [hx] at h
      obtain ⟨rs, e⟩ := ih h
      exact ⟨y.1 :: rs, by rw [PubCtx.run_cons, hx]; show (PubCtx.run y.2 os >>= _) = _; rw [e]; rfl⟩

theorem alone_sub : ∀ {os : List SubCtx.Op} {c c' : SubCtx}, alone sub c os = .ok c' → ∃ rs, SubCtx.run c os = .ok (rs, c') := by
  intro os
  induction os with
  | nil => intro c c' h; cases h; exact ⟨[], rfl⟩
  | cons o os ih =>
    intro c c' h
    have h : (SubCtx.step c o >>= fun r => alone sub r.2 os) = _ := h
    cases hx : SubCtx.step c o with
    | error e => rw [hx] at h; cases h
    | ok y =>
      rw [hx] at h
      obtain ⟨rs, e⟩ := ih h
      exact ⟨y.1 :: rs, by rw [SubCtx.run_cons, hx]; show (SubCtx.run y.2 os >>= _) = _; rw [e]; rfl⟩

/-- C66: so everything proved about single contexts (all theorems about `Reaches`) holds of each of many publisher contexts. -/
theorem C66_many_publishers {ops : List (Op PubCtx.Op)} {w : World PubCtx} (h : run pub World.init ops = .ok w) {k : Nat} {c : PubCtx}
    (hk : w.ctxs k = .ready c) (hs : ∀ op ∈ callsOn k ops, op.sane) (hl : (callsOn k ops).length + 1 < U64)
    (hm : ∀ a, .create a ∈ ops → a.maxConns ≤ LISTEN_INDEX) : PubCtx.Reaches (callsOn k ops) c := by
  obtain ⟨a, ha, e⟩ := C66_isolated h hk
  obtain ⟨rs, e⟩ := alone_pub e
  exact ⟨_, _, _, _, _, rs, hm a ha, hs, hl, e⟩

/-- C66: and of each of many subscriber contexts. -/
theorem C66_many_subscribers {ops : List (Op SubCtx.Op)} {w : World SubCtx} (h : run sub World.init ops = .ok w) {k : Nat} {c : SubCtx}
    (hk : w.ctxs k = .ready c) (hm : ∀ a, .create a ∈ ops → a.maxConns ≤ LISTEN_INDEX) : SubCtx.Reaches (callsOn k ops) c := by
  obtain ⟨a, ha, e⟩ := C66_isolated h hk
  obtain ⟨rs, e⟩ := alone_sub e
  exact ⟨rs, _, _, _, hm a ha, e⟩

/-- C66: a publisher is created exactly if both pointers are there and the multicast group, the interface to listen on and the multicast interface are
addresses; a subscriber needs only the group and the multicast interface. -/
theorem C66_create_args (a : Args) (w : World PubCtx) (v : World SubCtx) :
    ((create pub w a).1 = 0 ↔ a.resNull = false ∧ a.groupNull = false ∧ a.group ≠ none ∧ a.listenIf ≠ none ∧ a.mcastIf ≠ none) ∧
    ((create sub v a).1 = 0 ↔ a.resNull = false ∧ a.groupNull = false ∧ a.group ≠ none ∧ a.mcastIf ≠ none) := by
  rw [(C66_create w a).1, (C66_create v a).1]
  have e1 : pub.valid a = (a.group.isSome && a.listenIf.isSome && a.mcastIf.isSome) := rfl
  have e2 : sub.valid a = (a.group.isSome && a.mcastIf.isSome) := rfl
  rw [e1, e2]
  cases a.group <;> cases a.listenIf <;> cases a.mcastIf <;> simp

/-- C66: a new publisher context: the address to listen on and the node id asked for, nothing queued, nobody connected, no sockets, no announcements, no
throttling; the number of connections it has room for is the one asked for. -/
theorem C66_new_publisher (a : Args) :
    let c := pub.make a
    (∀ ip, a.listenIf = some ip → c.listenIp = ip) ∧ c.listenPort = a.port ∧
    c.nodeId = (if a.nodeId = 0 then a.random else a.nodeId) ∧ PubCtx.subscriberCount c = 0 ∧ PubCtx.socketCount c = 0 ∧ c.cv.size = a.maxConns ∧
    PubCtx.getPending c = (0, 0, 0, 0) ∧ c.annInterval = 0 ∧ c.suspendThr = 0 ∧ c.suspended = false ∧
    (a.maxConns ≤ LISTEN_INDEX → PubCtx.Reaches [] c) := by
  refine ⟨fun ip h => ?_, rfl, ?_, rfl, rfl, rfl, rfl, rfl, rfl, rfl, fun h => ?_⟩
  · show a.listenIf.getD 0 = ip
    rw [h]; rfl
  · show (if a.nodeId ≠ 0 then a.nodeId else a.random) = _
    by_cases h0 : a.nodeId = 0 <;> simp [h0]
  exact ⟨a.mem, a.maxConns, a.id, _, _, [], h, by simp, by decide, rfl⟩

/-- C66: a new subscriber context. -/
theorem C66_new_subscriber (a : Args) :
    let c := sub.make a
    c.nodeId = (if a.nodeId = 0 then a.random else a.nodeId) ∧ SubCtx.publisherCount c = 0 ∧ SubCtx.socketCount c = 0 ∧ c.cv.size = a.maxConns ∧
    SubCtx.readyCount c = 0 ∧ SubCtx.nextReady c = none ∧ c.readyCb = none ∧
    (a.maxConns ≤ LISTEN_INDEX → SubCtx.Reaches [] c) := by
  refine ⟨?_, rfl, rfl, rfl, rfl, rfl, rfl, fun h => ?_⟩
  · show (if a.nodeId ≠ 0 then a.nodeId else a.random) = _
    by_cases h0 : a.nodeId = 0 <;> simp [h0]
  exact ⟨[], a.mem, a.maxConns, a.id, h, rfl⟩

/-- C66: deleting the null pointer is refused and changes nothing; every other deletion that comes to an end returns 0, and leaves
every other context and its blocks alone. -/
theorem C66_delete (w : World C) : delete K w none = .ok (EINVAL, w) ∧
    ∀ k r w', delete K w (some k) = .ok (r, w') → r = 0 ∧ w'.next = w.next ∧ (∀ j, j ≠ k → w'.ctxs j = w.ctxs j) ∧
      ∀ j b, j ≠ k → block j b w'.mem = block j b w.mem := by
  refine ⟨rfl, ?_⟩
  intro k r w' h
  unfold delete at h
  dsimp only at h
  cases hk : w.ctxs k with
  | none => rw [hk] at h; cases h
  | half => rw [hk] at h; cases h
  | deleted => rw [hk] at h; cases h
  | ready c =>
    rw [hk] at h
    dsimp only at h
    cases hd : K.deactivate c with
    | error f => rw [hd] at h; cases h
    | ok x =>
      rw [hd] at h
      have e1 : _ = r := congrArg Prod.fst (Except.ok.inj h)
      have e2 : _ = w' := congrArg Prod.snd (Except.ok.inj h)
      dsimp only at e1 e2
      subst e1 e2
      refine ⟨rfl, rfl, fun j hj => if_neg hj, ?_⟩
      intro j b hj
      show block j b (w.mem ++ [.free k .conns, .free k .ctx]) = _
      rw [block_append]
      exact block_other hj b _ (by simp)

/-- C66: deleting a publisher context, in whatever state the calls made on it have left it, succeeds and closes every socket it holds. -/
theorem C66_delete_publisher {w : World PubCtx} {k : Nat} {c : PubCtx} {ops : List PubCtx.Op} (hk : w.ctxs k = .ready c)
    (h : PubCtx.Reaches ops c) : ∃ w' c', delete pub w (some k) = .ok (0, w') ∧ w'.ctxs k = .deleted ∧
      PubCtx.deactivate c = .ok (0, c') ∧ PubCtx.socketCount c' = 0 ∧ ∀ i, ¬ PubCtx.Connected c' i := by
  obtain ⟨pops, L, g, _⟩ := h.good
  obtain ⟨c', ys, ds, e, g', _, _, _, _, hcfg, _⟩ := PubCtx.deactivate_spec g
  refine ⟨_, c', by dsimp only [delete]; rw [hk]; show (PubCtx.deactivate c >>= _) = _; rw [e]; rfl, by simp [World.set], e, ?_, ?_⟩
  · have h1 : c'.mcast = none := congrArg PubCtx.Cfg.mcast hcfg
    have h2 : c'.listen = none := congrArg PubCtx.Cfg.listen hcfg
    have h3 : c'.cv.active = 0 := by rw [g'.v.active]; rfl
    unfold PubCtx.socketCount PubCtx.subscriberCount
    rw [h1, h2, h3]; rfl
  · intro i hi
    have := g'.connected.1 hi
    cases this

/-- C66: deleting a subscriber context succeeds and closes every socket it holds, unless a connection is being set up whose record
was never initialised (C44). -/
theorem C66_delete_subscriber_partial {w : World SubCtx} {k : Nat} {c : SubCtx} {ops : List SubCtx.Op} (hk : w.ctxs k = .ready c)
    (h : SubCtx.Reaches ops c) (hu : ∀ i, SubCtx.Live c i → c.publishers i ≠ none) :
    ∃ w' c' r, delete sub w (some k) = .ok (0, w') ∧ w'.ctxs k = .deleted ∧
      SubCtx.deactivate c = .ok (r, c') ∧ SubCtx.socketCount c' = 0 ∧ ∀ i, ¬ SubCtx.Live c' i := by
  cases hd : SubCtx.deactivate c with
  | error e =>
    obtain ⟨i, h1, h2⟩ := (SubCtx.C44_deactivate_partial h).1.1 ⟨e, hd⟩
    exact absurd h2 (hu i h1)
  | ok y =>
    obtain ⟨r, c'⟩ := y
    have hs : SubCtx.step c .deactivate = .ok (r, c') := hd
    have hr := h.snoc hs
    obtain ⟨h1, h2⟩ := SubCtx.deactivate_closed h.inv.core h.inv.mem hs
    have hz : ∀ i, ¬ SubCtx.Live c' i := by
      intro i hi
      have := h1 i
      unfold ConnVec.findByIndex at this
      rw [if_neg (by have := hi.1; omega), if_neg hi.2] at this
      cases this
    have hcnt := SubCtx.C56_subscriber hr
    refine ⟨_, c', r, by dsimp only [delete]; rw [hk]; show (SubCtx.deactivate c >>= _) = _; rw [hd]; rfl, by simp [World.set], rfl, ?_, hz⟩
    rw [hcnt.2, hcnt.1, h2, List.countP_eq_zero.mpr (by intro i _; simpa using hz i)]; rfl

/-- C66 is false of the code: (1) creating and deleting a context leaves its array of records allocated; (2) a creation that fails because
of a bad address leaves two blocks allocated, and deleting what it returned uses fields never set. For both kinds of contexts. -/
theorem C66_false (a : Args) (hr : a.resNull = false) (hg : a.groupNull = false) (hl : a.maxConns ≤ LISTEN_INDEX) :
    (pub.valid a = true → ∃ w, run pub World.init [.create a, .delete (some 0)] = .ok w ∧ w.ctxs 0 matches .deleted ∧
      block 0 .records w.mem = some true) ∧
    (pub.valid a = false → ∃ w, run pub World.init [.create a] = .ok w ∧ block 0 .ctx w.mem = some true ∧
      block 0 .conns w.mem = some true ∧ delete pub w (some 0) = .error .uninit) ∧
    (sub.valid a = true → ∃ w, run sub World.init [.create a, .delete (some 0)] = .ok w ∧ w.ctxs 0 matches .deleted ∧
      block 0 .records w.mem = some true) ∧
    (sub.valid a = false → ∃ w, run sub World.init [.create a] = .ok w ∧ block 0 .ctx w.mem = some true ∧
      block 0 .conns w.mem = some true ∧ delete sub w (some 0) = .error .uninit) := by
  have hn : ¬ (a.resNull = true ∨ a.groupNull = true) := by rw [hr, hg]; simp
  refine ⟨fun hv => ?_, fun hv => ?_, fun hv => ?_, fun hv => ?_⟩
  · obtain ⟨w, hw⟩ : ∃ w, w = (create pub World.init a).2 := ⟨_, rfl⟩
    have hx : w.ctxs 0 = .ready (pub.make a) := by
      rw [hw]; unfold create; rw [if_neg hn, if_pos hv]; rfl
    have hreach : PubCtx.Reaches [] (pub.make a) := (C66_new_publisher a).2.2.2.2.2.2.2.2.2.2 hl
    obtain ⟨w', c', h1, h2, _⟩ := C66_delete_publisher hx hreach
    have hrun : run pub World.init [.create a, .delete (some 0)] = .ok w' := by
      show (delete pub (create pub World.init a).2 (some 0) >>= fun r => run pub r.2 []) = _
      rw [← hw, h1]; rfl
    refine ⟨w', hrun, by rw [h2], ?_⟩
    rw [C66_blocks_partial hrun, h2]; rfl
  · refine ⟨(create pub World.init a).2, rfl, ?_⟩
    unfold create
    rw [if_neg hn, if_neg (by rw [hv]; simp)]
    exact ⟨rfl, rfl, rfl⟩
  · obtain ⟨w, hw⟩ : ∃ w, w = (create sub World.init a).2 := ⟨_, rfl⟩
    have hx : w.ctxs 0 = .ready (sub.make a) := by
      rw [hw]; unfold create; rw [if_neg hn, if_pos hv]; rfl
    have hreach : SubCtx.Reaches [] (sub.make a) := (C66_new_subscriber a).2.2.2.2.2.2.2 hl
    obtain ⟨w', c', r, h1, h2, _⟩ := C66_delete_subscriber_partial hx hreach (fun i hi => absurd rfl hi.2)
    have hrun : run sub World.init [.create a, .delete (some 0)] = .ok w' := by
      show (delete sub (create sub World.init a).2 (some 0) >>= fun r => run sub r.2 []) = _
      rw [← hw, h1]; rfl
    refine ⟨w', hrun, by rw [h2], ?_⟩
    rw [C66_blocks_partial hrun, h2]; rfl
  · refine ⟨(create sub World.init a).2, rfl, ?_⟩
    unfold create
    rw [if_neg hn, if_neg (by rw [hv]; simp)]
    exact ⟨rfl, rfl, rfl⟩

/-- Arguments of the examples. -/
def exArgs (id : Nat) : Args :=
  { nodeId := id, random := 3, port := 4000, maxConns := 2, group := some 5,
    mem := fun _ => ⟨0, .none, none, 0, CircBuf.init (fun _ => 0) 1, CircBuf.init (fun _ => 0) 1, .closed, 0, 0⟩ }

/-- Two contexts, one is used and deleted, the other used after that; a third one cannot be created. -/
example : (run pub World.init [.create (exArgs 7), .create (exArgs 0), .call 0 (.activate (.ok (7, 8, 9))), .call 1 (.throttling 3 2),
      .delete (some 0), .call 1 (.queue ⟨1, [7], false⟩ false), .create { exArgs 9 with mcastIf := none }]).map
        (fun w => (w.next, [0, 1, 2].map fun k => [.ctx, .conns, .records].map fun b => block k b w.mem)) =
    .ok (3, [[some false, some false, some true], [some true, some true, some true], [some true, some true, some false]]) := by
  decide +kernel

example : PubCtx.Reaches [] (pub.make (exArgs 7)) ∧ SubCtx.Reaches [] (sub.make (exArgs 7)) ∧
    ∀ i, SubCtx.Live (sub.make (exArgs 7)) i → (sub.make (exArgs 7)).publishers i ≠ none := by
  refine ⟨(C66_new_publisher (exArgs 7)).2.2.2.2.2.2.2.2.2.2 (by decide), (C66_new_subscriber (exArgs 7)).2.2.2.2.2.2.2 (by decide), ?_⟩
  intro i hi
  exact absurd rfl hi.2

end Life
end Rmc
