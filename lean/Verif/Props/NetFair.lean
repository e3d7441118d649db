import Verif.NetFair
import Verif.Props.Net
import Verif.Props.SelfLive

/-! # Every fair schedule delivers to everybody (C93) -/

set_option linter.unusedVariables false

namespace Rmc
namespace Net
open PLog CircBuf

/-- A measure, in bytes, of what publisher `l.p` still has to do for all its subscribers, and what is on its way on the connection. -/
def work (s : Net) (l : Link) : Nat := Sys.work (view s l)

/-- C93: any number of publishers and subscribers. From `s` on the event loops of everybody make rounds, in which anything else may happen. Nothing more is multicast by the publisher of a connection
that is there all along. After as many rounds as the publisher's work counts at the start, it holds nothing for any of its subscribers, nothing is waiting to be written, nothing is on its way on
the connection, and the subscriber has everything multicast to it; the packets from the first that arrived on have been delivered. -/
theorem C93_everybody {E : NetEnv} {n : Nat} {s0 s t : Net} {pre : List NetOp} {T : Int} {segs : List (List NetOp)} (hs : Start E n s0) (hr : run E s0 pre = some s)
    (ht : Rounds E T s segs t) (hn : n + calls pre + calls segs.flatten + 1 < U64)
    {l m : Link} (hl : l ∈ s.links) (hm : m ∈ t.links) (hq : m.q = l.q) (hsl : m.slot = l.slot) (hth : There E l.q l.slot s segs.flatten)
    (hlen : work s l ≤ segs.length) (hT : ∀ j, ∀ x ∈ (s.pubs l.p).pub.owedPkts j, x.2.2 + 100000 ≤ T)
    (hsent : sentPkts (t.pubs l.p).pub.log = sentPkts (s.pubs l.p).pub.log)
    {k : Nat} (hk : m.acc = some k) (he : m.err = false) (hu : SubCtx.Up (t.subs m.q) m.slot) :
    m.p = l.p ∧ (∀ j, PubCtx.Connected (t.pubs l.p) j → (t.pubs l.p).pub.outstanding j = [] ∧ bytes ((t.pubs l.p).cv.conns j).writeBuf = []) ∧
    m.down = [] ∧ bytes ((t.subs m.q).cv.conns m.slot).readBuf = [] ∧
    (∀ pid ∈ PubCtx.sentTo k (t.pubs l.p).pub.log, pid ∈ arrived t m) ∧
    ∀ b, (arrived t m).head? = some b → b ∈ PubCtx.sentTo k (t.pubs l.p).pub.log →
      ∀ pid ∈ PubCtx.sentTo k (t.pubs l.p).pub.log, b ≤ pid → pid ∈ (delivered t m).map (·.pid) := by
  have hinv := (NInv.start hs).run pre (by omega) hr
  obtain ⟨ss, a1, a2, a3, a4⟩ := Rounds.turns segs ht hinv (by omega) hth hl hm hq hsl
  obtain ⟨n', s0', pre', b1, b2, b3⟩ := hinv.link l hl
  have hslot : (env E l).slot = m.slot := hsl.symm
  have hpub : (view t m).pub = t.pubs l.p := by unfold view; dsimp only; rw [a4]
  have hu' : SubCtx.Up (view t m).sub (env E l).slot := by rw [hslot]; exact hu
  have c := Sys.C82_fair b1 b3 a1 (by omega) (by rw [a2]; exact hlen) hT (by rw [hpub]; exact hsent) (show (view t m).acc = some k from hk) he hu'
  rw [hpub, hslot] at c
  exact ⟨a4, c⟩

/-- C93: if all the publisher queued was multicast while the subscriber was connected, and the first packet the subscriber received is the first one queued, it has been given exactly the
payloads queued, each once, in order; so all those subscribers of the publisher have been given the same. -/
theorem C93_the_same {E : NetEnv} {n : Nat} {s0 s t : Net} {pre : List NetOp} {T : Int} {segs : List (List NetOp)} (hs : Start E n s0) (hr : run E s0 pre = some s)
    (ht : Rounds E T s segs t) (hn : n + calls pre + calls segs.flatten + 1 < U64)
    {l m : Link} (hl : l ∈ s.links) (hm : m ∈ t.links) (hq : m.q = l.q) (hsl : m.slot = l.slot) (hth : There E l.q l.slot s segs.flatten)
    (hlen : work s l ≤ segs.length) (hT : ∀ j, ∀ x ∈ (s.pubs l.p).pub.owedPkts j, x.2.2 + 100000 ≤ T)
    (hsent : sentPkts (t.pubs l.p).pub.log = sentPkts (s.pubs l.p).pub.log)
    {k : Nat} (hk : m.acc = some k) (he : m.err = false) (hu : SubCtx.Up (t.subs m.q) m.slot)
    (hall : ∀ x ∈ queued t l.p, x.1 ∈ PubCtx.sentTo k (t.pubs l.p).pub.log) (h1 : queued t l.p ≠ [] → (arrived t m).head? = some 1) :
    (delivered t m).map (·.payload.data) = (queued t l.p).map (·.2.data) := by
  have hinv := (NInv.start hs).run pre (by omega) hr
  obtain ⟨ss, a1, a2, a3, a4⟩ := Rounds.turns segs ht hinv (by omega) hth hl hm hq hsl
  obtain ⟨n', s0', pre', b1, b2, b3⟩ := hinv.link l hl
  have hslot : (env E l).slot = m.slot := hsl.symm
  have hpub : (view t m).pub = t.pubs l.p := by unfold view; dsimp only; rw [a4]
  have hu' : SubCtx.Up (view t m).sub (env E l).slot := by rw [hslot]; exact hu
  have c := Sys.C91_all_delivered b1 b3 a1 (by omega) (by rw [a2]; exact hlen) hT (by rw [hpub]; exact hsent) (show (view t m).acc = some k from hk) he hu'
    (by rw [hpub]; exact hall) (by rw [hpub, hslot]; exact h1)
  rw [hpub, hslot] at c
  exact c

/-! ## Examples -/

/-- The round that makes up for the losses in the example of C71. -/
def exNetRound : List NetOp :=
  exNetEnd ++ [.pub 1 (.timeout 200000 none 0), .pub 1 (.write 0 (.ok 1000)), .subRead 0 1 69 200300]

/-- Nothing is left to be done. -/
def idle (s : Net) : Bool :=
  [0, 1].all (fun p => decide ((s.pubs p).cv.size = 2) && [0, 1].all fun j => decide (PubCtx.Connected (s.pubs p) j → (s.pubs p).pub.outstanding j = [] ∧ bytes ((s.pubs p).cv.conns j).writeBuf = [])) &&
  s.links.all (fun l => decide (l.down = []))

theorem idle_round {T : Int} {s t : Net} {seg : List NetOp} (hsz : ∀ p, p < 2 → (s.pubs p).cv.size = 2) (hc : ∀ p, p < 2 → ∀ j, PubCtx.Connected (s.pubs p) j → PubCtx.Connected (t.pubs p) j)
    (h : idle t = true) (hr : run exN s seg = some t) : Round exN T s seg t := by
  unfold idle at h
  rw [Bool.and_eq_true, List.all_eq_true, List.all_eq_true] at h
  obtain ⟨h1, h2⟩ := h
  have two : ∀ i, i < 2 → i ∈ [0, 1] := by
    intro i hi
    rcases (show i = 0 ∨ i = 1 by omega) with rfl | rfl <;> decide
  have key : ∀ p, p < exN.np → ∀ j, PubCtx.Connected (t.pubs p) j → (t.pubs p).pub.outstanding j = [] ∧ bytes ((t.pubs p).cv.conns j).writeBuf = [] := by
    intro p hp j hj
    have := h1 p (two p hp)
    rw [Bool.and_eq_true, List.all_eq_true] at this
    have hsz := of_decide_eq_true this.1
    exact of_decide_eq_true (this.2 j (two j (by have := hj.1; omega))) hj
  exact ⟨hr, fun p hp => .inr fun j hj => (key p hp j hj).1, fun p hp j hj => .inr (key p hp j (hc p hp j hj)).2, fun l hl => .inr (of_decide_eq_true (h2 l hl))⟩

theorem idle_rounds {T : Int} {t : Net} (hsz : ∀ p, p < 2 → (t.pubs p).cv.size = 2) (h : idle t = true) : ∀ m, Rounds exN T t (List.replicate m []) t
  | 0 => rfl
  | m + 1 => ⟨t, idle_round hsz (fun _ _ _ h => h) h rfl, idle_rounds hsz h m⟩

/-- The links of a history of the examples are there after each of its events. -/
def thereB (E : NetEnv) (q slot : Nat) : Net → List NetOp → Bool
  | s, [] => s.links.any (isAt q slot)
  | s, op :: ops => s.links.any (isAt q slot) && match next E s op with | some t => thereB E q slot t ops | none => true

theorem thereB_ok {E : NetEnv} {q slot : Nat} : ∀ (ops : List NetOp) (s : Net), thereB E q slot s ops = true → There E q slot s ops := by
  have key : ∀ s : Net, s.links.any (isAt q slot) = true → ∃ l ∈ s.links, l.q = q ∧ l.slot = slot := by
    intro s h
    obtain ⟨l, hl, e⟩ := List.any_eq_true.1 h
    exact ⟨l, hl, isAt_iff.1 e⟩
  intro ops
  induction ops with
  | nil =>
    intro s h pre post u e hu
    have : pre = [] := by
      cases pre with
      | nil => rfl
      | cons x pre => rw [List.cons_append] at e; cases e
    subst this
    cases hu
    exact key s h
  | cons op ops ih =>
    intro s h pre post u e hu
    unfold thereB at h
    rw [Bool.and_eq_true] at h
    cases pre with
    | nil => cases hu; exact key s h.1
    | cons x pre =>
      rw [List.cons_append] at e
      injection e with e1 e2
      have hu : (next E s x).bind (fun v => run E v pre) = some u := hu
      rw [← e1] at hu
      cases hn : next E s op with
      | none => rw [hn] at hu; cases hu
      | some v =>
        rw [hn] at h hu
        exact ih v h.2 pre post u e2 hu

/-- The state after the round, if there is one. -/
def roundAfter (s : Net) (P : Net → Bool) : Bool := match run exN s exNetRound with | some t => P t | none => false

/-- The hypotheses of both theorems are met, for both subscribers of publisher 0, after the history in which each of them misses a packet, the other one: by any number of rounds that is
large enough. The round makes up for the losses, then nothing is left to be done. -/
example : ∃ s0 s t, Start exN 2 s0 ∧ run exN s0 exNet = some s ∧
    (∀ m, Rounds exN 200000 s (exNetRound :: List.replicate m []) t) ∧
    (∀ p, p < 2 → sentPkts (t.pubs p).pub.log = sentPkts (s.pubs p).pub.log ∧ ∀ j, ∀ x ∈ (s.pubs p).pub.owedPkts j, x.2.2 + 100000 ≤ 200000) ∧
    (∀ l ∈ s.links, l.p = 0 → arrived s l ≠ [1, 2, 3] ∧ There exN l.q l.slot s exNetRound ∧
      ∃ m ∈ t.links, ∃ k, m.q = l.q ∧ m.slot = l.slot ∧ m.acc = some k ∧ m.err = false ∧ SubCtx.Up (t.subs m.q) m.slot ∧
        (∀ x ∈ queued t 0, x.1 ∈ PubCtx.sentTo k (t.pubs 0).pub.log) ∧ (arrived t m).head? = some 1 ∧ (delivered t m).length = 3) := by
  obtain ⟨s0, s, h1, h2, h3⟩ := net_started (ops := exNet) (P := fun s => roundAfter s fun t => idle t && (decide (∀ p ∈ ([0, 1] : List Nat), (s.pubs p).cv.size = 2 ∧ sentPkts (t.pubs p).pub.log = sentPkts (s.pubs p).pub.log ∧ (∀ j ∈ List.range 2, PubCtx.Connected (s.pubs p) j → PubCtx.Connected (t.pubs p) j) ∧
      (t.pubs p).cv.size = 2 ∧ ∀ j ∈ List.range 2, ∀ x ∈ (s.pubs p).pub.owedPkts j, x.2.2 + 100000 ≤ 200000) &&
    s.links.all fun l => decide (l.p = 0 → arrived s l ≠ [1, 2, 3] ∧ thereB exN l.q l.slot s exNetRound = true ∧
      ∃ m ∈ t.links, ∃ k ∈ m.acc.toList, m.q = l.q ∧ m.slot = l.slot ∧ m.err = false ∧ SubCtx.Up (t.subs m.q) m.slot ∧
        (∀ x ∈ queued t 0, x.1 ∈ PubCtx.sentTo k (t.pubs 0).pub.log) ∧ (arrived t m).head? = some 1 ∧ (delivered t m).length = 3))) (by decide +kernel)

  unfold roundAfter at h3
  split at h3
  case h_2 => cases h3
  rename_i t hrun
  rw [Bool.and_eq_true] at h3
  obtain ⟨hidle, h3⟩ := h3
  rw [Bool.and_eq_true, List.all_eq_true] at h3
  obtain ⟨h4, h5⟩ := h3
  have b1 := of_decide_eq_true h4
  have b2 := fun l hl => of_decide_eq_true (h5 l hl)
  have hinv := (NInv.start h1).run exNet (by decide) h2
  have two : ∀ i, i < 2 → i ∈ [0, 1] := by
    intro i hi
    rcases (show i = 0 ∨ i = 1 by omega) with rfl | rfl <;> decide
  have hc : ∀ p, p < 2 → ∀ j, PubCtx.Connected (s.pubs p) j → PubCtx.Connected (t.pubs p) j := by
    intro p hp j hj
    obtain ⟨c1, _, c3, _⟩ := b1 p (two p hp)
    exact c3 j (List.mem_range.2 (by have := hj.1; omega)) hj
  refine ⟨s0, s, t, h1, h2, fun m => ⟨t, idle_round (fun p hp => (b1 p (two p hp)).1) hc hidle hrun, idle_rounds (fun p hp => (b1 p (two p hp)).2.2.2.1) hidle m⟩, ?_, ?_⟩
  · intro p hp
    obtain ⟨c1, c2, _, _, c5⟩ := b1 p (two p hp)
    refine ⟨c2, fun j x hx => ?_⟩
    by_cases hj : j < 2
    · exact c5 j (List.mem_range.2 hj) x hx
    · exfalso
      obtain ⟨ops, q1, _, _⟩ := hinv.pub p hp
      obtain ⟨pops, L, g, _⟩ := q1.good
      rw [← Sys.owing_eq g j] at hx
      unfold PubCtx.owing at hx
      rw [if_neg (fun hc : PubCtx.Connected (s.pubs p) j => hj (c1 ▸ hc.1))] at hx
      cases hx
  · intro l hl hp
    obtain ⟨c1, c2, m, hm, k, hk, c3⟩ := b2 l hl hp
    exact ⟨c1, thereB_ok _ _ c2, m, hm, k, c3.1, c3.2.1, Option.mem_toList.1 hk, c3.2.2⟩

end Net
end Rmc
