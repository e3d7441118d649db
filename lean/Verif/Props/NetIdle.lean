import Verif.Props.SysIdle
import Verif.Props.NetFair

/-! # All the programs of the network only fall asleep when everything is delivered (C96) -/

set_option linter.unusedVariables false

namespace Rmc
namespace Net
open PLog CircBuf

/-- Specification: the call of publisher `p` an event is. -/
def pubCall (s : Net) (p : Nat) : NetOp → List PubCtx.Op
  | .pub p' op => if p' = p then [op] else []
  | .accept q slot _ ar cb => (s.links.find? (isAt q slot)).toList.flatMap fun a => if a.p = p then [.readListen ar cb] else []
  | .pubRead q slot n => (s.links.find? (isAt q slot)).toList.flatMap fun a =>
      if a.p = p then a.acc.toList.map fun k => .read k (some (a.up.take n)) else []
  | _ => []

/-- Specification: the calls of publisher `p` in a history that starts in `s`. -/
def pubCalls (E : NetEnv) (p : Nat) : Net → List NetOp → List PubCtx.Op
  | _, [] => []
  | s, op :: ops => pubCall s p op ++ (match next E s op with | some t => pubCalls E p t ops | none => [])

theorem next_pubCall {E : NetEnv} {s t : Net} {op : NetOp} (h : next E s op = some t) (p : Nat) :
    (∀ o ∈ pubCall s p op, Sys.callOk o = true) ∧ (pubCall s p op).length ≤ calls [op] ∧
    ∃ rs, PubCtx.run (s.pubs p) (pubCall s p op) = .ok (rs, t.pubs p) := by
  have one : ∀ {c : PubCtx} {o : PubCtx.Op} {r : Nat × PubCtx}, PubCtx.step c o = .ok r → ∃ rs, PubCtx.run c [o] = .ok (rs, r.2) := by
    intro c o r hx
    refine ⟨[r.1], ?_⟩
    rw [PubCtx.run_cons, hx]; rfl
  have go : ∀ {p' : Nat} {o : PubCtx.Op} {r : Nat × PubCtx}, Sys.callOk o = true → PubCtx.step (s.pubs p') o = .ok r →
      (∀ x ∈ (if p' = p then [o] else []), Sys.callOk x = true) ∧ (if p' = p then [o] else []).length ≤ 1 ∧
      ∃ rs, PubCtx.run (s.pubs p) (if p' = p then [o] else []) = .ok (rs, setAt s.pubs p' r.2 p) := by
    intro p' o r hc hx
    by_cases e : p' = p
    · subst e
      rw [if_pos rfl, setAt_same]
      exact ⟨by intro o ho; cases List.mem_singleton.1 ho; exact hc, Nat.le_refl _, one hx⟩
    · rw [if_neg e, setAt_ne _ _ (fun h => e h.symm)]
      exact ⟨by simp, by simp, [], rfl⟩
  cases op with
  | pub p' op =>
    unfold next at h
    dsimp only at h
    split at h
    · rename_i hc
      split at h
      · rename_i r hx
        cases h
        exact go hc.2 hx
      · cases h
    · cases h
  | sub q op =>
    unfold next at h
    dsimp only at h
    split at h
    · split at h
      · cases h; exact ⟨by simp [pubCall], by simp [pubCall], [], rfl⟩
      · cases h
    · cases h
  | accept q slot k ar cb =>
    unfold next at h
    dsimp only at h
    split at h
    · cases h
    · rename_i a hf
      split at h
      · rename_i hc
        split at h
        · rename_i r hx
          split at h
          · cases h
            unfold pubCall
            dsimp only
            rw [hf]
            simp only [Option.toList_some, List.flatMap_cons, List.flatMap_nil, List.append_nil]
            exact go hc.2.1 hx
          · cases h
        · cases h
      · cases h
  | pubRead q slot n =>
    unfold next at h
    dsimp only at h
    split at h
    · cases h
    · rename_i a hf
      split at h
      · cases h
      · rename_i k hk
        split at h
        · split at h
          · rename_i r hx
            cases h
            unfold pubCall
            dsimp only
            rw [hf]
            simp only [Option.toList_some, List.flatMap_cons, List.flatMap_nil, List.append_nil, hk, List.map_cons, List.map_nil]
            exact go rfl hx
          · cases h
        · cases h
  | subRead q slot n ts =>
    unfold next at h
    dsimp only at h
    split at h
    · cases h
    · split at h
      · split at h
        · cases h; exact ⟨by simp [pubCall], by simp [pubCall], [], rfl⟩
        · cases h
      · cases h
  | link p' q slot =>
    unfold next at h
    dsimp only at h
    split at h
    · cases h; exact ⟨by simp [pubCall], by simp [pubCall], [], rfl⟩
    · cases h
  | lost q slot => cases h; exact ⟨by simp [pubCall], by simp [pubCall], [], rfl⟩

theorem run_pubCalls {E : NetEnv} (p : Nat) : ∀ (ops : List NetOp) {s t : Net}, run E s ops = some t →
    (∀ o ∈ pubCalls E p s ops, Sys.callOk o = true) ∧ (pubCalls E p s ops).length ≤ calls ops ∧
    ∃ rs, PubCtx.run (s.pubs p) (pubCalls E p s ops) = .ok (rs, t.pubs p) := by
  intro ops
  induction ops with
  | nil => intro s t h; cases h; exact ⟨by simp [pubCalls], Nat.le_refl _, [], rfl⟩
  | cons op ops ih =>
    intro s t h
    have h : (next E s op).bind (fun u => run E u ops) = some t := h
    cases hn : next E s op with
    | none => rw [hn] at h; cases h
    | some u =>
      rw [hn] at h
      have h : run E u ops = some t := h
      obtain ⟨a1, a2, rs, a3⟩ := next_pubCall hn p
      obtain ⟨b1, b2, qs, b3⟩ := ih h
      have e : pubCalls E p s (op :: ops) = pubCall s p op ++ pubCalls E p u ops := by
        show pubCall s p op ++ _ = _; rw [hn]
      rw [e]
      refine ⟨fun o ho => ?_, ?_, rs ++ qs, Sys.pub_run_append _ _ a3 b3⟩
      · rcases List.mem_append.1 ho with ho | ho
        · exact a1 o ho
        · exact b1 o ho
      · have := calls_cons op ops
        rw [List.length_append]; omega

/-- The same, whatever the calls are that led to the state of the publisher. -/
theorem asleep_any {E : NetEnv} {n N nid ip port : Nat} {mem : Nat → Conn} {hist : List PubCtx.Op} {rs : List Nat} {s0 s : Net} {ops : List NetOp} {l : Link}
    (hs : Start E n s0) (hr : run E s0 ops = some s) (hn : n + calls ops + 1 < U64) (hl : l ∈ s.links) (ha : Sys.Asleep (env E l) (view s l)) (he : l.err = false)
    (hN : N ≤ LISTEN_INDEX) (hrun : PubCtx.run (PubCtx.init mem N nid ip port) hist = .ok (rs, s.pubs l.p)) (hk : ∀ op ∈ hist, Sys.callOk op = true)
    (hlen : hist.length + 1 < U64) (ho : PubCtx.Orderly hist) (hact : PubCtx.activeBy hist = true) (hcl : PubCtx.CleanStarts (PubCtx.init mem N nid ip port) hist)
    (hd1 : OsOk (s.pubs l.p).cv.fds) (hd2 : OsOk (s.subs l.q).cv.fds)
    (hpos : ∀ j, PubCtx.Connected (s.pubs l.p) j → ∀ x ∈ (s.pubs l.p).pub.owedPkts j, 0 ≤ x.2.2)
    (hsp : ∀ i, SubCtx.Up (s.subs l.q) i → ∀ a ∈ SubCtx.arrivedAt i (s.subs l.q).log, 0 ≤ a.2.2) :
    SubCtx.Up (s.subs l.q) l.slot ∧ ¬ PubCtx.ToSend (s.pubs l.p) ∧
    (∀ j, PubCtx.Connected (s.pubs l.p) j → (s.pubs l.p).pub.outstanding j = [] ∧ bytes ((s.pubs l.p).cv.conns j).writeBuf = []) ∧
    l.down = [] ∧ l.up = [] ∧ bytes ((s.subs l.q).cv.conns l.slot).readBuf = [] ∧
    (∀ i x, (s.subs l.q).publishers i = some x → x.intervals = []) ∧
    (∀ i, SubCtx.Up (s.subs l.q) i → SubCtx.bytesOutAt i (s.subs l.q).log = (SubCtx.messagesAt i (s.subs l.q).log).flatten) ∧
    ∃ k, l.acc = some k ∧ (∀ pid ∈ PubCtx.sentTo k (s.pubs l.p).pub.log, pid ∈ arrived s l) ∧
      ∀ b, (arrived s l).head? = some b → b ∈ PubCtx.sentTo k (s.pubs l.p).pub.log →
        ∀ pid ∈ PubCtx.sentTo k (s.pubs l.p).pub.log, b ≤ pid → pid ∈ (delivered s l).map (·.pid) := by
  have hinv := (NInv.start hs).run ops (by omega) hr
  obtain ⟨n', s0', pre', b1, b2, b3⟩ := hinv.link l hl
  have hi := (Sys.Inv.start b1).run pre' (by omega) b3
  exact Sys.asleep_core (E := env E l) (s := view s l) hi ⟨n', s0', pre', b1, by omega, b3⟩ hN hrun hk hlen ho hact hcl hd1 hd2 he hpos hsp ha

/-- C96 for any number of publishers and subscribers: for every connection between two programs both of which have nothing to wake up for, everything is delivered that was multicast since it was
accepted, nothing is held or waiting to be written for any subscriber of the publisher, everything accepted for multicast has been multicast, nothing is on its way on the connection and nothing waits to be
acknowledged. -/
theorem C96_everybody {E : NetEnv} {n N nid ip port : Nat} {mem : Nat → Conn} {pops : List PubCtx.Op} {rs : List Nat} {s0 s : Net} {ops : List NetOp} {l : Link}
    (hs : Start E n s0) (hr : run E s0 ops = some s) (hn : n + calls ops + 1 < U64) (hl : l ∈ s.links) (ha : Sys.Asleep (env E l) (view s l)) (he : l.err = false)
    (hN : N ≤ LISTEN_INDEX) (hp : PubCtx.run (PubCtx.init mem N nid ip port) pops = .ok (rs, s0.pubs l.p)) (hpk : ∀ op ∈ pops, Sys.callOk op = true)
    (hpn : pops.length ≤ n) (ho : PubCtx.Orderly (pops ++ pubCalls E l.p s0 ops)) (hact : PubCtx.activeBy (pops ++ pubCalls E l.p s0 ops) = true)
    (hcl : PubCtx.CleanStarts (PubCtx.init mem N nid ip port) (pops ++ pubCalls E l.p s0 ops))
    (hd1 : OsOk (s.pubs l.p).cv.fds) (hd2 : OsOk (s.subs l.q).cv.fds)
    (hpos : ∀ j, PubCtx.Connected (s.pubs l.p) j → ∀ x ∈ (s.pubs l.p).pub.owedPkts j, 0 ≤ x.2.2)
    (hsp : ∀ i, SubCtx.Up (s.subs l.q) i → ∀ a ∈ SubCtx.arrivedAt i (s.subs l.q).log, 0 ≤ a.2.2) :
    SubCtx.Up (s.subs l.q) l.slot ∧ ¬ PubCtx.ToSend (s.pubs l.p) ∧
    (∀ j, PubCtx.Connected (s.pubs l.p) j → (s.pubs l.p).pub.outstanding j = [] ∧ bytes ((s.pubs l.p).cv.conns j).writeBuf = []) ∧
    l.down = [] ∧ l.up = [] ∧ bytes ((s.subs l.q).cv.conns l.slot).readBuf = [] ∧
    (∀ i x, (s.subs l.q).publishers i = some x → x.intervals = []) ∧
    (∀ i, SubCtx.Up (s.subs l.q) i → SubCtx.bytesOutAt i (s.subs l.q).log = (SubCtx.messagesAt i (s.subs l.q).log).flatten) ∧
    ∃ k, l.acc = some k ∧ (∀ pid ∈ PubCtx.sentTo k (s.pubs l.p).pub.log, pid ∈ arrived s l) ∧
      ∀ b, (arrived s l).head? = some b → b ∈ PubCtx.sentTo k (s.pubs l.p).pub.log →
        ∀ pid ∈ PubCtx.sentTo k (s.pubs l.p).pub.log, b ≤ pid → pid ∈ (delivered s l).map (·.pid) := by
  obtain ⟨c1, c2, qs, c3⟩ := run_pubCalls l.p ops hr
  refine asleep_any hs hr hn hl ha he hN (Sys.pub_run_append _ _ hp c3) (fun op hop => ?_) (by rw [List.length_append]; omega) ho hact hcl hd1 hd2 hpos hsp
  rcases List.mem_append.1 hop with h | h
  · exact hpk op h
  · exact c1 op h

/-! ## Examples -/

/-- The rest of the history of the examples: the losses are made up for, everything is acknowledged, and the connection of subscriber 1 to publisher 1 is set up. -/
def exNetTail : List NetOp := exNetRound ++ [.sub 0 (.timeout 300000), .sub 1 (.timeout 300000), .sub 0 (.write 0 (.ok 0) none (.ok 1000)),
  .sub 0 (.write 1 (.ok 0) none (.ok 1000)), .sub 1 (.write 0 (.ok 0) none (.ok 1000)), .pubRead 0 1 17, .pubRead 1 0 17, .sub 1 (.write 1 (.ok 0) none (.ok 0))]

theorem net_began {ops : List NetOp} {P : Net → Net → Bool} (h0 : netAfter [] (fun _ => true) = true)
    (h : (match PubCtx.run (exNPub 0) Sys.exP, PubCtx.run (exNPub 1) Sys.exP, SubCtx.run SubCtx.exS0 exNSub with
      | .ok p, .ok p', .ok q =>
        (match run exN ⟨fun i => if i = 0 then p.2 else p'.2, fun _ => q.2, []⟩ ops with
         | some s => P ⟨fun i => if i = 0 then p.2 else p'.2, fun _ => q.2, []⟩ s
         | none => false)
      | _, _, _ => false) = true) :
    ∃ s0 s, Start exN 2 s0 ∧ (∀ p, p < 2 → ∃ rs, PubCtx.run (exNPub p) Sys.exP = .ok (rs, s0.pubs p)) ∧ run exN s0 ops = some s ∧ P s0 s = true := by
  cases hp : PubCtx.run (exNPub 0) Sys.exP with
  | error f => rw [hp] at h; cases h
  | ok p =>
    cases hp' : PubCtx.run (exNPub 1) Sys.exP with
    | error f => rw [hp, hp'] at h; cases h
    | ok p' =>
      cases hq : SubCtx.run SubCtx.exS0 exNSub with
      | error f => rw [hp, hp', hq] at h; cases h
      | ok q =>
        rw [hp, hp', hq] at h
        dsimp only at h
        cases hr : run exN ⟨fun i => if i = 0 then p.2 else p'.2, fun _ => q.2, []⟩ ops with
        | none => rw [hr] at h; cases h
        | some s =>
          rw [hr] at h
          refine ⟨⟨fun i => if i = 0 then p.2 else p'.2, fun _ => q.2, []⟩, s, ?_, ?_, hr, h⟩
          · unfold netAfter at h0
            rw [hp, hp', hq] at h0
            dsimp only at h0
            rw [Bool.and_eq_true, decide_eq_true_eq] at h0
            obtain ⟨⟨h1, h2, h3, h4, h5, h6⟩, -⟩ := h0
            have two : ∀ i, i < exN.np → i = 0 ∨ i = 1 := fun i hi => by have : i < 2 := hi; omega
            refine ⟨?_, ?_, ?_, fun _ => ⟨exNSub, q.1, _, 2, 9, by decide, hq⟩, rfl⟩
            · intro i hi
              rcases two i hi with rfl | rfl
              · exact ⟨Sys.exP, ⟨_, 2, 7, 1, 2, p.1, by decide, by simp [Sys.exP, PubCtx.Op.sane], by decide, hp⟩,
                  by simp [Sys.exP, Sys.callOk], by decide⟩
              · exact ⟨Sys.exP, ⟨_, 2, 8, 1, 3, p'.1, by decide, by simp [Sys.exP, PubCtx.Op.sane], by decide, hp'⟩,
                  by simp [Sys.exP, Sys.callOk], by decide⟩
            · intro i hi
              rcases two i hi with rfl | rfl
              · dsimp only; rw [if_pos rfl, h1, h2, h3]; decide
              · dsimp only; rw [if_neg (by decide), h4, h5, h6]; decide
            · intro i j hi hj e
              unfold address at e
              rcases two i hi with rfl | rfl <;> rcases two j hj with rfl | rfl
              · rfl
              · have e2 : p.2.listenPort = p'.2.listenPort := congrArg Prod.snd e
                rw [h3, h6] at e2; exact absurd e2 (by decide)
              · have e2 : p'.2.listenPort = p.2.listenPort := congrArg Prod.snd e
                rw [h3, h6] at e2; exact absurd e2 (by decide)
              · rfl
          · intro i hi
            rcases (show i = 0 ∨ i = 1 by omega) with rfl | rfl
            · exact ⟨p.1, hp⟩
            · exact ⟨p'.1, hp'⟩

/-- What is checked of each connection at the end. -/
def idleLink (s0 s : Net) (l : Link) : Bool :=
  PubCtx.orderlyAll false (Sys.exP ++ pubCalls exN l.p s0 (exNet ++ exNetTail)) && PubCtx.activeBy (Sys.exP ++ pubCalls exN l.p s0 (exNet ++ exNetTail)) &&
  PubCtx.cleanAll (exNPub l.p) (Sys.exP ++ pubCalls exN l.p s0 (exNet ++ exNetTail)) && osOk (s.pubs l.p).cv.fds && osOk (s.subs l.q).cv.fds &&
  Sys.asleepB (view s l) && decide (l.p < 2 ∧ l.err = false ∧ (s.pubs l.p).cv.size = 2 ∧ (s.subs l.q).cv.size = 2 ∧
    (∀ j ∈ List.range 2, ∀ x ∈ (s.pubs l.p).pub.owedPkts j, 0 ≤ x.2.2) ∧ (∀ j ∈ List.range 2, ∀ a ∈ SubCtx.arrivedAt j (s.subs l.q).log, 0 ≤ a.2.2))

/-- The hypotheses are met by all three connections of the example, at the end of a history in which each subscriber misses a packet of publisher 0. -/
example : ∃ s0 s, Start exN 2 s0 ∧ run exN s0 (exNet ++ exNetTail) = some s ∧ s.links.length = 3 ∧ 2 + calls (exNet ++ exNetTail) + 1 < U64 ∧ (∀ op ∈ Sys.exP, Sys.callOk op = true) ∧
    ∀ l ∈ s.links, Sys.Asleep (env exN l) (view s l) ∧ l.err = false ∧ (∃ rs, PubCtx.run (exNPub l.p) Sys.exP = .ok (rs, s0.pubs l.p)) ∧
      PubCtx.Orderly (Sys.exP ++ pubCalls exN l.p s0 (exNet ++ exNetTail)) ∧ PubCtx.activeBy (Sys.exP ++ pubCalls exN l.p s0 (exNet ++ exNetTail)) = true ∧
      PubCtx.CleanStarts (exNPub l.p) (Sys.exP ++ pubCalls exN l.p s0 (exNet ++ exNetTail)) ∧ OsOk (s.pubs l.p).cv.fds ∧ OsOk (s.subs l.q).cv.fds ∧
      (∀ j, PubCtx.Connected (s.pubs l.p) j → ∀ x ∈ (s.pubs l.p).pub.owedPkts j, 0 ≤ x.2.2) ∧
      (∀ i, SubCtx.Up (s.subs l.q) i → ∀ a ∈ SubCtx.arrivedAt i (s.subs l.q).log, 0 ≤ a.2.2) := by
  obtain ⟨s0, s, h1, h2, h3, h4⟩ := net_began (ops := exNet ++ exNetTail) (P := fun s0 s => decide (s.links.length = 3) && s.links.all (idleLink s0 s)) (by decide +kernel) (by decide +kernel)
  rw [Bool.and_eq_true, decide_eq_true_eq, List.all_eq_true] at h4
  obtain ⟨hlen, h4⟩ := h4
  refine ⟨s0, s, h1, h3, hlen, by decide, by decide, fun l hl => ?_⟩
  have h4 := h4 l hl
  unfold idleLink at h4
  simp only [Bool.and_eq_true, decide_eq_true_eq] at h4
  obtain ⟨⟨⟨⟨⟨⟨b1, b2⟩, b3⟩, b4⟩, b5⟩, b6⟩, a1, a2, a5, a6, a7, a8⟩ := h4
  exact ⟨Sys.asleepB_ok b6, a2, h2 l.p a1, PubCtx.orderlyAll_ok b1, b2, PubCtx.cleanAll_ok _ b3, osOk_ok b4, osOk_ok b5,
    fun j hj x hx => a7 j (List.mem_range.2 (by rw [← a5]; exact hj.1)) x hx, fun i hi a ha => a8 i (List.mem_range.2 (by rw [← a6]; exact hi.1)) a ha⟩

end Net
end Rmc
