import Verif.NetInv
import Verif.SysLive

/-! # A schedule that brings every subscriber of a publisher what it missed -/

set_option linter.unusedVariables false
set_option linter.unusedSimpArgs false

namespace Rmc
open PLog CircBuf

/-- A read that leaves its connection up does nothing to the other connections. -/
theorem SubCtx.read_other {c c' : SubCtx} {i r : Nat} {rv : Option (List UInt8)} {ts : Int} (hu : SubCtx.Up c i)
    (hs : SubCtx.step c (.read i rv ts) = .ok (r, c')) (hu' : SubCtx.Up c' i) :
    c'.cv.size = c.cv.size ∧ ∀ j, j ≠ i → c'.cv.conns j = c.cv.conns j := by
  have h : SubCtx.readConn c i rv ts = .ok (r, c') := hs
  unfold SubCtx.readConn at h
  split at h
  · cases h; exact ⟨rfl, fun _ _ => rfl⟩
  · obtain ⟨⟨code, c1, b⟩, hx, h⟩ := SubCtx.bind_ok h
    obtain ⟨_, e1⟩ := SubCtx.readTcp_steps hu hx
    dsimp only at h
    have hset : ∀ d : Conn, (SubCtx.setConn c1 i d).cv.size = c.cv.size ∧ ∀ j, j ≠ i → (SubCtx.setConn c1 i d).cv.conns j = c.cv.conns j := by
      intro d
      unfold SubCtx.setConn
      constructor
      · show c1.cv.size = _; rw [e1]
      · intro j hj
        show (if j = i then _ else _ : Conn) = _
        rw [if_neg hj, e1]
    by_cases g1 : code = ENOMEM
    · rw [if_pos g1] at h
      have e : _ = c' := congrArg Prod.snd (Except.ok.inj h)
      rw [← e]
      exact hset _
    · rw [if_neg g1] at h
      by_cases g2 : code = EPIPE
      · rw [if_pos g2] at h
        obtain ⟨x, h1, h⟩ := SubCtx.bind_ok h
        have e : x.2 = c' := congrArg Prod.snd (Except.ok.inj h)
        rw [← e] at hu'
        exact absurd hu' (SubCtx.closeConnection_down h1)
      · rw [if_neg g2] at h
        obtain ⟨c2, h2, h⟩ := SubCtx.bind_ok h
        have e2 : c2.cv = (SubCtx.setConn c1 i { c1.cv.conns i with readBuf := b }).cv := by
          unfold SubCtx.processAt at h2
          obtain ⟨s, _, h2⟩ := SubCtx.bind_ok h2
          have e : _ = c2 := Except.ok.inj h2
          rw [← e]; rfl
        by_cases g3 : code = EPROTO
        · rw [if_pos g3] at h
          obtain ⟨x, h1, h⟩ := SubCtx.bind_ok h
          have e : x.2 = c' := congrArg Prod.snd (Except.ok.inj h)
          rw [← e] at hu'
          exact absurd hu' (SubCtx.closeConnection_down h1)
        · rw [if_neg g3] at h
          have e : _ = c' := congrArg Prod.snd (Except.ok.inj h)
          rw [← e]
          show c2.cv.size = _ ∧ ∀ j, j ≠ i → c2.cv.conns j = _
          rw [e2]
          exact hset _

/-- Calls other than writing the multicast socket multicast nothing. -/
theorem PubCtx.step_unsent {N : Nat} {c c' : PubCtx} (hp : ∃ ops, PubCtx.Reaches ops c ∧ (∀ op ∈ ops, Sys.callOk op = true) ∧ ops.length ≤ N) (hb : N + 2 < U64)
    {op : PubCtx.Op} (hc : Sys.callOk op = true) (ho : PubCtx.opTimes op = []) {r : Nat} (hx : PubCtx.step c op = .ok (r, c')) :
    sentPkts c'.pub.log = sentPkts c.pub.log := by
  obtain ⟨ops, h1, h2, h3⟩ := hp
  obtain ⟨pops, L, g, hq, hb', _⟩ := h1.good
  obtain ⟨ys, L', g', ls⟩ := PubCtx.step_good g (PubCtx.callOk_sane hc) (by omega) hx
  have ht := ls.times
  rw [ho] at ht
  obtain ⟨es, e1, e2⟩ := PubCtx.good_events g g'
  have hn : sentPkts es = [] := by
    unfold sentPkts
    rw [List.filterMap_eq_nil_iff]
    intro e he
    cases e with
    | send pid p ts =>
      exfalso
      have hy := e2.send pid p ts he
      have : ts ∈ PubCtx.sendTs ys := List.mem_filterMap.2 ⟨_, hy, rfl⟩
      rw [List.sublist_nil.1 ht] at this; cases this
    | _ => rfl
  rw [e1, sentPkts_append, hn, List.append_nil]


namespace Net

/-- The link goes on, nothing having gone wrong with it. -/
structure Cont (s : Net) (m : Link) (s' : Net) (m' : Link) : Prop where
  p : m'.p = m.p
  q : m'.q = m.q
  slot : m'.slot = m.slot
  acc : m'.acc = m.acc
  err : m'.err = m.err
  plog : ∀ k, m.acc = some k → ∃ es, (s'.pubs m.p).pub.log = (s.pubs m.p).pub.log ++ es ∧ PEv.connect k ∉ es

theorem Cont.trans {a b c : Net} {l m n : Link} (h : Cont a l b m) (g : Cont b m c n) : Cont a l c n := by
  refine ⟨g.p.trans h.p, g.q.trans h.q, g.slot.trans h.slot, g.acc.trans h.acc, g.err.trans h.err, ?_⟩
  intro k hk
  obtain ⟨es, e1, e2⟩ := h.plog k hk
  obtain ⟨fs, f1, f2⟩ := g.plog k (by rw [h.acc]; exact hk)
  rw [h.p] at f1
  exact ⟨es ++ fs, by rw [f1, e1, List.append_assoc], by simp [e2, f2]⟩

theorem Cont.refl (s : Net) (l : Link) : Cont s l s l := ⟨rfl, rfl, rfl, rfl, rfl, fun _ _ => ⟨[], by simp, by simp⟩⟩

theorem ReachedN.live {E : Env} {N : Nat} {s : Sys} (h : ReachedN E N s) (hb : N + 1 < U64) : SubCtx.Live s.sub E.slot := by
  rcases h.inv hb with h | ⟨n, _, h⟩ <;> exact h.live

/-- Reading from a link of the network is reading in its two-party system; the other links stay as they are. -/
theorem lift_read {E : NetEnv} {N : Nat} {s : Net} (h : NInv E N s) (hb : N + 1 < U64) {l : Link} (hl : l ∈ s.links) {n : Nat} {ts : Int} {t : Sys}
    (hn : Sys.next (env E l) (view s l) (.subRead n ts) = some t) :
    ∃ s' l', next E s (.subRead l.q l.slot n ts) = some s' ∧ s'.pubs = s.pubs ∧ l' ∈ s'.links ∧ Cont s l s' l' ∧ view s' l' = t ∧
      ∀ m ∈ s.links, ¬ (m.q = l.q ∧ m.slot = l.slot) → ∃ m' ∈ s'.links, Cont s m s' m' ∧ m'.down = m.down ∧
        (s'.subs m.q).cv.size = (s.subs m.q).cv.size ∧ (s'.subs m.q).cv.conns m.slot = (s.subs m.q).cv.conns m.slot := by
  unfold Sys.next at hn
  dsimp only at hn
  by_cases hg : SubCtx.Up (view s l).sub (env E l).slot ∧ 0 < n ∧ n ≤ (view s l).down.length ∧
      n ≤ CircBuf.available ((view s l).sub.cv.conns (env E l).slot).readBuf
  · rw [if_pos hg] at hn
    cases hx : SubCtx.step (view s l).sub (.read (env E l).slot (some ((view s l).down.take n)) ts) with
    | error f => rw [hx] at hn; cases hn
    | ok x =>
      rw [hx] at hn
      dsimp only at hn
      by_cases hu : SubCtx.Up x.2 (env E l).slot
      · rw [if_pos hu] at hn
        have ht := Option.some.inj hn
        obtain ⟨a, hf⟩ : ∃ a, s.links.find? (isAt l.q l.slot) = some a := by
          cases hf : s.links.find? (isAt l.q l.slot) with
          | some a => exact ⟨a, rfl⟩
          | none => exact absurd (isAt_iff.2 ⟨rfl, rfl⟩) (List.find?_eq_none.1 hf l hl)
        obtain ⟨f1, f2, f3⟩ := found hf
        have ha : a = l := h.key a f1 l hl f2 f3
        subst ha
        have hg' : SubCtx.Up (s.subs a.q) a.slot ∧ 0 < n ∧ n ≤ a.down.length ∧ n ≤ CircBuf.available ((s.subs a.q).cv.conns a.slot).readBuf := hg
        have hx' : SubCtx.step (s.subs a.q) (.read a.slot (some (a.down.take n)) ts) = .ok x := hx
        have hu' : SubCtx.Up x.2 a.slot := hu
        obtain ⟨o1, o2⟩ := SubCtx.read_other hg'.1 hx' hu'
        have hnx : next E s (.subRead a.q a.slot n ts) = some ⟨s.pubs, setAt s.subs a.q x.2, s.links.filterMap fun l =>
            if isAt a.q a.slot l = true then
              if SubCtx.Up x.2 a.slot then some { l with down := l.down.drop n } else none
            else afterSub s a.q (.read a.slot (some (a.down.take n)) ts) x.2 l⟩ := by
          unfold next
          dsimp only
          rw [hf]
          dsimp only
          rw [if_pos hg', hx']
        refine ⟨_, { a with down := a.down.drop n }, hnx, rfl, ?_, ⟨rfl, rfl, rfl, rfl, rfl, fun _ _ => ⟨[], by simp, by simp⟩⟩, ?_, ?_⟩
        · refine List.mem_filterMap.2 ⟨a, hl, ?_⟩
          rw [if_pos (isAt_iff.2 ⟨rfl, rfl⟩), if_pos hu']
        · rw [← ht]
          unfold view
          dsimp only
          rw [setAt_same]
        · intro m hm hne
          have hi : ¬ isAt a.q a.slot m = true := fun e => hne (isAt_iff.1 e)
          by_cases hq : m.q = a.q
          · have hsl : m.slot ≠ a.slot := fun e => hne ⟨hq, e⟩
            have hcn := o2 m.slot hsl
            have hlive : SubCtx.Live x.2 m.slot := by
              have hlv : SubCtx.Live (s.subs m.q) m.slot := (h.link m hm).live hb
              rw [hq] at hlv
              unfold SubCtx.Live at hlv ⊢
              rw [o1, hcn]; exact hlv
            refine ⟨{ m with up := m.up ++ SubCtx.outs m.slot (x.2.log.drop (s.subs a.q).log.length) }, ?_,
              ⟨rfl, rfl, rfl, rfl, rfl, fun _ _ => ⟨[], by simp, by simp⟩⟩, rfl, ?_, ?_⟩
            · refine List.mem_filterMap.2 ⟨m, hm, ?_⟩
              rw [if_neg hi]
              unfold afterSub
              rw [if_pos hq, if_pos ⟨decide_eq_true (fun e => hsl e.symm), hlive⟩]
            · show (setAt s.subs a.q x.2 m.q).cv.size = _
              rw [hq, setAt_same, o1]
            · show (setAt s.subs a.q x.2 m.q).cv.conns m.slot = _
              rw [hq, setAt_same, hcn]
          · refine ⟨m, ?_, ⟨rfl, rfl, rfl, rfl, rfl, fun _ _ => ⟨[], by simp, by simp⟩⟩, rfl, ?_, ?_⟩
            · refine List.mem_filterMap.2 ⟨m, hm, ?_⟩
              rw [if_neg hi]
              unfold afterSub
              rw [if_neg hq]
            · show (setAt s.subs a.q x.2 m.q).cv.size = _
              rw [setAt_ne _ _ hq]
            · show (setAt s.subs a.q x.2 m.q).cv.conns m.slot = _
              rw [setAt_ne _ _ hq]
      · rw [if_neg hu] at hn; cases hn
  · rw [if_neg hg] at hn; cases hn

/-- The links other than those in slot `slot` of `q` are as they were, as far as reading from them is concerned. -/
def Others (s : Net) (q slot : Nat) (s' : Net) : Prop :=
  ∀ m ∈ s.links, ¬ (m.q = q ∧ m.slot = slot) → ∃ m' ∈ s'.links, Cont s m s' m' ∧ m'.down = m.down ∧
    (s'.subs m.q).cv.size = (s.subs m.q).cv.size ∧ (s'.subs m.q).cv.conns m.slot = (s.subs m.q).cv.conns m.slot

theorem Others.trans {a b c : Net} {q slot : Nat} (h : Others a q slot b) (g : Others b q slot c) : Others a q slot c := by
  intro m hm hne
  obtain ⟨m', h1, h2, h3, h4, h5⟩ := h m hm hne
  obtain ⟨m'', g1, g2, g3, g4, g5⟩ := g m' h1 (by rw [h2.q, h2.slot]; exact hne)
  rw [h2.q] at g4 g5
  rw [h2.slot] at g5
  exact ⟨m'', g1, h2.trans g2, g3.trans h3, g4.trans h4, g5.trans h5⟩

/-- The reads of the schedule. -/
def isRead : NetOp → Bool
  | .subRead _ _ _ _ => true
  | _ => false

theorem calls_reads : ∀ (ops : List NetOp), (∀ op ∈ ops, isRead op = true) → calls ops = 0 := by
  intro ops
  induction ops with
  | nil => intro _; rfl
  | cons op ops ih =>
    intro h
    have h1 := h op (by simp)
    cases op with
    | subRead a b c d => exact ih fun o ho => h o (by simp [ho])
    | _ => cases h1

theorem lift_reads {E : NetEnv} {N : Nat} (hb : N + 1 < U64) {ts : Int} : ∀ (ops : List SysOp) {s : Net} {l : Link} {t : Sys}, NInv E N s →
    l ∈ s.links → (∀ op ∈ ops, ∃ m, op = .subRead m ts) → Sys.run (env E l) (view s l) ops = some t →
    ∃ post s' l', run E s post = some s' ∧ (∀ op ∈ post, isRead op = true) ∧ s'.pubs = s.pubs ∧ l' ∈ s'.links ∧ Cont s l s' l' ∧
      view s' l' = t ∧ Others s l.q l.slot s' := by
  intro ops
  induction ops with
  | nil =>
    intro s l t h hl _ ht
    cases ht
    exact ⟨[], s, l, rfl, by simp, rfl, hl, .refl s l, rfl, fun m hm _ => ⟨m, hm, .refl s m, rfl, rfl, rfl⟩⟩
  | cons op ops ih =>
    intro s l t h hl ho ht
    obtain ⟨n, rfl⟩ := ho op (by simp)
    change (Sys.next (env E l) (view s l) _).bind _ = _ at ht
    cases hn : Sys.next (env E l) (view s l) (.subRead n ts) with
    | none => rw [hn] at ht; cases ht
    | some u =>
      rw [hn] at ht
      obtain ⟨s1, l1, a1, a2, a3, a4, a5, a6⟩ := lift_read h hb hl hn
      have henv : env E l1 = env E l := by unfold env; rw [a4.p, a4.slot]
      have h1 : NInv E N s1 := h.step (by exact hb) a1
      obtain ⟨post, s2, l2, b1, b2, b3, b4, b5, b6, b7⟩ := ih h1 a3 (fun o ho' => ho o (by simp [ho'])) (by rw [henv, a5]; exact ht)
      refine ⟨.subRead l.q l.slot n ts :: post, s2, l2, ?_, ?_, b3.trans a2, b4, a4.trans b5, b6, ?_⟩
      · show (next E s _).bind _ = _
        rw [a1]; exact b1
      · intro o ho'
        rcases List.mem_cons.1 ho' with rfl | ho'
        · rfl
        · exact b2 o ho'
      · rw [a4.q, a4.slot] at b7
        exact Others.trans a6 b7

/-- The subscriber can read everything that is on its way on the link. -/
def Ready (s : Net) (l : Link) : Prop :=
  (view s l).wbytes = [] ∧ SubCtx.Up (s.subs l.q) l.slot ∧ ((s.subs l.q).cv.conns l.slot).readBuf.start = 0
/-- Nothing is in the stream of the link. -/
def Empty (s : Net) (l : Link) : Prop := l.down = [] ∧ bytes ((s.subs l.q).cv.conns l.slot).readBuf = []

theorem Ready.others {s s' : Net} (hp : s'.pubs = s.pubs) {m m' : Link} (h : Cont s m s' m') (h1 : (s'.subs m.q).cv.size = (s.subs m.q).cv.size)
    (h2 : (s'.subs m.q).cv.conns m.slot = (s.subs m.q).cv.conns m.slot) (hr : Ready s m) : Ready s' m' := by
  obtain ⟨a, b, d⟩ := hr
  unfold Ready
  rw [h.q, h.slot]
  refine ⟨?_, ?_, by rw [h2]; exact d⟩
  · unfold Sys.wbytes view at a ⊢
    dsimp only at a ⊢
    rw [h.acc, h.p, hp]; exact a
  · unfold SubCtx.Up at b ⊢
    rw [h1, h2]; exact b

/-- The links in the slots listed are read empty. -/
theorem read_links {E : NetEnv} {N : Nat} (hb : N + 1 < U64) (ts : Int) : ∀ (ks : List (Nat × Nat)) {s : Net}, NInv E N s →
    ∃ post s', run E s post = some s' ∧ (∀ op ∈ post, isRead op = true) ∧ s'.pubs = s.pubs ∧
      ∀ l ∈ s.links, Ready s l → ∃ l' ∈ s'.links, Cont s l s' l' ∧ Ready s' l' ∧ ((l.q, l.slot) ∈ ks → Empty s' l') ∧ (Empty s l → Empty s' l') := by
  intro ks
  induction ks with
  | nil =>
    intro s h
    exact ⟨[], s, rfl, by simp, rfl, fun l hl hr => ⟨l, hl, .refl s l, hr, by simp, id⟩⟩
  | cons x ks ih =>
    intro s h
    -- the first slot
    have step1 : ∃ post s', run E s post = some s' ∧ (∀ op ∈ post, isRead op = true) ∧ s'.pubs = s.pubs ∧
        ∀ l ∈ s.links, Ready s l → ∃ l' ∈ s'.links, Cont s l s' l' ∧ Ready s' l' ∧ ((l.q, l.slot) = x → Empty s' l') ∧ (Empty s l → Empty s' l') := by
      by_cases hex : ∃ a ∈ s.links, (a.q, a.slot) = x ∧ Ready s a
      · obtain ⟨a, ha, hx, hr⟩ := hex
        obtain ⟨n, hn, hi⟩ : ∃ n, n ≤ N ∧ Sys.Inv (env E a) n (view s a) := by
          rcases (h.link a ha).inv hb with h | h
          · exact ⟨N, Nat.le_refl _, h⟩
          · exact h
        obtain ⟨ops, t, c1, c2, c3, c4, c5, c6, c7, c8, c9⟩ := Sys.read_all (E := env E a) ts (view s a).down.length hi (Nat.le_refl _)
          hr.2.1 hr.2.2 hr.1 (by omega)
        obtain ⟨post, s', a', b1, b2, b3, b4, b5, b6, b7⟩ := lift_reads hb ops h ha c2 c3
        have h' : NInv E N s' := by
          have := h.run post (by rw [calls_reads post b2]; exact hb) b1
          rwa [calls_reads post b2] at this
        refine ⟨post, s', b1, b2, b3, ?_⟩
        intro l hl hrl
        by_cases e : l.q = a.q ∧ l.slot = a.slot
        · have := h.key l hl a ha e.1 e.2
          subst this
          have em : Empty s' a' := by
            have e1 : a'.down = t.down := congrArg Sys.down b6
            have e2 : s'.subs a'.q = t.sub := congrArg Sys.sub b6
            unfold Empty
            rw [e1, e2, b5.slot]
            exact ⟨c8, c9⟩
          refine ⟨a', b4, b5, ⟨?_, ?_, ?_⟩, fun _ => em, fun _ => em⟩
          · unfold Sys.wbytes
            rw [b6, c5, c4]
            exact hr.1
          · have e2 : s'.subs a'.q = t.sub := congrArg Sys.sub b6
            rw [e2, b5.slot]; exact c7
          · have e2 : s'.subs a'.q = t.sub := congrArg Sys.sub b6
            obtain ⟨sops, hsr⟩ := h'.sub a'.q
            refine (hsr.rb a'.slot ?_).2.2.2 em.2
            rw [e2, b5.slot]; exact c7
        · obtain ⟨l', d1, d2, d3, d4, d5⟩ := b7 l hl e
          refine ⟨l', d1, d2, hrl.others b3 d2 d4 d5, ?_, ?_⟩
          · intro e'
            rw [← hx] at e'
            exact absurd ⟨congrArg Prod.fst e', congrArg Prod.snd e'⟩ e
          · rintro ⟨f1, f2⟩
            unfold Empty
            rw [d3, d2.q, d2.slot, d5]
            exact ⟨f1, f2⟩
      · refine ⟨[], s, rfl, by simp, rfl, ?_⟩
        intro l hl hr
        exact ⟨l, hl, .refl s l, hr, fun e => absurd ⟨l, hl, e, hr⟩ hex, id⟩
    obtain ⟨p1, s1, a1, a2, a3, a4⟩ := step1
    have h1 : NInv E N s1 := by
      have := h.run p1 (by rw [calls_reads p1 a2]; exact hb) a1
      rwa [calls_reads p1 a2] at this
    obtain ⟨p2, s2, b1, b2, b3, b4⟩ := ih h1
    refine ⟨p1 ++ p2, s2, ?_, ?_, b3.trans a3, ?_⟩
    · rw [run_append, a1]; exact b1
    · intro op hop
      rcases List.mem_append.1 hop with hop | hop
      · exact a2 op hop
      · exact b2 op hop
    · intro l hl hr
      obtain ⟨l1, c1, c2, c3, c4, c5⟩ := a4 l hl hr
      obtain ⟨l2, d1, d2, d3, d4, d5⟩ := b4 l1 c1 c3
      refine ⟨l2, d1, c2.trans d2, d3, ?_, fun e => d5 (c5 e)⟩
      intro e
      rcases List.mem_cons.1 e with e | e
      · exact d5 (c4 e)
      · exact d4 (by rw [c2.q, c2.slot]; exact e)

/-- The calls of publisher `p` in the schedule. -/
def isFlush (p : Nat) (now : Int) : NetOp → Bool
  | .pub j (.write _ _) => decide (j = p)
  | .pub j (.timeout t _ _) => decide (j = p ∧ t = now)
  | _ => false

theorem lift_flush {E : NetEnv} {now : Int} : ∀ (ops : List SysOp) {N : Nat} {s : Net} {l : Link} {t : Sys}, NInv E N s → l ∈ s.links →
    (∀ op ∈ ops, Sys.flushOp now op = true) → N + Sys.calls ops + 1 < U64 → Sys.run (env E l) (view s l) ops = some t →
    ∃ post s', run E s post = some s' ∧ (∀ op ∈ post, isFlush l.p now op = true) ∧ calls post = Sys.calls ops ∧ s'.subs = s.subs ∧
      s'.pubs l.p = t.pub ∧ (∀ p, p ≠ l.p → s'.pubs p = s.pubs p) ∧ ∀ m ∈ s.links, ∃ m' ∈ s'.links, Cont s m s' m' := by
  intro ops
  induction ops with
  | nil =>
    intro N s l t h hl _ _ ht
    cases ht
    exact ⟨[], s, rfl, by simp, rfl, rfl, rfl, fun _ _ => rfl, fun m hm => ⟨m, hm, .refl s m⟩⟩
  | cons op ops ih =>
    intro N s l t h hl ho hb ht
    have hop := ho op (by simp)
    obtain ⟨pop, rfl, hlv, hfl, hck⟩ : ∃ pop, op = .pub pop ∧ (∀ acc, Sys.leaves acc pop = true) ∧ isFlush l.p now (.pub l.p pop) = true ∧
        Sys.callOk pop = true := by
      cases op with
      | pub pop =>
        cases pop with
        | write i w => exact ⟨_, rfl, fun _ => rfl, decide_eq_true rfl, rfl⟩
        | timeout a b c => exact ⟨_, rfl, fun _ => rfl, decide_eq_true ⟨rfl, of_decide_eq_true hop⟩, rfl⟩
        | _ => cases hop
      | _ => cases hop
    rw [Sys.calls_cons] at hb
    have hc1 : Sys.calls [.pub pop] = 1 := rfl
    change (Sys.next (env E l) (view s l) _).bind _ = _ at ht
    cases hn : Sys.next (env E l) (view s l) (.pub pop) with
    | none => rw [hn] at ht; cases ht
    | some u =>
      rw [hn] at ht
      have hn' := hn
      unfold Sys.next at hn
      dsimp only at hn
      rw [if_pos ⟨hck, hlv _⟩] at hn
      cases hx : PubCtx.step (view s l).pub pop with
      | error f => rw [hx] at hn; cases hn
      | ok x =>
        rw [hx] at hn
        have hu := Option.some.inj hn
        have hx' : PubCtx.step (s.pubs l.p) pop = .ok x := hx
        have a1 : next E s (.pub l.p pop) = some ⟨setAt s.pubs l.p x.2, s.subs, s.links.filterMap (afterPub s l.p pop x.2)⟩ := by
          unfold next
          dsimp only
          rw [if_pos ⟨h.lp l hl, hck⟩, hx']
        have h1 : NInv E (N + 1) _ := h.step (op := .pub l.p pop) (by show N + 1 + 1 < U64; omega) a1
        obtain ⟨s1, hs1⟩ : ∃ s1 : Net, s1 = ⟨setAt s.pubs l.p x.2, s.subs, s.links.filterMap (afterPub s l.p pop x.2)⟩ := ⟨_, rfl⟩
        rw [← hs1] at a1 h1
        have hcont : ∀ m ∈ s.links, ∃ m' ∈ s1.links, Cont s m s1 m' := by
          intro m hm
          by_cases e : m.p = l.p
          · refine ⟨{ m with down := m.down ++ (view s m).sentDown x.2 }, ?_, ⟨rfl, rfl, rfl, rfl, rfl, ?_⟩⟩
            · rw [hs1]
              refine List.mem_filterMap.2 ⟨m, hm, ?_⟩
              unfold afterPub
              rw [if_pos e, if_pos (hlv _)]
            · intro k hk
              obtain ⟨n, hn, hi⟩ : ∃ n, n ≤ N ∧ Sys.Inv (env E m) n (view s m) := by
                rcases (h.link m hm).inv (by omega) with h | h
                · exact ⟨N, Nat.le_refl _, h⟩
                · exact h
              have hxm : PubCtx.step (view s m).pub pop = .ok x := by
                show PubCtx.step (s.pubs m.p) pop = _
                rw [e]; exact hx'
              have hnm : Sys.next (env E m) (view s m) (.pub pop) = some { view s m with pub := x.2, down := (view s m).down ++ (view s m).sentDown x.2 } := by
                unfold Sys.next
                dsimp only
                rw [if_pos ⟨hck, hlv _⟩, hxm]
              obtain ⟨_, _, es, e1, e2⟩ := Sys.next_acc hi (by rw [hc1]; omega) hnm hk
              refine ⟨es, ?_, e2⟩
              have : s1.pubs m.p = x.2 := by rw [hs1, e]; exact setAt_same _ _ _
              rw [this]; exact e1
          · refine ⟨m, ?_, ⟨rfl, rfl, rfl, rfl, rfl, fun k _ => ⟨[], ?_, by simp⟩⟩⟩
            · rw [hs1]
              refine List.mem_filterMap.2 ⟨m, hm, ?_⟩
              unfold afterPub
              rw [if_neg e]
            · have : s1.pubs m.p = s.pubs m.p := by rw [hs1]; exact setAt_ne _ _ e
              rw [this, List.append_nil]
        -- the link itself
        have hl1 : ({ l with down := l.down ++ (view s l).sentDown x.2 } : Link) ∈ s1.links := by
          rw [hs1]
          refine List.mem_filterMap.2 ⟨l, hl, ?_⟩
          unfold afterPub
          rw [if_pos rfl, if_pos (hlv _)]
        have hv : view s1 { l with down := l.down ++ (view s l).sentDown x.2 } = u := by
          rw [← hu, hs1]
          unfold view
          dsimp only
          rw [setAt_same]
        obtain ⟨post, s2, b1, b2, b3, b4, b5, b6, b7⟩ := ih h1 hl1 (fun o ho' => ho o (by simp [ho'])) (by omega) (by rw [hv]; exact ht)
        refine ⟨.pub l.p pop :: post, s2, ?_, ?_, ?_, ?_, b5, ?_, ?_⟩
        · show (next E s _).bind _ = _
          rw [a1]; exact b1
        · intro o ho'
          rcases List.mem_cons.1 ho' with rfl | ho'
          · exact hfl
          · exact b2 o ho'
        · show 1 + calls post = _
          rw [b3, Sys.calls_cons, hc1]
        · rw [b4, hs1]
        · intro p hp
          rw [b6 p hp, hs1]
          exact setAt_ne _ _ hp
        · intro m hm
          obtain ⟨m1, c1, c2⟩ := hcont m hm
          obtain ⟨m2, d1, d2⟩ := b7 m1 c1
          exact ⟨m2, d1, c2.trans d2⟩

theorem isFlush_pub {p : Nat} {now : Int} {op : NetOp} (h : isFlush p now op = true) : ∃ o, op = .pub p o := by
  cases op with
  | pub j o =>
    cases o with
    | write a b => exact ⟨_, by rw [show j = p from of_decide_eq_true h]⟩
    | timeout a b c => exact ⟨_, by rw [(of_decide_eq_true h : j = p ∧ a = now).1]⟩
    | _ => cases h
  | _ => cases h

theorem next_pub_subs {E : NetEnv} {s t : Net} {p : Nat} {o : PubCtx.Op} (hn : next E s (.pub p o) = some t) :
    t.subs = s.subs ∧ p < E.np ∧ Sys.callOk o = true ∧ ∃ r c', PubCtx.step (s.pubs p) o = .ok (r, c') ∧ t.pubs = setAt s.pubs p c' := by
  unfold next at hn
  dsimp only at hn
  by_cases hg : p < E.np ∧ Sys.callOk o = true
  · rw [if_pos hg] at hn
    cases hx : PubCtx.step (s.pubs p) o with
    | error f => rw [hx] at hn; cases hn
    | ok x =>
      rw [hx] at hn
      cases hn
      exact ⟨rfl, hg.1, hg.2, x.1, x.2, rfl, rfl⟩
  · rw [if_neg hg] at hn; cases hn

/-- Calls that use TCP only multicast nothing. -/
theorem flush_unsent {E : NetEnv} {now : Int} {p : Nat} : ∀ (post : List NetOp) {N : Nat} {s s' : Net}, NInv E N s → N + calls post + 1 < U64 →
    run E s post = some s' → (∀ op ∈ post, isFlush p now op = true ∨ isRead op = true) →
    ∀ j, j < E.np → sentPkts (s'.pubs j).pub.log = sentPkts (s.pubs j).pub.log := by
  intro post
  induction post with
  | nil => intro N s s' _ _ h _; cases h; exact fun _ _ => rfl
  | cons op post ih =>
    intro N s s' hi hb hr hop
    change (next E s op).bind _ = _ at hr
    rw [calls_cons] at hb
    cases hn : next E s op with
    | none => rw [hn] at hr; cases hr
    | some t =>
      rw [hn] at hr
      have i1 := ih (hi.step (by omega) hn) (by omega) hr (fun o ho => hop o (by simp [ho]))
      rcases hop op (by simp) with ho | ho
      · obtain ⟨o, rfl⟩ := isFlush_pub ho
        obtain ⟨_, h1, h2, r, c', h3, h4⟩ := next_pub_subs hn
        have : calls [NetOp.pub p o] = 1 := rfl
        intro j hj
        rw [i1 j hj, h4]
        by_cases e : j = p
        · subst e
          rw [setAt_same]
          refine PubCtx.step_unsent (hi.pub j hj) (by omega) h2 ?_ h3
          cases o <;> first | rfl | cases ho
        · rw [setAt_ne _ _ e]
      · cases op with
        | subRead q slot n ts =>
          unfold next at hn
          dsimp only at hn
          split at hn
          · cases hn
          · split at hn
            case isFalse => cases hn
            split at hn
            case h_2 => cases hn
            cases hn
            exact i1
        | _ => cases ho

end Net
end Rmc
