import Verif.Net

/-! # Every link of the network is a two-party system -/

set_option linter.unusedVariables false
set_option linter.unusedSimpArgs false

namespace Rmc
open PLog CircBuf

/-- The address and the port in a header are decoded whatever the packet id and the length are. -/
theorem PacketHeader.dec_address (pid nid len : Nat) {ip port : Nat} (h1 : ip < U32) (h2 : port < 65536) (rest : List UInt8) :
    (PacketHeader.dec ((PacketHeader.mk pid nid len ip port).enc ++ rest)).listenIp = ip ∧
    (PacketHeader.dec ((PacketHeader.mk pid nid len ip port).enc ++ rest)).listenPort = port := by
  have e : (PacketHeader.mk pid nid len ip port).enc ++ rest =
      (leEnc 8 pid ++ leEnc 4 nid ++ leEnc 2 len) ++ (leEnc 4 ip ++ (leEnc 2 port ++ rest)) := by
    unfold PacketHeader.enc; simp only [List.append_assoc]
  have e' : (PacketHeader.mk pid nid len ip port).enc ++ rest =
      (leEnc 8 pid ++ leEnc 4 nid ++ leEnc 2 len ++ leEnc 4 ip) ++ (leEnc 2 port ++ rest) := by
    unfold PacketHeader.enc; simp only [List.append_assoc]
  constructor
  · show leDec _ = ip
    rw [e, drop_of_len (by simp), take_of_len (by simp), leDec_leEnc _ _ (by have : U32 = 256 ^ 4 := rfl; omega)]
  · show leDec _ = port
    rw [e', drop_of_len (by simp), take_of_len (by simp), leDec_leEnc _ _ (by have : 65536 = 256 ^ 2 := rfl; omega)]

/-- Every datagram of a publisher names it. -/
theorem PubCtx.dgram_address {ops : List PubCtx.Op} {c : PubCtx} (h : PubCtx.Reaches ops c) (hk : ∀ op ∈ ops, Sys.callOk op = true)
    (hid : c.listenIp < U32 ∧ c.listenPort < 65536) {bs : List UInt8} (hb : bs ∈ PubCtx.dgrams c.log) :
    (PacketHeader.dec bs).listenIp = c.listenIp ∧ (PacketHeader.dec bs).listenPort = c.listenPort := by
  have hport : ∀ op ∈ ops, portOk op := fun op ho => callOk_port (hk op ho)
  have hm := (h.dg hport).m
  obtain ⟨k, hk1⟩ := List.getElem?_of_mem hb
  have hlt : k < (sentAll c.pub.log).length := by
    rw [hm.1]
    exact (List.getElem?_eq_some_iff.1 hk1).1
  obtain ⟨⟨pid, p⟩, hy⟩ : ∃ y, (sentAll c.pub.log)[k]? = some y := ⟨_, List.getElem?_eq_getElem hlt⟩
  obtain ⟨tail, t1, t2, t3⟩ := hm.2 k _ _ hy hk1
  dsimp only at t1
  rw [t1]
  exact PacketHeader.dec_address _ _ _ hid.1 hid.2 _

namespace Net

/-- A state of the two-party system reached with at most `N` calls of the publisher. -/
def ReachedN (E : Env) (N : Nat) (s : Sys) : Prop := ∃ n s0 ops, Sys.Start E n s0 ∧ n + Sys.calls ops ≤ N ∧ Sys.run E s0 ops = some s

theorem ReachedN.mono {E : Env} {N M : Nat} {s : Sys} (h : ReachedN E N s) (hm : N ≤ M) : ReachedN E M s := by
  obtain ⟨n, s0, ops, h1, h2, h3⟩ := h
  exact ⟨n, s0, ops, h1, by omega, h3⟩

theorem sys_run_snoc {E : Env} : ∀ (ops : List SysOp) {s t u : Sys} {op : SysOp}, Sys.run E s ops = some t → Sys.next E t op = some u →
    Sys.run E s (ops ++ [op]) = some u := by
  intro ops
  induction ops with
  | nil =>
    intro s t u op h1 h2
    cases h1
    show (Sys.next E s op).bind _ = _
    rw [h2]; rfl
  | cons o ops ih =>
    intro s t u op h1 h2
    change (Sys.next E s o).bind _ = _ at h1
    show (Sys.next E s o).bind _ = _
    cases hn : Sys.next E s o with
    | none => rw [hn] at h1; cases h1
    | some v => rw [hn] at h1; exact ih h1 h2

theorem ReachedN.snoc {E : Env} {N : Nat} {s t : Sys} (h : ReachedN E N s) {op : SysOp} (hn : Sys.next E s op = some t) :
    ReachedN E (N + 1) t := by
  obtain ⟨n, s0, ops, h1, h2, h3⟩ := h
  refine ⟨n, s0, ops ++ [op], h1, ?_, sys_run_snoc ops h3 hn⟩
  rw [Sys.calls_append]
  have : Sys.calls [op] ≤ 1 := Sys.calls_le [op]
  omega

theorem ReachedN.snoc0 {E : Env} {N : Nat} {s t : Sys} (h : ReachedN E N s) {op : SysOp} (h0 : Sys.calls [op] = 0) (hn : Sys.next E s op = some t) :
    ReachedN E N t := by
  obtain ⟨n, s0, ops, h1, h2, h3⟩ := h
  refine ⟨n, s0, ops ++ [op], h1, ?_, sys_run_snoc ops h3 hn⟩
  rw [Sys.calls_append]
  omega

theorem ReachedN.inv {E : Env} {N : Nat} {s : Sys} (h : ReachedN E N s) (hb : N + 1 < U64) : Sys.Inv E N s ∨ ∃ n, n ≤ N ∧ Sys.Inv E n s := by
  obtain ⟨n, s0, ops, h1, h2, h3⟩ := h
  exact .inr ⟨_, h2, (Sys.Inv.start h1).run ops (by omega) h3⟩

theorem ReachedN.connected {E : Env} {N : Nat} {s : Sys} (h : ReachedN E N s) (hb : N + 1 < U64) {k : Nat} (hk : s.acc = some k) :
    PubCtx.Connected s.pub k := by
  rcases h.inv hb with h | ⟨n, _, h⟩ <;> exact (h.acc k hk).1

/-- The invariant of the network. -/
structure NInv (E : NetEnv) (N : Nat) (s : Net) : Prop where
  pub : ∀ p, p < E.np → ∃ ops, PubCtx.Reaches ops (s.pubs p) ∧ (∀ op ∈ ops, Sys.callOk op = true) ∧ ops.length ≤ N
  ids : ∀ p, p < E.np → (s.pubs p).nodeId < U32 ∧ (s.pubs p).listenIp < U32 ∧ (s.pubs p).listenPort < 65536 ∧ (s.pubs p).listenPort ≠ 0
  addr : ∀ p p', p < E.np → p' < E.np → address E s p = address E s p' → p = p'
  sub : ∀ q, ∃ ops, SubCtx.Reaches ops (s.subs q)
  lp : ∀ l ∈ s.links, l.p < E.np
  key : ∀ l ∈ s.links, ∀ m ∈ s.links, l.q = m.q → l.slot = m.slot → l = m
  acc : ∀ l ∈ s.links, ∀ m ∈ s.links, l.p = m.p → ∀ k, l.acc = some k → m.acc = some k → l = m
  link : ∀ l ∈ s.links, ReachedN (env E l) N (view s l)

theorem NInv.start {E : NetEnv} {n : Nat} {s : Net} (h : Start E n s) : NInv E n s := by
  refine ⟨h.pub, h.ids, h.addr, h.sub, ?_, ?_, ?_, ?_⟩ <;> rw [h.links] <;> simp

theorem setAt_same {α : Type} (f : Nat → α) (i : Nat) (x : α) : setAt f i x i = x := if_pos rfl
theorem setAt_ne {α : Type} (f : Nat → α) {i j : Nat} (x : α) (h : j ≠ i) : setAt f i x j = f j := if_neg h

theorem heard_honest {E : NetEnv} {N : Nat} {s : Net} (h : NInv E N s) {r : SubCtx.RecvRes} (hr : heard E s r) {l : Link} (hl : l ∈ s.links) :
    Sys.honest (env E l) (s.pubs l.p) r := by
  cases r with
  | err e => trivial
  | dgram src bs ts ann sk cr =>
    have hp := h.lp l hl
    rcases hr with ⟨p, h1, h2, h3⟩ | hr
    · by_cases e : p = l.p
      · subst e; exact .inl ⟨h2, h3⟩
      · right
        intro _ hh
        obtain ⟨ops, k1, k2, _⟩ := h.pub p h1
        obtain ⟨i1, i2, i3, _⟩ := h.ids p h1
        obtain ⟨a1, a2⟩ := PubCtx.dgram_address k1 k2 ⟨i2, i3⟩ h3
        apply e
        apply h.addr p l.p h1 hp
        rw [a1, a2, h2] at hh
        exact hh
    · right
      intro hlen hh
      exact hr hlen l.p hp hh

/-- What a call of a publisher leaves as it is. -/
theorem pub_frame {N : Nat} {c : PubCtx} (hp : ∃ ops, PubCtx.Reaches ops c ∧ (∀ op ∈ ops, Sys.callOk op = true) ∧ ops.length ≤ N)
    (hid : c.listenPort ≠ 0) {op : PubCtx.Op} {r : Nat} {c' : PubCtx} (hc : Sys.callOk op = true)
    (hb : N + 2 < U64) (hx : PubCtx.step c op = .ok (r, c')) :
    (∃ ops, PubCtx.Reaches ops c' ∧ (∀ op ∈ ops, Sys.callOk op = true) ∧ ops.length ≤ N + 1) ∧
    (c'.nodeId = c.nodeId ∧ c'.listenIp = c.listenIp ∧ c'.listenPort = c.listenPort) := by
  obtain ⟨ops, h1, h2, h3⟩ := hp
  obtain ⟨pops, L, g, hq, hb', _⟩ := h1.good
  have hs := PubCtx.callOk_sane hc
  refine ⟨⟨ops ++ [op], h1.snoc' hs (by omega) hx, ?_, by simp; omega⟩, ?_⟩
  · intro o ho
    rcases List.mem_append.1 ho with ho | ho
    · exact h2 o ho
    · rw [List.mem_singleton.1 ho]; exact hc
  · obtain ⟨i1, i2, i3⟩ := PubCtx.step_ids g hs (by omega) hx
    refine ⟨i1, i2, ?_⟩
    rcases i3 with ⟨e, _⟩ | ⟨_, _, _, _, e⟩
    · exact e
    · rw [e, if_neg hid]

/-- A step of a publisher. -/
theorem NInv.pubStep {E : NetEnv} {N : Nat} {s : Net} (h : NInv E N s) (hb : N + 2 < U64) {p : Nat} (hp : p < E.np) {op : PubCtx.Op}
    (hc : Sys.callOk op = true) {r : Nat} {c' : PubCtx} (hx : PubCtx.step (s.pubs p) op = .ok (r, c')) {f : Link → Option Link}
    (hf : ∀ l l', f l = some l' → l'.p = l.p ∧ l'.q = l.q ∧ l'.slot = l.slot)
    (ha : ∀ l ∈ s.links, ∀ m ∈ s.links, l.p = m.p → ∀ l' m', f l = some l' → f m = some m' → ∀ k, l'.acc = some k → m'.acc = some k → l = m)
    (hv : ∀ l ∈ s.links, ∀ l', f l = some l' → (l.p ≠ p ∧ l' = l) ∨
      (l.p = p ∧ ∃ sop, Sys.next (env E l) (view s l) sop = some ⟨c', s.subs l.q, l'.acc, l'.down, l'.up, l'.err⟩)) :
    NInv E (N + 1) ⟨setAt s.pubs p c', s.subs, s.links.filterMap f⟩ := by
  obtain ⟨f1, f2⟩ := pub_frame (h.pub p hp) (h.ids p hp).2.2.2 hc hb hx
  have hadd : ∀ j, address E ⟨setAt s.pubs p c', s.subs, s.links.filterMap f⟩ j = address E s j := by
    intro j
    have key : ∀ c d : PubCtx, c.listenIp = d.listenIp → c.listenPort = d.listenPort →
        (if c.listenIp = 0 then E.src j else c.listenIp, c.listenPort) = (if d.listenIp = 0 then E.src j else d.listenIp, d.listenPort) := by
      intro c d e1 e2; rw [e1, e2]
    refine key _ _ ?_ ?_ <;> dsimp only
    · by_cases e : j = p
      · subst e; rw [setAt_same, f2.2.1]
      · rw [setAt_ne _ _ e]
    · by_cases e : j = p
      · subst e; rw [setAt_same, f2.2.2]
      · rw [setAt_ne _ _ e]
  refine ⟨?_, ?_, ?_, h.sub, ?_, ?_, ?_, ?_⟩
  · intro j hj
    by_cases e : j = p
    · subst e; show ∃ ops, PubCtx.Reaches ops (setAt s.pubs j c' j) ∧ _; rw [setAt_same]; exact f1
    · show ∃ ops, PubCtx.Reaches ops (setAt s.pubs p c' j) ∧ _
      rw [setAt_ne _ _ e]
      obtain ⟨ops, a, b, d⟩ := h.pub j hj
      exact ⟨ops, a, b, by omega⟩
  · intro j hj
    dsimp only
    by_cases e : j = p
    · subst e; rw [setAt_same, f2.1, f2.2.1, f2.2.2]; exact h.ids j hj
    · rw [setAt_ne _ _ e]; exact h.ids j hj
  · intro j j' hj hj' e
    rw [hadd, hadd] at e
    exact h.addr j j' hj hj' e
  · intro l' hl'
    obtain ⟨l, hl, e⟩ := List.mem_filterMap.1 hl'
    rw [(hf l l' e).1]; exact h.lp l hl
  · intro l' hl' m' hm' e1 e2
    obtain ⟨l, hl, e⟩ := List.mem_filterMap.1 hl'
    obtain ⟨m, hm, e'⟩ := List.mem_filterMap.1 hm'
    obtain ⟨_, a1, a2⟩ := hf l l' e
    obtain ⟨_, b1, b2⟩ := hf m m' e'
    have := h.key l hl m hm (by omega) (by omega)
    subst this
    rw [e] at e'; exact Option.some.inj e'
  · intro l' hl' m' hm' e1 k k1 k2
    obtain ⟨l, hl, e⟩ := List.mem_filterMap.1 hl'
    obtain ⟨m, hm, e'⟩ := List.mem_filterMap.1 hm'
    have := ha l hl m hm (by rw [← (hf l l' e).1, ← (hf m m' e').1]; exact e1) l' m' e e' k k1 k2
    subst this
    rw [e] at e'; exact Option.some.inj e'
  · intro l' hl'
    obtain ⟨l, hl, e⟩ := List.mem_filterMap.1 hl'
    obtain ⟨a0, a1, a2⟩ := hf l l' e
    have henv : env E l' = env E l := by unfold env; rw [a0, a2]
    rw [henv]
    rcases hv l hl l' e with ⟨b1, b2⟩ | ⟨b1, sop, b2⟩
    · subst b2
      have : view ⟨setAt s.pubs p c', s.subs, s.links.filterMap f⟩ l' = view s l' := by
        unfold view; dsimp only; rw [setAt_ne _ _ b1]
      rw [this]
      exact (h.link _ hl).mono (by omega)
    · have : view ⟨setAt s.pubs p c', s.subs, s.links.filterMap f⟩ l' = ⟨c', s.subs l.q, l'.acc, l'.down, l'.up, l'.err⟩ := by
        unfold view; dsimp only; rw [a0, b1, setAt_same, a1]
      rw [this]
      exact (h.link l hl).snoc b2

/-- A step of a subscriber. -/
theorem NInv.subStep {E : NetEnv} {N : Nat} {s : Net} (h : NInv E N s) {q : Nat} {op : SubCtx.Op} {r : Nat} {c' : SubCtx}
    (hx : SubCtx.step (s.subs q) op = .ok (r, c')) {f : Link → Option Link}
    (hf : ∀ l l', f l = some l' → l'.p = l.p ∧ l'.q = l.q ∧ l'.slot = l.slot ∧ l'.acc = l.acc)
    (hv : ∀ l ∈ s.links, ∀ l', f l = some l' → (l.q ≠ q ∧ l' = l) ∨
      (l.q = q ∧ ∃ sop, Sys.calls [sop] = 0 ∧ Sys.next (env E l) (view s l) sop = some ⟨s.pubs l.p, c', l'.acc, l'.down, l'.up, l'.err⟩)) :
    NInv E N ⟨s.pubs, setAt s.subs q c', s.links.filterMap f⟩ := by
  refine ⟨h.pub, h.ids, h.addr, ?_, ?_, ?_, ?_, ?_⟩
  · intro j
    by_cases e : j = q
    · subst e
      show ∃ ops, SubCtx.Reaches ops (setAt s.subs j c' j)
      rw [setAt_same]
      obtain ⟨ops, hr⟩ := h.sub j
      exact ⟨_, hr.snoc hx⟩
    · show ∃ ops, SubCtx.Reaches ops (setAt s.subs q c' j)
      rw [setAt_ne _ _ e]; exact h.sub j
  · intro l' hl'
    obtain ⟨l, hl, e⟩ := List.mem_filterMap.1 hl'
    rw [(hf l l' e).1]; exact h.lp l hl
  · intro l' hl' m' hm' e1 e2
    obtain ⟨l, hl, e⟩ := List.mem_filterMap.1 hl'
    obtain ⟨m, hm, e'⟩ := List.mem_filterMap.1 hm'
    obtain ⟨_, a1, a2, _⟩ := hf l l' e
    obtain ⟨_, b1, b2, _⟩ := hf m m' e'
    have := h.key l hl m hm (by omega) (by omega)
    subst this
    rw [e] at e'; exact Option.some.inj e'
  · intro l' hl' m' hm' e1 k k1 k2
    obtain ⟨l, hl, e⟩ := List.mem_filterMap.1 hl'
    obtain ⟨m, hm, e'⟩ := List.mem_filterMap.1 hm'
    obtain ⟨a0, a1, a2, a3⟩ := hf l l' e
    obtain ⟨b0, b1, b2, b3⟩ := hf m m' e'
    have := h.acc l hl m hm (by omega) k (by rw [← a3]; exact k1) (by rw [← b3]; exact k2)
    subst this
    rw [e] at e'; exact Option.some.inj e'
  · intro l' hl'
    obtain ⟨l, hl, e⟩ := List.mem_filterMap.1 hl'
    obtain ⟨a0, a1, a2, _⟩ := hf l l' e
    have henv : env E l' = env E l := by unfold env; rw [a0, a2]
    rw [henv]
    rcases hv l hl l' e with ⟨b1, b2⟩ | ⟨b1, sop, b0, b2⟩
    · subst b2
      have : view ⟨s.pubs, setAt s.subs q c', s.links.filterMap f⟩ l' = view s l' := by
        unfold view; dsimp only; rw [setAt_ne _ _ b1]
      rw [this]
      exact h.link _ hl
    · have : view ⟨s.pubs, setAt s.subs q c', s.links.filterMap f⟩ l' = ⟨s.pubs l.p, c', l'.acc, l'.down, l'.up, l'.err⟩ := by
        unfold view; dsimp only; rw [a1, b1, setAt_same, a0]
      rw [this]
      exact (h.link l hl).snoc0 b0 b2

theorem afterPub_key {s : Net} {p : Nat} {op : PubCtx.Op} {c : PubCtx} {l l' : Link} (h : afterPub s p op c l = some l') :
    l'.p = l.p ∧ l'.q = l.q ∧ l'.slot = l.slot ∧ l'.acc = l.acc := by
  unfold afterPub at h
  by_cases e : l.p = p
  · rw [if_pos e] at h
    by_cases e2 : Sys.leaves l.acc op = true
    · rw [if_pos e2] at h; cases h; exact ⟨rfl, rfl, rfl, rfl⟩
    · rw [if_neg e2] at h; cases h
  · rw [if_neg e] at h; cases h; exact ⟨rfl, rfl, rfl, rfl⟩

theorem afterSub_key {s : Net} {q : Nat} {op : SubCtx.Op} {c : SubCtx} {l l' : Link} (h : afterSub s q op c l = some l') :
    l'.p = l.p ∧ l'.q = l.q ∧ l'.slot = l.slot ∧ l'.acc = l.acc := by
  unfold afterSub at h
  by_cases e : l.q = q
  · rw [if_pos e] at h
    by_cases e2 : Sys.leavesSub l.slot op = true ∧ SubCtx.Live c l.slot
    · rw [if_pos e2] at h; cases h; exact ⟨rfl, rfl, rfl, rfl⟩
    · rw [if_neg e2] at h; cases h
  · rw [if_neg e] at h; cases h; exact ⟨rfl, rfl, rfl, rfl⟩

theorem afterPub_next {E : NetEnv} {s : Net} {p : Nat} {op : PubCtx.Op} (hc : Sys.callOk op = true) {r : Nat} {c' : PubCtx}
    (hx : PubCtx.step (s.pubs p) op = .ok (r, c')) {l l' : Link} (h : afterPub s p op c' l = some l') :
    (l.p ≠ p ∧ l' = l) ∨
      (l.p = p ∧ ∃ sop, Sys.next (env E l) (view s l) sop = some ⟨c', s.subs l.q, l'.acc, l'.down, l'.up, l'.err⟩) := by
  unfold afterPub at h
  by_cases e : l.p = p
  · rw [if_pos e] at h
    right
    refine ⟨e, .pub op, ?_⟩
    by_cases e2 : Sys.leaves l.acc op = true
    · rw [if_pos e2] at h
      cases h
      unfold Sys.next
      dsimp only
      rw [if_pos ⟨hc, e2⟩]
      have : (view s l).pub = s.pubs p := by rw [← e]; rfl
      rw [this, hx]
      rfl
    · rw [if_neg e2] at h; cases h
  · rw [if_neg e] at h; cases h; exact .inl ⟨e, rfl⟩

theorem afterSub_next {E : NetEnv} {N : Nat} {s : Net} (hi : NInv E N s) {q : Nat} {op : SubCtx.Op}
    (hh : ∀ r ∈ Sys.received op, heard E s r) {r : Nat} {c' : SubCtx}
    (hx : SubCtx.step (s.subs q) op = .ok (r, c')) {l l' : Link} (hl : l ∈ s.links) (h : afterSub s q op c' l = some l') :
    (l.q ≠ q ∧ l' = l) ∨
      (l.q = q ∧ ∃ sop, Sys.calls [sop] = 0 ∧ Sys.next (env E l) (view s l) sop = some ⟨s.pubs l.p, c', l'.acc, l'.down, l'.up, l'.err⟩) := by
  unfold afterSub at h
  by_cases e : l.q = q
  · rw [if_pos e] at h
    right
    refine ⟨e, .sub op, rfl, ?_⟩
    by_cases e2 : Sys.leavesSub l.slot op = true ∧ SubCtx.Live c' l.slot
    · rw [if_pos e2] at h
      cases h
      unfold Sys.next
      dsimp only
      rw [if_pos ⟨e2.1, fun r hr => heard_honest hi (hh r hr) hl⟩]
      have : (view s l).sub = s.subs q := by rw [← e]; rfl
      rw [this, hx]
      dsimp only
      rw [if_pos (show SubCtx.Live c' (env E l).slot from e2.2)]
      rfl
    · rw [if_neg e2] at h; cases h
  · rw [if_neg e] at h; cases h; exact .inl ⟨e, rfl⟩

theorem found {s : Net} {q slot : Nat} {a : Link} (h : s.links.find? (isAt q slot) = some a) : a ∈ s.links ∧ a.q = q ∧ a.slot = slot :=
  by
  have h2 := List.find?_some h
  unfold isAt at h2
  exact ⟨List.mem_of_find?_eq_some h, of_decide_eq_true h2⟩

theorem isAt_iff {q slot : Nat} {l : Link} : isAt q slot l = true ↔ l.q = q ∧ l.slot = slot := by
  unfold isAt; exact decide_eq_true_iff

/-- Every event keeps the invariant. -/
theorem NInv.step {E : NetEnv} {N : Nat} {s t : Net} (h : NInv E N s) {op : NetOp} (hb : N + calls [op] + 1 < U64)
    (ht : next E s op = some t) : NInv E (N + calls [op]) t := by
  cases op with
  | pub p op =>
    have hb : N + 2 < U64 := hb
    show NInv E (N + 1) t
    unfold next at ht
    dsimp only at ht
    by_cases hg : p < E.np ∧ Sys.callOk op = true
    · rw [if_pos hg] at ht
      cases hx : PubCtx.step (s.pubs p) op with
      | error f => rw [hx] at ht; cases ht
      | ok x =>
        rw [hx] at ht
        cases ht
        refine h.pubStep hb hg.1 hg.2 hx (fun l l' e => ?_) ?_ (fun l hl l' e => afterPub_next hg.2 hx e)
        · obtain ⟨a, b, d, _⟩ := afterPub_key e; exact ⟨a, b, d⟩
        · intro l hl m hm e l' m' e1 e2 k k1 k2
          exact h.acc l hl m hm e k (by rw [← (afterPub_key e1).2.2.2]; exact k1) (by rw [← (afterPub_key e2).2.2.2]; exact k2)
    · rw [if_neg hg] at ht; cases ht
  | sub q op =>
    show NInv E N t
    unfold next at ht
    dsimp only at ht
    by_cases hg : ∀ r ∈ Sys.received op, heard E s r
    · rw [if_pos hg] at ht
      cases hx : SubCtx.step (s.subs q) op with
      | error f => rw [hx] at ht; cases ht
      | ok x =>
        rw [hx] at ht
        cases ht
        exact h.subStep hx (fun l l' e => afterSub_key e) (fun l hl l' e => afterSub_next h hg hx hl e)
    · rw [if_neg hg] at ht; cases ht
  | accept q slot k ar cb =>
    have hb : N + 2 < U64 := hb
    show NInv E (N + 1) t
    unfold next at ht
    dsimp only at ht
    cases hf : s.links.find? (isAt q slot) with
    | none => rw [hf] at ht; cases ht
    | some a =>
      rw [hf] at ht
      dsimp only at ht
      obtain ⟨ha, hq, hsl⟩ := found hf
      by_cases hg : a.acc = none ∧ Sys.callOk (.readListen ar cb) = true ∧ ¬ PubCtx.Connected (s.pubs a.p) k
      · rw [if_pos hg] at ht
        cases hx : PubCtx.step (s.pubs a.p) (.readListen ar cb) with
        | error f => rw [hx] at ht; cases ht
        | ok x =>
          rw [hx] at ht
          dsimp only at ht
          by_cases hk : PubCtx.Connected x.2 k
          · rw [if_pos hk] at ht
            cases ht
            have hown : ∀ l ∈ s.links, isAt q slot l = true → l = a := by
              intro l hl e
              obtain ⟨e1, e2⟩ := isAt_iff.1 e
              exact h.key l hl a ha (by omega) (by omega)
            refine h.pubStep hb (h.lp a ha) hg.2.1 hx ?_ ?_ ?_
            · intro l l' e
              by_cases hi : isAt q slot l = true
              · rw [if_pos hi] at e; cases e; exact ⟨rfl, rfl, rfl⟩
              · rw [if_neg hi] at e
                obtain ⟨a, b, d, _⟩ := afterPub_key e; exact ⟨a, b, d⟩
            · intro l hl m hm e l' m' e1 e2 j j1 j2
              have hnew : ∀ m ∈ s.links, m.p = a.p → m.acc ≠ some k := by
                intro m hm e hmk
                have := (h.link m hm).connected (by omega) (k := k) hmk
                apply hg.2.2
                rw [← e]; exact this
              by_cases hi : isAt q slot l = true
              · have hla := hown l hl hi
                rw [if_pos hi] at e1
                by_cases hj : isAt q slot m = true
                · rw [hla, hown m hm hj]
                · exfalso
                  rw [if_neg hj] at e2
                  cases e1
                  have : k = j := Option.some.inj j1
                  subst this
                  refine hnew m hm (by rw [← e, hla]) ?_
                  rw [← (afterPub_key e2).2.2.2]; exact j2
              · rw [if_neg hi] at e1
                by_cases hj : isAt q slot m = true
                · exfalso
                  have hma := hown m hm hj
                  rw [if_pos hj] at e2
                  cases e2
                  have : k = j := Option.some.inj j2
                  subst this
                  refine hnew l hl (by rw [e, hma]) ?_
                  rw [← (afterPub_key e1).2.2.2]; exact j1
                · rw [if_neg hj] at e2
                  exact h.acc l hl m hm e j (by rw [← (afterPub_key e1).2.2.2]; exact j1) (by rw [← (afterPub_key e2).2.2.2]; exact j2)
            · intro l hl l' e
              by_cases hi : isAt q slot l = true
              · rw [if_pos hi] at e
                have hla := hown l hl hi
                subst hla
                cases e
                right
                refine ⟨rfl, .accept k ar cb, ?_⟩
                unfold Sys.next
                dsimp only
                rw [if_pos (show (view s l).acc = none ∧ _ ∧ ¬ PubCtx.Connected (view s l).pub k from ⟨hg.1, hg.2.1, hg.2.2⟩)]
                have : (view s l).pub = s.pubs l.p := rfl
                rw [this, hx]
                dsimp only
                rw [if_pos hk]
                rfl
              · rw [if_neg hi] at e
                exact afterPub_next hg.2.1 hx e
          · rw [if_neg hk] at ht; cases ht
      · rw [if_neg hg] at ht; cases ht
  | pubRead q slot n =>
    have hb : N + 2 < U64 := hb
    show NInv E (N + 1) t
    unfold next at ht
    dsimp only at ht
    cases hf : s.links.find? (isAt q slot) with
    | none => rw [hf] at ht; cases ht
    | some a =>
      rw [hf] at ht
      dsimp only at ht
      obtain ⟨ha, hq, hsl⟩ := found hf
      cases hk : a.acc with
      | none => rw [hk] at ht; cases ht
      | some k =>
        rw [hk] at ht
        dsimp only at ht
        by_cases hg : 0 < n ∧ n ≤ a.up.length ∧ n ≤ CircBuf.available ((s.pubs a.p).cv.conns k).readBuf
        · rw [if_pos hg] at ht
          cases hx : PubCtx.step (s.pubs a.p) (.read k (some (a.up.take n))) with
          | error f => rw [hx] at ht; cases ht
          | ok x =>
            rw [hx] at ht
            dsimp only at ht
            cases ht
            have hown : ∀ l ∈ s.links, isAt q slot l = true → l = a := by
              intro l hl e
              obtain ⟨e1, e2⟩ := isAt_iff.1 e
              exact h.key l hl a ha (by omega) (by omega)
            have hkey : ∀ l l', (if isAt q slot l = true then
                if PubCtx.Connected x.2 k then some { l with up := l.up.drop n, err := l.err || decide (x.1 = EPROTO) } else none
                else afterPub s a.p (.read k (some (a.up.take n))) x.2 l) = some l' →
                l'.p = l.p ∧ l'.q = l.q ∧ l'.slot = l.slot ∧ l'.acc = l.acc := by
              intro l l' e
              by_cases hi : isAt q slot l = true
              · rw [if_pos hi] at e
                by_cases hco : PubCtx.Connected x.2 k
                · rw [if_pos hco] at e; cases e; exact ⟨rfl, rfl, rfl, rfl⟩
                · rw [if_neg hco] at e; cases e
              · rw [if_neg hi] at e
                exact afterPub_key e
            refine h.pubStep hb (h.lp a ha) rfl hx ?_ ?_ ?_
            · intro l l' e
              obtain ⟨a, b, d, _⟩ := hkey l l' e; exact ⟨a, b, d⟩
            · intro l hl m hm e l' m' e1 e2 j j1 j2
              exact h.acc l hl m hm e j (by rw [← (hkey _ _ e1).2.2.2]; exact j1) (by rw [← (hkey _ _ e2).2.2.2]; exact j2)
            · intro l hl l' e
              by_cases hi : isAt q slot l = true
              · rw [if_pos hi] at e
                by_cases hco : PubCtx.Connected x.2 k
                · rw [if_pos hco] at e
                  have hla := hown l hl hi
                  subst hla
                  cases e
                  right
                  refine ⟨rfl, .pubRead n, ?_⟩
                  unfold Sys.next
                  dsimp only
                  have h1 : (view s l).acc = some k := hk
                  rw [h1]
                  dsimp only
                  rw [if_pos (show 0 < n ∧ n ≤ (view s l).up.length ∧ n ≤ CircBuf.available ((view s l).pub.cv.conns k).readBuf from hg)]
                  have h2 : PubCtx.step (view s l).pub (.read k (some ((view s l).up.take n))) = .ok x := hx
                  rw [h2]
                  dsimp only
                  rw [if_pos hco]
                  unfold view
                  dsimp only
                  rw [hk]
                · rw [if_neg hco] at e; cases e
              · rw [if_neg hi] at e
                exact afterPub_next rfl hx e
        · rw [if_neg hg] at ht; cases ht
  | subRead q slot n ts =>
    show NInv E N t
    unfold next at ht
    dsimp only at ht
    cases hf : s.links.find? (isAt q slot) with
    | none => rw [hf] at ht; cases ht
    | some a =>
      rw [hf] at ht
      dsimp only at ht
      obtain ⟨ha, hq, hsl⟩ := found hf
      by_cases hg : SubCtx.Up (s.subs q) slot ∧ 0 < n ∧ n ≤ a.down.length ∧ n ≤ CircBuf.available ((s.subs q).cv.conns slot).readBuf
      · rw [if_pos hg] at ht
        cases hx : SubCtx.step (s.subs q) (.read slot (some (a.down.take n)) ts) with
        | error f => rw [hx] at ht; cases ht
        | ok x =>
          rw [hx] at ht
          dsimp only at ht
          cases ht
          refine h.subStep hx ?_ ?_
          · intro l l' e
            by_cases hi : isAt q slot l = true
            · rw [if_pos hi] at e
              by_cases hco : SubCtx.Up x.2 slot
              · rw [if_pos hco] at e; cases e; exact ⟨rfl, rfl, rfl, rfl⟩
              · rw [if_neg hco] at e; cases e
            · rw [if_neg hi] at e
              exact afterSub_key e
          · intro l hl l' e
            by_cases hi : isAt q slot l = true
            · rw [if_pos hi] at e
              obtain ⟨e1, e2⟩ := isAt_iff.1 hi
              by_cases hco : SubCtx.Up x.2 slot
              · rw [if_pos hco] at e
                have hla := h.key l hl a ha (by omega) (by omega)
                subst hla
                cases e
                right
                refine ⟨e1, .subRead n ts, rfl, ?_⟩
                subst e1
                subst e2
                unfold Sys.next
                dsimp only
                rw [if_pos (show SubCtx.Up (view s l).sub (env E l).slot ∧ 0 < n ∧ n ≤ (view s l).down.length ∧
                  n ≤ CircBuf.available ((view s l).sub.cv.conns (env E l).slot).readBuf from hg)]
                have h2 : SubCtx.step (view s l).sub (.read (env E l).slot (some ((view s l).down.take n)) ts) = .ok x := hx
                rw [h2]
                dsimp only
                rw [if_pos (show SubCtx.Up x.2 (env E l).slot from hco)]
                rfl
              · rw [if_neg hco] at e; cases e
            · rw [if_neg hi] at e
              exact afterSub_next h (fun r hr => by cases hr) hx hl e
      · rw [if_neg hg] at ht; cases ht
  | link p q slot =>
    show NInv E N t
    unfold next at ht
    dsimp only at ht
    split at ht
    · rename_i hg
      cases ht
      obtain ⟨g1, g2, g3, g4, g5⟩ := hg
      have hno : ∀ l ∈ s.links, ¬ (l.q = q ∧ l.slot = slot) := by
        intro l hl e
        have := List.find?_eq_none.1 (Option.isNone_iff_eq_none.1 g2) l hl
        exact this (isAt_iff.2 e)
      refine ⟨h.pub, h.ids, h.addr, h.sub, ?_, ?_, ?_, ?_⟩
      · intro l hl
        rcases List.mem_cons.1 hl with rfl | hl
        · exact g1
        · exact h.lp l hl
      · intro l hl m hm e1 e2
        rcases List.mem_cons.1 hl with rfl | hl
        · rcases List.mem_cons.1 hm with rfl | hm
          · rfl
          · exact absurd ⟨e1.symm, e2.symm⟩ (hno m hm)
        · rcases List.mem_cons.1 hm with rfl | hm
          · exact absurd ⟨e1, e2⟩ (hno l hl)
          · exact h.key l hl m hm e1 e2
      · intro l hl m hm e k k1 k2
        rcases List.mem_cons.1 hl with rfl | hl
        · cases k1
        · rcases List.mem_cons.1 hm with rfl | hm
          · cases k2
          · exact h.acc l hl m hm e k k1 k2
      · intro l hl
        rcases List.mem_cons.1 hl with rfl | hl
        · obtain ⟨ops, a, b, d⟩ := h.pub p g1
          refine ⟨N, view s ⟨p, q, slot, none, [], [], false⟩, [], ⟨⟨ops, a, b, d⟩, h.ids p g1, h.sub q, ⟨g3, g4⟩, ?_, rfl, rfl, rfl, rfl⟩, ?_, rfl⟩
          · exact ⟨congrArg Prod.fst g5, congrArg Prod.snd g5⟩
          · exact Nat.le_refl N
        · exact h.link l hl
    · cases ht
  | lost q slot =>
    show NInv E N t
    unfold next at ht
    cases ht
    have hm : ∀ l, l ∈ s.links.filter (fun l => !isAt q slot l) → l ∈ s.links := fun l hl => (List.mem_filter.1 hl).1
    exact ⟨h.pub, h.ids, h.addr, h.sub, fun l hl => h.lp l (hm l hl), fun l hl m hm' => h.key l (hm l hl) m (hm m hm'),
      fun l hl m hm' => h.acc l (hm l hl) m (hm m hm'), fun l hl => h.link l (hm l hl)⟩

theorem calls_append : ∀ (a b : List NetOp), calls (a ++ b) = calls a + calls b := by
  intro a
  induction a with
  | nil => intro b; simp [calls]
  | cons op a ih => intro b; rw [List.cons_append]; cases op <;> simp only [calls, ih] <;> omega

theorem calls_cons (op : NetOp) (ops : List NetOp) : calls (op :: ops) = calls [op] + calls ops := calls_append [op] ops

theorem run_append {E : NetEnv} : ∀ (a b : List NetOp) (s : Net), run E s (a ++ b) = (run E s a).bind fun t => run E t b := by
  intro a
  induction a with
  | nil => intro b s; rfl
  | cons op a ih =>
    intro b s
    show (next E s op).bind _ = ((next E s op).bind _).bind _
    cases next E s op with
    | none => rfl
    | some t => exact ih b t

theorem NInv.run {E : NetEnv} : ∀ (ops : List NetOp) {N : Nat} {s t : Net}, NInv E N s → N + calls ops + 1 < U64 → run E s ops = some t →
    NInv E (N + calls ops) t := by
  intro ops
  induction ops with
  | nil => intro N s t h _ ht; cases ht; exact h
  | cons op ops ih =>
    intro N s t h hb ht
    change (next E s op).bind _ = _ at ht
    rw [calls_cons] at hb ⊢
    cases hn : next E s op with
    | none => rw [hn] at ht; cases ht
    | some u =>
      rw [hn] at ht
      have := ih (h.step (by omega) hn) (by omega) ht
      rw [← Nat.add_assoc]
      exact this

end Net
end Rmc
