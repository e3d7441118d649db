import Verif.NetLive
import Verif.Props.Sys
import Verif.Props.SysLive

/-! # Any number of publishers and subscribers (C70, C71)

`Net.run E s0 ops = some s`: the history `ops` leads the network from `s0` to `s`.  A link `l ∈ s.links` is a TCP connection from slot `l.slot` of
subscriber `l.q` to publisher `l.p`; `l.acc = some k`: the publisher has accepted it, in its slot `k`; `l.down`, `l.up`: the bytes written
into it and not yet read, to the subscriber and to the publisher; `l.err`: the publisher has seen a protocol error on it. -/

set_option linter.unusedVariables false

namespace Rmc
namespace Net
open PLog CircBuf

/-- The history of a link in the network is one of the two-party system. -/
theorem Reached.link {E : NetEnv} {s : Net} (h : Reached E s) {l : Link} (hl : l ∈ s.links) : Sys.Reached (env E l) (view s l) := by
  obtain ⟨n, s0, ops, h1, h2, h3⟩ := h
  obtain ⟨m, t0, tops, k1, k2, k3⟩ := ((NInv.start h1).run ops h2 h3).link l hl
  exact ⟨m, t0, tops, k1, by omega, k3⟩

/-- The packets delivered to the application of the subscriber over a link. -/
def delivered (s : Net) (l : Link) : List SPkt := SubCtx.deliveredAt l.slot (s.subs l.q).log
/-- The packets that have arrived, by multicast or over the link. -/
def arrived (s : Net) (l : Link) : List Nat := (SubCtx.arrivedAt l.slot (s.subs l.q).log).map (·.1.pid)
/-- The packets queued by the application of publisher `p`, in order. -/
def queued (s : Net) (p : Nat) : List (Nat × Payload) := queuedPkts (s.pubs p).pub.log
/-- Everything between publisher and subscriber of a link accepted in slot `k`. -/
def stream (s : Net) (l : Link) (k : Nat) : List UInt8 :=
  bytes ((s.subs l.q).cv.conns l.slot).readBuf ++ l.down ++ bytes ((s.pubs l.p).cv.conns k).writeBuf

/-- C70: however many publishers and subscribers share the multicast group, what a subscriber delivers over a link that is up is a contiguous
piece of what the publisher of this link has queued: nothing of another publisher, nothing missing, repeated, reordered, altered. -/
theorem C70_delivery {E : NetEnv} {s : Net} (h : Reached E s) {l : Link} (hl : l ∈ s.links) (hu : SubCtx.Up (s.subs l.q) l.slot) :
    ∃ b, (delivered s l).map (·.payload.data) = (((queued s l.p).map (·.2.data)).drop b).take (delivered s l).length ∧
      (delivered s l).map (·.pid) = (((queued s l.p).map (·.1)).drop b).take (delivered s l).length :=
  Sys.C49_end_to_end (h.link hl) hu

theorem sorted_ext {a b : List Nat} (ha : a.Pairwise (· < ·)) (hb : b.Pairwise (· < ·)) (h : ∀ x, x ∈ a ↔ x ∈ b) : a = b := by
  induction a generalizing b with
  | nil =>
    cases b with
    | nil => rfl
    | cons y b => exact absurd ((h y).2 (by simp)) (by simp)
  | cons x a ih =>
    cases b with
    | nil => exact absurd ((h x).1 (by simp)) (by simp)
    | cons y b =>
      rw [List.pairwise_cons] at ha hb
      have e : x = y := by
        rcases List.mem_cons.1 ((h x).1 (by simp)) with e | e
        · exact e
        · rcases List.mem_cons.1 ((h y).2 (by simp)) with e' | e'
          · exact e'.symm
          · have := ha.1 y e'; have := hb.1 x e; omega
      subst e
      rw [ih ha.2 hb.2]
      intro z
      have := h z
      simp only [List.mem_cons] at this
      constructor
      · intro hz
        rcases this.1 (.inr hz) with e | e
        · subst e; exact absurd (ha.1 _ hz) (by omega)
        · exact e
      · intro hz
        rcases this.2 (.inr hz) with e | e
        · subst e; exact absurd (hb.1 _ hz) (by omega)
        · exact e

/-- C70: two subscribers of the same publisher agree: they deliver the packets both of them deliver in the same order and with the same bytes. -/
theorem C70_agree {E : NetEnv} {s : Net} (h : Reached E s) {l m : Link} (hl : l ∈ s.links) (hm : m ∈ s.links) (hp : l.p = m.p)
    (hul : SubCtx.Up (s.subs l.q) l.slot) (hum : SubCtx.Up (s.subs m.q) m.slot) :
    ((delivered s l).filter fun x => decide (x.pid ∈ (delivered s m).map (·.pid))).map (fun x => (x.pid, x.payload.data)) =
    ((delivered s m).filter fun x => decide (x.pid ∈ (delivered s l).map (·.pid))).map (fun x => (x.pid, x.payload.data)) := by
  obtain ⟨n, s0, nops, hs, hb, hrun⟩ := h
  have hinv := (NInv.start hs).run nops hb hrun
  have h : Reached E s := ⟨n, s0, nops, hs, hb, hrun⟩
  obtain ⟨ops, hr, _⟩ := hinv.pub l.p (hinv.lp l hl)
  have hq := Sys.queued_ids hr
  have hq' : (queued s l.p).map (·.1) = List.range' 1 (queued s l.p).length := hq
  have hsort : ((queued s l.p).map (·.1)).Pairwise (· < ·) := by rw [hq']; exact List.pairwise_lt_range'
  have hinj : ∀ i x y, (i, x) ∈ (queued s l.p).map (fun z => (z.1, z.2.data)) → (i, y) ∈ (queued s l.p).map (fun z => (z.1, z.2.data)) → x = y := by
    intro i x y hx hy
    obtain ⟨u, hu, eu⟩ := List.mem_map.1 hx
    obtain ⟨v, hv, ev⟩ := List.mem_map.1 hy
    have : u = v := by
      obtain ⟨iu, hiu, e1⟩ := List.mem_iff_getElem.1 hu
      obtain ⟨iv, hiv, e2⟩ := List.mem_iff_getElem.1 hv
      have nd : ((queued s l.p).map (·.1)).Nodup := by rw [hq']; exact List.nodup_range'
      have : iu = iv := by
        apply (List.getElem_inj (h₀ := by rw [List.length_map]; exact hiu) (h₁ := by rw [List.length_map]; exact hiv) nd).1
        rw [List.getElem_map, List.getElem_map, e1, e2]
        rw [congrArg Prod.fst eu, congrArg Prod.fst ev]
      subst this
      rw [← e1, ← e2]
    subst this
    exact (congrArg Prod.snd eu).symm.trans (congrArg Prod.snd ev)
  -- one list is a piece of what is queued
  have pair : ∀ k ∈ s.links, k.p = l.p → SubCtx.Up (s.subs k.q) k.slot → ∃ b, (delivered s k).map (fun x => (x.pid, x.payload.data)) =
      (((queued s l.p).map (fun z => (z.1, z.2.data))).drop b).take (delivered s k).length := by
    intro k hk e hu
    obtain ⟨b, b1, b2⟩ := C70_delivery h hk hu
    rw [e] at b1 b2
    refine ⟨b, ?_⟩
    apply List.ext_getElem?
    intro i
    have c1 := congrArg (·[i]?) b1
    have c2 := congrArg (·[i]?) b2
    simp only [List.getElem?_map, List.getElem?_take, List.getElem?_drop] at c1 c2 ⊢
    by_cases hi : i < (delivered s k).length
    · rw [if_pos hi] at c1 c2 ⊢
      cases h1 : (delivered s k)[i]? with
      | none => rw [List.getElem?_eq_none_iff] at h1; omega
      | some x =>
        cases h2 : (queued s l.p)[b + i]? with
        | none => rw [h1, h2] at c1; cases c1
        | some y =>
          rw [h1, h2] at c1 c2
          simp only [Option.map_some] at c1 c2 ⊢
          rw [Option.some.inj c1, Option.some.inj c2]
    · rw [if_neg hi] at c1 ⊢
      rw [List.getElem?_eq_none (by omega)]; rfl
  obtain ⟨bl, el⟩ := pair l hl rfl hul
  obtain ⟨bm, em⟩ := pair m hm hp.symm hum
  have fmap : ∀ (d : List SPkt) (c : List Nat), (d.filter fun x => decide (x.pid ∈ c)).map (fun x => (x.pid, x.payload.data)) =
      (d.map fun x => (x.pid, x.payload.data)).filter fun y => decide (y.1 ∈ c) := by
    intro d c
    rw [List.filter_map]; rfl
  rw [fmap, fmap]
  have sub1 : ∀ (k : List SPkt) b, k.map (fun x => (x.pid, x.payload.data)) = (((queued s l.p).map (fun z => (z.1, z.2.data))).drop b).take k.length →
      (k.map (fun x => (x.pid, x.payload.data))).Sublist ((queued s l.p).map (fun z => (z.1, z.2.data))) := by
    intro k b e
    rw [e]
    exact (List.take_sublist _ _).trans (List.drop_sublist _ _)
  have sl := sub1 _ bl el
  have sm := sub1 _ bm em
  have hfst : ∀ a : List (Nat × List UInt8), a.Sublist ((queued s l.p).map (fun z => (z.1, z.2.data))) → (a.map (·.1)).Pairwise (· < ·) := by
    intro a ha
    have := ha.map (fun z : Nat × List UInt8 => z.1)
    rw [List.map_map] at this
    exact hsort.sublist this
  have hmemid : ∀ (d : List SPkt) i, i ∈ d.map (·.pid) ↔ ∃ x, (i, x) ∈ d.map (fun x => (x.pid, x.payload.data)) := by
    intro d i
    constructor
    · intro h
      obtain ⟨x, hx, rfl⟩ := List.mem_map.1 h
      exact ⟨_, List.mem_map.2 ⟨x, hx, rfl⟩⟩
    · rintro ⟨x, h⟩
      obtain ⟨y, hy, e⟩ := List.mem_map.1 h
      exact List.mem_map.2 ⟨y, hy, congrArg Prod.fst e⟩
  -- a sublist of what is queued is determined by its ids
  have hdet : ∀ a b : List (Nat × List UInt8), a.Sublist ((queued s l.p).map (fun z => (z.1, z.2.data))) →
      b.Sublist ((queued s l.p).map (fun z => (z.1, z.2.data))) → a.map (·.1) = b.map (·.1) → a = b := by
    intro a
    have aux : ∀ (a b : List (Nat × List UInt8)), (∀ x ∈ a, x ∈ (queued s l.p).map (fun z => (z.1, z.2.data))) →
        (∀ x ∈ b, x ∈ (queued s l.p).map (fun z => (z.1, z.2.data))) → a.map (·.1) = b.map (·.1) → a = b := by
      intro a
      induction a with
      | nil => intro b _ _ e; cases b with | nil => rfl | cons y b => cases e
      | cons x a ih =>
        intro b ha hb e
        cases b with
        | nil => cases e
        | cons y b =>
          rw [List.map_cons, List.map_cons, List.cons.injEq] at e
          have h1 := ha x (by simp)
          have h2 := hb y (by simp)
          have : x = y := by
            rcases x with ⟨i, x⟩
            rcases y with ⟨j, y⟩
            have e1 : i = j := e.1
            subst e1
            rw [hinj i x y h1 h2]
          rw [this, ih b (fun z hz => ha z (by simp [hz])) (fun z hz => hb z (by simp [hz])) e.2]
    intro b ha hb e
    exact aux a b (fun x hx => ha.subset hx) (fun x hx => hb.subset hx) e
  apply hdet _ _ (List.filter_sublist.trans sl) (List.filter_sublist.trans sm)
  apply sorted_ext (hfst _ (List.filter_sublist.trans sl)) (hfst _ (List.filter_sublist.trans sm))
  intro i
  simp only [List.mem_map, List.mem_filter, decide_eq_true_eq]
  constructor
  · rintro ⟨x, ⟨⟨y, hy, rfl⟩, ⟨z, hz, e⟩⟩, rfl⟩
    exact ⟨_, ⟨⟨z, hz, rfl⟩, ⟨y, hy, e.symm⟩⟩, e⟩
  · rintro ⟨x, ⟨⟨y, hy, rfl⟩, ⟨z, hz, e⟩⟩, rfl⟩
    exact ⟨_, ⟨⟨z, hz, rfl⟩, ⟨y, hy, e.symm⟩⟩, e⟩

/-- C70: for every link that is accepted and on which the publisher has not seen a protocol error: every packet multicast since it was accepted is
still held for the subscriber, or is on its way as a complete frame in the stream of the link, or has arrived. -/
theorem C70_nothing_lost {E : NetEnv} {s : Net} (h : Reached E s) {l : Link} (hl : l ∈ s.links) {k : Nat} (hk : l.acc = some k)
    (he : l.err = false) :
    ∃ ps : List (Nat × Payload), (∀ x ∈ ps, x ∈ queued s l.p) ∧
      stream s l k = (ps.map fun x => CMD_PACKET :: ((PacketHeader.mk x.1 (s.pubs l.p).nodeId x.2.data.length (s.pubs l.p).listenIp
          (s.pubs l.p).listenPort).enc ++ x.2.data)).flatten ∧
      ∀ pid ∈ PubCtx.sentTo k (s.pubs l.p).pub.log,
        (pid ∈ (s.pubs l.p).pub.outstanding k ∧ pid ∉ (frees (s.pubs l.p).pub.log).map (·.1)) ∨ pid ∈ ps.map (·.1) ∨
        (SubCtx.Up (s.subs l.q) l.slot ∧ pid ∈ arrived s l) :=
  Sys.C50_nothing_lost (h.link hl) hk he

/-- C70: a payload is not given back to the application of a publisher before every subscriber it was multicast to has got it or has all of it on
its way in the stream. -/
theorem C70_released {E : NetEnv} {s : Net} (h : Reached E s) {p pid : Nat} (hf : pid ∈ (frees (s.pubs p).pub.log).map (·.1))
    {l : Link} (hl : l ∈ s.links) (hp : l.p = p) {k : Nat} (hk : l.acc = some k) (he : l.err = false)
    (hs : pid ∈ PubCtx.sentTo k (s.pubs p).pub.log) :
    (∃ ps : List (Nat × Payload), pid ∈ ps.map (·.1) ∧
      stream s l k = (ps.map fun x => CMD_PACKET :: ((PacketHeader.mk x.1 (s.pubs p).nodeId x.2.data.length (s.pubs p).listenIp
          (s.pubs p).listenPort).enc ++ x.2.data)).flatten) ∨
    (SubCtx.Up (s.subs l.q) l.slot ∧ pid ∈ arrived s l) := by
  subst hp
  exact Sys.C50_released (h.link hl) hk he hs hf

/-- C71, the part that holds: from every state of the network, once the packets publisher `p` holds are overdue, there is a schedule of TCP calls
only (writes and timeout processing of `p`, at most `(held + 2) * (slots + 1)` of them, and reads of subscribers) after which every one of
its subscribers has everything that was multicast to it. A link counts if it is accepted, no protocol error has been seen on it, it is up at the
subscriber, and the subscriber's read buffer is not in a state the trim defect can spoil (see C68_recovers_partial). -/
theorem C71_recovers_partial {E : NetEnv} {n : Nat} {s0 s : Net} {pre : List NetOp} (hs : Start E n s0) (hr : run E s0 pre = some s)
    (p : Nat) (now ts : Int) (cb : Option (Bool × List UInt8)) (sp : Nat)
    (hall : ∀ j, PubCtx.Connected (s.pubs p) j → ∀ x ∈ (s.pubs p).pub.owedPkts j, x.2.2 + (s.pubs p).resendTimeout ≤ now)
    (hn : n + calls pre + (PubCtx.held (s.pubs p) + 2) * ((s.pubs p).cv.size + 1) + 1 < U64) :
    ∃ post s', run E s post = some s' ∧ (∀ op ∈ post, isFlush p now op = true ∨ isRead op = true) ∧
      calls post ≤ (PubCtx.held (s.pubs p) + 2) * ((s.pubs p).cv.size + 1) ∧
      ∀ l ∈ s.links, l.p = p → ∀ k, l.acc = some k → l.err = false → SubCtx.Up (s.subs l.q) l.slot →
        ((s.subs l.q).cv.conns l.slot).readBuf.start = 0 →
        ∃ l' ∈ s'.links, l'.p = l.p ∧ l'.q = l.q ∧ l'.slot = l.slot ∧ l'.acc = some k ∧ l'.err = false ∧
          SubCtx.Up (s'.subs l'.q) l'.slot ∧ (s'.pubs p).pub.outstanding k = [] ∧ stream s' l' k = [] ∧
          PubCtx.sentTo k (s'.pubs p).pub.log = PubCtx.sentTo k (s.pubs p).pub.log ∧
          (∀ pid ∈ PubCtx.sentTo k (s.pubs p).pub.log, pid ∈ arrived s' l') ∧
          ∀ b, (arrived s' l').head? = some b → b ∈ PubCtx.sentTo k (s'.pubs p).pub.log →
            ∀ pid ∈ PubCtx.sentTo k (s.pubs p).pub.log, b ≤ pid → pid ∈ (delivered s' l').map (·.pid) := by
  have hinv : NInv E (n + calls pre) s := (NInv.start hs).run pre (by omega) hr
  by_cases hex : ∃ a ∈ s.links, a.p = p
  · obtain ⟨a, ha, rfl⟩ := hex
    obtain ⟨m, hm, hi⟩ : ∃ m, m ≤ n + calls pre ∧ Sys.Inv (env E a) m (view s a) := by
      rcases (hinv.link a ha).inv (by omega) with h | h
      · exact ⟨_, Nat.le_refl _, h⟩
      · exact h
    have hn' : m + (PubCtx.held (s.pubs a.p) + 2) * ((s.pubs a.p).cv.size + 1) + 1 < U64 := by omega
    obtain ⟨o1, t, a1, a2, a3, a4, a5, a6⟩ := Sys.settle_all hi now cb sp hall hn'
    have a1' : Sys.calls o1 ≤ (PubCtx.held (s.pubs a.p) + 2) * ((s.pubs a.p).cv.size + 1) := a1
    obtain ⟨p1, s1, b1, b2, b3, b4, b5, b6, b7⟩ := lift_flush o1 hinv ha a2 (by omega) a3
    have h1 : NInv E (n + calls pre + calls p1) s1 := hinv.run p1 (by omega) b1
    obtain ⟨p2, s2, c1, c2, c3, c4⟩ := read_links (E := E) (N := n + calls pre + calls p1) (by omega) ts (s1.links.map fun l => (l.q, l.slot)) h1
    have hz := calls_reads p2 c2
    have hrun : run E s (p1 ++ p2) = some s2 := by rw [run_append, b1]; exact c1
    have hreach : Reached E s2 := by
      refine ⟨n, s0, pre ++ (p1 ++ p2), hs, by rw [calls_append, calls_append]; omega, ?_⟩
      rw [run_append, hr]; exact hrun
    refine ⟨p1 ++ p2, s2, hrun, ?_, by rw [calls_append]; omega, ?_⟩
    · intro op hop
      rcases List.mem_append.1 hop with hop | hop
      · exact .inl (b2 op hop)
      · exact .inr (c2 op hop)
    intro l hl hp k hk he hu h0
    obtain ⟨l1, d1, d2⟩ := b7 l hl
    have hpub1 : s1.pubs l1.p = t.pub := by rw [d2.p, hp, b5]
    have hk1 : l1.acc = some k := by rw [d2.acc, hk]
    have hc1 : PubCtx.Connected t.pub k := by
      have := (h1.link l1 d1).connected (by omega) (k := k) hk1
      rw [← hpub1]; exact this
    have hready : Ready s1 l1 := by
      refine ⟨?_, ?_, ?_⟩
      · unfold Sys.wbytes view
        dsimp only
        rw [hk1, hpub1]
        exact a5 k hc1
      · rw [b4, d2.q, d2.slot]; exact hu
      · rw [b4, d2.q, d2.slot]; exact h0
    obtain ⟨l2, e1, e2, e3, e4, _⟩ := c4 l1 d1 hready
    have hem := e4 (List.mem_map.2 ⟨l1, d1, rfl⟩)
    have hcont := d2.trans e2
    have hpub2 : s2.pubs a.p = t.pub := by rw [c3, b5]
    have hp2 : l2.p = a.p := by rw [hcont.p, hp]
    have hk2 : l2.acc = some k := by rw [hcont.acc, hk]
    have hout : (s2.pubs a.p).pub.outstanding k = [] := by
      rw [hpub2]
      obtain ⟨pp, q1, q2, q3⟩ := h1.pub l1.p (h1.lp l1 d1)
      rw [hpub1] at q1
      obtain ⟨pops, L, g, _⟩ := q1.good
      rw [Rmc.outstanding_owed g.p.reached.rel, a6 k hc1]; rfl
    have hstream : stream s2 l2 k = [] := by
      unfold stream
      rw [hem.1, hem.2, hp2, hpub2, a5 k hc1]; rfl
    obtain ⟨es, f1, f2⟩ := hcont.plog k hk
    rw [hp] at f1
    have hmono : ∀ pid ∈ PubCtx.sentTo k (s.pubs a.p).pub.log, pid ∈ PubCtx.sentTo k (s2.pubs a.p).pub.log := by
      intro pid hpid
      rw [f1, PubCtx.sentTo_append_of f2]; exact List.mem_append_left _ hpid
    have hview : (view s2 l2).pub = s2.pubs a.p := by unfold view; dsimp only; rw [hp2]
    obtain ⟨g1, g2⟩ := Sys.C51_rest_partial (hreach.link e1) (k := k) hk2 (by show l2.err = false; rw [hcont.err, he]) e3.2.1
      (by rw [hview]; exact hout) (by exact hstream)
    rw [hview] at g1 g2
    refine ⟨l2, e1, hcont.p, hcont.q, hcont.slot, hk2, by rw [hcont.err, he], e3.2.1, hout, hstream, ?_, fun pid hpid => g1 pid (hmono pid hpid), ?_⟩
    · have hq : ∀ op ∈ p1 ++ p2, isFlush a.p now op = true ∨ isRead op = true := by
        intro op hop
        rcases List.mem_append.1 hop with hop | hop
        · exact .inl (b2 op hop)
        · exact .inr (c2 op hop)
      have hun := flush_unsent (p1 ++ p2) hinv (by rw [calls_append]; omega) hrun hq a.p (hinv.lp a ha)
      rw [f1, sentPkts_append] at hun
      have : sentPkts es = [] := by
        have := congrArg List.length hun
        rw [List.length_append] at this
        exact List.eq_nil_of_length_eq_zero (by omega)
      rw [f1, PubCtx.sentTo_append_of f2, this]; simp
    intro b hb hbs pid hpid hle
    obtain ⟨mm, hi', _⟩ := (hreach.link e1).inv
    obtain ⟨ops, r1, _, _⟩ := hi'.pub
    rw [hview] at r1
    exact g2 b pid hb hle fun q q1 q2 => .inl (PubCtx.sentTo_between r1 hbs (hmono pid hpid) q1 q2)
  · exact ⟨[], s, rfl, by simp, Nat.zero_le _, fun l hl hp => absurd ⟨l, hl, hp⟩ hex⟩

/-! ## Examples: two publishers, each with its own packets 1, 2, 3; subscriber 0 is connected to both, subscriber 1 to the first one -/

def exN : NetEnv := ⟨2, fun p => 77 + p⟩
/-- Publisher `p` is node `7 + p` and listens on address 1, port `2 + p`. -/
def exNPub (p : Nat) : PubCtx :=
  PubCtx.init (fun _ => ⟨0, .none, none, 0, CircBuf.init (fun _ => 0) 1, CircBuf.init (fun _ => 0) 1, .closed, 0, 0⟩) 2 (7 + p) 1 (2 + p)
/-- A datagram of publisher `p`. -/
def exND (p pid : Nat) (data : List UInt8) (ts : Int) : SubCtx.RecvRes :=
  .dgram (77 + p) ((PacketHeader.mk pid (7 + p) data.length 1 (2 + p)).enc ++ data) ts none (.ok (50 + p)) .inProgress
/-- Every subscriber before the history: activated, and an announcement of each publisher has come in. -/
def exNSub : List SubCtx.Op := [.activate (.ok 3), .readMcast [exND 0 0 [] 1, exND 1 0 [] 1]]

/-- Check a property of the network a history leads to. -/
def netAfter (ops : List NetOp) (P : Net → Bool) : Bool :=
  match PubCtx.run (exNPub 0) Sys.exP, PubCtx.run (exNPub 1) Sys.exP, SubCtx.run SubCtx.exS0 exNSub with
  | .ok p, .ok p', .ok q =>
    decide (p.2.nodeId = 7 ∧ p.2.listenIp = 1 ∧ p.2.listenPort = 2 ∧ p'.2.nodeId = 8 ∧ p'.2.listenIp = 1 ∧ p'.2.listenPort = 3) &&
    (match run exN ⟨fun i => if i = 0 then p.2 else p'.2, fun _ => q.2, []⟩ ops with
     | some s => P s
     | none => false)
  | _, _, _ => false

theorem net_started {ops : List NetOp} {P : Net → Bool} (h : netAfter ops P = true) :
    ∃ s0 s, Start exN 2 s0 ∧ run exN s0 ops = some s ∧ P s = true := by
  unfold netAfter at h
  cases hp : PubCtx.run (exNPub 0) Sys.exP with
  | error f => rw [hp] at h; cases h
  | ok p =>
    cases hp' : PubCtx.run (exNPub 1) Sys.exP with
    | error f => rw [hp, hp'] at h; cases h
    | ok p' =>
      cases hq : SubCtx.run SubCtx.exS0 exNSub with
      | error f => rw [hp, hp', hq] at h; cases h
      | ok q =>
        rw [hp, hp', hq] at h
        dsimp only at h
        rw [Bool.and_eq_true, decide_eq_true_eq] at h
        obtain ⟨⟨h1, h2, h3, h4, h5, h6⟩, h⟩ := h
        cases hr : run exN ⟨fun i => if i = 0 then p.2 else p'.2, fun _ => q.2, []⟩ ops with
        | none => rw [hr] at h; cases h
        | some s =>
          rw [hr] at h
          refine ⟨_, s, ?_, hr, h⟩
          have hu : (8 : Nat) < U32 := by decide
          have two : ∀ i, i < exN.np → i = 0 ∨ i = 1 := fun i hi => by have : i < 2 := hi; omega
          refine ⟨?_, ?_, ?_, fun _ => ⟨exNSub, q.1, _, 2, 9, by decide, hq⟩, rfl⟩
          · intro i hi
            rcases two i hi with rfl | rfl
            · exact ⟨Sys.exP, ⟨_, 2, 7, 1, 2, p.1, by decide, by simp [Sys.exP, PubCtx.Op.sane], by decide, hp⟩,
                by simp [Sys.exP, Sys.callOk], by decide⟩
            · exact ⟨Sys.exP, ⟨_, 2, 8, 1, 3, p'.1, by decide, by simp [Sys.exP, PubCtx.Op.sane], by decide, hp'⟩,
                by simp [Sys.exP, Sys.callOk], by decide⟩
          · intro i hi
            rcases two i hi with rfl | rfl
            · dsimp only; rw [if_pos rfl, h1, h2, h3]; decide
            · dsimp only; rw [if_neg (by decide), h4, h5, h6]; decide
          · intro i j hi hj e
            unfold address at e
            rcases two i hi with rfl | rfl <;> rcases two j hj with rfl | rfl
            · rfl
            · have e2 : p.2.listenPort = p'.2.listenPort := congrArg Prod.snd e
              rw [h3, h6] at e2; exact absurd e2 (by decide)
            · have e2 : p'.2.listenPort = p.2.listenPort := congrArg Prod.snd e
              rw [h3, h6] at e2; exact absurd e2 (by decide)
            · rfl

theorem net_calls_le : ∀ ops : List NetOp, calls ops ≤ ops.length
  | [] => Nat.le_refl _
  | op :: ops => by
    have := net_calls_le ops
    cases op <;> simp only [calls, List.length_cons] <;> omega

theorem net_reached {ops : List NetOp} {P : Net → Bool} (hl : 2 + ops.length + 1 < U64) (h : netAfter ops P = true) :
    ∃ s, Reached exN s ∧ P s = true := by
  obtain ⟨s0, s, h1, h2, h3⟩ := net_started h
  exact ⟨s, ⟨2, s0, ops, h1, by have := net_calls_le ops; omega, h2⟩, h3⟩

/-- A payload of publisher `p`. -/
def exNPay (p n : Nat) : Payload := ⟨100 * p + n, [n.toUInt8, p.toUInt8], false⟩
/-- The three connections are set up; each publisher multicasts three packets. Subscriber 0 misses packet 2 of publisher 0, subscriber 1 misses
packet 3 of publisher 0; the acknowledgements of both reach publisher 0. -/
def exNet : List NetOp :=
  [.link 0 0 0, .link 1 0 1, .link 0 1 0,
   .sub 0 (.write 0 (.ok 0) none (.ok 0)), .sub 0 (.write 1 (.ok 0) none (.ok 0)), .sub 1 (.write 0 (.ok 0) none (.ok 0)),
   .accept 0 0 0 (.ok 5 1) none, .accept 1 0 1 (.ok 6 1) none, .accept 0 1 0 (.ok 5 1) none,
   .pub 0 (.queue (exNPay 0 1) false), .pub 0 (.queue (exNPay 0 2) false), .pub 0 (.queue (exNPay 0 3) false),
   .pub 1 (.queue (exNPay 1 1) false), .pub 1 (.queue (exNPay 1 2) false), .pub 1 (.queue (exNPay 1 3) false),
   .pub 0 (.writeMcast [⟨.ok 10, []⟩, ⟨.ok 20, []⟩, ⟨.ok 30, []⟩]),
   .pub 1 (.writeMcast [⟨.ok 10, []⟩, ⟨.ok 20, []⟩, ⟨.ok 30, []⟩]),
   .sub 0 (.readMcast [exND 0 1 [1, 0] 1000, exND 1 1 [1, 1] 1000, exND 0 3 [3, 0] 1000, exND 1 2 [2, 1] 1000, exND 0 1 [1, 0] 1100]),
   .sub 1 (.readMcast [exND 0 1 [1, 0] 1000, exND 1 3 [3, 1] 1000, exND 0 2 [2, 0] 1000]),
   .sub 0 (.timeout 60000), .sub 0 (.write 0 (.ok 0) none (.ok 34)), .pubRead 0 0 5, .pubRead 0 0 29]

/-- Both subscribers miss a packet of publisher 0, not the same one; publisher 0 holds what it has to, and nothing got mixed up with publisher 1. The
hypotheses of C71_recovers_partial are met at time 200000. -/
example : ∃ s0 s, Start exN 2 s0 ∧ run exN s0 exNet = some s ∧ decide (s.links.map (fun l => (l.p, l.q, l.slot, l.acc, l.err)) =
      [(0, 1, 0, some 1, false), (1, 0, 1, some 0, false), (0, 0, 0, some 0, false)] ∧
    (∀ l ∈ s.links, SubCtx.Up (s.subs l.q) l.slot ∧ ((s.subs l.q).cv.conns l.slot).readBuf.start = 0) ∧
    s.links.map (fun l => (delivered s l).map (fun (x : SPkt) => (x.pid, x.payload.data))) =
      [[(1, [1, 0]), (2, [2, 0])], [(1, [1, 1]), (2, [2, 1])], [(1, [1, 0])]] ∧
    s.links.map (fun l => arrived s l) = [[1, 2], [1, 2], [1, 3, 1]] ∧
    (s.pubs 0).pub.outstanding 0 = [2] ∧ (s.pubs 0).pub.outstanding 1 = [1, 2, 3] ∧ PubCtx.sentTo 0 (s.pubs 0).pub.log = [1, 2, 3] ∧
    PubCtx.sentTo 1 (s.pubs 0).pub.log = [1, 2, 3] ∧
    (s.pubs 0).cv.size = 2 ∧ (∀ j ∈ List.range 2, ∀ x ∈ (s.pubs 0).pub.owedPkts j, x.2.2 + (s.pubs 0).resendTimeout ≤ 200000) ∧
    2 + calls exNet + (PubCtx.held (s.pubs 0) + 2) * ((s.pubs 0).cv.size + 1) + 1 < U64) = true :=
  net_started (ops := exNet) (P := fun s => decide _) (by decide +kernel)

/-- The frames are resent; the subscribers read them, subscriber 0 in two pieces. -/
def exNetEnd : List NetOp :=
  [.pub 0 (.timeout 200000 none 0), .pub 0 (.write 0 (.ok 23)), .pub 0 (.write 1 (.ok 69)),
   .subRead 0 0 7 200100, .subRead 1 0 69 200100, .subRead 0 0 16 200200]

/-- Both subscribers have everything, and nothing is left. -/
example : ∃ s, Reached exN s ∧ decide (s.links.map (fun l => (l.p, l.q, l.slot, l.acc, l.err)) =
      [(0, 1, 0, some 1, false), (1, 0, 1, some 0, false), (0, 0, 0, some 0, false)] ∧
    (∀ l ∈ s.links, SubCtx.Up (s.subs l.q) l.slot) ∧
    s.links.map (fun l => (delivered s l).map (fun (x : SPkt) => (x.pid, x.payload.data))) =
      [[(1, [1, 0]), (2, [2, 0]), (3, [3, 0])], [(1, [1, 1]), (2, [2, 1])], [(1, [1, 0]), (2, [2, 0]), (3, [3, 0])]] ∧
    (frees (s.pubs 0).pub.log).map (·.1) = [3, 2, 1] ∧
    (s.pubs 0).pub.outstanding 0 = [] ∧ (s.pubs 0).pub.outstanding 1 = []) = true :=
  net_reached (ops := exNet ++ exNetEnd) (P := fun s => decide _) (by decide) (by decide +kernel)

/-- A read that ends the connection in the two-party system ends the link. -/
theorem subRead_lost {E : NetEnv} {s t : Net} (h : Reached E s) {l : Link} (hl : l ∈ s.links) {n : Nat} {ts : Int}
    (hv : Sys.next (env E l) (view s l) (.subRead n ts) = none) (ht : next E s (.subRead l.q l.slot n ts) = some t) :
    ∀ m ∈ t.links, ¬ (m.q = l.q ∧ m.slot = l.slot) := by
  obtain ⟨n0, s0, nops, hs, hb, hrun⟩ := h
  have hinv := (NInv.start hs).run nops hb hrun
  unfold next at ht
  dsimp only at ht
  cases hf : s.links.find? (isAt l.q l.slot) with
  | none => rw [hf] at ht; cases ht
  | some a =>
    rw [hf] at ht
    obtain ⟨f1, f2, f3⟩ := found hf
    have ha : a = l := hinv.key a f1 l hl f2 f3
    subst ha
    dsimp only at ht
    split at ht
    · rename_i hg
      cases hx : SubCtx.step (s.subs a.q) (.read a.slot (some (a.down.take n)) ts) with
      | error f => rw [hx] at ht; cases ht
      | ok x =>
        rw [hx] at ht
        have e := Option.some.inj ht
        have hu : ¬ SubCtx.Up x.2 a.slot := by
          intro hu
          unfold Sys.next at hv
          dsimp only at hv
          have hg' : SubCtx.Up (view s a).sub (env E a).slot ∧ 0 < n ∧ n ≤ (view s a).down.length ∧
            n ≤ CircBuf.available ((view s a).sub.cv.conns (env E a).slot).readBuf := hg
          have hx' : SubCtx.step (view s a).sub (.read (env E a).slot (some ((view s a).down.take n)) ts) = .ok x := hx
          have hu' : SubCtx.Up x.2 (env E a).slot := hu
          rw [if_pos hg', hx'] at hv
          dsimp only at hv
          rw [if_pos hu'] at hv
          cases hv
        intro m hm hk
        rw [← e] at hm
        obtain ⟨y, _, hy⟩ := List.mem_filterMap.1 hm
        split at hy
        · cases hy
        · rename_i hne
          obtain ⟨_, k2, k3, _⟩ := afterSub_key hy
          exact hne (isAt_iff.2 ⟨by rw [← k2]; exact hk.1, by rw [← k3]; exact hk.2⟩)
    · cases ht

/-- Subscriber 0 is connected to publisher 0, which multicasts two packets, of 2 and of 30 bytes; both are lost and resent, the newer one first; the
subscriber reads that one and one byte of the other. -/
def exNetWedge : List NetOp :=
  [.link 0 0 0, .sub 0 (.write 0 (.ok 0) none (.ok 0)), .accept 0 0 0 (.ok 5 1) none, .pub 0 (.queue (exNPay 0 1) false),
   .pub 0 (.queue ⟨1, List.replicate 30 9, false⟩ false), .pub 0 (.writeMcast [⟨.ok 10, []⟩, ⟨.ok 20, []⟩]),
   .pub 0 (.timeout 200000 none 0), .pub 0 (.write 0 (.ok 74)), .subRead 0 0 52 200100]

/-- C71 is not true of the code without the condition on the read buffer: packet 1 has been multicast to the subscriber and has not arrived, the
publisher does not hold it any more, all the rest of it is in the stream; and every read from the link ends it. -/
theorem C71_false : ∃ s l, Reached exN s ∧ l ∈ s.links ∧ l.p = 0 ∧ l.q = 0 ∧ l.slot = 0 ∧ l.acc = some 0 ∧ l.err = false ∧
    SubCtx.Up (s.subs 0) 0 ∧ (s.pubs 0).pub.outstanding 0 = [] ∧ 1 ∈ PubCtx.sentTo 0 (s.pubs 0).pub.log ∧ 1 ∉ arrived s l ∧
    ∀ n ts t, next exN s (.subRead 0 0 n ts) = some t → ∀ m ∈ t.links, ¬ (m.q = 0 ∧ m.slot = 0) := by
  obtain ⟨s, h, h2⟩ := net_reached (ops := exNetWedge) (P := fun s => decide ((∃ l ∈ s.links, l.p = 0 ∧ l.q = 0 ∧ l.slot = 0 ∧ l.acc = some 0 ∧
    l.err = false ∧ 1 ∉ arrived s l ∧ l.down.length = 22) ∧ SubCtx.Up (s.subs 0) 0 ∧ (s.pubs 0).pub.outstanding 0 = [] ∧
    1 ∈ PubCtx.sentTo 0 (s.pubs 0).pub.log ∧ ((s.subs 0).cv.conns 0).readBuf.start = 51 ∧ inUse ((s.subs 0).cv.conns 0).readBuf = 1))
    (by decide) (by decide +kernel)
  obtain ⟨⟨l, hl, e1, e2, e3, e4, e5, e6, e7⟩, b1, b2, b3, b4, b5⟩ := of_decide_eq_true h2
  refine ⟨s, l, h, hl, e1, e2, e3, e4, e5, b1, b2, b3, e6, ?_⟩
  intro n ts t ht
  have := subRead_lost h hl (n := n) (ts := ts) (t := t) (Sys.wedged (h.link hl) (by show SubCtx.Up (s.subs l.q) l.slot; rw [e2, e3]; exact b1) e7
    (by show ((s.subs l.q).cv.conns l.slot).readBuf.start = 51; rw [e2, e3]; exact b4)
    (by show inUse ((s.subs l.q).cv.conns l.slot).readBuf = 1; rw [e2, e3]; exact b5) n ts) (by rw [e2, e3]; exact ht)
  rw [e2, e3] at this
  exact this

end Net
end Rmc
