import Verif.SubCtxLemmas

/-! # Invariants of the subscriber context -/

set_option linter.unusedSimpArgs false
set_option linter.unusedVariables false

namespace Rmc
namespace SubCtx
variable {tm : Nat}
open SubPub CircBuf ConnVec

/-- What holds of a subscriber context between small steps. -/
structure Core (c : SubCtx) : Prop where
  v : ∃ L, VInv c.cv L
  buf : c.cv.bufSize = RMC_MAX_PACKET
  wb : ∀ i, i < c.cv.size → WF (c.cv.conns i).writeBuf ∧ (c.cv.conns i).writeBuf.size = RMC_MAX_PACKET
  fresh : ∀ i, i < c.cv.size → (c.cv.conns i).mode ≠ .connected →
    Fresh (c.cv.conns i).readBuf RMC_MAX_PACKET ∧ Fresh (c.cv.conns i).writeBuf RMC_MAX_PACKET
  recd : ∀ i, Up c i → ∃ s, c.publishers i = some s
  recLt : ∀ i s, c.publishers i = some s → i < c.cv.size
  idle : ∀ i s, c.publishers i = some s → ¬ Up c i → s.received = [] ∧ s.intervals = []
  ackInit : ∀ i ∈ c.ackList, ∃ s, c.publishers i = some s
  settled : ∀ i s, c.publishers i = some s → Settled s
  slot : ∀ i s, c.publishers i = some s → ∀ p ∈ s.received, p.slot = i

theorem fresh_WF {b : CircBuf} (h : Fresh b RMC_MAX_PACKET) : WF b ∧ b.size = RMC_MAX_PACKET := by
  have e : RMC_MAX_PACKET = 65400 := rfl
  obtain ⟨h1, h2, h3⟩ := h
  refine ⟨⟨?_, ?_, ?_, ?_, ?_⟩, h1⟩ <;> omega

theorem fresh_bytes {b : CircBuf} {n : Nat} (h : Fresh b n) (hn : n < U32) : bytes b = [] := by
  obtain ⟨h1, h2, h3⟩ := h
  rw [← inUse_zero_iff]
  unfold inUse
  rw [h2, h3, if_pos (Nat.le_refl _)]
  rw [sub32_eq (Nat.le_refl _) (by decide)]

theorem init_fresh (mem : Nat → UInt8) (n : Nat) : Fresh (CircBuf.init mem n) n := ⟨rfl, rfl, rfl⟩

theorem settled_init : Settled SubPub.init := settled_of (.inl rfl)

theorem Core_init (mem : Nat → Conn) (maxPubs nodeId : Nat) (h : maxPubs ≤ LISTEN_INDEX) :
    Core (init mem maxPubs nodeId) := by
  refine ⟨⟨[], VInv_init _ _ _ h⟩, rfl, ?_, ?_, ?_, ?_, ?_, ?_, ?_, ?_⟩
  · intro i hi; exact fresh_WF (init_fresh _ _)
  · intro i hi _; exact ⟨init_fresh _ _, init_fresh _ _⟩
  · intro i hu; exact absurd hu.2 (by simp [init, ConnVec.init, resetConn])
  · intro i s hs; cases hs
  · intro i s hs; cases hs
  · intro i hi; cases hi
  · intro i s hs; cases hs
  · intro i s hs; cases hs

/-- Changes that leave the connections and records alone. -/
theorem Core.congr {c c' : SubCtx} (h : Core c) (hc : c'.cv = c.cv) (hp : c'.publishers = c.publishers)
    (ha : ∀ i ∈ c'.ackList, i ∈ c.ackList) : Core c' := by
  obtain ⟨a1, a2, a3, a4, a5, a6, a7, a8, a9, a10⟩ := h
  have hu : ∀ i, Up c' i ↔ Up c i := by intro i; unfold Up; rw [hc]
  refine ⟨by rw [hc]; exact a1, by rw [hc]; exact a2, by rw [hc]; exact a3, by rw [hc]; exact a4, ?_, ?_, ?_, ?_, ?_, ?_⟩
  · intro i h; rw [hp]; exact a5 i ((hu i).1 h)
  · rw [hp, hc]; exact a6
  · intro i s h1 h2; rw [hp] at h1; exact a7 i s h1 (fun x => h2 ((hu i).2 x))
  · intro i h; rw [hp]; exact a8 i (ha i h)
  · rw [hp]; exact a9
  · rw [hp]; exact a10

theorem Core.polls {c : SubCtx} (h : Core c) (es : List PollEv) : Core { c with cv := { c.cv with polls := es } } := by
  obtain ⟨a1, a2, a3, a4, a5, a6, a7, a8, a9, a10⟩ := h
  obtain ⟨L, hL⟩ := a1
  exact ⟨⟨L, VInv_polls hL es⟩, a2, a3, a4, a5, a6, a7, a8, a9, a10⟩

theorem Core.fds {c : SubCtx} (h : Core c) (es : List FdEv) : Core { c with cv := { c.cv with fds := es } } := by
  obtain ⟨a1, a2, a3, a4, a5, a6, a7, a8, a9, a10⟩ := h
  obtain ⟨L, hL⟩ := a1
  exact ⟨⟨L, hL.nodup, hL.lt, hL.desc, hL.mode, hL.active, hL.max, hL.maxLe, hL.clean, hL.idx, hL.sz⟩, a2, a3, a4, a5, a6, a7, a8, a9, a10⟩

/-- Changes of one connection that is up, which stays up. -/
theorem Core.setUp {c : SubCtx} (h : Core c) {i : Nat} (hu : Up c i) {x : Conn} (hm : x.mode = .connected)
    (hd : x.desc = (c.cv.conns i).desc) (hx : x.index = i) (hw : WF x.writeBuf) (hz : x.writeBuf.size = RMC_MAX_PACKET) :
    Core (setConn c i x) := by
  obtain ⟨a1, a2, a3, a4, a5, a6, a7, a8, a9, a10⟩ := h
  obtain ⟨L, hL⟩ := a1
  have hi : i ∈ L := (hL.mode i hu.1).1 (by rw [hu.2]; decide)
  have hsz : (setConn c i x).cv.size = c.cv.size := rfl
  have hci : ∀ j, (setConn c i x).cv.conns j = if j = i then x else c.cv.conns j := fun j => rfl
  have hup : ∀ j, Up (setConn c i x) j ↔ Up c j := by
    intro j; unfold Up; rw [hci, hsz]
    by_cases e : j = i
    · subst e; rw [if_pos rfl, hm, hu.2]
    · rw [if_neg e]
  refine ⟨⟨L, ?_⟩, a2, ?_, ?_, ?_, a6, ?_, a8, a9, a10⟩
  · have := VInv_set hL hi x (by rw [hd]; exact (hL.desc i hu.1).2 hi) (by rw [hm]; decide) hx c.cv.polls
    exact this
  · intro j hj; rw [hci]
    by_cases e : j = i
    · rw [if_pos e]; exact ⟨hw, hz⟩
    · rw [if_neg e]; exact a3 j hj
  · intro j hj hn; rw [hci] at hn ⊢
    by_cases e : j = i
    · rw [if_pos e] at hn; exact absurd hm hn
    · rw [if_neg e] at hn ⊢; exact a4 j hj hn
  · intro j hj; exact a5 j ((hup j).1 hj)
  · intro j s h1 h2; exact a7 j s h1 (fun y => h2 ((hup j).2 y))

/-- Changes of one record. -/
theorem Core.setPub {c : SubCtx} (h : Core c) {i : Nat} (hi : i < c.cv.size) {s : SubPub} (hs : Settled s)
    (hp : ∀ p ∈ s.received, p.slot = i) (hid : ¬ Up c i → s.received = [] ∧ s.intervals = []) : Core (setPub c i s) := by
  obtain ⟨a1, a2, a3, a4, a5, a6, a7, a8, a9, a10⟩ := h
  have hpi : ∀ j, (SubCtx.setPub c i s).publishers j = if j = i then some s else c.publishers j := fun j => rfl
  refine ⟨a1, a2, a3, a4, ?_, ?_, ?_, ?_, ?_, ?_⟩
  · intro j hj; rw [hpi]
    by_cases e : j = i
    · rw [if_pos e]; exact ⟨_, rfl⟩
    · rw [if_neg e]; exact a5 j hj
  · intro j t; rw [hpi]
    by_cases e : j = i
    · rw [if_pos e]; intro _; rw [e]; exact hi
    · rw [if_neg e]; exact a6 j t
  · intro j t; rw [hpi]
    by_cases e : j = i
    · subst e; rw [if_pos rfl]; intro ht; cases ht; exact hid
    · rw [if_neg e]; exact a7 j t
  · intro j hj; rw [hpi]
    by_cases e : j = i
    · rw [if_pos e]; exact ⟨_, rfl⟩
    · rw [if_neg e]; exact a8 j hj
  · intro j t; rw [hpi]
    by_cases e : j = i
    · subst e; rw [if_pos rfl]; intro ht; cases ht; exact hs
    · rw [if_neg e]; exact a9 j t
  · intro j t; rw [hpi]
    by_cases e : j = i
    · subst e; rw [if_pos rfl]; intro ht; cases ht; exact hp
    · rw [if_neg e]; exact a10 j t

theorem insertAckRev_mem {c : SubCtx} {i : Nat} {n : Int} : ∀ {l r : List Nat}, insertAckRev c i n l = .ok r →
    ∀ j, j ∈ r ↔ j = i ∨ j ∈ l := by
  intro l
  induction l with
  | nil => intro r h j; cases h; simp
  | cons k ks ih =>
    intro r h j
    unfold insertAckRev at h
    obtain ⟨o, h1, h2⟩ := PubCtx.bind_ok h
    split at h2
    · cases h2; simp
    · obtain ⟨x, h3, h4⟩ := PubCtx.bind_ok h2
      cases h4
      rw [List.mem_cons, ih h3 j, List.mem_cons]
      grind

theorem AckNoted.mem {c : SubCtx} {i : Nat} {s : SubPub} {m : Bool} {al : List Nat} (h : AckNoted c i s m al) :
    (∀ j ∈ al, j = i ∨ j ∈ c.ackList) ∧ (∀ j ∈ c.ackList, j ∈ al) ∧ (m = true → s.intervals = [] → i ∈ al) := by
  rcases h with ⟨rfl, h⟩ | ⟨h1, h2, l, h3, rfl⟩
  · refine ⟨fun j hj => .inr hj, fun j hj => hj, fun hm hi => absurd ?_ (h hm)⟩
    unfold oldest; rw [hi]
  · have := insertAckRev_mem h3
    refine ⟨fun j hj => ?_, fun j hj => ?_, fun _ _ => ?_⟩
    · rcases (this j).1 (List.mem_reverse.1 hj) with h | h
      · exact .inl h
      · exact .inr (List.mem_reverse.1 h)
    · exact List.mem_reverse.2 ((this j).2 (.inr (List.mem_reverse.2 hj)))
    · exact List.mem_reverse.2 ((this i).2 (.inl rfl))

/-- Every small step preserves the invariant. -/
theorem Core.micro {c c' : SubCtx} (m : Micro tm c c') (h : Core c) : Core c' := by
  have e0 : RMC_MAX_PACKET = 65400 := rfl
  cases m with
  | user hx he => exact h.congr rfl rfl (fun _ x => x)
  | cb hk => exact h.congr rfl rfl (fun _ x => x)
  | setCb f hk => exact h.congr rfl rfl (fun _ x => x)
  | annCb a => exact h.congr rfl rfl (fun _ x => x)
  | sock m es hes hfs => exact ((h.polls (c.cv.polls ++ es)).fds (c.cv.fds ++ _)).congr rfl rfl (fun _ x => x)
  | dup hu hs hp hd hk => exact h.congr rfl rfl (fun _ x => x)
  | @recv i s hu hs pid data m ts hd al ha =>
    have hsl := h.slot i s hs
    have h1 := h.setPub (i := i) hu.1 (s := (process (received' s ⟨c.nextAddr, pid, ⟨c.nextAddr, data, false⟩, i⟩ m ts)).1)
      (settled_process _) (by
        intro p hp
        have : p ∈ (received' s ⟨c.nextAddr, pid, ⟨c.nextAddr, data, false⟩, i⟩ m ts).received := by
          rw [← process_parts]; exact List.mem_append_right _ hp
        rcases received_mem.1 this with rfl | hq
        · rfl
        · exact hsl p hq) (fun hn => absurd hu hn)
    obtain ⟨a1, a2, a3, a4, a5, a6, a7, a8, a9, a10⟩ := h1
    refine ⟨a1, a2, a3, a4, a5, a6, a7, ?_, a9, a10⟩
    intro j hj
    rcases ha.mem.1 j hj with rfl | hj
    · exact a5 j hu
    · exact a8 j hj
  | @io i hu rb a es =>
    have h1 := h.setUp hu (x := { c.cv.conns i with readBuf := rb, action := a }) hu.2 rfl
      (by obtain ⟨L, hL⟩ := h.v; exact hL.idx i) (h.wb i hu.1).1 (h.wb i hu.1).2
    exact (h1.polls (c.cv.polls ++ es)).congr rfl rfl (fun _ x => x)
  | @taken i s iv rest hs hi ha =>
    have h1 := h.setPub (i := i) (h.recLt i s hs) (s := { s with intervals := rest })
      (settled_congr (h.settled i s hs) rfl rfl) (h.slot i s hs) (by
        intro hn
        have := (h.idle i s hs hn).2
        rw [hi] at this; cases this)
    exact h1.congr rfl rfl (fun _ x => x)
  | @dropAck i is ha s hs hi =>
    exact h.congr rfl rfl (fun j hj => by rw [ha]; exact List.mem_cons_of_mem _ hj)
  | @msg i hu b e xs hw hz hb he =>
    have h1 := h.setUp hu (x := { c.cv.conns i with writeBuf := b, action := (c.cv.conns i).action.setW }) hu.2 rfl
      (by obtain ⟨L, hL⟩ := h.v; exact hL.idx i) hw (by rw [hz]; exact (h.wb i hu.1).2)
    exact (h1.polls (c.cv.polls ++ [.modify i (c.cv.conns i).desc (c.cv.conns i).action (c.cv.conns i).action.setW])).congr
      rfl rfl (fun _ x => x)
  | @out i hu b xs hw hz hb a es =>
    have h1 := h.setUp hu (x := { c.cv.conns i with writeBuf := b, action := a }) hu.2 rfl
      (by obtain ⟨L, hL⟩ := h.v; exact hL.idx i) hw (by rw [hz]; exact (h.wb i hu.1).2)
    exact (h1.polls (c.cv.polls ++ es)).congr rfl rfl (fun _ x => x)
  | @connect i addr port nid d L hv hL hi v hv' h1 h2 h3 h4 h5 =>
    obtain ⟨a1, a2, a3, a4, a5, a6, a7, a8, a9, a10⟩ := h
    have hm : (c.cv.conns i).mode = .closed := by
      cases hh : (c.cv.conns i).mode with
      | closed => rfl
      | connecting => exact absurd ((hv.mode i hi).1 (by rw [hh]; decide)) hL
      | connected => exact absurd ((hv.mode i hi).1 (by rw [hh]; decide)) hL
    have hup : ∀ j, Up { c with cv := v, log := c.log ++ [.connect i addr port] } j ↔ Up c j := by
      intro j
      unfold Up
      show j < v.size ∧ (v.conns j).mode = _ ↔ _
      rw [h1]
      by_cases e : j = i
      · subst e; rw [h4]; simp [hm]
      · rw [h3 j e]
    refine ⟨⟨_, hv'⟩, by rw [← a2]; exact h2, ?_, ?_, ?_, ?_, ?_, a8, a9, a10⟩
    · intro j hj
      show WF (v.conns j).writeBuf ∧ _
      by_cases e : j = i
      · subst e; rw [h4]; exact a3 j hi
      · rw [h3 j e]; exact a3 j (h1 ▸ hj)
    · intro j hj hn
      show Fresh (v.conns j).readBuf _ ∧ Fresh (v.conns j).writeBuf _
      by_cases e : j = i
      · subst e; rw [h4]; exact a4 j hi (by rw [hm]; decide)
      · have hn' : (v.conns j).mode ≠ .connected := hn
        rw [h3 j e] at hn' ⊢; exact a4 j (h1 ▸ hj) hn'
    · intro j hj; exact a5 j ((hup j).1 hj)
    · intro j s hs; show j < v.size; rw [h1]; exact a6 j s hs
    · intro j s hs hn; exact a7 j s hs (fun y => hn ((hup j).2 y))
  | @noConnect L hv v hv' h1 h2 h3 h4 =>
    obtain ⟨a1, a2, a3, a4, a5, a6, a7, a8, a9, a10⟩ := h
    have hcl : ∀ j, j < c.cv.size → j ∉ L → (c.cv.conns j).mode = .closed ∧ (v.conns j).mode = .closed := by
      intro j hj hn
      constructor
      · cases hh : (c.cv.conns j).mode with
        | closed => rfl
        | connecting => exact absurd ((hv.mode j hj).1 (by rw [hh]; decide)) hn
        | connected => exact absurd ((hv.mode j hj).1 (by rw [hh]; decide)) hn
      · cases hh : (v.conns j).mode with
        | closed => rfl
        | connecting => exact absurd ((hv'.mode j (h1 ▸ hj)).1 (by rw [hh]; decide)) hn
        | connected => exact absurd ((hv'.mode j (h1 ▸ hj)).1 (by rw [hh]; decide)) hn
    have hup : ∀ j, Up { c with cv := v } j ↔ Up c j := by
      intro j
      unfold Up
      show j < v.size ∧ (v.conns j).mode = _ ↔ _
      rw [h1]
      by_cases e : j ∈ L
      · rw [h4 j e]
      · constructor
        · rintro ⟨x, y⟩; rw [(hcl j x e).2] at y; cases y
        · rintro ⟨x, y⟩; rw [(hcl j x e).1] at y; cases y
    have hfr : ∀ j, j < c.cv.size → j ∉ L → Fresh (v.conns j).readBuf RMC_MAX_PACKET ∧ Fresh (v.conns j).writeBuf RMC_MAX_PACKET := by
      intro j hj hn
      have := hv'.clean j (h1 ▸ hj) hn
      rw [h2, a2] at this
      exact ⟨this.1, this.2.1⟩
    refine ⟨⟨_, hv'⟩, by rw [← a2]; exact h2, ?_, ?_, ?_, ?_, ?_, a8, a9, a10⟩
    · intro j hj
      show WF (v.conns j).writeBuf ∧ _
      by_cases e : j ∈ L
      · rw [h4 j e]; exact a3 j (h1 ▸ hj)
      · exact fresh_WF (hfr j (h1 ▸ hj) e).2
    · intro j hj hn
      show Fresh (v.conns j).readBuf _ ∧ Fresh (v.conns j).writeBuf _
      by_cases e : j ∈ L
      · have hn' : (v.conns j).mode ≠ .connected := hn
        rw [h4 j e] at hn' ⊢; exact a4 j (h1 ▸ hj) hn'
      · exact hfr j (h1 ▸ hj) e
    · intro j hj; exact a5 j ((hup j).1 hj)
    · intro j s hs; show j < v.size; rw [h1]; exact a6 j s hs
    · intro j s hs hn; exact a7 j s hs (fun y => hn ((hup j).2 y))
  | @complete i hi hm =>
    have h0 := h.setPub hi settled_init (by intro p hp; cases hp) (fun _ => ⟨rfl, rfl⟩)
    obtain ⟨a1, a2, a3, a4, a5, a6, a7, a8, a9, a10⟩ := h0
    obtain ⟨L, hL⟩ := a1
    have hiL : i ∈ L := (hL.mode i hi).1 (by show (c.cv.conns i).mode ≠ _; rw [hm]; decide)
    refine ⟨⟨L, ?_⟩, a2, ?_, ?_, ?_, a6, ?_, a8, a9, a10⟩
    · exact VInv_set hL hiL { c.cv.conns i with mode := .connected, action := .R } ((hL.desc i hi).2 hiL) (by simp) (hL.idx i) _
    · intro j hj
      show WF (if j = i then _ else _ : Conn).writeBuf ∧ (if j = i then _ else _ : Conn).writeBuf.size = _
      by_cases e : j = i
      · subst e; rw [if_pos rfl]; exact a3 j hi
      · rw [if_neg e]; exact a3 j hj
    · intro j hj hn
      have hn' : (if j = i then { c.cv.conns i with mode := .connected, action := .R } else c.cv.conns j : Conn).mode ≠ .connected := hn
      show Fresh (if j = i then _ else _ : Conn).readBuf _ ∧ Fresh (if j = i then _ else _ : Conn).writeBuf _
      by_cases e : j = i
      · rw [if_pos e] at hn'; exact absurd rfl hn'
      · rw [if_neg e] at hn'
        rw [if_neg e]; exact a4 j hj hn'
    · intro j hj
      by_cases e : j = i
      · subst e; exact ⟨_, by show (if j = j then _ else _) = _; rw [if_pos rfl]⟩
      · refine a5 j ⟨hj.1, ?_⟩
        have := hj.2
        have h' : (if j = i then { c.cv.conns i with mode := .connected, action := .R } else c.cv.conns j : Conn).mode = .connected := this
        rw [if_neg e] at h'; exact h'
    · intro j s hs hn
      refine a7 j s hs (fun y => hn ⟨y.1, ?_⟩)
      show (if j = i then { c.cv.conns i with mode := .connected, action := .R } else c.cv.conns j : Conn).mode = .connected
      by_cases e : j = i
      · rw [if_pos e]
      · rw [if_neg e]; exact y.2
  | @noComplete i hi hm L hv v hv' h1 h2 h3 h4 xs hx =>
    have h0 := h.setPub hi settled_init (by intro p hp; cases hp) (fun _ => ⟨rfl, rfl⟩)
    obtain ⟨a1, a2, a3, a4, a5, a6, a7, a8, a9, a10⟩ := h0
    have hfi : Fresh (v.conns i).readBuf RMC_MAX_PACKET ∧ Fresh (v.conns i).writeBuf RMC_MAX_PACKET := by
      rw [h4, h.buf]; exact ⟨init_fresh _ _, init_fresh _ _⟩
    refine ⟨⟨_, hv'⟩, by rw [← h.buf]; exact h2, ?_, ?_, ?_, ?_, ?_, a8, a9, a10⟩
    · intro j hj
      show WF (v.conns j).writeBuf ∧ _
      by_cases e : j = i
      · subst e; exact fresh_WF hfi.2
      · rw [h3 j e]; exact a3 j (h1 ▸ hj)
    · intro j hj hn
      show Fresh (v.conns j).readBuf _ ∧ Fresh (v.conns j).writeBuf _
      by_cases e : j = i
      · subst e; exact hfi
      · have hn' : (v.conns j).mode ≠ .connected := hn
        rw [h3 j e] at hn' ⊢; exact a4 j (h1 ▸ hj) hn'
    · intro j hj
      by_cases e : j = i
      · subst e; exact ⟨_, by show (if j = j then _ else _) = _; rw [if_pos rfl]⟩
      · have hj1 : j < v.size := hj.1
        have hj2 : (v.conns j).mode = .connected := hj.2
        rw [h3 j e] at hj2
        exact a5 j ⟨h1 ▸ hj1, hj2⟩
    · intro j s hs; show j < v.size; rw [h1]; exact a6 j s hs
    · intro j s hs hn
      refine a7 j s hs (fun y => ?_)
      have y1 : j < c.cv.size := y.1
      have y2 : (c.cv.conns j).mode = .connected := y.2
      by_cases e : j = i
      · subst e; rw [hm] at y2; cases y2
      · exact hn ⟨by show j < v.size; rw [h1]; exact y1, by show (v.conns j).mode = _; rw [h3 j e]; exact y2⟩
  | @close i s hi hs =>
    obtain ⟨L, hL⟩ := h.v
    have hs0 : Settled (reset s).1 := settled_of (.inl rfl)
    obtain ⟨v, hv, hvd⟩ : ∃ v, v = (ConnVec.close c.cv i).2 ∧ (closedAt c i s).cv = v := ⟨_, rfl, rfl⟩
    have key : ∃ L', VInv v L' ∧ v.size = c.cv.size ∧ v.bufSize = c.cv.bufSize ∧ (∀ j, j ≠ i → v.conns j = c.cv.conns j) ∧
        (v.conns i).mode ≠ .connected ∧ Fresh (v.conns i).readBuf RMC_MAX_PACKET ∧ Fresh (v.conns i).writeBuf RMC_MAX_PACKET := by
      by_cases hiL : i ∈ L
      · obtain ⟨q1, q2, q3, q4, q5, q6, q7⟩ := (close_spec hL i).1 hiL
        refine ⟨_, hv ▸ q2, hv ▸ q3, hv ▸ q4, hv ▸ q5, ?_, ?_, ?_⟩ <;> rw [hv, q6]
        · simp [resetConn]
        · rw [h.buf]; exact init_fresh _ _
        · rw [h.buf]; exact init_fresh _ _
      · have q := (close_spec hL i).2 hiL
        rw [q.2] at hv
        have hm : (c.cv.conns i).mode ≠ .connected := by
          intro hc; exact hiL ((hL.mode i hi).1 (by rw [hc]; decide))
        exact ⟨L, hv ▸ hL, by rw [hv], by rw [hv], fun j _ => by rw [hv], by rw [hv]; exact hm, by rw [hv]; exact (h.fresh i hi hm).1,
          by rw [hv]; exact (h.fresh i hi hm).2⟩
    obtain ⟨L', k1, k2, k3, k4, k5, k6, k7⟩ := key
    have hpi : ∀ j, (closedAt c i s).publishers j = if j = i then some (reset s).1 else c.publishers j := fun j => rfl
    have hup : ∀ j, Up (closedAt c i s) j ↔ Up c j ∧ j ≠ i := by
      intro j; unfold Up; rw [hvd, k2]
      by_cases e : j = i
      · subst e; simp [k5]
      · rw [k4 j e]; simp [e]
    obtain ⟨a1, a2, a3, a4, a5, a6, a7, a8, a9, a10⟩ := h
    refine ⟨⟨L', hvd ▸ k1⟩, by rw [hvd, k3, a2], ?_, ?_, ?_, ?_, ?_, ?_, ?_, ?_⟩
    · intro j hj; rw [hvd] at hj ⊢
      by_cases e : j = i
      · subst e; exact fresh_WF k7
      · rw [k4 j e]; exact a3 j (k2 ▸ hj)
    · intro j hj hn; rw [hvd] at hj hn ⊢
      by_cases e : j = i
      · subst e; exact ⟨k6, k7⟩
      · rw [k4 j e] at hn ⊢; exact a4 j (k2 ▸ hj) hn
    · intro j hj; rw [hpi]
      by_cases e : j = i
      · rw [if_pos e]; exact ⟨_, rfl⟩
      · rw [if_neg e]; exact a5 j ((hup j).1 hj).1
    · intro j t; rw [hpi, hvd, k2]
      by_cases e : j = i
      · rw [if_pos e]; intro _; rw [e]; exact hi
      · rw [if_neg e]; exact a6 j t
    · intro j t; rw [hpi]
      by_cases e : j = i
      · rw [if_pos e]; intro ht _; cases ht; exact ⟨rfl, rfl⟩
      · rw [if_neg e]; intro ht hn; exact a7 j t ht (fun y => hn ((hup j).2 ⟨y, e⟩))
    · intro j hj; rw [hpi]
      by_cases e : j = i
      · rw [if_pos e]; exact ⟨_, rfl⟩
      · rw [if_neg e]; exact a8 j hj
    · intro j t; rw [hpi]
      by_cases e : j = i
      · rw [if_pos e]; intro ht; cases ht; exact hs0
      · rw [if_neg e]; exact a9 j t
    · intro j t; rw [hpi]
      by_cases e : j = i
      · rw [if_pos e]; intro ht; cases ht; intro p hp; cases hp
      · rw [if_neg e]; exact a10 j t

theorem Core.steps {c c' : SubCtx} (m : Steps tm c c') (h : Core c) : Core c' :=
  Steps.inv (fun _ _ m h => Core.micro m h) m h

/-- What deactivation does first. -/
def forget (c : SubCtx) : SubCtx := { c with ready := [], ackList := [] }

theorem Core.forget {c : SubCtx} (h : Core c) : Core (SubCtx.forget c) :=
  h.congr rfl rfl (fun i hi => by cases hi)

end SubCtx
end Rmc
