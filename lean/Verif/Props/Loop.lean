import Verif.Loop
import Verif.Props.SubCtxEpoll
import Verif.Props.PubCtxEpoll
import Verif.Props.SubCtxStream
import Verif.SysInv

/-! # C87: events are handled for the connection they occurred on -/

set_option linter.unusedSimpArgs false
set_option linter.unusedVariables false

namespace Rmc

/-! ## The subscriber -/

namespace SubCtx

open ConnVec

/-- Specification: what the calls made for other connections and for the multicast socket leave alone: the number of slots, the multicast socket, and
each connection of `P` with everything kept about it (descriptor, state, buffers). -/
structure Aside (P : Nat → Prop) (c c' : SubCtx) : Prop where
  size : c'.cv.size = c.cv.size
  mcast : c'.mcast = c.mcast
  conns : ∀ j, P j → c'.cv.conns j = c.cv.conns j

theorem Aside.refl (P : Nat → Prop) (c : SubCtx) : Aside P c c := ⟨rfl, rfl, fun _ _ => rfl⟩

theorem Aside.trans {P : Nat → Prop} {c c' c'' : SubCtx} (h : Aside P c c') (h' : Aside P c' c'') : Aside P c c'' :=
  ⟨h'.size.trans h.size, h'.mcast.trans h.mcast, fun j hj => (h'.conns j hj).trans (h.conns j hj)⟩

theorem Aside.weaken {P Q : Nat → Prop} {c c' : SubCtx} (h : Aside P c c') (hq : ∀ j, Q j → P j) : Aside Q c c' :=
  ⟨h.size, h.mcast, fun j hj => h.conns j (hq j hj)⟩

theorem Aside.cv {P : Nat → Prop} {c c' : SubCtx} (h : c'.cv = c.cv) (hm : c'.mcast = c.mcast) : Aside P c c' :=
  ⟨by rw [h], hm, fun j _ => by rw [h]⟩

theorem cvclose_aside (v : ConnVec) (i : Nat) : (ConnVec.close v i).2.size = v.size ∧ ∀ j, j ≠ i → (ConnVec.close v i).2.conns j = v.conns j := by
  unfold ConnVec.close
  by_cases h1 : i ≥ v.size
  · rw [if_pos h1]; exact ⟨rfl, fun _ _ => rfl⟩
  · rw [if_neg h1]
    by_cases h2 : (v.conns i).mode = .closed
    · rw [if_pos h2]; exact ⟨rfl, fun _ _ => rfl⟩
    · rw [if_neg h2]
      dsimp only
      split
      · unfold resetMax
        split
        · exact ⟨rfl, fun j hj => if_neg hj⟩
        · exact ⟨rfl, fun j hj => if_neg hj⟩
      · exact ⟨rfl, fun j hj => if_neg hj⟩

theorem close_aside {c c' : SubCtx} {i r : Nat} (h : closeConnection c i = .ok (r, c')) : Aside (· ≠ i) c c' := by
  unfold closeConnection at h
  dsimp only at h
  split at h
  · cases h
  · obtain ⟨s, hs, h⟩ := bind_ok h
    have e : _ = c' := congrArg Prod.snd (Except.ok.inj h)
    rw [← e]
    exact ⟨(cvclose_aside c.cv i).1, rfl, (cvclose_aside c.cv i).2⟩

theorem processPacket_mcast {c c' : SubCtx} {i : Nat} {ts : Int} {b b' : CircBuf} {r : Nat}
    (h : processPacket i ts c b = .ok (r, c', b')) : c'.mcast = c.mcast := by
  unfold processPacket at h
  split at h
  · cases h; rfl
  · obtain ⟨x, hx, h⟩ := bind_ok h
    dsimp only at h
    split at h
    · cases h; rfl
    · obtain ⟨y, hy, h⟩ := bind_ok h
      obtain ⟨c2, h2, h⟩ := bind_ok h
      cases h
      exact deliver_mcast h2

theorem readTcp_mcast {c c' : SubCtx} {i : Nat} {ts : Int} {b b' : CircBuf} {r fuel : Nat} {rv : Option (List UInt8)}
    (h : Proto.tcpRead (table i ts) fuel c b rv = .ok (r, c', b')) : c'.mcast = c.mcast := by
  refine Proto.tcpRead_pres (P := fun s => s.mcast = c.mcast) ?_ rfl h
  intro cmd hd hl s b r s' b' hP he
  unfold table Proto.lookup at hl
  split at hl
  · cases hl
    exact (processPacket_mcast he).trans hP
  · cases hl

theorem read_aside {c c' : SubCtx} {i r : Nat} {rv : Option (List UInt8)} {ts : Int} (hc : Core c)
    (h : readConn c i rv ts = .ok (r, c')) : Aside (· ≠ i) c c' := by
  unfold readConn at h
  by_cases g0 : findByIndex c.cv i = none ∨ (c.cv.conns i).mode ≠ .connected
  · rw [if_pos g0] at h; cases h; exact .refl _ _
  · rw [if_neg g0] at h
    obtain ⟨⟨code, c1, b⟩, hx, h⟩ := bind_ok h
    have hu : Up c i := Up.of_find hc (fun e => g0 (.inl e)) (Classical.byContradiction fun e => g0 (.inr e))
    obtain ⟨_, e1⟩ := readTcp_steps hu hx
    have em := readTcp_mcast hx
    dsimp only at h
    have hset : ∀ d : Conn, Aside (· ≠ i) c (setConn c1 i d) := by
      intro d
      refine ⟨by show c1.cv.size = _; rw [e1], em, ?_⟩
      intro j hj
      show (if j = i then _ else _ : Conn) = _
      rw [if_neg hj, e1]
    by_cases g1 : code = ENOMEM
    · rw [if_pos g1] at h
      have e : _ = c' := congrArg Prod.snd (Except.ok.inj h)
      rw [← e]
      exact (hset _).trans ⟨rfl, rfl, fun _ _ => rfl⟩
    · rw [if_neg g1] at h
      by_cases g2 : code = EPIPE
      · rw [if_pos g2] at h
        obtain ⟨x, h1, h⟩ := bind_ok h
        have e : x.2 = c' := congrArg Prod.snd (Except.ok.inj h)
        rw [← e]
        have hs := hset { c1.cv.conns i with readBuf := b }
        exact hs.trans (close_aside h1)
      · rw [if_neg g2] at h
        obtain ⟨c2, h2, h⟩ := bind_ok h
        have e2 : Aside (· ≠ i) c c2 := by
          unfold processAt at h2
          obtain ⟨s, _, h2⟩ := bind_ok h2
          have e : _ = c2 := Except.ok.inj h2
          rw [← e]
          exact (hset _).trans ⟨rfl, rfl, fun _ _ => rfl⟩
        by_cases g3 : code = EPROTO
        · rw [if_pos g3] at h
          obtain ⟨x, h1, h⟩ := bind_ok h
          have e : x.2 = c' := congrArg Prod.snd (Except.ok.inj h)
          rw [← e]
          exact e2.trans (close_aside h1)
        · rw [if_neg g3] at h
          have e : _ = c' := congrArg Prod.snd (Except.ok.inj h)
          rw [← e]
          exact e2.trans ⟨rfl, rfl, fun _ _ => rfl⟩

theorem complete_aside (v : ConnVec) (i : Nat) (so : Except Nat Nat) (nd : Option Nat) :
    (ConnVec.complete v i so nd).2.size = v.size ∧ ∀ j, j ≠ i → (ConnVec.complete v i so nd).2.conns j = v.conns j := by
  unfold ConnVec.complete
  cases so with
  | error e => exact cvclose_aside v i
  | ok e =>
    dsimp only
    split
    · exact cvclose_aside _ i
    · cases nd with
      | some e => exact cvclose_aside _ i
      | none => exact ⟨rfl, fun j hj => if_neg hj⟩

theorem write_aside {c c' : SubCtx} {i r : Nat} {so : Except Nat Nat} {nd : Option Nat} {wv : Except Nat Nat}
    (h : writeConn c i so nd wv = .ok (r, c')) : Aside (· ≠ i) c c' := by
  unfold writeConn at h
  split at h
  · cases h; exact .refl _ _
  · split at h
    · dsimp only at h
      have hk := complete_aside c.cv i so nd
      split at h
      · have e : _ = c' := congrArg Prod.snd (Except.ok.inj h)
        rw [← e]
        have hk' := cvclose_aside (ConnVec.complete c.cv i so nd).2 i
        exact ⟨hk'.1.trans hk.1, rfl, fun j hj => (hk'.2 j hj).trans (hk.2 j hj)⟩
      · have e : _ = c' := congrArg Prod.snd (Except.ok.inj h)
        rw [← e]
        exact ⟨hk.1, rfl, hk.2⟩
    · split at h
      · cases h; exact .refl _ _
      · obtain ⟨x, hx, h⟩ := bind_ok h
        have e : _ = c' := congrArg Prod.snd (Except.ok.inj h)
        rw [← e]
        exact ⟨rfl, rfl, fun j hj => if_neg hj⟩

theorem announced_aside {c : SubCtx} (hc : Core c) (hd : PacketHeader) (ann : Option Bool) (sk : Except Nat Nat) (cr : ConnRes) :
    Aside (Live c) c (announced c hd ann sk cr) := by
  refine ⟨?_, announced_mcast _ _ _ _ _, ?_⟩
  all_goals
    obtain ⟨L, hL⟩ := hc.v
    have key : (ConnVec.connect c.cv hd.listenIp hd.listenPort hd.nodeId sk cr).2.2.size = c.cv.size ∧
        ∀ j ∈ L, (ConnVec.connect c.cv hd.listenIp hd.listenPort hd.nodeId sk cr).2.2.conns j = c.cv.conns j := by
      by_cases hf : (∃ e, sk = .error e) ∨ (∃ e, cr = .failed e)
      · obtain ⟨r, v', e, _, h1, _, _, h2, _⟩ := connect_failed hL hd.listenIp hd.listenPort hd.nodeId sk cr hf
        rw [e]; exact ⟨h1, h2⟩
      · cases sk with
        | error e => exact absurd (.inl ⟨e, rfl⟩) hf
        | ok d =>
          rcases connect_ok hL hd.listenIp hd.listenPort hd.nodeId d cr (fun e he => hf (.inr ⟨e, he⟩)) with ⟨_, e⟩ | ⟨_, r, i, v', e, _, hi, _, h1, _, h2, _⟩
          · rw [e]; exact ⟨rfl, fun _ _ => rfl⟩
          · rw [e]
            exact ⟨h1, fun j hj => h2 j (fun e => hi (e ▸ hj))⟩
    have hcv : (announced c hd ann sk cr).cv = c.cv ∨
        (announced c hd ann sk cr).cv = (ConnVec.connect c.cv hd.listenIp hd.listenPort hd.nodeId sk cr).2.2 := by
      unfold announced
      cases ann with
      | none =>
        dsimp only
        rw [if_neg (by simp)]
        split <;> exact .inr rfl
      | some a =>
        dsimp only
        split
        · exact .inl rfl
        · split <;> exact .inr rfl
  · rcases hcv with e | e <;> rw [e]
    exact key.1
  · intro j hj
    rcases hcv with e | e <;> rw [e]
    exact key.2 j ((live_iff hL j).1 hj)

theorem mcastPacket_aside {c c' : SubCtx} (hc : Core c) {src r : Nat} {bs : List UInt8} {ts : Int} {ann : Option Bool}
    {sk : Except Nat Nat} {cr : ConnRes} (hx : mcastPacket c src bs ts ann sk cr = .ok (r, c')) : Aside (Live c) c c' := by
  have hm := mcastPacket_mcast hx
  unfold mcastPacket at hx
  split at hx
  · cases hx; exact .refl _ _
  · dsimp only at hx
    split at hx
    · cases hx; exact .refl _ _
    · split at hx
      · rw [← (Prod.mk.inj (Except.ok.inj hx)).2]
        split
        · exact .refl _ _
        · exact announced_aside hc _ _ _ _
      · rename_i i hi
        split at hx
        · rw [← (Prod.mk.inj (Except.ok.inj hx)).2]
          split
          · exact .refl _ _
          · exact announced_aside hc _ _ _ _
        · rename_i hcon
          split at hx
          · cases hx; exact .refl _ _
          · obtain ⟨c2, h2, hx⟩ := bind_ok hx
            cases hx
            obtain ⟨L, hL⟩ := hc.v
            have g1 := (findByAddress_mem hL hi).1
            have hu : Up c i := ⟨hL.lt i g1, (mode_cases hL g1).resolve_left hcon⟩
            exact .cv (deliver_steps (tm := 2) hu (.inl ⟨rfl, rfl⟩) h2).2 hm

theorem Aside.live {P : Nat → Prop} {c c' : SubCtx} (h : Aside P c c') {j : Nat} (hj : P j) (hl : Live c j) : Live c' j := by
  unfold Live
  rw [h.size, h.conns j hj]; exact hl

theorem mcastLoop_aside : ∀ (rs : List RecvRes) {c c' : SubCtx} {r : Nat}, Core c → mcastLoop c rs = .ok (r, c') → Aside (Live c) c c' := by
  intro rs
  induction rs with
  | nil => intro c c' r hc h; cases h; exact .refl _ _
  | cons x rs ih =>
    intro c c' r hc h
    cases x with
    | err e => cases h; exact .refl _ _
    | dgram src bs ts ann sk cr =>
      rw [mcastLoop.eq_3] at h
      split at h
      · cases h; exact .refl _ _
      · obtain ⟨y, hy, h⟩ := bind_ok h
        have h1 := mcastPacket_aside hc hy
        split at h
        · have e : y = (r, c') := Except.ok.inj h
          rw [e] at h1; exact h1
        · have hc1 : Core y.2 := hc.steps (mcastPacket_steps hc hy)
          exact h1.trans ((ih hc1 h).weaken fun j hj => h1.live hj hj)

theorem readMcast_aside {c c' : SubCtx} {r : Nat} {rs : List RecvRes} (hc : Core c) (h : readMcast c rs = .ok (r, c')) : Aside (Live c) c c' := by
  unfold readMcast at h
  split at h
  · cases h; exact .refl _ _
  · obtain ⟨y, hy, h⟩ := bind_ok h
    have h1 := mcastLoop_aside rs hc hy
    have e : _ = c' := congrArg Prod.snd (Except.ok.inj h)
    rw [← e]
    exact h1.trans ⟨rfl, rfl, fun _ _ => rfl⟩

/-- A publisher record once initialised stays so. -/
theorem Micro.rec_kept {tm : Nat} {c c' : SubCtx} (m : Micro tm c c') {i : Nat} (h : c.publishers i ≠ none) : c'.publishers i ≠ none := by
  have keep : ∀ (j : Nat) (s : SubPub), (if i = j then some s else c.publishers i) ≠ none := by
    intro j s
    split
    · simp
    · exact h
  cases m with
  | recv => exact keep _ _
  | taken => exact keep _ _
  | complete => exact keep _ _
  | noComplete => exact keep _ _
  | close => exact keep _ _
  | _ => exact h

theorem step_rec {ops : List Op} {c c' : SubCtx} (h : Reaches ops c) {op : Op} {r : Nat} (hs : step c op = .ok (r, c')) (hd : op ≠ .deactivate) {i : Nat}
    (hi : c.publishers i ≠ none) : c'.publishers i ≠ none :=
  Steps.inv (P := fun c => c.publishers i ≠ none) (fun _ _ m h => m.rec_kept h) (step_steps h.inv.core h.inv.mem hd hs) hi

/-- A write on a connection that is being set up initialises the publisher record. -/
theorem write_rec {c c' : SubCtx} {i r : Nat} {so : Except Nat Nat} {nd : Option Nat} {wv : Except Nat Nat} (hf : findByIndex c.cv i ≠ none)
    (hm : (c.cv.conns i).mode = .connecting) (h : writeConn c i so nd wv = .ok (r, c')) : c'.publishers i ≠ none := by
  unfold writeConn at h
  rw [if_neg hf, if_pos hm] at h
  dsimp only at h
  split at h
  · have e : _ = c' := congrArg Prod.snd (Except.ok.inj h)
    rw [← e]
    show (if i = i then _ else _) ≠ none
    simp
  · have e : _ = c' := congrArg Prod.snd (Except.ok.inj h)
    rw [← e]
    show (if i = i then _ else _) ≠ none
    simp

/-- Specification: an event that can be reported: on the multicast socket, which is never watched for writing, or on a connection. -/
def Event.possible (c : SubCtx) (e : Event) : Prop := (e.idx = MULTICAST_INDEX ∧ e.wr = false) ∨ Live c e.idx

/-- What an event does: some calls; connections other than its own are left alone. -/
theorem onEvent_spec {ops : List Op} {c c' : SubCtx} (h : Reaches ops c) {e : Event} (hx : onEvent c e = .ok c') :
    (∃ calls, Reaches (ops ++ calls) c') ∧ Aside (fun j => Live c j ∧ j ≠ e.idx) c c' := by
  unfold onEvent at hx
  have write : ∀ {calls : List Op} {d : SubCtx}, Reaches (ops ++ calls) d → onWrite d e = .ok c' →
      (∃ calls, Reaches (ops ++ calls) c') ∧ Aside (fun j => j ≠ e.idx) d c' := by
    intro calls d hd hw
    unfold onWrite at hw
    obtain ⟨⟨r, d1⟩, h1, hw⟩ := bind_ok hw
    have hd1 := hd.snoc h1
    have a1 := write_aside (show writeConn d e.idx e.so e.nd e.wv = .ok (r, d1) from h1)
    dsimp only at hw
    split at hw
    · obtain ⟨⟨r2, d2⟩, h2, hw⟩ := bind_ok hw
      cases hw
      have a2 := close_aside (show closeConnection d1 e.idx = .ok (r2, d2) from h2)
      exact ⟨⟨_, by have := hd1.snoc h2; rw [List.append_assoc, List.append_assoc] at this; exact this⟩, a1.trans a2⟩
    · cases hw
      exact ⟨⟨_, by rw [List.append_assoc] at hd1; exact hd1⟩, a1⟩
  have fin : ∀ {calls : List Op} {d : SubCtx}, Reaches (ops ++ calls) d → Aside (fun j => Live c j ∧ j ≠ e.idx) c d →
      onOut d e = .ok c' →
      (∃ calls, Reaches (ops ++ calls) c') ∧ Aside (fun j => Live c j ∧ j ≠ e.idx) c c' := by
    intro calls d hd ha hw
    unfold onOut at hw
    split at hw
    · obtain ⟨h1, h2⟩ := write hd hw
      exact ⟨h1, ha.trans (h2.weaken fun j hj => hj.2)⟩
    · cases hw; exact ⟨⟨_, hd⟩, ha⟩
  by_cases hr : e.rd = true
  · rw [if_pos hr] at hx
    obtain ⟨⟨r, d⟩, h1, hx⟩ := bind_ok hx
    refine fin (h.snoc h1) ?_ hx
    unfold Event.readOp at h1
    split at h1
    · exact (readMcast_aside h.inv.core h1).weaken fun j hj => hj.1
    · exact (read_aside h.inv.core h1).weaken fun j hj => hj.2
  · rw [if_neg hr] at hx
    exact fin (calls := []) (by rw [List.append_nil]; exact h) (.refl _ _) hx

theorem onEvents_spec : ∀ (l : List Event) {ops : List Op} {c c' : SubCtx}, Reaches ops c → onEvents c l = .ok c' →
    (∃ calls, Reaches (ops ++ calls) c') ∧ Aside (fun j => Live c j ∧ ∀ e ∈ l, e.idx ≠ j) c c' := by
  intro l
  induction l with
  | nil => intro ops c c' h hx; cases hx; exact ⟨⟨[], by rw [List.append_nil]; exact h⟩, .refl _ _⟩
  | cons e l ih =>
    intro ops c c' h hx
    rw [onEvents.eq_2] at hx
    obtain ⟨d, h1, hx⟩ := bind_ok hx
    obtain ⟨⟨k1, g1⟩, a1⟩ := onEvent_spec h h1
    obtain ⟨⟨k2, g2⟩, a2⟩ := ih g1 hx
    refine ⟨⟨k1 ++ k2, by rw [← List.append_assoc]; exact g2⟩, ?_⟩
    have a1' := a1.weaken (Q := fun j => Live c j ∧ ∀ e' ∈ e :: l, e'.idx ≠ j) fun j hj => ⟨hj.1, fun e' => hj.2 e (List.mem_cons_self ..) e'.symm⟩
    exact a1'.trans (a2.weaken fun j hj => ⟨a1'.live hj hj.1, fun e' he => hj.2 e' (List.mem_cons_of_mem _ he)⟩)

theorem onEvents_append : ∀ (l1 l2 : List Event) (c : SubCtx), onEvents c (l1 ++ l2) = (onEvents c l1).bind fun d => onEvents d l2 := by
  intro l1
  induction l1 with
  | nil => intro l2 c; rfl
  | cons e l1 ih =>
    intro l2 c
    show (onEvent c e).bind (fun d => onEvents d (l1 ++ l2)) = ((onEvent c e).bind fun d => onEvents d l1).bind fun d => onEvents d l2
    cases onEvent c e with
    | error f => rfl
    | ok d => exact ih l2 d

/-- An event that can be reported faults only in reading a connection. -/
theorem onEvent_fault {ops : List Op} {c : SubCtx} (h : Reaches ops c) {e : Event} (hp : e.possible c) {f : Fault} (hx : onEvent c e = .error f) :
    e.rd = true ∧ Live c e.idx ∧ step c (.read e.idx e.rv e.ts) = .error f := by
  have hM : MULTICAST_INDEX = 32766 := rfl
  have hLI : LISTEN_INDEX = 32765 := rfl
  obtain ⟨L, hL⟩ := h.inv.core.v
  have hsz := hL.sz
  have write : ∀ {calls : List Op} {d : SubCtx}, Reaches (ops ++ calls) d → e.wr = true → e.idx < d.cv.size →
      ((d.cv.conns e.idx).mode = .connecting ∧ Live d e.idx ∨ d.publishers e.idx ≠ none) → onWrite d e ≠ .error f := by
    intro calls d hd hw hs hor hx
    unfold onWrite at hx
    obtain ⟨r, d1, h1⟩ := writeConn_total hd.inv.core e.idx e.so e.nd e.wv
    rw [show step d (.write e.idx e.so e.nd e.wv) = .ok (r, d1) from h1, Pub.ok_bind] at hx
    dsimp only at hx
    split at hx
    · have hd1 := hd.snoc (op := .write e.idx e.so e.nd e.wv) h1
      have hrec : d1.publishers e.idx ≠ none := by
        rcases hor with ⟨hm, hl⟩ | hor
        · obtain ⟨L', hL'⟩ := hd.inv.core.v
          refine write_rec ?_ hm h1
          rw [findByIndex_spec hL', if_pos ((live_iff hL' _).1 hl)]; simp
        · exact step_rec hd (op := .write e.idx e.so e.nd e.wv) h1 (by simp) hor
      have hsz1 : d1.cv.size = d.cv.size := (write_aside h1).size
      cases h2 : step d1 (.close e.idx) with
      | ok x => rw [h2, Pub.ok_bind] at hx; cases hx
      | error g =>
        rcases (close_fault hd1 e.idx).1.1 ⟨g, h2⟩ with h3 | h3
        · omega
        · exact hrec h3
    · cases hx
  unfold onEvent at hx
  by_cases hr : e.rd = true
  · rw [if_pos hr] at hx
    rcases hp with ⟨hi, hw⟩ | hl
    · unfold Event.readOp at hx
      rw [if_pos hi] at hx
      obtain ⟨r, d, h1⟩ := readMcast_total h.inv.core e.rs
      rw [show step c (.readMcast e.rs) = .ok (r, d) from h1, Pub.ok_bind] at hx
      unfold onOut at hx
      rw [if_neg (by rw [hw]; simp)] at hx
      cases hx
    · have hne : e.idx ≠ MULTICAST_INDEX := by have := hl.1; omega
      unfold Event.readOp at hx
      rw [if_neg hne] at hx
      cases h1 : step c (.read e.idx e.rv e.ts) with
      | error g =>
        rw [h1] at hx
        have : g = f := by cases hx; rfl
        exact ⟨hr, hl, by rw [this]⟩
      | ok x =>
        exfalso
        rw [h1, Pub.ok_bind] at hx
        unfold onOut at hx
        have hd := h.snoc h1
        have ha := read_aside h.inv.core (show readConn c e.idx e.rv e.ts = .ok (x.1, x.2) from h1)
        split at hx
        · rename_i hw
          refine write hd hw (by rw [ha.size]; exact hl.1) ?_ hx
          by_cases hm : (c.cv.conns e.idx).mode = .connecting
          · left
            have : readConn c e.idx e.rv e.ts = .ok (x.1, x.2) := h1
            unfold readConn at this
            rw [if_pos (.inr (by rw [hm]; simp))] at this
            have e2 : c = x.2 := congrArg Prod.snd (Except.ok.inj this)
            rw [← e2]; exact ⟨hm, hl⟩
          · right
            have hu : Up c e.idx := ⟨hl.1, (mode_cases hL ((live_iff hL _).1 hl)).resolve_left hm⟩
            obtain ⟨s, hs⟩ := h.inv.core.recd _ hu
            exact step_rec h h1 (by simp) (by rw [hs]; simp)
        · cases hx
  · exfalso
    rw [if_neg hr] at hx
    unfold onOut at hx
    split at hx
    · rename_i hw
      rcases hp with ⟨hi, hw'⟩ | hl
      · rw [hw] at hw'; cases hw'
      · refine write (calls := []) (by rw [List.append_nil]; exact h) hw hl.1 ?_ hx
        by_cases hm : (c.cv.conns e.idx).mode = .connecting
        · exact .inl ⟨hm, hl⟩
        · have hu : Up c e.idx := ⟨hl.1, (mode_cases hL ((live_iff hL _).1 hl)).resolve_left hm⟩
          obtain ⟨s, hs⟩ := h.inv.core.recd _ hu
          exact .inr (by rw [hs]; simp)
    · cases hx

/-- Specification: what epoll_wait() can report: for each of some of the descriptors watched one event, with the index stored with the descriptor, and with
EPOLLIN and EPOLLOUT only if they are asked for. -/
def EpollReport (c : SubCtx) (evs : List (Nat × Event)) : Prop :=
  (evs.map (·.1)).Nodup ∧ ∃ w, epoll c.cv.polls = some w ∧
    ∀ x ∈ evs, ∃ a, w x.1 = some (x.2.idx, a) ∧ (x.2.rd = true → a.r = true) ∧ (x.2.wr = true → a.w = true)

theorem report_possible {ops : List Op} {c : SubCtx} (h : Reaches ops c) (ho : OsOk c.cv.fds) {evs : List (Nat × Event)} (hr : EpollReport c evs) :
    (∀ x ∈ evs, x.2.possible c ∧ descriptorOf c x.2.idx = some x.1) ∧ (evs.map (·.2.idx)).Nodup := by
  have hM : MULTICAST_INDEX = 32766 := rfl
  have hN : NIL_INDEX = 32767 := rfl
  have hLI : LISTEN_INDEX = 32765 := rfl
  obtain ⟨L, hL⟩ := h.inv.core.v
  have hsz := hL.sz
  obtain ⟨h1, w, h2, h3⟩ := hr
  obtain ⟨w', e1, k1, k2, k3, k4⟩ := C84_subscriber h ho
  rw [h2] at e1
  cases e1
  have key : ∀ x ∈ evs, x.2.possible c ∧ descriptorOf c x.2.idx = some x.1 := by
    intro x hx
    obtain ⟨a, ha, hrd, hwr⟩ := h3 x hx
    rcases k4 _ _ _ ha with ⟨g1, g2⟩ | ⟨g1, g2, g3⟩
    · refine ⟨.inr ?_, ?_⟩
      · exact Classical.byContradiction fun hl => k1 _ g1 hl _ _ ha
      · unfold descriptorOf
        rw [if_neg (by omega), if_neg (by omega)]; exact g2
    · refine ⟨.inl ⟨g1, ?_⟩, ?_⟩
      · cases hw : x.2.wr with
        | false => rfl
        | true => have := hwr hw; rw [g3] at this; cases this
      · unfold descriptorOf
        rw [if_pos g1]; exact g2
  refine ⟨key, ?_⟩
  clear h3
  induction evs with
  | nil => exact List.nodup_nil
  | cons x xs ih =>
    rw [List.map_cons, List.nodup_cons] at h1 ⊢
    refine ⟨?_, ih h1.2 (fun y hy => key y (List.mem_cons_of_mem _ hy))⟩
    intro hm
    obtain ⟨y, hy, e⟩ := List.mem_map.1 hm
    have hy' := (key y (List.mem_cons_of_mem _ hy)).2
    rw [e, (key x (List.mem_cons_self ..)).2] at hy'
    exact h1.1 (List.mem_map.2 ⟨y, hy, (Option.some.inj hy').symm⟩)

/-- C87: the events of one epoll_wait() are each handled for the socket on which they occurred, though the calls made for those handled before - the ones
behind it in the array - may have closed connections and opened others: when its turn comes the index of the event still stands for the descriptor it was
reported for, with the connection in the state it had when epoll_wait() returned. Nothing but calls of the library is made, and a connection without an
event is left alone. -/
theorem C87_subscriber {ops : List Op} {c : SubCtx} (h : Reaches ops c) (ho : OsOk c.cv.fds) {evs : List (Nat × Event)} (hr : EpollReport c evs) {c' : SubCtx}
    (hx : processEvents c (evs.map (·.2)) = .ok c') :
    (∀ pre d e post, evs = pre ++ (d, e) :: post → ∃ m m', processEvents c (post.map (·.2)) = .ok m ∧ descriptorOf m e.idx = some d ∧
      (e.idx ≠ MULTICAST_INDEX → Live m e.idx ∧ m.cv.conns e.idx = c.cv.conns e.idx) ∧ onEvent m e = .ok m') ∧
    (∀ j, Live c j → (∀ x ∈ evs, x.2.idx ≠ j) → Live c' j ∧ c'.cv.conns j = c.cv.conns j) ∧
    ∃ calls, Reaches (ops ++ calls) c' := by
  obtain ⟨h1, h2⟩ := report_possible h ho hr
  obtain ⟨g1, g2⟩ := onEvents_spec _ h hx
  refine ⟨?_, ?_, g1⟩
  · intro pre d e post he
    subst he
    unfold processEvents at hx ⊢
    rw [List.map_append, List.map_cons, List.reverse_append, List.reverse_cons, List.append_assoc, onEvents_append] at hx
    obtain ⟨m, k1, hx⟩ := bind_ok hx
    rw [List.singleton_append, onEvents.eq_2] at hx
    obtain ⟨m', k2, hx⟩ := bind_ok hx
    obtain ⟨-, a⟩ := onEvents_spec _ h k1
    obtain ⟨hp, hd⟩ := h1 (d, e) (by simp)
    have hne : ∀ e' ∈ (post.map (·.2)).reverse, e'.idx ≠ e.idx := by
      intro e' he' heq
      rw [List.mem_reverse, List.mem_map] at he'
      obtain ⟨y, hy, rfl⟩ := he'
      rw [List.map_append, List.map_cons] at h2
      have := (List.nodup_cons.1 (List.nodup_append.1 h2).2.1).1
      exact this (List.mem_map.2 ⟨y, hy, heq⟩)
    have hconn : e.idx ≠ MULTICAST_INDEX → Live m e.idx ∧ m.cv.conns e.idx = c.cv.conns e.idx := by
      intro hM
      have hl : Live c e.idx := hp.resolve_left (fun e => hM e.1)
      exact ⟨a.live ⟨hl, hne⟩ hl, a.conns _ ⟨hl, hne⟩⟩
    refine ⟨m, m', k1, ?_, hconn, k2⟩
    have hd' : descriptorOf c e.idx = some d := hd
    rw [← hd']
    unfold descriptorOf
    by_cases hM : e.idx = MULTICAST_INDEX
    · rw [if_pos hM, if_pos hM, a.mcast]
    · rw [if_neg hM, if_neg hM, (hconn hM).2]
  · intro j hj hne
    have hP : Live c j ∧ ∀ e ∈ (evs.map (·.2)).reverse, e.idx ≠ j := by
      refine ⟨hj, ?_⟩
      intro e he
      rw [List.mem_reverse, List.mem_map] at he
      obtain ⟨x, hx, rfl⟩ := he
      exact hne x hx
    exact ⟨g2.live hP hj, g2.conns j hP⟩

/-- C87: handling events faults only in reading bytes that arrived on a connection (see C55 for when it does): closing a connection after a failed write is
safe in every state in which the loop does it, although it is not in all (C44). -/
theorem C87_sub_faults {ops : List Op} {c : SubCtx} (h : Reaches ops c) (ho : OsOk c.cv.fds) {evs : List (Nat × Event)} (hr : EpollReport c evs) {f : Fault}
    (hx : processEvents c (evs.map (·.2)) = .error f) :
    ∃ pre d e post m, evs = pre ++ (d, e) :: post ∧ processEvents c (post.map (·.2)) = .ok m ∧ e.rd = true ∧ Up m e.idx ∧
      step m (.read e.idx e.rv e.ts) = .error f := by
  obtain ⟨h1, h2⟩ := report_possible h ho hr
  have key : ∀ (l : List Event) {ops : List Op} {c : SubCtx}, Reaches ops c → (∀ e ∈ l, e.possible c) → (l.map (·.idx)).Nodup → onEvents c l = .error f →
      ∃ l1 e l2 m, l = l1 ++ e :: l2 ∧ onEvents c l1 = .ok m ∧ e.rd = true ∧ Up m e.idx ∧ step m (.read e.idx e.rv e.ts) = .error f := by
    intro l
    induction l with
    | nil => intro ops c _ _ _ hx; cases hx
    | cons e l ih =>
      intro ops c h hp hn hx
      rw [onEvents.eq_2] at hx
      cases hd : onEvent c e with
      | error g =>
        rw [hd] at hx
        have : g = f := by cases hx; rfl
        subst this
        obtain ⟨k1, k2, k3⟩ := onEvent_fault h (hp e (List.mem_cons_self ..)) hd
        refine ⟨[], e, l, c, rfl, rfl, k1, ?_, k3⟩
        rcases C55_read h e.idx e.rv e.ts with ⟨r, c', k4⟩ | ⟨_, k4, _⟩
        · rw [k3] at k4; cases k4
        · exact k4
      | ok d =>
        rw [hd, Pub.ok_bind] at hx
        obtain ⟨⟨calls, g1⟩, a⟩ := onEvent_spec h hd
        rw [List.map_cons, List.nodup_cons] at hn
        obtain ⟨l1, e', l2, m, k1, k2, k3, k4, k5⟩ := ih g1 (by
          intro e' he'
          rcases hp e' (List.mem_cons_of_mem _ he') with hq | hq
          · exact .inl hq
          · exact .inr (a.live ⟨hq, fun heq => hn.1 (List.mem_map.2 ⟨e', he', heq⟩)⟩ hq)) hn.2 hx
        refine ⟨e :: l1, e', l2, m, by rw [k1]; rfl, ?_, k3, k4, k5⟩
        rw [onEvents.eq_2, hd, Pub.ok_bind]; exact k2
  obtain ⟨l1, e, l2, m, k1, k2, k3, k4, k5⟩ := key _ h (by
    intro e he
    rw [List.mem_reverse, List.mem_map] at he
    obtain ⟨x, hx, rfl⟩ := he
    exact (h1 x hx).1) (by rw [List.map_reverse, nodup_rev, List.map_map]; exact h2) hx
  have k1' : evs.map (·.2) = l2.reverse ++ e :: l1.reverse := by
    have := congrArg List.reverse k1
    rw [List.reverse_reverse] at this
    rw [this]; simp
  obtain ⟨pre, rest, r1, r2, r3⟩ := List.map_eq_append_iff.1 k1'
  obtain ⟨x, post, r4, r5, r6⟩ := List.map_eq_cons_iff.1 r3
  subst r4
  refine ⟨pre, x.1, e, post, m, by rw [r1, ← r5], ?_, k3, k4, k5⟩
  unfold processEvents
  rw [r6, List.reverse_reverse]; exact k2

/-- A check for `EpollReport`. -/
def reportB (c : SubCtx) (evs : List (Nat × Event)) : Bool :=
  decide (evs.map (·.1)).Nodup && (epoll c.cv.polls).isSome && evs.all fun x =>
    match loopAt c.cv.polls x.1 with
    | some (i, a) => decide (i = x.2.idx) && (!x.2.rd || a.r) && (!x.2.wr || a.w)
    | none => false

theorem reportB_ok {c : SubCtx} {evs : List (Nat × Event)} (h : reportB c evs = true) : EpollReport c evs := by
  unfold reportB at h
  rw [Bool.and_eq_true, Bool.and_eq_true, List.all_eq_true] at h
  obtain ⟨⟨h1, h2⟩, h3⟩ := h
  obtain ⟨w, hw⟩ := Option.isSome_iff_exists.1 h2
  refine ⟨of_decide_eq_true h1, w, hw, ?_⟩
  intro x hx
  have := h3 x hx
  unfold loopAt at this
  rw [hw] at this
  have e : (some w).bind (fun w => w x.1) = w x.1 := rfl
  rw [e] at this
  cases hwx : w x.1 with
  | none => rw [hwx] at this; cases this
  | some y =>
    obtain ⟨i, a⟩ := y
    rw [hwx] at this
    simp only [Bool.and_eq_true, decide_eq_true_iff, Bool.or_eq_true, Bool.not_eq_true'] at this
    obtain ⟨⟨k1, k2⟩, k3⟩ := this
    refine ⟨a, by rw [k1], ?_, ?_⟩
    · intro hr
      rcases k2 with k2 | k2
      · rw [hr] at k2; cases k2
      · exact k2
    · intro hr
      rcases k3 with k3 | k3
      · rw [hr] at k3; cases k3
      · exact k3

/-- A write that fails, for whatever reason, costs the connection. -/
theorem C87_sub_write {ops : List Op} {c c1 c' : SubCtx} (h : Reaches ops c) {e : Event} (hl : Live c e.idx) (hr : e.rd = false) (hw : e.wr = true) {r : Nat}
    (h1 : step c (.write e.idx e.so e.nd e.wv) = .ok (r, c1)) (hx : onEvent c e = .ok c') : (r = 0 → c' = c1) ∧ (r ≠ 0 → ¬ Live c' e.idx) := by
  unfold onEvent at hx
  rw [if_neg (by rw [hr]; simp)] at hx
  unfold onOut at hx
  rw [if_pos hw] at hx
  unfold onWrite at hx
  rw [h1, Pub.ok_bind] at hx
  dsimp only at hx
  by_cases h0 : r = 0
  · rw [if_neg (fun g => g h0)] at hx
    exact ⟨fun _ => (Except.ok.inj hx).symm, fun g => absurd h0 g⟩
  · rw [if_pos h0] at hx
    refine ⟨fun g => absurd g h0, fun _ => ?_⟩
    obtain ⟨⟨r2, c2⟩, h2, hx⟩ := bind_ok hx
    have e2 : c2 = c' := Except.ok.inj hx
    rw [← e2]
    have h1' := h.snoc h1
    obtain ⟨_, s, _, _, e3⟩ := closeConnection_micro h1'.inv.core (show closeConnection c1 e.idx = .ok (r2, c2) from h2)
    rw [e3]
    obtain ⟨L, hL⟩ := h1'.inv.core.v
    intro hl'
    by_cases hi : e.idx ∈ L
    · have hk := (ConnVec.close_spec hL e.idx).1 hi
      exact hl'.2 (by show ((ConnVec.close c1.cv e.idx).2.conns e.idx).mode = _; rw [hk.2.2.2.2.2.1]; rfl)
    · have hk := ((ConnVec.close_spec hL e.idx).2 hi).2
      refine hl'.2 ?_
      show ((ConnVec.close c1.cv e.idx).2.conns e.idx).mode = _
      have hlt : e.idx < c1.cv.size := by have := hl'.1; rw [show (closedAt c1 e.idx s).cv = (ConnVec.close c1.cv e.idx).2 from rfl, hk] at this; exact this
      rw [hk]
      exact Classical.byContradiction fun g => hi ((hL.mode _ hlt).1 g)

/-- Two subscriptions, with an acknowledgement to be sent on the second. -/
def exLoop : List Op := exUp ++ [.readMcast [exDg 6 0 [] 2], .write 1 (.ok 0) none (.ok 0), .readMcast [exDg 6 5 [50, 51] 1000], .timeout 60000]

/-- The events: the second connection can be written and has a packet to be read, the multicast socket has an announcement of a third publisher, and the
first connection was closed by the peer. -/
def exEvents : List (Nat × Event) :=
  [(106, { idx := 1, rd := true, wr := true, rv := some (CMD_PACKET :: ((PacketHeader.mk 6 5 1 0 6).enc ++ [60])), ts := 60001, wv := .ok 17 }),
   (3, { idx := MULTICAST_INDEX, rd := true, wr := false, rs := [exDg 8 0 [] 60000] }),
   (104, { idx := 0, rd := true, wr := false, rv := some [], ts := 60000 })]

/-- Check a property of the context after handling events. -/
def loopCheck (c : SubCtx) (evs : List (Nat × Event)) (P : SubCtx → Bool) : Bool :=
  match processEvents c (evs.map (·.2)) with
  | .ok c' => P c'
  | .error _ => false

/-- The hypotheses are met, and the slot of the connection closed is in use again when the next event is handled. -/
example : ∃ c rs, Reaches exLoop c ∧ run exS0 exLoop = .ok (rs, c) ∧ (osOk c.cv.fds && reportB c exEvents && loopCheck c exEvents fun c' =>
    decide (Up c 0 ∧ (c'.cv.conns 0).mode = .connecting ∧ (c'.cv.conns 0).port = 8 ∧ Up c' 1 ∧ c'.ready.map (·.pid) = [5, 6] ∧
      bytesOutAt 1 c'.log = ackFrame 5 5)) = true :=
  reaches_of (P := fun rs c => _) (by decide +kernel)

/-- C87: writev() finding no room (EAGAIN) costs the subscriber of the test programs its connection, and with it what has not been acknowledged. -/
theorem C87_sub_eagain_false : ∃ ops c c' d e, Reaches ops c ∧ OsOk c.cv.fds ∧ EpollReport c [(d, e)] ∧ e.wv = .error EAGAIN ∧ Up c e.idx ∧
    step c (.write e.idx e.so e.nd e.wv) = .ok (EAGAIN, c') ∧ Up c' e.idx ∧ ∀ c'', processEvents c [e] = .ok c'' → ¬ Live c'' e.idx := by
  obtain ⟨c, rs, h1, h2, h3⟩ := reaches_of (ops := exLoop) (P := fun rs c => osOk c.cv.fds &&
    reportB c [(106, { idx := 1, rd := false, wr := true, wv := .error EAGAIN })] && decide (Up c 1) &&
    match step c (.write 1 (.ok 0) none (.error EAGAIN)) with | .ok x => decide (x.1 = EAGAIN ∧ Up x.2 1) | .error _ => false) (by decide +kernel)
  rw [Bool.and_eq_true, Bool.and_eq_true, Bool.and_eq_true, decide_eq_true_iff] at h3
  obtain ⟨⟨⟨k1, k2⟩, k3⟩, k4⟩ := h3
  cases hs : step c (.write 1 (.ok 0) none (.error EAGAIN)) with
  | error f => rw [hs] at k4; cases k4
  | ok x =>
    rw [hs] at k4
    obtain ⟨r, c'⟩ := x
    obtain ⟨k4, k5⟩ := of_decide_eq_true k4
    cases k4
    refine ⟨exLoop, c, c', 106, { idx := 1, rd := false, wr := true, wv := .error EAGAIN }, h1, osOk_ok k1, reportB_ok k2, rfl, k3, hs, k5, ?_⟩
    intro c'' hx
    unfold processEvents at hx
    rw [List.reverse_singleton, onEvents.eq_2] at hx
    obtain ⟨d, hd, hx⟩ := bind_ok hx
    cases hx
    exact (C87_sub_write h1 ⟨k3.1, by rw [k3.2]; simp⟩ rfl rfl hs hd).2 (by decide)

end SubCtx

/-! ## The publisher -/

namespace PubCtx

open ConnVec

/-- Specification: what the calls made for other connections and for the multicast and listening sockets leave alone. -/
structure Aside (P : Nat → Prop) (c c' : PubCtx) : Prop where
  mcast : c'.mcast = c.mcast
  listen : c'.listen = c.listen
  conns : ∀ j, P j → Connected c j → Connected c' j ∧ c'.cv.conns j = c.cv.conns j

theorem Aside.refl (P : Nat → Prop) (c : PubCtx) : Aside P c c := ⟨rfl, rfl, fun _ _ h => ⟨h, rfl⟩⟩

theorem Aside.trans {P : Nat → Prop} {c c' c'' : PubCtx} (h : Aside P c c') (h' : Aside P c' c'') : Aside P c c'' :=
  ⟨h'.mcast.trans h.mcast, h'.listen.trans h.listen, fun j hj hc =>
    ⟨(h'.conns j hj (h.conns j hj hc).1).1, ((h'.conns j hj (h.conns j hj hc).1).2).trans (h.conns j hj hc).2⟩⟩

theorem Aside.weaken {P Q : Nat → Prop} {c c' : PubCtx} (h : Aside P c c') (hq : ∀ j, Q j → P j) : Aside Q c c' :=
  ⟨h.mcast, h.listen, fun j hj => h.conns j (hq j hj)⟩

/-- Specification: the calls the event loop makes for an index. -/
def callFor (i : Nat) : Op → Prop
  | .readListen ar _ => i = LISTEN_INDEX ∧ saneAcc ar
  | .readMcast _ => i = MULTICAST_INDEX
  | .writeMcast _ => i = MULTICAST_INDEX
  | .read j _ => i = j
  | .write j _ => i = j
  | .close j => i = j
  | _ => False

theorem callFor_sane {i : Nat} {op : Op} (h : callFor i op) : op.sane := by
  cases op <;> first | exact h.2 | trivial

theorem step_aside {ops : List Op} {c c' : PubCtx} (h : Reaches ops c) (hl : ops.length + 2 < U64) {i : Nat} {op : Op} (hf : callFor i op) {r : Nat}
    (hx : step c op = .ok (r, c')) : Reaches (ops ++ [op]) c' ∧ Aside (· ≠ i) c c' := by
  have hs := callFor_sane hf
  refine ⟨h.snoc' hs hl hx, ?_⟩
  obtain ⟨pops, L, g, hq, _⟩ := h.good
  have hb : (queueArgs pops).length + 2 < U64 := by omega
  have hcon : ∀ j, j ≠ i → Connected c j → Connected c' j := by
    intro j hj hc
    obtain ⟨_, _, k⟩ := step_link g hs hb hx hc (by rintro rv rfl; exact hj hf.symm) (by rintro rfl; exact hj hf.symm) (by rintro rfl; exact hf)
    exact k.conn
  have of : cfg c' = cfg c → (∀ j, j ≠ i → Connected c j → c'.cv.conns j = c.cv.conns j) → Aside (· ≠ i) c c' := fun e1 e2 =>
    ⟨congrArg Cfg.mcast e1, congrArg Cfg.listen e1, fun j hj hc => ⟨hcon j hj hc, e2 j hj hc⟩⟩
  cases op with
  | readListen ar cb =>
    obtain ⟨r', c'', ys, L', ds, g1, g2, e, _, _, _, g3⟩ := readListen_spec g hf.2 cb
    have : step c (.readListen ar cb) = .ok (r', c'') := g1
    rw [this] at hx; cases hx
    refine of e ?_
    intro j _ hj
    have hjL := g.connected.1 hj
    rcases g3 with ⟨_, _, _, _, hr⟩ | ⟨_, k, hk, _, ⟨_, _, _, he, _⟩ | ⟨_, _, _, he⟩⟩
    · rw [hr]
    · exact he j (by rintro rfl; exact hk hjL)
    · exact he j (by rintro rfl; exact hk hjL)
  | readMcast err =>
    have hx' : readMcast c err = (r, c') := Except.ok.inj hx
    unfold readMcast at hx'
    split at hx'
    · cases hx'; exact of rfl fun _ _ _ => rfl
    · split at hx'
      · cases hx'; exact of rfl fun _ _ _ => rfl
      · cases hx'; exact of rfl fun _ _ _ => rfl
  | read k rv =>
    rcases readConn_spec g hx with ⟨_, _, e⟩ | ⟨_, c1, ys, zs, ds, L', _, hy, _, e, _, _, _, _, hcj, _⟩
    · subst e; exact .refl _ _
    · exact of e fun j hj _ => hcj j (by rw [← show i = k from hf]; exact hj)
  | writeMcast rs =>
    obtain ⟨r', c'', ys, es, ds, g1, g2, e, _, _, _, _, g6, _⟩ := multicastWrite_spec rs g
    have : step c (.writeMcast rs) = .ok (r', c'') := g1
    rw [this] at hx; cases hx
    exact of e fun j _ _ => by rw [g6]
  | write k wv =>
    have hx' : writeConn c k wv = .ok (r, c') := hx
    rcases writeConn_spec g k wv with ⟨_, e | e⟩ | ⟨_, _, e⟩ | ⟨_, _, r', c'', out, e, _, ec, _, _, _, _, _, _, _, g5⟩
    · rw [e] at hx'; cases hx'; exact .refl _ _
    · rw [e] at hx'; cases hx'; exact .refl _ _
    · rw [e] at hx'; cases hx'; exact .refl _ _
    · rw [e] at hx'; cases hx'
      exact of ec fun j hj _ => g5 j (by rw [← show i = k from hf]; exact hj)
  | close k =>
    have hx' : closeConnection c k = .ok (r, c') := hx
    by_cases hk : k ∈ L
    · obtain ⟨c'', e, _, ec, _, _, g5, _⟩ := close_spec g hk
      rw [e] at hx'; cases hx'
      exact of ec fun j hj _ => g5 j (by rw [← show i = k from hf]; exact hj)
    · rw [close_none g hk] at hx'; cases hx'; exact .refl _ _
  | _ => exact hf.elim

/-- Specification: accept() and the calls after it behave (see `saneAcc`). -/
def Event.sane (e : Event) : Prop := saneAcc e.ar

theorem Event.readFor {e : Event} (h : e.sane) : callFor e.idx e.readOp := by
  unfold Event.readOp
  split
  · rename_i h1; exact ⟨h1, h⟩
  · split
    · rename_i h1; exact h1
    · exact rfl

theorem Event.writeFor (e : Event) : callFor e.idx e.writeOp := by
  unfold Event.writeOp
  split
  · rename_i h1; exact h1
  · exact rfl

theorem onEvent_spec {ops : List Op} {c c' : PubCtx} (h : Reaches ops c) (hl : ops.length + 4 < U64) {e : Event} (hs : e.sane) (hx : onEvent c e = .ok c') :
    (∃ calls, calls.length ≤ 3 ∧ Reaches (ops ++ calls) c') ∧ Aside (· ≠ e.idx) c c' := by
  have fin : ∀ {calls : List Op} {d : PubCtx}, calls.length ≤ 1 → Reaches (ops ++ calls) d → Aside (· ≠ e.idx) c d → onOut d e = .ok c' →
      (∃ calls, calls.length ≤ 3 ∧ Reaches (ops ++ calls) c') ∧ Aside (· ≠ e.idx) c c' := by
    intro calls d hcl hd ha hw
    unfold onOut at hw
    split at hw
    · unfold onWrite at hw
      obtain ⟨⟨r, d1⟩, h1, hw⟩ := bind_ok hw
      obtain ⟨hd1, a1⟩ := step_aside hd (by simp; omega) e.writeFor h1
      dsimp only at hw
      split at hw
      · obtain ⟨⟨r2, d2⟩, h2, hw⟩ := bind_ok hw
        cases hw
        obtain ⟨hd2, a2⟩ := step_aside hd1 (by simp; omega) (i := e.idx) (op := .close e.idx) rfl h2
        rw [List.append_assoc, List.append_assoc] at hd2
        exact ⟨⟨_, by simp; omega, hd2⟩, (ha.trans a1).trans a2⟩
      · cases hw
        rw [List.append_assoc] at hd1
        exact ⟨⟨_, by simp; omega, hd1⟩, ha.trans a1⟩
    · cases hw; exact ⟨⟨_, by omega, hd⟩, ha⟩
  unfold onEvent at hx
  split at hx
  · obtain ⟨⟨r, d⟩, h1, hx⟩ := bind_ok hx
    obtain ⟨hd, a⟩ := step_aside h (by omega) (Event.readFor hs) h1
    exact fin (by simp) hd a hx
  · exact fin (calls := []) (by simp) (by rw [List.append_nil]; exact h) (.refl _ _) hx

theorem onEvents_spec : ∀ (l : List Event) {ops : List Op} {c c' : PubCtx}, Reaches ops c → ops.length + 3 * l.length + 1 < U64 → (∀ e ∈ l, e.sane) →
    onEvents c l = .ok c' → (∃ calls, calls.length ≤ 3 * l.length ∧ Reaches (ops ++ calls) c') ∧ Aside (fun j => ∀ e ∈ l, e.idx ≠ j) c c' := by
  intro l
  induction l with
  | nil => intro ops c c' h _ _ hx; cases hx; exact ⟨⟨[], by simp, by rw [List.append_nil]; exact h⟩, .refl _ _⟩
  | cons e l ih =>
    intro ops c c' h hl hs hx
    rw [List.length_cons] at hl
    rw [onEvents.eq_2] at hx
    obtain ⟨d, h1, hx⟩ := bind_ok hx
    obtain ⟨⟨k1, l1, g1⟩, a1⟩ := onEvent_spec h (by omega) (hs e (List.mem_cons_self ..)) h1
    obtain ⟨⟨k2, l2, g2⟩, a2⟩ := ih g1 (by rw [List.length_append]; omega) (fun e he => hs e (List.mem_cons_of_mem _ he)) hx
    refine ⟨⟨k1 ++ k2, by rw [List.length_append, List.length_cons]; omega, by rw [← List.append_assoc]; exact g2⟩, ?_⟩
    exact (a1.weaken (Q := fun j => ∀ e' ∈ e :: l, e'.idx ≠ j) fun j hj e' => hj e (List.mem_cons_self ..) e'.symm).trans
      (a2.weaken fun j hj e' he => hj e' (List.mem_cons_of_mem _ he))

theorem onEvents_append : ∀ (l1 l2 : List Event) (c : PubCtx), onEvents c (l1 ++ l2) = (onEvents c l1).bind fun d => onEvents d l2 := by
  intro l1
  induction l1 with
  | nil => intro l2 c; rfl
  | cons e l1 ih =>
    intro l2 c
    show (onEvent c e).bind (fun d => onEvents d (l1 ++ l2)) = ((onEvent c e).bind fun d => onEvents d l1).bind fun d => onEvents d l2
    cases onEvent c e with
    | error f => rfl
    | ok d => exact ih l2 d

/-- Specification: what epoll_wait() can report, as for the subscriber. -/
def EpollReport (c : PubCtx) (evs : List (Nat × Event)) : Prop :=
  (evs.map (·.1)).Nodup ∧ ∃ w, epoll c.cv.polls = some w ∧
    ∀ x ∈ evs, ∃ a, w x.1 = some (x.2.idx, a) ∧ (x.2.rd = true → a.r = true) ∧ (x.2.wr = true → a.w = true)

theorem report_possible {ops : List Op} {c : PubCtx} (h : Reaches ops c) (ho : Orderly ops) (hd : OsOk c.cv.fds) {evs : List (Nat × Event)}
    (hr : EpollReport c evs) :
    (∀ x ∈ evs, (x.2.idx = MULTICAST_INDEX ∨ x.2.idx = LISTEN_INDEX ∨ Connected c x.2.idx) ∧ descriptorOf c x.2.idx = some x.1) ∧
    (evs.map (·.2.idx)).Nodup := by
  have hM : MULTICAST_INDEX = 32766 := rfl
  have hN : NIL_INDEX = 32767 := rfl
  have hLI : LISTEN_INDEX = 32765 := rfl
  obtain ⟨pops, L, g, -⟩ := h.good
  have hsz := g.v.sz
  obtain ⟨h1, w, h2, h3⟩ := hr
  obtain ⟨w', e1, k1, k2, k3⟩ := C84_publisher_partial h ho hd
  rw [h2] at e1
  cases e1
  have key : ∀ x ∈ evs, (x.2.idx = MULTICAST_INDEX ∨ x.2.idx = LISTEN_INDEX ∨ Connected c x.2.idx) ∧ descriptorOf c x.2.idx = some x.1 := by
    intro x hx
    obtain ⟨a, ha, -, -⟩ := h3 x hx
    unfold descriptorOf
    rcases k3 _ _ _ ha with ⟨g1, g2⟩ | ⟨_, ⟨g1, g2⟩ | ⟨g1, g2⟩⟩
    · have := g1.1
      rw [if_neg (by omega), if_neg (by omega), if_neg (by omega)]
      exact ⟨.inr (.inr g1), g2⟩
    · rw [if_neg (by omega), if_pos g1]; exact ⟨.inr (.inl g1), g2⟩
    · rw [if_pos g1]; exact ⟨.inl g1, g2⟩
  refine ⟨key, ?_⟩
  clear h3
  induction evs with
  | nil => exact List.nodup_nil
  | cons x xs ih =>
    rw [List.map_cons, List.nodup_cons] at h1 ⊢
    refine ⟨?_, ih h1.2 (fun y hy => key y (List.mem_cons_of_mem _ hy))⟩
    intro hm
    obtain ⟨y, hy, e⟩ := List.mem_map.1 hm
    have hy' := (key y (List.mem_cons_of_mem _ hy)).2
    rw [e, (key x (List.mem_cons_self ..)).2] at hy'
    exact h1.1 (List.mem_map.2 ⟨y, hy, (Option.some.inj hy').symm⟩)

/-- C87 for the publisher, provided the calls were made in an order in which it tells the event loop of all its sockets (C84; missing for the full
property) -/
theorem C87_publisher_partial {ops : List Op} {c : PubCtx} (h : Reaches ops c) (ho : Orderly ops) (hd : OsOk c.cv.fds) {evs : List (Nat × Event)}
    (hr : EpollReport c evs) (hs : ∀ x ∈ evs, x.2.sane) (hl : ops.length + 3 * evs.length + 1 < U64) {c' : PubCtx}
    (hx : processEvents c (evs.map (·.2)) = .ok c') :
    (∀ pre d e post, evs = pre ++ (d, e) :: post → ∃ m m', processEvents c (post.map (·.2)) = .ok m ∧ descriptorOf m e.idx = some d ∧
      (e.idx < c.cv.size → Connected m e.idx ∧ m.cv.conns e.idx = c.cv.conns e.idx) ∧ onEvent m e = .ok m') ∧
    (∀ j, Connected c j → (∀ x ∈ evs, x.2.idx ≠ j) → Connected c' j ∧ c'.cv.conns j = c.cv.conns j) ∧
    ∃ calls, Reaches (ops ++ calls) c' := by
  have hM : MULTICAST_INDEX = 32766 := rfl
  have hLI : LISTEN_INDEX = 32765 := rfl
  obtain ⟨h1, h2⟩ := report_possible h ho hd hr
  have hsane : ∀ {l : List (Nat × Event)}, (∀ x ∈ l, x ∈ evs) → ∀ e ∈ (l.map (·.2)).reverse, e.sane := by
    intro l hsub e he
    rw [List.mem_reverse, List.mem_map] at he
    obtain ⟨x, hx, rfl⟩ := he
    exact hs x (hsub x hx)
  obtain ⟨⟨calls, _, g1⟩, g2⟩ := onEvents_spec _ h (by rw [List.length_reverse, List.length_map]; exact hl) (hsane fun _ h => h) hx
  obtain ⟨pops, L, g, -⟩ := h.good
  have hsz := g.v.sz
  refine ⟨?_, ?_, ⟨_, g1⟩⟩
  · intro pre d e post he
    subst he
    unfold processEvents at hx ⊢
    rw [List.map_append, List.map_cons, List.reverse_append, List.reverse_cons, List.append_assoc, onEvents_append] at hx
    obtain ⟨m, k1, hx⟩ := bind_ok hx
    rw [List.singleton_append, onEvents.eq_2] at hx
    obtain ⟨m', k2, hx⟩ := bind_ok hx
    obtain ⟨-, a⟩ := onEvents_spec _ h (by rw [List.length_reverse, List.length_map]; rw [List.length_append, List.length_cons] at hl; omega)
      (hsane fun x hx => by simp [hx]) k1
    obtain ⟨hp, hde⟩ := h1 (d, e) (by simp)
    have hne : ∀ e' ∈ (post.map (·.2)).reverse, e'.idx ≠ e.idx := by
      intro e' he' heq
      rw [List.mem_reverse, List.mem_map] at he'
      obtain ⟨y, hy, rfl⟩ := he'
      rw [List.map_append, List.map_cons] at h2
      have := (List.nodup_cons.1 (List.nodup_append.1 h2).2.1).1
      exact this (List.mem_map.2 ⟨y, hy, heq⟩)
    have hcon : Connected c e.idx → Connected m e.idx ∧ m.cv.conns e.idx = c.cv.conns e.idx := a.conns _ hne
    refine ⟨m, m', k1, ?_, ?_, k2⟩
    · have hde' : descriptorOf c e.idx = some d := hde
      rw [← hde']
      unfold descriptorOf
      rw [a.mcast, a.listen]
      split
      · rfl
      · split
        · rfl
        · split
          · rfl
          · rename_i n1 n2 _
            rw [(hcon ((hp.resolve_left n1).resolve_left n2)).2]
    · intro hlt
      have hp' : e.idx = MULTICAST_INDEX ∨ e.idx = LISTEN_INDEX ∨ Connected c e.idx := hp
      rcases hp' with e1 | e1 | hc
      · omega
      · omega
      · exact hcon hc
  · intro j hj hne
    refine g2.conns j ?_ hj
    intro e he
    rw [List.mem_reverse, List.mem_map] at he
    obtain ⟨x, hx, rfl⟩ := he
    exact hne x hx

/-- C87: handling events faults only in reading bytes that arrived on a connection. -/
theorem C87_pub_faults_partial {ops : List Op} {c : PubCtx} (h : Reaches ops c) (ho : Orderly ops) (hd : OsOk c.cv.fds) {evs : List (Nat × Event)}
    (hr : EpollReport c evs) (hs : ∀ x ∈ evs, x.2.sane) (hl : ops.length + 3 * evs.length + 1 < U64) {f : Fault}
    (hx : processEvents c (evs.map (·.2)) = .error f) :
    ∃ pre d e post m, evs = pre ++ (d, e) :: post ∧ processEvents c (post.map (·.2)) = .ok m ∧ e.rd = true ∧ Connected m e.idx ∧
      step m (.read e.idx e.rv) = .error f := by
  have one : ∀ {ops : List Op} {c : PubCtx} {i : Nat} {op : Op}, Reaches ops c → ops.length + 2 < U64 → callFor i op → step c op = .error f →
      ∃ rv, op = .read i rv ∧ Connected c i := by
    intro ops c i op h hl hf hx
    rcases C52_publisher_faults h (callFor_sane hf) hl hx with ⟨j, xs, e, _, hc⟩ | ⟨_, _, _, e, _⟩
    · subst e
      have : i = j := hf
      subst this
      exact ⟨_, rfl, hc⟩
    · subst e; exact hf.elim
  have out : ∀ {ops : List Op} {c : PubCtx} {e : Event}, Reaches ops c → ops.length + 3 < U64 → onOut c e ≠ .error f := by
    intro ops c e h hl hx
    unfold onOut at hx
    split at hx
    · unfold onWrite at hx
      cases h1 : step c e.writeOp with
      | error g =>
        rw [h1] at hx
        have : g = f := by cases hx; rfl
        subst this
        obtain ⟨rv, e1, _⟩ := one h (by omega) e.writeFor h1
        unfold Event.writeOp at e1
        split at e1 <;> cases e1
      | ok x =>
        rw [h1, Pub.ok_bind] at hx
        obtain ⟨h2, -⟩ := step_aside h (by omega) e.writeFor (r := x.1) (c' := x.2) h1
        split at hx
        · cases h3 : step x.2 (.close e.idx) with
          | error g =>
            rw [h3] at hx
            have : g = f := by cases hx; rfl
            subst this
            obtain ⟨rv, e1, _⟩ := one h2 (by simp; omega) (i := e.idx) (op := .close e.idx) rfl h3
            cases e1
          | ok y => rw [h3, Pub.ok_bind] at hx; cases hx
        · cases hx
    · cases hx
  have key : ∀ (l : List Event) {ops : List Op} {c : PubCtx}, Reaches ops c → ops.length + 3 * l.length + 1 < U64 → (∀ e ∈ l, e.sane) → onEvents c l = .error f →
      ∃ l1 e l2 m, l = l1 ++ e :: l2 ∧ onEvents c l1 = .ok m ∧ e.rd = true ∧ Connected m e.idx ∧ step m (.read e.idx e.rv) = .error f := by
    intro l
    induction l with
    | nil => intro ops c _ _ _ hx; cases hx
    | cons e l ih =>
      intro ops c h hl hs hx
      rw [List.length_cons] at hl
      rw [onEvents.eq_2] at hx
      cases hd : onEvent c e with
      | error g =>
        rw [hd] at hx
        have : g = f := by cases hx; rfl
        subst this
        refine ⟨[], e, l, c, rfl, rfl, ?_⟩
        unfold onEvent at hd
        split at hd
        · rename_i hrd
          cases h1 : step c e.readOp with
          | error g' =>
            rw [h1] at hd
            have : g' = g := by cases hd; rfl
            subst this
            obtain ⟨rv, e1, hc⟩ := one h (by omega) (Event.readFor (hs e (List.mem_cons_self ..))) h1
            have e2 : e.readOp = .read e.idx e.rv := by
              unfold Event.readOp at e1 ⊢
              split
              · rename_i h2; rw [if_pos h2] at e1; cases e1
              · rename_i h2
                rw [if_neg h2] at e1
                split
                · rename_i h3; rw [if_pos h3] at e1; cases e1
                · rfl
            exact ⟨hrd, hc, by rw [← e2]; exact h1⟩
          | ok x =>
            rw [h1, Pub.ok_bind] at hd
            obtain ⟨h2, -⟩ := step_aside h (by omega) (Event.readFor (hs e (List.mem_cons_self ..))) (r := x.1) (c' := x.2) h1
            exact absurd hd (out h2 (by simp; omega))
        · exact absurd hd (out h (by omega))
      | ok d =>
        rw [hd, Pub.ok_bind] at hx
        obtain ⟨⟨calls, hc, g1⟩, a⟩ := onEvent_spec h (by omega) (hs e (List.mem_cons_self ..)) hd
        obtain ⟨l1, e', l2, m, k1, k2, k3, k4, k5⟩ := ih g1 (by rw [List.length_append]; omega) (fun e he => hs e (List.mem_cons_of_mem _ he)) hx
        refine ⟨e :: l1, e', l2, m, by rw [k1]; rfl, ?_, k3, k4, k5⟩
        rw [onEvents.eq_2, hd, Pub.ok_bind]; exact k2
  obtain ⟨l1, e, l2, m, k1, k2, k3, k4, k5⟩ := key _ h (by rw [List.length_reverse, List.length_map]; exact hl) (by
    intro e he
    rw [List.mem_reverse, List.mem_map] at he
    obtain ⟨x, hx, rfl⟩ := he
    exact hs x hx) hx
  have k1' : evs.map (·.2) = l2.reverse ++ e :: l1.reverse := by
    have := congrArg List.reverse k1
    rw [List.reverse_reverse] at this
    rw [this]; simp
  obtain ⟨pre, rest, r1, r2, r3⟩ := List.map_eq_append_iff.1 k1'
  obtain ⟨x, post, r4, r5, r6⟩ := List.map_eq_cons_iff.1 r3
  subst r4
  refine ⟨pre, x.1, e, post, m, by rw [r1, ← r5], ?_, k3, k4, k5⟩
  unfold processEvents
  rw [r6, List.reverse_reverse]; exact k2

/-- C87: writev() finding no room does not cost the publisher of the test programs its connection; another failure does. -/
theorem C87_pub_write {ops : List Op} {c c1 c' : PubCtx} (h : Reaches ops c) (hl : ops.length + 4 < U64) {e : Event} (hc : Connected c e.idx)
    (hr : e.rd = false) (hw : e.wr = true) {r : Nat} (h1 : step c (.write e.idx e.wv) = .ok (r, c1)) (hx : onEvent c e = .ok c') :
    (r = 0 ∨ r = EAGAIN ∨ r = ENODATA → c' = c1 ∧ Connected c' e.idx) ∧ (¬ (r = 0 ∨ r = EAGAIN ∨ r = ENODATA) → ¬ Connected c' e.idx) := by
  have hM : MULTICAST_INDEX = 32766 := rfl
  have hLI : LISTEN_INDEX = 32765 := rfl
  obtain ⟨pops, L, g, hq, _⟩ := h.good
  have hne : e.idx ≠ MULTICAST_INDEX := by have := hc.1; have := g.v.sz; omega
  have e1 : e.writeOp = .write e.idx e.wv := by unfold Event.writeOp; rw [if_neg hne]
  unfold onEvent at hx
  rw [if_neg (by rw [hr]; simp)] at hx
  unfold onOut at hx
  rw [if_pos hw] at hx
  unfold onWrite at hx
  rw [e1, h1, Pub.ok_bind] at hx
  dsimp only at hx
  obtain ⟨_, _, k⟩ := step_link g (op := .write e.idx e.wv) trivial (by omega) h1 hc (by simp) (by simp) (by simp)
  by_cases h0 : r ≠ 0 ∧ r ≠ EAGAIN ∧ r ≠ ENODATA
  · rw [if_pos h0] at hx
    refine ⟨?_, fun _ => ?_⟩
    · rintro (e | e | e)
      · exact absurd e h0.1
      · exact absurd e h0.2.1
      · exact absurd e h0.2.2
    · obtain ⟨⟨r2, c2⟩, h2, hx⟩ := bind_ok hx
      have e2 : c2 = c' := Except.ok.inj hx
      rw [← e2]
      obtain ⟨pops1, L1, g1, hq1, _⟩ := (h.snoc' (op := .write e.idx e.wv) trivial (by omega) h1).good
      obtain ⟨c3, e3, g3, _⟩ := close_spec g1 (g1.connected.1 k.conn)
      have : closeConnection c1 e.idx = .ok (r2, c2) := h2
      rw [e3] at this
      cases this
      intro hc'
      exact ((g1.v.nodup.mem_erase_iff).1 (g3.connected.1 hc')).1 rfl
  · rw [if_neg h0] at hx
    refine ⟨fun _ => ?_, fun hn => ?_⟩
    · have e2 : c1 = c' := Except.ok.inj hx
      rw [← e2]; exact ⟨rfl, k.conn⟩
    · exact absurd ⟨fun e => hn (.inl e), fun e => hn (.inr (.inl e)), fun e => hn (.inr (.inr e))⟩ h0

/-- A check for `EpollReport`. -/
def reportB (c : PubCtx) (evs : List (Nat × Event)) : Bool :=
  decide (evs.map (·.1)).Nodup && (epoll c.cv.polls).isSome && evs.all fun x =>
    match loopAt c.cv.polls x.1 with
    | some (i, a) => decide (i = x.2.idx) && (!x.2.rd || a.r) && (!x.2.wr || a.w)
    | none => false

theorem reportB_ok {c : PubCtx} {evs : List (Nat × Event)} (h : reportB c evs = true) : EpollReport c evs := by
  unfold reportB at h
  rw [Bool.and_eq_true, Bool.and_eq_true, List.all_eq_true] at h
  obtain ⟨⟨h1, h2⟩, h3⟩ := h
  obtain ⟨w, hw⟩ := Option.isSome_iff_exists.1 h2
  refine ⟨of_decide_eq_true h1, w, hw, ?_⟩
  intro x hx
  have := h3 x hx
  unfold loopAt at this
  rw [hw] at this
  have e : (some w).bind (fun w => w x.1) = w x.1 := rfl
  rw [e] at this
  cases hwx : w x.1 with
  | none => rw [hwx] at this; cases this
  | some y =>
    obtain ⟨i, a⟩ := y
    rw [hwx] at this
    simp only [Bool.and_eq_true, decide_eq_true_iff, Bool.or_eq_true, Bool.not_eq_true'] at this
    obtain ⟨⟨k1, k2⟩, k3⟩ := this
    refine ⟨a, by rw [k1], ?_, ?_⟩
    · intro hr
      rcases k2 with k2 | k2
      · rw [hr] at k2; cases k2
      · exact k2
    · intro hr
      rcases k3 with k3 | k3
      · rw [hr] at k3; cases k3
      · exact k3

/-- Check a property of the context after handling events. -/
def loopCheck (c : PubCtx) (evs : List (Nat × Event)) (P : PubCtx → Bool) : Bool :=
  match processEvents c (evs.map (·.2)) with
  | .ok c' => P c'
  | .error _ => false

/-- The events: the second subscriber acknowledges, a third one connects, and the first one is gone. -/
def exEvents : List (Nat × Event) :=
  [(6, { idx := 1, rd := true, wr := false, rv := some (ackBytes 1 3) }),
   (8, { idx := LISTEN_INDEX, rd := true, wr := false, ar := .ok 25 1 }),
   (5, { idx := 0, rd := true, wr := false, rv := some [] })]

/-- The hypotheses are met, and the slot of the connection closed is in use again when the last event is handled. -/
example : ∃ c rs, Reaches exPre c ∧ run exC0 exPre = .ok (rs, c) ∧ (osOk c.cv.fds && reportB c exEvents && loopCheck c exEvents fun c' =>
    decide (Connected c 0 ∧ Connected c' 0 ∧ (c'.cv.conns 0).desc = some 25 ∧ Connected c' 1 ∧ c.pub.outstanding 1 = [1, 2, 3] ∧ c'.pub.outstanding 1 = [])) = true :=
  reaches_of (P := fun rs c => _) exPre_sane (by decide) (by decide +kernel)
example : Orderly exPre := orderlyAll_ok (by decide +kernel)
example : ∀ x ∈ exEvents, x.2.sane := by simp [exEvents, Event.sane, saneAcc, EAGAIN]

end PubCtx
end Rmc
