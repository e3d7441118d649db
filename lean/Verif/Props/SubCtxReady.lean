import Verif.SubCtxFaults

/-!
# C57: the packet ready callback
-/

set_option linter.unusedVariables false
set_option linter.unusedSimpArgs false

namespace Rmc
namespace SubCtx
open SubPub CircBuf ConnVec

/-- Specification of C57, one event: `some true`: packets became ready that the callback was not called for. Another packet must not
come in then, and the callback must not be called otherwise. -/
def cbStep : Option Bool → SEv → Option Bool
  | none, _ => none
  | some _, .ready _ => some true
  | some b, .readyCb => if b then some false else none
  | some b, .arrive _ _ _ _ => if b then none else some false
  | some b, _ => some b

/-- Specification of C57: whenever a packet coming in makes packets ready, the callback is called, once, before the next packet is
looked at; it is not called at any other time. -/
def CbOK (log : List SEv) : Prop := log.foldl cbStep (some false) = some false

instance (log : List SEv) : Decidable (CbOK log) := inferInstanceAs (Decidable (_ = _))

/-- Events that have nothing to do with the callback. -/
def Quiet (e : SEv) : Prop := ∀ b, cbStep b e = b

theorem quiet_of {e : SEv} (h : match e with | .ready _ => False | .readyCb => False | .arrive _ _ _ _ => False | _ => True) : Quiet e := by
  intro b
  cases b with
  | none => cases e <;> rfl
  | some b => cases e <;> first | exact absurd h id | rfl

theorem foldl_quiet : ∀ (es : List SEv) (b : Option Bool), (∀ e ∈ es, Quiet e) → es.foldl cbStep b = b := by
  intro es
  induction es with
  | nil => intro b _; rfl
  | cons e es ih => intro b h; rw [List.foldl_cons, h e (by simp)]; exact ih b (fun e' he => h e' (by simp [he]))

theorem CbOK.app {log : List SEv} (h : CbOK log) (es : List SEv) (hq : ∀ e ∈ es, Quiet e) : CbOK (log ++ es) := by
  unfold CbOK at h ⊢
  rw [List.foldl_append, h, foldl_quiet es _ hq]

theorem userOp_quiet (c : SubCtx) (u : UOp) : (∃ es, (userOp c u).log = c.log ++ es ∧ ∀ e ∈ es, Quiet e) ∧
    (userOp c u).readyCb = c.readyCb := by
  cases u with
  | dispatched a =>
    show (∃ es, (dispatched c a).2.log = _ ∧ _) ∧ (dispatched c a).2.readyCb = _
    unfold dispatched
    split
    · exact ⟨⟨[], by simp, by simp⟩, rfl⟩
    · exact ⟨⟨[_], rfl, by intro e he; rw [List.mem_singleton] at he; subst he; exact quiet_of trivial⟩, rfl⟩
  | keep a =>
    show (∃ es, (dispatchedKeep c a).2.log = _ ∧ _) ∧ (dispatchedKeep c a).2.readyCb = _
    unfold dispatchedKeep
    split
    · exact ⟨⟨[], by simp, by simp⟩, rfl⟩
    · exact ⟨⟨[_], rfl, by intro e he; rw [List.mem_singleton] at he; subst he; exact quiet_of trivial⟩, rfl⟩

theorem userOps_quiet : ∀ (us : List UOp) (c : SubCtx), (∃ es, (us.foldl userOp c).log = c.log ++ es ∧ ∀ e ∈ es, Quiet e) ∧
    (us.foldl userOp c).readyCb = c.readyCb := by
  intro us
  induction us with
  | nil => intro c; exact ⟨⟨[], by simp, by simp⟩, rfl⟩
  | cons u us ih =>
    intro c
    obtain ⟨⟨es, h1, h2⟩, h3⟩ := userOp_quiet c u
    obtain ⟨⟨fs, k1, k2⟩, k3⟩ := ih (userOp c u)
    rw [List.foldl_cons]
    refine ⟨⟨es ++ fs, by rw [k1, h1, List.append_assoc], ?_⟩, k3.trans h3⟩
    intro e he
    rcases List.mem_append.1 he with he | he
    · exact h2 e he
    · exact k2 e he

theorem foldl_readies : ∀ (ps : List SPkt) (b : Bool), ps ≠ [] → (ps.map SEv.ready).foldl cbStep (some b) = some true := by
  intro ps
  induction ps with
  | nil => intro b h; exact absurd rfl h
  | cons p ps ih =>
    intro b _
    rw [List.map_cons, List.foldl_cons]
    cases ps with
    | nil => rfl
    | cons q qs => exact ih true (by simp)

/-- A packet coming in, with the callback set. -/
theorem deliver_cbOK {c c' : SubCtx} {i pid : Nat} {data : List UInt8} {m : Bool} {ts : Int} (h : CbOK c.log) (hr : c.readyCb ≠ none)
    (hd : deliver c i pid data m ts = .ok c') : CbOK c'.log ∧ c'.readyCb = c.readyCb := by
  unfold deliver at hd
  obtain ⟨s, hs, hd⟩ := bind_ok hd
  dsimp only at hd
  split at hd
  · cases hd
    refine ⟨?_, rfl⟩
    show CbOK (c.log ++ [_])
    unfold CbOK at h ⊢
    rw [List.foldl_append, h]; rfl
  · have fin : ∀ (c2 : SubCtx) (r : SubPub × List SPkt), c2.readyCb = c.readyCb →
        c2.log = c.log ++ [.arrive i ⟨c.nextAddr, pid, ⟨c.nextAddr, data, false⟩, i⟩ m ts] ++
        [.alloc ⟨c.nextAddr, pid, ⟨c.nextAddr, data, false⟩, i⟩] → ∀ c3,
        (if r.2 = [] then { SubCtx.setPub c2 i r.1 with ready := (SubCtx.setPub c2 i r.1).ready ++ r.2, log := (SubCtx.setPub c2 i r.1).log ++ r.2.map .ready }
          else runReadyCb { SubCtx.setPub c2 i r.1 with ready := (SubCtx.setPub c2 i r.1).ready ++ r.2, log := (SubCtx.setPub c2 i r.1).log ++ r.2.map .ready }) = c3 →
        CbOK c3.log ∧ c3.readyCb = c.readyCb := by
      intro c2 r ecb e c3 e3
      subst e3
      have h2 : c2.log.foldl cbStep (some false) = some false := by
        rw [e, List.foldl_append, List.foldl_append, h]; rfl
      split
      · rename_i hn
        refine ⟨?_, ecb⟩
        show CbOK (c2.log ++ r.2.map SEv.ready)
        rw [hn, List.map_nil, List.append_nil]
        exact h2
      · rename_i hn
        obtain ⟨d, hd⟩ : ∃ d, d = { SubCtx.setPub c2 i r.1 with ready := (SubCtx.setPub c2 i r.1).ready ++ r.2, log := (SubCtx.setPub c2 i r.1).log ++ r.2.map SEv.ready } := ⟨_, rfl⟩
        have hdl : d.log.foldl cbStep (some false) = some true := by
          rw [hd]
          show (c2.log ++ r.2.map SEv.ready).foldl cbStep (some false) = _
          rw [List.foldl_append, h2, foldl_readies _ _ hn]
        have hdr : d.readyCb = c.readyCb := by rw [hd]; exact ecb
        rw [← hd]
        unfold runReadyCb
        split
        · rename_i hf; rw [hdr] at hf; exact absurd hf hr
        · rename_i f hf
          obtain ⟨⟨es, k1, k2⟩, k3⟩ := userOps_quiet (f d.cbCount d.ready) (ev { d with cbCount := d.cbCount + 1 } .readyCb)
          refine ⟨?_, k3.trans hdr⟩
          rw [k1]
          refine CbOK.app ?_ es k2
          show (d.log ++ [SEv.readyCb]).foldl cbStep (some false) = _
          rw [List.foldl_append, hdl]; rfl
    cases m with
    | true =>
      rw [if_pos rfl] at hd
      obtain ⟨c2, h2, hd⟩ := bind_ok hd
      refine fin c2 _ ?_ (noteAck_log h2) _ (Except.ok.inj hd)
      unfold noteAck at h2
      obtain ⟨o, ho, h2⟩ := bind_ok h2
      split at h2
      · cases h2; rfl
      · obtain ⟨l, hl, h2⟩ := bind_ok h2
        cases h2; rfl
    | false =>
      rw [if_neg (by simp)] at hd
      obtain ⟨c2, h2, hd⟩ := bind_ok hd
      cases h2
      exact fin (ev { ev c (.arrive i ⟨c.nextAddr, pid, ⟨c.nextAddr, data, false⟩, i⟩ false ts) with nextAddr := c.nextAddr + 1 }
            (.alloc ⟨c.nextAddr, pid, ⟨c.nextAddr, data, false⟩, i⟩)) _ rfl rfl _ (Except.ok.inj hd)

/-- What is to be shown of every call. -/
def CbInv (c : SubCtx) : Prop := CbOK c.log ∧ c.readyCb ≠ none

theorem announced_cb {c : SubCtx} (h : CbInv c) (hd : PacketHeader) (ann : Option Bool) (sk : Except Nat Nat) (cr : ConnRes) :
    CbInv (announced c hd ann sk cr) := by
  have q : ∀ d : SubCtx, CbInv d → ∀ e, Quiet e → CbInv (ev d e) := fun d hd e he =>
    ⟨hd.1.app [e] (by intro e' h'; rw [List.mem_singleton] at h'; subst h'; exact he), hd.2⟩
  unfold announced
  cases ann with
  | none =>
    dsimp only
    rw [if_neg (by simp)]
    split
    · exact h
    · exact q _ h _ (quiet_of trivial)
  | some a =>
    dsimp only
    have h1 := q c h (.announceCb a) (quiet_of trivial)
    split
    · exact h1
    · split
      · exact h1
      · exact q _ h1 _ (quiet_of trivial)

theorem mcastPacket_cb {c c' : SubCtx} {src r : Nat} {bs : List UInt8} {ts : Int} {ann : Option Bool}
    {sk : Except Nat Nat} {cr : ConnRes} (h : CbInv c) (hx : mcastPacket c src bs ts ann sk cr = .ok (r, c')) : CbInv c' := by
  unfold mcastPacket at hx
  split at hx
  · cases hx; exact h
  · dsimp only at hx
    split at hx
    · cases hx; exact h
    · split at hx
      · rw [← (Prod.mk.inj (Except.ok.inj hx)).2]
        split
        · exact h
        · exact announced_cb h _ _ _ _
      · split at hx
        · rw [← (Prod.mk.inj (Except.ok.inj hx)).2]
          split
          · exact h
          · exact announced_cb h _ _ _ _
        · split at hx
          · cases hx; exact h
          · obtain ⟨c2, h2, hx⟩ := bind_ok hx
            cases hx
            obtain ⟨k1, k2⟩ := deliver_cbOK h.1 h.2 h2
            exact ⟨k1, by rw [k2]; exact h.2⟩

theorem mcastLoop_cb : ∀ (rs : List RecvRes) {c c' : SubCtx} {r : Nat}, CbInv c → mcastLoop c rs = .ok (r, c') → CbInv c' := by
  intro rs
  induction rs with
  | nil => intro c c' r h hx; cases hx; exact h
  | cons x rs ih =>
    intro c c' r h hx
    cases x with
    | err e => cases hx; exact h
    | dgram src bs ts ann sk cr =>
      unfold mcastLoop at hx
      split at hx
      · cases hx; exact h
      · obtain ⟨⟨r1, c1⟩, h1, hx⟩ := bind_ok hx
        dsimp only at hx
        split at hx
        · cases hx; exact mcastPacket_cb h h1
        · exact ih (mcastPacket_cb h h1) hx

theorem close_cb {c c' : SubCtx} {i r : Nat} (h : CbInv c) (hx : closeConnection c i = .ok (r, c')) : CbInv c' := by
  unfold closeConnection at hx
  dsimp only at hx
  split at hx
  · cases hx
  · obtain ⟨s, hs, hx⟩ := bind_ok hx
    cases hx
    refine ⟨?_, h.2⟩
    show CbOK (c.log ++ [_] ++ _)
    rw [List.append_assoc]
    refine h.1.app _ ?_
    intro e he
    rcases List.mem_append.1 he with he | he
    · rw [List.mem_singleton] at he; subst he; exact quiet_of trivial
    · obtain ⟨p, -, rfl⟩ := List.mem_map.1 he; exact quiet_of trivial

theorem closeAll_cb : ∀ (l : List Nat) {c c' : SubCtx}, CbInv c → closeAll c l = .ok c' → CbInv c' := by
  intro l
  induction l with
  | nil => intro c c' h hx; cases hx; exact h
  | cons i is ih =>
    intro c c' h hx
    unfold closeAll at hx
    split at hx
    · exact ih h hx
    · obtain ⟨⟨r, c1⟩, h1, hx⟩ := bind_ok hx
      exact ih (close_cb h h1) hx

theorem popReady_cb : ∀ (l : List SPkt) {c : SubCtx}, CbInv c → CbInv (popReady c l) := by
  intro l
  induction l with
  | nil => intro c h; exact h
  | cons p ps ih =>
    intro c h
    unfold popReady
    refine ih ?_
    obtain ⟨⟨es, h1, h2⟩, h3⟩ := userOp_quiet { c with ready := ps } (.dispatched p.addr)
    refine ⟨?_, ?_⟩
    · show CbOK (userOp { c with ready := ps } (.dispatched p.addr)).log
      rw [h1]; exact h.1.app es h2
    · show (userOp { c with ready := ps } (.dispatched p.addr)).readyCb ≠ none
      rw [h3]; exact h.2

theorem Micro.cbOK {tm : Nat} {c c' : SubCtx} (m : Micro tm c c') (hk : tm < 2) (h : CbOK c.log) : CbOK c'.log := by
  have one : ∀ {d : SubCtx} {e : SEv}, d.log = c.log ++ [e] → Quiet e → CbOK d.log := fun e1 hq => by
    rw [e1]; exact h.app _ (by intro e he; rw [List.mem_singleton] at he; subst he; exact hq)
  have same : ∀ {d : SubCtx}, d.log = c.log → CbOK d.log := fun e1 => by rw [e1]; exact h
  cases m with
  | user hx he => refine one rfl ?_; rcases he with rfl | rfl <;> exact quiet_of trivial
  | cb hk' => omega
  | setCb f hk' => exact h
  | annCb a => exact one rfl (quiet_of trivial)
  | sock m es => exact same rfl
  | dup hu hs hp hd hk' => omega
  | recv hu hs hd ha hk' => omega
  | io hu rb a es => exact same rfl
  | taken hs hi ha => exact one rfl (quiet_of trivial)
  | dropAck ha hs hi => exact same rfl
  | msg hu hw hz hb he =>
    refine one rfl ?_
    rcases he with ⟨iv, _, rfl, _⟩ | ⟨bs, ds, rfl, _⟩ <;> exact quiet_of trivial
  | out hu hw hz hb a es => exact one rfl (quiet_of trivial)
  | connect => exact one rfl (quiet_of trivial)
  | noConnect => exact same rfl
  | complete => exact one rfl (quiet_of trivial)
  | noComplete hi hm hv hv' h1 h2 h3 h4 hx =>
    rcases hx with rfl | rfl
    · exact same (List.append_nil _)
    · exact one rfl (quiet_of trivial)
  | close hi hs =>
    show CbOK (c.log ++ [_] ++ _)
    rw [List.append_assoc]
    refine h.app _ ?_
    intro e he
    rcases List.mem_append.1 he with he | he
    · rw [List.mem_singleton] at he; subst he; exact quiet_of trivial
    · obtain ⟨p, -, rfl⟩ := List.mem_map.1 he; exact quiet_of trivial

theorem Micro.readyCb {tm : Nat} {c c' : SubCtx} (m : Micro tm c c') (hk : tm ≠ 0) : c'.readyCb = c.readyCb := by
  cases m <;> first | rfl | omega

theorem writeCtl_readyCb {c c' : SubCtx} {o : Option Nat} {r ptr : Nat} {bs : List UInt8} (h : writeCtlTo c o bs ptr = .ok (r, c')) :
    c'.readyCb = c.readyCb := by
  unfold writeCtlTo at h
  split at h
  · cases h; rfl
  · split at h
    · cases h; rfl
    · split at h
      · cases h; rfl
      · unfold writeCtl at h
        dsimp only at h
        rename_i hb _ i hm
        rw [if_neg hb, if_neg hm] at h
        split at h
        · cases h; rfl
        · skip
          · skip
            · obtain ⟨a, h1, h⟩ := bind_ok h
              split at h
              · cases h; rfl
              · obtain ⟨a, h1, h⟩ := bind_ok h
                split at h
                · cases h; rfl
                · split at h
                  · cases h; rfl
                  · obtain ⟨a, h1, h⟩ := bind_ok h
                    obtain ⟨a, h1, h⟩ := bind_ok h
                    cases h; rfl

theorem step_cb {c c' : SubCtx} {op : Op} {r : Nat} (hi : Inv c) (hn : op ≠ .setReadyCb none) (h : CbInv c)
    (hs : step c op = .ok (r, c')) : CbInv c' := by
  have st0 : op.kind < 2 → CbOK c'.log := by
    intro hk
    rcases step_cases hi.core hi.mem hs with st | ⟨-, st⟩
    · exact st.inv (P := fun d => CbOK d.log) (fun _ _ m hP => m.cbOK hk hP) h.1
    · exact st.inv (P := fun d => CbOK d.log) (fun _ _ m hP => m.cbOK (by omega) hP) h.1
  cases op with
  | readMcast rs =>
    have hs : readMcast c rs = .ok (r, c') := hs
    unfold readMcast at hs
    split at hs
    · cases hs; exact h
    · obtain ⟨⟨r1, c1⟩, h1, hs⟩ := bind_ok hs
      have g := mcastLoop_cb rs h h1
      cases hs
      exact g
  | read i rv ts =>
    have hs : readConn c i rv ts = .ok (r, c') := hs
    unfold readConn at hs
    split at hs
    · cases hs; exact h
    · rename_i hcond
      obtain ⟨⟨r1, c1, b1⟩, h1, hs⟩ := bind_ok hs
      have hu : Up c i := Up.of_find hi.core (fun e => hcond (.inl e)) (Decidable.not_not.1 (fun e => hcond (.inr e)))
      have g1 : CbInv c1 := by
        refine Proto.tcpRead_pres (P := CbInv) ?_ h h1
        intro cmd hd hl s b r s' b' hP he
        unfold table Proto.lookup at hl
        split at hl
        · cases hl
          unfold processPacket at he
          split at he
          · cases he; exact hP
          · obtain ⟨x, hx, he⟩ := bind_ok he
            dsimp only at he
            split at he
            · cases he; exact hP
            · obtain ⟨y, hy, he⟩ := bind_ok he
              obtain ⟨c2, h2, he⟩ := bind_ok he
              cases he
              obtain ⟨k1, k2⟩ := deliver_cbOK hP.1 hP.2 h2
              exact ⟨k1, by rw [k2]; exact hP.2⟩
        · simp [Proto.lookup] at hl
      obtain ⟨s1, e1⟩ := readTcp_steps hu h1
      have hc1 := hi.core.steps s1
      obtain ⟨d, hd⟩ : ∃ d, d = setConn c1 i { c1.cv.conns i with readBuf := b1 } := ⟨_, rfl⟩
      have gd : CbInv d := by rw [hd]; exact g1
      have hcd : Core d := by
        rw [hd]
        have hu1 : Up c1 i := hu.congr e1
        have m : Micro (3 + i) c1 _ := .io hu1 b1 (c1.cv.conns i).action [] rfl (.inl rfl) rfl
        have := hc1.micro m
        rw [List.append_nil] at this
        exact this
      dsimp only at hs
      rw [← hd] at hs
      by_cases h3 : r1 = ENOMEM
      · rw [if_pos h3] at hs; cases hs; exact gd
      · rw [if_neg h3] at hs
        by_cases h4 : r1 = EPIPE
        · rw [if_pos h4] at hs
          obtain ⟨⟨r2, c2⟩, h2, hs⟩ := bind_ok hs
          have := close_cb gd h2
          cases hs
          exact this
        · rw [if_neg h4] at hs
          obtain ⟨c2, h2, hs⟩ := bind_ok hs
          have e2 := processAt_id hcd h2
          rw [e2] at hs
          by_cases h5 : r1 = EPROTO
          · rw [if_pos h5] at hs
            obtain ⟨⟨r2, c2⟩, h2, hs⟩ := bind_ok hs
            have := close_cb gd h2
            cases hs
            exact this
          · rw [if_neg h5] at hs; cases hs; exact gd
  | write i so nd wv =>
    refine ⟨st0 (by simp [Op.kind]), ?_⟩
    have hs : writeConn c i so nd wv = .ok (r, c') := hs
    unfold writeConn at hs
    have e : c'.readyCb = c.readyCb := by
      split at hs
      · cases hs; rfl
      · split at hs
        · dsimp only at hs
          split at hs <;> cases hs <;> rfl
        · split at hs
          · cases hs; rfl
          · obtain ⟨x, h1, hs⟩ := bind_ok hs
            cases hs; rfl
    rw [e]; exact h.2
  | timeout now =>
    refine ⟨st0 (by simp [Op.kind]), ?_⟩
    rcases step_cases hi.core hi.mem hs with st | ⟨e, -⟩
    · rw [st.inv (P := fun d => d.readyCb = c.readyCb) (fun _ _ m hP => (m.readyCb (by simp [Op.kind])).trans hP) rfl]
      exact h.2
    · cases e
  | dispatched a =>
    refine ⟨st0 (by simp [Op.kind]), ?_⟩
    have e : (userOp c (.dispatched a)) = c' := congrArg Prod.snd (Except.ok.inj hs)
    rw [← e, (userOp_quiet c (.dispatched a)).2]; exact h.2
  | keep a =>
    refine ⟨st0 (by simp [Op.kind]), ?_⟩
    have e : (userOp c (.keep a)) = c' := congrArg Prod.snd (Except.ok.inj hs)
    rw [← e, (userOp_quiet c (.keep a)).2]; exact h.2
  | close i => exact close_cb h hs
  | ctlAddr a p bs ptr =>
    refine ⟨st0 (by simp [Op.kind]), ?_⟩
    rw [writeCtl_readyCb (show writeCtlTo c _ bs ptr = _ from hs)]; exact h.2
  | ctlNode n bs ptr =>
    refine ⟨st0 (by simp [Op.kind]), ?_⟩
    rw [writeCtl_readyCb (show writeCtlTo c _ bs ptr = _ from hs)]; exact h.2
  | setReadyCb f =>
    cases hs
    refine ⟨h.1, ?_⟩
    intro e
    have e : f = none := e
    subst e
    exact hn rfl
  | activate x =>
    refine ⟨st0 (by simp [Op.kind]), ?_⟩
    have hs := Except.ok.inj hs
    unfold activate at hs
    have e : c'.readyCb = c.readyCb := by
      split at hs
      · cases hs; rfl
      · split at hs <;> cases hs <;> rfl
    rw [e]; exact h.2
  | deactivate =>
    have hs : deactivate c = .ok (r, c') := hs
    unfold deactivate at hs
    dsimp only at hs
    obtain ⟨c1, h1, hs⟩ := bind_ok hs
    cases hs
    exact closeAll_cb _ (show CbInv { popReady c c.ready with ackList := [], cv := ((popReady c c.ready).cv.fdAll [.closed (popReady c c.ready).mcast]).poll (.remove MULTICAST_INDEX (popReady c c.ready).mcast), mcast := none } from popReady_cb c.ready h) h1

/-- C57: if a packet ready callback is set first and never removed, then after every history: each packet coming in (by multicast or
TCP) that makes packets ready is followed, before the next packet is looked at, by exactly one call of the callback, and the
callback is not called otherwise. -/
theorem C57_callback {ops : List Op} {c : SubCtx} (f : Nat → List SPkt → List UOp) (h : Reaches (.setReadyCb (some f) :: ops) c)
    (hn : Op.setReadyCb none ∉ ops) : CbOK c.log := by
  have key : ∀ (all : List Op) (c : SubCtx), Reaches all c → (all = [] ∧ c.log = []) ∨
      all ≠ [] ∧ ∀ ops, all = .setReadyCb (some f) :: ops → Op.setReadyCb none ∉ ops → CbInv c := by
    intro all c h
    refine Reaches.induct (P := fun all c => (all = [] ∧ c.log = []) ∨
      all ≠ [] ∧ ∀ ops, all = .setReadyCb (some f) :: ops → Op.setReadyCb none ∉ ops → CbInv c) ?_ ?_ h
    · intro mem n nid _; exact .inl ⟨rfl, rfl⟩
    · intro ops c op r c' hr ih hs
      refine .inr ⟨by simp, ?_⟩
      intro ops' e hno
      rcases ih with ⟨e1, e2⟩ | ⟨hne, ih⟩
      · subst e1
        cases e
        cases hs
        exact ⟨by show CbOK c.log; rw [e2]; rfl, by intro e; cases e⟩
      · cases ops with
        | nil =>
          exact absurd rfl (hne : ([] : List Op) ≠ [])
        | cons o os =>
          cases e
          exact step_cb hr.inv (fun e => hno (by rw [e]; simp)) (ih os rfl (fun hm => hno (by simp [hm]))) hs
  rcases key _ c h with ⟨e, -⟩ | ⟨-, g⟩
  · cases e
  · exact (g ops rfl hn).1

/-- Non-vacuity: a callback that marks everything dispatched; packets 5, 7, 6 and 6 come in: 5 is ready at once, 7 waits, 6 makes
two packets ready, the duplicate none. Three packets, two calls. -/
example : ∃ c rs, Reaches (.setReadyCb (some fun _ l => l.map fun p => .dispatched p.addr) :: exUp ++
      [.readMcast [exDg 4 5 [50] 1000, exDg 4 7 [70] 1001, exDg 4 6 [60] 1002, exDg 4 6 [60] 1003]]) c ∧
    run exS0 (.setReadyCb (some fun _ l => l.map fun p => .dispatched p.addr) :: exUp ++
      [.readMcast [exDg 4 5 [50] 1000, exDg 4 7 [70] 1001, exDg 4 6 [60] 1002, exDg 4 6 [60] 1003]]) = .ok (rs, c) ∧
    decide (c.log.countP (fun e => e == .readyCb) = 2 ∧ (readied c.log).map (·.pid) = [5, 6, 7] ∧ c.ready = [] ∧ (released c.log).length = 3) = true :=
  reaches_of (P := fun rs c => decide _) (by decide +kernel)

/-- The specification is not trivial: calling the callback twice or not at all violates it. -/
example (p : SPkt) : ¬ CbOK [.arrive 0 p true 1, .ready p] ∧ ¬ CbOK [.arrive 0 p true 1, .ready p, .readyCb, .readyCb] ∧
    CbOK [.arrive 0 p true 1, .ready p, .ready p, .readyCb] := ⟨by simp [CbOK, cbStep], by simp [CbOK, cbStep], by simp [CbOK, cbStep]⟩

end SubCtx
end Rmc
