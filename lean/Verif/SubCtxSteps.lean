import Verif.SubCtxHist
import Verif.PubCtxSteps
import Verif.PubCtxRun

/-! Every call on a subscriber context is a sequence of the small steps of `SubCtxLemmas`. -/

set_option linter.unusedSimpArgs false
set_option linter.unusedVariables false

namespace Rmc
namespace SubCtx
variable {tm : Nat}
open SubPub CircBuf ConnVec

theorem bind_ok {α β : Type} {x : M α} {f : α → M β} {r : β} (h : x >>= f = .ok r) : ∃ a, x = .ok a ∧ f a = .ok r := by
  cases x with
  | error e => cases h
  | ok a => exact ⟨a, rfl, h⟩

theorem getPub_ok {c : SubCtx} {i : Nat} {s : SubPub} : getPub c i = .ok s ↔ c.publishers i = some s := by
  unfold getPub
  split <;> rename_i h <;> rw [h] <;> simp

/-! ## Data packets -/

theorem userOp_cb (c : SubCtx) (u : UOp) : (userOp c u).readyCb = c.readyCb := by
  cases u with
  | dispatched a => unfold userOp dispatched; dsimp only; split <;> rfl
  | keep a => unfold userOp dispatchedKeep; dsimp only; split <;> rfl

theorem userOp_steps (c : SubCtx) (u : UOp) (hk : tm = 0 ∨ c.readyCb ≠ none) : Steps tm c (userOp c u) ∧ (userOp c u).cv = c.cv ∧
    (userOp c u).publishers = c.publishers := by
  cases u with
  | dispatched a =>
    unfold userOp dispatched
    dsimp only
    split
    · exact ⟨.nil, rfl, rfl⟩
    · rename_i h; exact ⟨.one (.user h (.inl rfl) (hk := hk)), rfl, rfl⟩
  | keep a =>
    unfold userOp dispatchedKeep
    dsimp only
    split
    · exact ⟨.nil, rfl, rfl⟩
    · rename_i h; exact ⟨.one (.user h (.inr rfl) (hk := hk)), rfl, rfl⟩

theorem userOps_steps : ∀ (us : List UOp) (c : SubCtx), (tm = 0 ∨ c.readyCb ≠ none) → Steps tm c (us.foldl userOp c) ∧ (us.foldl userOp c).cv = c.cv ∧
    (us.foldl userOp c).publishers = c.publishers := by
  intro us
  induction us with
  | nil => intro c _; exact ⟨.nil, rfl, rfl⟩
  | cons u us ih =>
    intro c hk
    obtain ⟨h1, h2, h3⟩ := ih (userOp c u) (by rw [userOp_cb]; exact hk)
    obtain ⟨g1, g2, g3⟩ := userOp_steps c u hk
    exact ⟨g1.trans h1, h2.trans g2, h3.trans g3⟩

theorem runReadyCb_steps (hk : 2 ≤ tm) (c : SubCtx) : Steps tm c (runReadyCb c) ∧ (runReadyCb c).cv = c.cv ∧
    (runReadyCb c).publishers = c.publishers := by
  unfold runReadyCb
  split
  · exact ⟨.nil, rfl, rfl⟩
  · obtain ⟨h1, h2, h3⟩ := userOps_steps (‹Nat → List SPkt → List UOp› c.cbCount c.ready)
      (ev { c with cbCount := c.cbCount + 1 } .readyCb) (.inr (by
        show c.readyCb ≠ none
        rw [‹c.readyCb = some _›]; simp))
    exact ⟨(Steps.one (Micro.cb hk)).trans h1, h2, h3⟩

theorem insertAckRev_congr {c c' : SubCtx} (h : c'.publishers = c.publishers) (i : Nat) (n : Int) : ∀ l,
    insertAckRev c' i n l = insertAckRev c i n l := by
  intro l
  induction l with
  | nil => rfl
  | cons j js ih =>
    unfold insertAckRev
    rw [ih]
    unfold oldestAt getPub
    rw [h]

theorem noteAck_noted {c c1 c' : SubCtx} {i : Nat} {s : SubPub} (hs : c.publishers i = some s)
    (h : noteAck c1 i = .ok c') (h1 : c1.publishers = c.publishers) (h2 : c1.ackList = c.ackList) :
    AckNoted c i s true c'.ackList ∧ c' = { c1 with ackList := c'.ackList } := by
  unfold noteAck at h
  obtain ⟨o, ho, h⟩ := bind_ok h
  unfold oldestAt getPub at ho
  rw [h1, hs] at ho
  cases ho
  split at h
  · rename_i hne
    cases h
    exact ⟨.inl ⟨h2, fun _ => hne⟩, rfl⟩
  · rename_i hz
    have hz : oldest s = 0 := by
      rcases Decidable.em (oldest s = 0) with h | h
      · exact h
      · exact absurd h hz
    obtain ⟨l, hl, h⟩ := bind_ok h
    cases h
    rw [insertAckRev_congr h1, h2, hz] at hl
    exact ⟨.inr ⟨rfl, hz, l, hl, rfl⟩, rfl⟩

theorem deliver_steps {c c' : SubCtx} {i pid : Nat} {data : List UInt8} {m : Bool} {ts : Int} (hu : Up c i)
    (hk : (tm = 2 ∧ m = true) ∨ (tm = 3 + i ∧ m = false)) (h : deliver c i pid data m ts = .ok c') : Steps tm c c' ∧ c'.cv = c.cv := by
  unfold deliver at h
  obtain ⟨s, hs, h⟩ := bind_ok h
  rw [getPub_ok] at hs
  dsimp only at h
  split at h
  · rename_i hd
    cases h
    exact ⟨.one (.dup hu hs rfl hd hk), rfl⟩
  · rename_i hd
    have hd : isDuplicate s pid = false := by simpa using hd
    have key : ∃ c2, AckNoted c i s m c2.ackList ∧ c2 =
        { (ev { ev c (.arrive i ⟨c.nextAddr, pid, ⟨c.nextAddr, data, false⟩, i⟩ m ts) with nextAddr := c.nextAddr + 1 }
            (.alloc ⟨c.nextAddr, pid, ⟨c.nextAddr, data, false⟩, i⟩)) with ackList := c2.ackList } ∧
        (if (process (received' s ⟨c.nextAddr, pid, ⟨c.nextAddr, data, false⟩, i⟩ m ts)).2 = [] then
          { SubCtx.setPub c2 i (process (received' s ⟨c.nextAddr, pid, ⟨c.nextAddr, data, false⟩, i⟩ m ts)).1 with
            ready := (SubCtx.setPub c2 i (process (received' s ⟨c.nextAddr, pid, ⟨c.nextAddr, data, false⟩, i⟩ m ts)).1).ready ++
              (process (received' s ⟨c.nextAddr, pid, ⟨c.nextAddr, data, false⟩, i⟩ m ts)).2,
            log := (SubCtx.setPub c2 i (process (received' s ⟨c.nextAddr, pid, ⟨c.nextAddr, data, false⟩, i⟩ m ts)).1).log ++
              (process (received' s ⟨c.nextAddr, pid, ⟨c.nextAddr, data, false⟩, i⟩ m ts)).2.map .ready }
         else runReadyCb
          { SubCtx.setPub c2 i (process (received' s ⟨c.nextAddr, pid, ⟨c.nextAddr, data, false⟩, i⟩ m ts)).1 with
            ready := (SubCtx.setPub c2 i (process (received' s ⟨c.nextAddr, pid, ⟨c.nextAddr, data, false⟩, i⟩ m ts)).1).ready ++
              (process (received' s ⟨c.nextAddr, pid, ⟨c.nextAddr, data, false⟩, i⟩ m ts)).2,
            log := (SubCtx.setPub c2 i (process (received' s ⟨c.nextAddr, pid, ⟨c.nextAddr, data, false⟩, i⟩ m ts)).1).log ++
              (process (received' s ⟨c.nextAddr, pid, ⟨c.nextAddr, data, false⟩, i⟩ m ts)).2.map .ready }) = c' := by
      cases m with
      | true =>
        rw [if_pos rfl] at h
        obtain ⟨c2, h2, h⟩ := bind_ok h
        obtain ⟨q1, q2⟩ := noteAck_noted hs h2 rfl rfl
        exact ⟨c2, q1, q2, Except.ok.inj h⟩
      | false =>
        rw [if_neg (by simp)] at h
        obtain ⟨c2, h2, h⟩ := bind_ok h
        cases h2
        have hq := Except.ok.inj h
        refine ⟨_, ?_, ?_, hq⟩
        · exact .inl ⟨rfl, by simp⟩
        · rfl
    obtain ⟨c2, ha, he, hq⟩ := key
    have hm : Micro tm c (recvd c i s ⟨c.nextAddr, pid, ⟨c.nextAddr, data, false⟩, i⟩ m ts c2.ackList) := .recv hu hs hd ha hk
    have e : { SubCtx.setPub c2 i (process (received' s ⟨c.nextAddr, pid, ⟨c.nextAddr, data, false⟩, i⟩ m ts)).1 with
        ready := (SubCtx.setPub c2 i (process (received' s ⟨c.nextAddr, pid, ⟨c.nextAddr, data, false⟩, i⟩ m ts)).1).ready ++
          (process (received' s ⟨c.nextAddr, pid, ⟨c.nextAddr, data, false⟩, i⟩ m ts)).2,
        log := (SubCtx.setPub c2 i (process (received' s ⟨c.nextAddr, pid, ⟨c.nextAddr, data, false⟩, i⟩ m ts)).1).log ++
          (process (received' s ⟨c.nextAddr, pid, ⟨c.nextAddr, data, false⟩, i⟩ m ts)).2.map .ready } =
        recvd c i s ⟨c.nextAddr, pid, ⟨c.nextAddr, data, false⟩, i⟩ m ts c2.ackList := by
      rw [he]; rfl
    rw [e] at hq
    split at hq
    · rw [← hq]; exact ⟨.one hm, rfl⟩
    · rw [← hq]
      obtain ⟨r1, r2, r3⟩ := runReadyCb_steps (tm := tm) (by omega) (recvd c i s ⟨c.nextAddr, pid, ⟨c.nextAddr, data, false⟩, i⟩ m ts c2.ackList)
      exact ⟨(Steps.one hm).trans r1, r2⟩

theorem Up.congr {c c' : SubCtx} {i : Nat} (hu : Up c i) (h : c'.cv = c.cv) : Up c' i := by
  unfold Up; rw [h]; exact hu

theorem processPacket_steps {c c' : SubCtx} {i : Nat} {ts : Int} {b b' : CircBuf} {r : Nat} (hu : Up c i)
    (h : processPacket i ts c b = .ok (r, c', b')) : Steps (3 + i) c c' ∧ c'.cv = c.cv := by
  unfold processPacket at h
  split at h
  · cases h; exact ⟨.nil, rfl⟩
  · obtain ⟨x, hx, h⟩ := bind_ok h
    dsimp only at h
    split at h
    · cases h; exact ⟨.nil, rfl⟩
    · obtain ⟨y, hy, h⟩ := bind_ok h
      obtain ⟨c2, h2, h⟩ := bind_ok h
      cases h
      exact deliver_steps hu (.inr ⟨rfl, rfl⟩) h2

theorem readTcp_steps {c c' : SubCtx} {i : Nat} {ts : Int} {b b' : CircBuf} {r fuel : Nat} {rv : Option (List UInt8)}
    (hu : Up c i) (h : Proto.tcpRead (table i ts) fuel c b rv = .ok (r, c', b')) : Steps (3 + i) c c' ∧ c'.cv = c.cv := by
  refine Proto.tcpRead_pres (P := fun s => Steps (3 + i) c s ∧ s.cv = c.cv) ?_ ⟨.nil, rfl⟩ h
  intro cmd hd hl s b r s' b' hP he
  unfold table Proto.lookup at hl
  split at hl
  · cases hl
    obtain ⟨h1, h2⟩ := processPacket_steps (hu.congr hP.2) he
    exact ⟨hP.1.trans h1, h2.trans hP.2⟩
  · simp [Proto.lookup] at hl

/-- Reprocessing a settled record changes nothing. -/
theorem processAt_id {c c' : SubCtx} {i : Nat} (hc : Core c) (h : processAt c i = .ok c') : c' = c := by
  unfold processAt at h
  obtain ⟨s, hs, h⟩ := bind_ok h
  rw [getPub_ok] at hs
  have hset := hc.settled i s hs
  unfold Settled at hset
  rw [hset] at h
  dsimp only at h
  rw [← Except.ok.inj h]
  have hp : (fun j => if j = i then some s else c.publishers j) = c.publishers := by
    funext j
    by_cases e : j = i
    · rw [if_pos e, e, hs]
    · rw [if_neg e]
  unfold SubCtx.setPub
  simp only [List.append_nil, List.map_nil]
  rw [hp]

/-! ## Closing -/

theorem closeConnection_micro {c c' : SubCtx} {i r : Nat} (hc : Core c) (h : closeConnection c i = .ok (r, c')) :
    r = 0 ∧ ∃ s, c.publishers i = some s ∧ i < c.cv.size ∧ c' = closedAt c i s := by
  obtain ⟨L, hL⟩ := hc.v
  have hsz : (ConnVec.close c.cv i).2.size = c.cv.size := by
    by_cases hi : i ∈ L
    · exact ((close_spec hL i).1 hi).2.2.1
    · rw [((close_spec hL i).2 hi).2]
  unfold closeConnection at h
  dsimp only at h
  split at h
  · cases h
  · rename_i hlt
    rw [hsz] at hlt
    obtain ⟨s, hs, h⟩ := bind_ok h
    rw [getPub_ok] at hs
    have := Except.ok.inj h
    have h1 := congrArg Prod.fst this
    have h2 := congrArg Prod.snd this
    dsimp only at h1 h2
    exact ⟨h1.symm, s, hs, by omega, h2.symm⟩

theorem closeConnection_steps {c c' : SubCtx} {i r : Nat} (hk : tm ≠ 2) (hc : Core c) (h : closeConnection c i = .ok (r, c')) :
    Steps tm c c' := by
  obtain ⟨_, s, hs, hi, rfl⟩ := closeConnection_micro hc h
  exact .one (.close hi hs hk)

/-! ## Reading a connection -/

theorem Up.of_find {c : SubCtx} (hc : Core c) {i : Nat} (h1 : findByIndex c.cv i ≠ none)
    (h2 : (c.cv.conns i).mode = .connected) : Up c i := by
  refine ⟨?_, h2⟩
  unfold findByIndex at h1
  split at h1
  · exact absurd rfl h1
  · omega

theorem readConn_steps {c c' : SubCtx} {i r : Nat} {rv : Option (List UInt8)} {ts : Int} (hc : Core c)
    (h : readConn c i rv ts = .ok (r, c')) : Steps (3 + i) c c' := by
  unfold readConn at h
  split at h
  · cases h; exact .nil
  · rename_i hn
    rw [not_or] at hn
    have hu : Up c i := .of_find hc hn.1 (Decidable.not_not.1 hn.2)
    obtain ⟨⟨code, c1, b⟩, hx, h⟩ := bind_ok h
    obtain ⟨s1, e1⟩ := readTcp_steps hu hx
    have hu1 := hu.congr e1
    have hc1 := hc.steps s1
    dsimp only at h
    have m1 : ∀ es, (es = [] ∨ ∃ d, es = [PollEv.modify i d .R .R]) → Micro (3 + i) c1 { c1 with cv := { c1.cv.set i { c1.cv.conns i with readBuf := b } with
        polls := c1.cv.polls ++ es } } := fun es hes => Micro.io (a := (c1.cv.conns i).action) hu1 b es rfl hes rfl
    have m2 : Micro (3 + i) c1 (setConn c1 i { c1.cv.conns i with readBuf := b }) := by
      have := m1 [] (.inl rfl); rw [List.append_nil] at this; exact this
    have m3 : ∀ d, Micro (3 + i) c1 (pollModify (setConn c1 i { c1.cv.conns i with readBuf := b }) i d .R .R) :=
      fun d => m1 [.modify i d .R .R] (.inr ⟨d, rfl⟩)
    have hc2 := hc1.micro m2
    split at h
    · cases h; exact s1.snoc (m3 _)
    · split at h
      · obtain ⟨⟨r', c3⟩, h3, h⟩ := bind_ok h
        cases h
        exact (s1.snoc m2).trans (closeConnection_steps (by omega) hc2 h3)
      · obtain ⟨c3, h3, h⟩ := bind_ok h
        have e3 := processAt_id hc2 h3
        subst e3
        split at h
        · obtain ⟨⟨r', c4⟩, h4, h⟩ := bind_ok h
          cases h
          exact (s1.snoc m2).trans (closeConnection_steps (by omega) hc2 h4)
        · cases h; exact s1.snoc (m3 _)

/-! ## Multicast -/

theorem announced_steps {c : SubCtx} (hc : Core c) (h : PacketHeader) (ann : Option Bool) (sk : Except Nat Nat)
    (cr : ConnRes) : Steps 2 c (announced c h ann sk cr) := by
  have main : ∀ c1 : SubCtx, Core c1 → Steps 2 c1 (match (ConnVec.connect c1.cv h.listenIp h.listenPort h.nodeId sk cr).2.1 with
      | none => { c1 with cv := (ConnVec.connect c1.cv h.listenIp h.listenPort h.nodeId sk cr).2.2 }
      | some i => ev { c1 with cv := (ConnVec.connect c1.cv h.listenIp h.listenPort h.nodeId sk cr).2.2 }
          (.connect i h.listenIp h.listenPort)) := by
    intro c1 hc1
    obtain ⟨L, hL⟩ := hc1.v
    by_cases hf : (∃ e, sk = .error e) ∨ (∃ e, cr = .failed e)
    · obtain ⟨r, v', g1, g2, g3, g4, g5, g6, g7⟩ := connect_failed hL h.listenIp h.listenPort h.nodeId sk cr hf
      have hl : ∀ k, ConnVec.Ledger c1.cv k → ConnVec.Ledger v' k := fun k x => by
        have := x.connect h.listenIp h.listenPort h.nodeId sk cr
        rwa [g1] at this
      have hf := connect_fds c1.cv h.listenIp h.listenPort h.nodeId sk cr
      rw [g1] at hf
      rw [g1]
      exact .one (.noConnect hL g2 g3 g4 g5 g6 ⟨hl, hf⟩)
    · rw [not_or] at hf
      obtain ⟨d, rfl⟩ : ∃ d, sk = .ok d := by
        cases sk with
        | error e => exact absurd ⟨e, rfl⟩ hf.1
        | ok d => exact ⟨d, rfl⟩
      have hcr : ∀ e, cr ≠ .failed e := fun e he => hf.2 ⟨e, he⟩
      rcases connect_ok hL h.listenIp h.listenPort h.nodeId d cr hcr with ⟨-, g⟩ | ⟨-, r, i, v', g, g1, g2, g3, g4, g5, g6, g7, g8, g9⟩
      · rw [g]; exact .nil
      · have hl : ∀ k, ConnVec.Ledger c1.cv k → ConnVec.Ledger v' k := fun k x => by
          have := x.connect h.listenIp h.listenPort h.nodeId (.ok d) cr
          rwa [g] at this
        have hf := connect_fds c1.cv h.listenIp h.listenPort h.nodeId (.ok d) cr
        rw [g] at hf
        rw [g]
        exact .one (.connect h.listenIp h.listenPort h.nodeId d hL g2 g1 g3 g4 g5 g6 g7 g8 rfl ⟨hl, hf⟩)
  unfold announced
  cases ann with
  | none =>
    dsimp only
    rw [if_neg (by simp)]
    exact main c hc
  | some a =>
    dsimp only
    have m : Micro 2 c (ev c (.announceCb a)) := .annCb a
    split
    · exact .one m
    · exact (Steps.one m).trans (main _ (hc.micro m))

theorem findByAddress_mem {v : ConnVec} {L : List Nat} (hL : VInv v L) {a p i : Nat} (h : findByAddress v a p = some i) :
    i ∈ L ∧ (v.conns i).addr = a ∧ (v.conns i).port = p := by
  unfold findByAddress at h
  split at h
  · cases h
  · rename_i hne
    have h1 := List.find?_some h
    have h2 := List.mem_of_find?_eq_some h
    rw [decide_eq_true_iff] at h1
    rw [List.mem_range] at h2
    have : i < v.size := by
      rcases hL.max with h3 | h3
      · exact absurd h3 hne
      · omega
    exact ⟨(hL.desc i this).1 h1.1, h1.2.1.symm, h1.2.2.symm⟩

theorem findByNodeId_mem {v : ConnVec} {L : List Nat} (hL : VInv v L) {n i : Nat} (h : findByNodeId v n = some i) :
    i ∈ L ∧ (v.conns i).nodeId = n := by
  unfold findByNodeId at h
  split at h
  · cases h
  · rename_i hne
    have h1 := List.find?_some h
    have h2 := List.mem_of_find?_eq_some h
    rw [decide_eq_true_iff] at h1
    rw [List.mem_range] at h2
    have : i < v.size := by
      rcases hL.max with h3 | h3
      · exact absurd h3 hne
      · omega
    exact ⟨(hL.desc i this).1 h1.1, h1.2⟩

theorem mode_cases {v : ConnVec} {L : List Nat} (hL : VInv v L) {i : Nat} (hi : i ∈ L) :
    (v.conns i).mode = .connecting ∨ (v.conns i).mode = .connected := by
  have := (hL.mode i (hL.lt i hi)).2 hi
  cases hm : (v.conns i).mode
  · exact absurd hm this
  · exact .inl rfl
  · exact .inr rfl

theorem mcastPacket_steps {c c' : SubCtx} {src r : Nat} {bs : List UInt8} {ts : Int} {ann : Option Bool}
    {sk : Except Nat Nat} {cr : ConnRes} (hc : Core c) (h : mcastPacket c src bs ts ann sk cr = .ok (r, c')) :
    Steps 2 c c' := by
  unfold mcastPacket at h
  split at h
  · cases h; exact .nil
  · dsimp only at h
    split at h
    · cases h; exact .nil
    · split at h
      · rw [← (Prod.mk.inj (Except.ok.inj h)).2]
        split
        · exact .nil
        · exact announced_steps hc _ _ _ _
      · rename_i i hf
        split at h
        · rw [← (Prod.mk.inj (Except.ok.inj h)).2]
          split
          · exact .nil
          · exact announced_steps hc _ _ _ _
        · rename_i hm
          split at h
          · cases h; exact .nil
          · obtain ⟨L, hL⟩ := hc.v
            have hi := (findByAddress_mem hL hf).1
            have hu : Up c i := ⟨hL.lt i hi, (mode_cases hL hi).resolve_left hm⟩
            obtain ⟨c2, h2, h⟩ := bind_ok h
            cases h
            exact (deliver_steps hu (.inl ⟨rfl, rfl⟩) h2).1

theorem mcastLoop_steps : ∀ (rs : List RecvRes) {c c' : SubCtx} {r : Nat}, Core c → mcastLoop c rs = .ok (r, c') →
    Steps 2 c c' := by
  intro rs
  induction rs with
  | nil => intro c c' r hc h; cases h; exact .nil
  | cons x rs ih =>
    intro c c' r hc h
    cases x with
    | err e => cases h; exact .nil
    | dgram src bs ts ann sk cr =>
      unfold mcastLoop at h
      split at h
      · cases h; exact .nil
      · obtain ⟨⟨r1, c1⟩, h1, h⟩ := bind_ok h
        have s1 := mcastPacket_steps hc h1
        dsimp only at h
        split at h
        · cases h; exact s1
        · exact s1.trans (ih (hc.steps s1) h)

theorem readMcast_steps {c c' : SubCtx} {r : Nat} {rs : List RecvRes} (hc : Core c) (h : readMcast c rs = .ok (r, c')) :
    Steps 2 c c' := by
  unfold readMcast at h
  split at h
  · cases h; exact .nil
  · obtain ⟨⟨r1, c1⟩, h1, h⟩ := bind_ok h
    cases h
    exact (mcastLoop_steps rs hc h1).snoc (.polled [.modify MULTICAST_INDEX c1.mcast .R .R] rfl)

/-! ## Writing -/

theorem putCmd_inv {b b' : CircBuf} {cmd : UInt8} {r : Nat} (h : WF b) (ha : 1 ≤ available b)
    (hp : Proto.putCmd b cmd = .ok (r, b')) : r = 0 ∧ WF b' ∧ b'.size = b.size ∧ b'.start = b.start ∧
      b'.stop = b.stop + 1 ∧ b.stop < b.size ∧ bytes b' = bytes b ++ [cmd] := by
  by_cases hst : b.stop < b.size
  · obtain ⟨b2, g1, g2, g3, g4, g5, g6⟩ := Proto.putCmd_ok h ha hst cmd
    rw [g1] at hp; cases hp
    exact ⟨rfl, g2, g3, g4, g5, hst, g6⟩
  · rw [Proto.C13_cmd_oob h ha (by have := h.stop_le; omega) cmd] at hp; cases hp

theorem avail_after {b b' : CircBuf} (h : WF b) (h' : WF b') (hz : b'.size = b.size) {xs : List UInt8}
    (hb : bytes b' = bytes b ++ xs) : available b' = available b - xs.length := by
  rw [available_eq h, available_eq h', hz, ← length_bytes, ← length_bytes, hb, List.length_append]
  omega

/-- Putting an acknowledgement on a connection. -/
theorem writeAck_spec {c c' : SubCtx} {i r : Nat} {iv : Intv} (hc : Core c) (hi : i < c.cv.size)
    (h : writeAck c i iv = .ok (r, c')) :
    (r ≠ 0 ∧ c' = c ∧ (¬ Up c i ∨ available (c.cv.conns i).writeBuf < 1 + ACK_LEN)) ∨
    (r = 0 ∧ Up c i ∧ ∃ b, c' = armWrite (ev c (.ack i iv.first iv.last)) i b ∧ WF b ∧ b.size = (c.cv.conns i).writeBuf.size ∧
      bytes b = bytes (c.cv.conns i).writeBuf ++ ackFrame iv.first iv.last) := by
  obtain ⟨hw, hz⟩ := hc.wb i hi
  unfold writeAck at h
  dsimp only at h
  split at h
  · rename_i hm; cases h; exact .inl ⟨by decide, rfl, .inl (fun hu => hm hu.2)⟩
  · rename_i hm
    split at h
    · rename_i ha; cases h; exact .inl ⟨by decide, rfl, .inr ha⟩
    · rename_i ha
      obtain ⟨⟨r1, b1⟩, h1, h⟩ := bind_ok h
      have hlen : (AckInterval.enc ⟨iv.first, iv.last⟩).length = ACK_LEN := AckInterval.length_enc _
      obtain ⟨g1, g2, g3, g4, g5, g6, g7⟩ := putCmd_inv hw (by omega) h1
      subst g1
      have hav := avail_after hw g2 g3 g7
      rw [List.length_singleton] at hav
      dsimp only at h
      rw [if_neg (by simp)] at h
      obtain ⟨⟨r2, b2⟩, h2, h⟩ := bind_ok h
      obtain ⟨b3, k1, k2, k3, k4, k5⟩ := put_ok g2 (xs := AckInterval.enc ⟨iv.first, iv.last⟩) (by omega)
      rw [k1] at h2; cases h2
      dsimp only at h
      rw [if_neg (by simp)] at h
      cases h
      refine .inr ⟨rfl, ⟨hi, Decidable.not_not.1 hm⟩, _, rfl, k2, k3.trans g3, ?_⟩
      rw [k5, g7]; simp [ackFrame]

/-- Putting a control message on a connection. -/
theorem writeCtl_spec {c c' : SubCtx} {i r ptr : Nat} {bs : List UInt8} (hc : Core c) (hi : i < c.cv.size)
    (h : writeCtl c i bs ptr = .ok (r, c')) :
    (r ≠ 0 ∧ c' = c) ∨
    (r = 0 ∧ Up c i ∧ ∃ b ds, c' = armWrite (ev c (.ctl i bs ds)) i b ∧ WF b ∧ b.size = (c.cv.conns i).writeBuf.size ∧
      bytes b = bytes (c.cv.conns i).writeBuf ++ ctlFrame bs.length ds ∧ ds.length = bs.length) := by
  obtain ⟨hw, hz⟩ := hc.wb i hi
  unfold writeCtl at h
  dsimp only at h
  split at h
  · cases h; exact .inl ⟨by decide, rfl⟩
  · split at h
    · cases h; exact .inl ⟨by decide, rfl⟩
    · rename_i hm
      split at h
      · cases h; exact .inl ⟨by decide, rfl⟩
      · rename_i ha
        obtain ⟨⟨r1, b1⟩, h1, h⟩ := bind_ok h
        have hlen : (ctlEnc bs.length).length = CTL_LEN := by simp [ctlEnc, CTL_LEN]
        obtain ⟨g1, g2, g3, g4, g5, g6, g7⟩ := putCmd_inv hw (by omega) h1
        subst g1
        have hav := avail_after hw g2 g3 g7
        rw [List.length_singleton] at hav
        dsimp only at h
        rw [if_neg (by simp)] at h
        obtain ⟨⟨r2, b2⟩, h2, h⟩ := bind_ok h
        obtain ⟨b3, k1, k2, k3, k4, k5⟩ := put_ok g2 (xs := ctlEnc bs.length) (by omega)
        rw [k1] at h2
        obtain ⟨hr2, hb2⟩ := Prod.mk.inj (Except.ok.inj h2)
        subst hr2 hb2
        have hav2 := avail_after g2 k2 k3 k5
        dsimp only at h
        rw [if_neg (by simp)] at h
        have hal := alloc_ok k2 (n := bs.length) (by omega)
        generalize hA : alloc b3 bs.length = A at h hal
        obtain ⟨a1, s1, s2, b4⟩ := A
        dsimp only at h
        have ha1 : a1 = 0 := by split at hal <;> simp only [Prod.mk.injEq] at hal <;> exact hal.1
        have hsum : s1.len + s2.len = bs.length := by
          split at hal <;> simp only [Prod.mk.injEq] at hal <;> rw [hal.2.1, hal.2.2.1] <;> dsimp only <;> omega
        subst ha1
        rw [if_neg (by simp)] at h
        obtain ⟨ds, h3, h⟩ := bind_ok h
        have hdl : ds.length = bs.length := by
          unfold ctlPayload at h3
          split at h3
          · cases h3; simp; omega
          · split at h3
            · cases h3
            · cases h3; simp [ptrBytes]; omega
        obtain ⟨b5, h4, h⟩ := bind_ok h
        cases h
        obtain ⟨b6, q1, q2, q3, q4, q5, q6, q7⟩ := alloc_scatter k2 (by omega) hA (xs := ds) (by omega)
        rw [q1] at h4; cases h4
        refine .inr ⟨rfl, ⟨hi, Decidable.not_not.1 hm⟩, _, ds, rfl, q2, (q3.trans k3).trans g3, ?_, hdl⟩
        rw [List.take_of_length_le (by rw [length_bytes, q6]; omega)] at q7
        rw [q7, k5, g7]; simp [ctlFrame]

theorem writeCtl_steps {c c' : SubCtx} {i r ptr : Nat} {bs : List UInt8} (hc : Core c) (hi : i < c.cv.size)
    (h : writeCtl c i bs ptr = .ok (r, c')) : Steps tm c c' := by
  rcases writeCtl_spec hc hi h with ⟨-, rfl⟩ | ⟨-, hu, b, ds, rfl, h1, h2, h3, h4⟩
  · exact .nil
  · exact .one (.msg hu h1 h2 h3 (.inr ⟨bs, ds, rfl, rfl, h4⟩))

theorem writeCtlTo_steps {c c' : SubCtx} {o : Option Nat} {r ptr : Nat} {bs : List UInt8} (hc : Core c)
    (ho : ∀ i, o = some i → i < c.cv.size) (h : writeCtlTo c o bs ptr = .ok (r, c')) : Steps tm c c' := by
  unfold writeCtlTo at h
  split at h
  · cases h; exact .nil
  · split at h
    · cases h; exact .nil
    · split at h
      · cases h; exact .nil
      · exact writeCtl_steps hc (ho _ rfl) h

theorem writeConn_steps {c c' : SubCtx} {i r : Nat} {so : Except Nat Nat} {nd : Option Nat} {wv : Except Nat Nat}
    (hk : tm ≠ 2) (hc : Core c) (h : writeConn c i so nd wv = .ok (r, c')) : Steps tm c c' := by
  obtain ⟨L, hL⟩ := hc.v
  unfold writeConn at h
  rw [findByIndex_spec hL] at h
  by_cases hi : i ∈ L
  rotate_left
  · rw [if_neg hi, if_pos rfl] at h; cases h; exact .nil
  · rw [if_pos hi, if_neg (by simp)] at h
    have hlt := hL.lt i hi
    split at h
    · rename_i hm
      dsimp only [SubCtx.setPub] at h
      rcases complete_spec hL hi so nd with ⟨-, -, g, -⟩ | ⟨-, g1, g2, g3, g4, g5, g6⟩
      · rw [g] at h
        dsimp only at h
        rw [if_neg (by simp)] at h
        cases h
        exact .one (.complete hlt hm)
      · have hni : i ∉ L.erase i := fun x => ((List.Nodup.mem_erase_iff hL.nodup).1 x).1 rfl
        have hl : (∀ k, ConnVec.Ledger c.cv k → ConnVec.Ledger (ConnVec.complete c.cv i so nd).2 k) ∧
            c.cv.fds <+: (ConnVec.complete c.cv i so nd).2.fds := ⟨fun k x => x.complete i so nd, complete_fds ..⟩
        generalize ConnVec.complete c.cv i so nd = R at h g1 g2 g3 g4 g5 g6 hl
        obtain ⟨r0, v⟩ := R
        dsimp only at h g1 g2 g3 g4 g5 g6 hl
        split at h
        · cases h
          rw [((close_spec g1 i).2 hni).2]
          have := Micro.noComplete (tm := tm) hlt hm hL g1 g2 g3 g4 g5 (xs := []) (.inl rfl) g6 hk hl
          rw [List.append_nil] at this
          exact .one this
        · cases h
          exact .one (Micro.noComplete hlt hm hL g1 g2 g3 g4 g5 (xs := [.complete i]) (.inr rfl) g6 hk hl)
    · rename_i hm
      have hu : Up c i := ⟨hlt, (mode_cases hL hi).resolve_left hm⟩
      split at h
      · cases h; exact .nil
      · obtain ⟨⟨r1, left, b, out⟩, h1, h⟩ := bind_ok h
        obtain ⟨hw, hz⟩ := hc.wb i hlt
        obtain ⟨code, left', b', out', t1, t2, t3, t4, t5, t6⟩ := Proto.tcpWrite_spec hw (by omega) wv
        rw [t1] at h1; cases h1
        cases h
        refine .one (.out hu t2 t3 t4.symm _ [_] ?_ rfl (by split <;> rfl))
        have hl : left = 0 ↔ bytes b = [] := by rw [← List.length_eq_zero_iff, t5]
        by_cases e : left = 0
        · simp [e, Act.clearW, hl.1 e]
        · have hn : bytes b ≠ [] := fun x => e (hl.2 x)
          simp [e, Act.setW, hn]

/-! ## Timeouts -/

theorem ackAll_steps : ∀ (ivs : List Intv) {c c' : SubCtx} {i r : Nat} {s : SubPub}, Core c → i ∈ c.ackList →
    c.publishers i = some { s with intervals := ivs } → ackAll c i s ivs = .ok (r, c') →
    Steps 1 c c' ∧ c'.ackList = c.ackList ∧ (r = 0 → c'.publishers i = some { s with intervals := [] }) := by
  intro ivs
  induction ivs with
  | nil => intro c c' i r s hc hl hs h; cases h; exact ⟨.nil, rfl, fun _ => hs⟩
  | cons iv rest ih =>
    intro c c' i r s hc hl hs h
    unfold ackAll at h
    dsimp only at h
    obtain ⟨⟨r1, c1⟩, h1, h⟩ := bind_ok h
    have hm : Micro 1 c (ev (SubCtx.setPub c i { s with intervals := rest }) (.taken i iv)) :=
      Micro.taken (s := { s with intervals := iv :: rest }) hs rfl hl rfl
    have hc0 := hc.micro hm
    have hlt : i < c.cv.size := hc.recLt i _ hs
    have hs0 : (ev (SubCtx.setPub c i { s with intervals := rest }) (.taken i iv)).publishers i =
        some { s with intervals := rest } := by
      show (if i = i then _ else _) = _; rw [if_pos rfl]
    rcases writeAck_spec hc0 hlt h1 with ⟨g1, g2, -⟩ | ⟨g1, gu, b, g2, g3, g4, g5⟩
    · dsimp only at h
      rw [if_pos g1] at h
      cases h
      rw [g2]
      exact ⟨.one hm, rfl, fun e => absurd e g1⟩
    · dsimp only at h
      rw [if_neg (by simp [g1])] at h
      have hm2 : Micro 1 (ev (SubCtx.setPub c i { s with intervals := rest }) (.taken i iv)) c1 := by
        rw [g2]
        refine .msg gu g3 g4 g5 (.inl ⟨iv, ?_, rfl, rfl⟩)
        show iv ∈ (sess i (c.log ++ [_])).taken
        rw [sess_snoc]
        simp [Sess.step]
      have e1 : c1.ackList = c.ackList := by rw [g2]; rfl
      have e2 : c1.publishers i = some { s with intervals := rest } := by rw [g2]; exact hs0
      obtain ⟨q1, q2, q3⟩ := ih (hc0.micro hm2) (by rw [e1]; exact hl) e2 h
      exact ⟨.cons hm (.cons hm2 q1), q2.trans e1, q3⟩

theorem timeoutLoop_steps : ∀ (l : List Nat) {c c' : SubCtx} {r : Nat} {now : Int}, Core c → c.ackList = l →
    timeoutLoop c now l = .ok (r, c') → Steps 1 c c' := by
  intro l
  induction l with
  | nil => intro c c' r now hc hl h; cases h; exact .nil
  | cons i is ih =>
    intro c c' r now hc hl h
    unfold timeoutLoop at h
    obtain ⟨s, hs, h⟩ := bind_ok h
    rw [getPub_ok] at hs
    split at h
    · cases h; exact .nil
    · obtain ⟨⟨r1, c1⟩, h1, h⟩ := bind_ok h
      obtain ⟨g1, g2, g3⟩ := ackAll_steps s.intervals hc (by rw [hl]; simp) hs h1
      dsimp only at h
      split at h
      · cases h; exact g1
      · rename_i hr
        have hr : r1 = 0 := by simpa using hr
        have hm : Micro 1 c1 { c1 with ackList := is } := .dropAck (g2.trans hl) (g3 hr) rfl
        exact (g1.snoc hm).trans (ih (hc.steps (g1.snoc hm)) rfl h)

/-! ## Deactivation -/

theorem popReady_eq : ∀ (l : List SPkt) (c : SubCtx), (l.map (·.addr)).Nodup → popReady c l = { c with ready := [] } := by
  intro l
  induction l with
  | nil => intro c _; rfl
  | cons p ps ih =>
    intro c hn
    rw [List.map_cons, List.nodup_cons] at hn
    unfold popReady
    have : dispatched { c with ready := ps } p.addr = (ENOENT, { c with ready := ps }) := by
      unfold dispatched
      have : takeReady p.addr ps = none := takeReady_none.2 (fun q hq e => hn.1 (List.mem_map.2 ⟨q, hq, e⟩))
      dsimp only
      rw [this]
    rw [this]
    dsimp only
    rw [ih _ hn.2]

theorem closeAll_steps (hk : tm ≠ 2) : ∀ (l : List Nat) {c c' : SubCtx}, Core c → closeAll c l = .ok c' → Steps tm c c' := by
  intro l
  induction l with
  | nil => intro c c' hc h; cases h; exact .nil
  | cons i is ih =>
    intro c c' hc h
    unfold closeAll at h
    split at h
    · exact ih hc h
    · obtain ⟨⟨r, c1⟩, h1, h⟩ := bind_ok h
      have s1 := closeConnection_steps (tm := tm) hk hc h1
      exact s1.trans (ih (hc.steps s1) h)

theorem MemOK.rdyAddr {c : SubCtx} (h : MemOK c) : (c.ready.map (·.addr)).Nodup := by
  refine List.pairwise_map.2 (List.Pairwise.imp_of_mem ?_ h.rdyND)
  intro x y hx hy ne e
  exact ne (h.inj (h.rdy x hx).1 (h.rdy y hy).1 e)

theorem deactivate_steps {c c' : SubCtx} {r : Nat} (hk : tm ≠ 2) (hc : Core c) (hm : MemOK c) (h : deactivate c = .ok (r, c')) :
    r = 0 ∧ Steps tm (forget c) c' := by
  unfold deactivate at h
  dsimp only at h
  rw [popReady_eq _ _ hm.rdyAddr] at h
  obtain ⟨c1, h1, h⟩ := bind_ok h
  cases h
  refine ⟨rfl, ?_⟩
  have m : Micro tm (forget c) { forget c with
      mcast := none, cv := ((forget c).cv.fdAll [.closed c.mcast]).poll (.remove MULTICAST_INDEX c.mcast) } :=
    .unsock (c := forget c)
  exact (Steps.one m).trans (closeAll_steps hk _ (hc.forget.micro m) h1)

/-! ## Every call -/

/-- Intervals are taken off by timeouts only, connections are opened by multicast reads only, read buffers
change (and poll callbacks for reading are made) by reads of that connection only. -/
def Op.kind : Op → Nat
  | .timeout _ => 1
  | .readMcast _ => 2
  | .read i _ _ => 3 + i
  | _ => 0

theorem step_steps {c c' : SubCtx} {op : Op} {r : Nat} (hc : Core c) (hm : MemOK c) (hop : op ≠ .deactivate)
    (h : step c op = .ok (r, c')) : Steps op.kind c c' := by
  cases op with
  | readMcast rs => exact readMcast_steps hc h
  | read i rv ts => exact readConn_steps hc h
  | write i so nd wv => exact writeConn_steps (by simp [Op.kind]) hc h
  | timeout now => exact timeoutLoop_steps _ hc rfl h
  | dispatched a =>
    have e := congrArg Prod.snd (Except.ok.inj h)
    dsimp only at e
    rw [← e]; exact (userOp_steps c (.dispatched a) (.inl rfl)).1
  | keep a =>
    have e := congrArg Prod.snd (Except.ok.inj h)
    dsimp only at e
    rw [← e]; exact (userOp_steps c (.keep a) (.inl rfl)).1
  | close i => exact closeConnection_steps (by simp [Op.kind]) hc h
  | ctlAddr a p bs ptr =>
    obtain ⟨L, hL⟩ := hc.v
    exact writeCtlTo_steps hc (fun i hi => hL.lt i (findByAddress_mem hL hi).1) h
  | ctlNode n bs ptr =>
    obtain ⟨L, hL⟩ := hc.v
    exact writeCtlTo_steps hc (fun i hi => hL.lt i (findByNodeId_mem hL hi).1) h
  | setReadyCb f => cases h; exact .one (.setCb f rfl)
  | activate x =>
    have h := Except.ok.inj h
    unfold activate at h
    split at h
    · cases h; exact .nil
    · rename_i hn
      have hm : c.mcast = none := Classical.not_not.1 hn
      have ho : ∀ d, ConnVec.Ledger c.cv (one c.mcast) → ConnVec.Ledger (c.cv.fdAll [.opened d]) (one (some d)) := by
        intro d x
        rw [hm] at x
        rw [ConnVec.fdAll_cons, ConnVec.fdAll_nil]
        exact (x.fdOpened d).weak fun e => by show one none e + _ = _; unfold one; simp
      cases x with
      | ok d => cases h; exact .one (.sock (some d) [.add MULTICAST_INDEX (some d) .R] (.inr (.inr (.inl ⟨hm, d, rfl, rfl⟩))) (ho d))
      | bindFailed d e =>
        cases h
        have := Micro.sock (tm := 0) (c := c) (some d) [] (.inl ⟨rfl, .inr ⟨hm, rfl⟩⟩) (ho d)
        rw [List.append_nil] at this
        exact .one this
      | failed e => cases h; exact .nil
      | setupFailed d e =>
        cases h
        have := Micro.sock (tm := 0) (c := c) c.mcast [] (.inl ⟨rfl, .inl rfl⟩) (fs := [.opened d, .closed (some d)]) fun x => by
          rw [ConnVec.fdAll_cons, ConnVec.fdAll_cons, ConnVec.fdAll_nil]
          exact (x.fdOpened d).fdClosed (some d) fun e => rfl
        rw [List.append_nil] at this
        exact .one this
  | deactivate => exact absurd rfl hop

/-- The calls other than those that set up the multicast socket or the callback. -/
theorem step_quiet {c c' : SubCtx} {op : Op} {r : Nat} (hc : Core c) (hm : MemOK c) (hop : op ≠ .deactivate) (ha : ∀ x, op ≠ .activate x)
    (hr : ∀ f, op ≠ .setReadyCb f) (h : step c op = .ok (r, c')) : (∃ tm, tm ≠ 0 ∧ Steps tm c c') ∨
      (c'.cv = c.cv ∧ c'.mcast = c.mcast) := by
  cases op with
  | readMcast rs => exact .inl ⟨2, by omega, readMcast_steps hc h⟩
  | read i rv ts => exact .inl ⟨3 + i, by omega, readConn_steps hc h⟩
  | write i so nd wv => exact .inl ⟨1, by omega, writeConn_steps (by omega) hc h⟩
  | timeout now => exact .inl ⟨1, by omega, timeoutLoop_steps _ hc rfl h⟩
  | dispatched a =>
    have e := congrArg Prod.snd (Except.ok.inj h)
    dsimp only at e
    rw [← e]; unfold dispatched; split <;> exact .inr ⟨rfl, rfl⟩
  | keep a =>
    have e := congrArg Prod.snd (Except.ok.inj h)
    dsimp only at e
    rw [← e]; unfold dispatchedKeep; split <;> exact .inr ⟨rfl, rfl⟩
  | close i => exact .inl ⟨1, by omega, closeConnection_steps (by omega) hc h⟩
  | ctlAddr a p bs ptr =>
    obtain ⟨L, hL⟩ := hc.v
    exact .inl ⟨1, by omega, writeCtlTo_steps hc (fun i hi => hL.lt i (findByAddress_mem hL hi).1) h⟩
  | ctlNode n bs ptr =>
    obtain ⟨L, hL⟩ := hc.v
    exact .inl ⟨1, by omega, writeCtlTo_steps hc (fun i hi => hL.lt i (findByNodeId_mem hL hi).1) h⟩
  | setReadyCb f => exact absurd rfl (hr f)
  | activate x => exact absurd rfl (ha x)
  | deactivate => exact absurd rfl hop

theorem step_cases {c c' : SubCtx} {op : Op} {r : Nat} (hc : Core c) (hm : MemOK c)
    (h : step c op = .ok (r, c')) : Steps op.kind c c' ∨ (op = .deactivate ∧ Steps 0 (forget c) c') := by
  by_cases hop : op = .deactivate
  · subst hop; exact .inr ⟨rfl, (deactivate_steps (by omega) hc hm h).2⟩
  · exact .inl (step_steps hc hm hop h)

end SubCtx
end Rmc
