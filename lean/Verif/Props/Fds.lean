import Verif.Fds
import Verif.Props.PubCtxPoll
import Verif.SubCtxReach
import Verif.Props.SubCtxDeliver

/-!
# C61: descriptors

Everything obtained from socket() and accept() is given to close() exactly once, or is still held by a connection or by the context;
nothing is closed that is not held.
-/

set_option linter.unusedSimpArgs false
set_option linter.unusedVariables false

namespace Rmc
namespace PubCtx
open ConnVec Proto

/-- The books are kept, and the sockets of the context stay. -/
structure Bk (c c' : PubCtx) : Prop where
  led : ∀ k, Ledger c.cv k → Ledger c'.cv k
  mcast : c'.mcast = c.mcast
  listen : c'.listen = c.listen
  pre : c.cv.fds <+: c'.cv.fds

theorem Bk.refl (c : PubCtx) : Bk c c := ⟨fun _ h => h, rfl, rfl, List.prefix_rfl⟩
theorem Bk.trans {a b c : PubCtx} (h1 : Bk a b) (h2 : Bk b c) : Bk a c :=
  ⟨fun k h => h2.led k (h1.led k h), h2.mcast.trans h1.mcast, h2.listen.trans h1.listen, h1.pre.trans h2.pre⟩
theorem Bk.same {c c' : PubCtx} (h : c'.cv = c.cv) (h1 : c'.mcast = c.mcast) (h2 : c'.listen = c.listen) : Bk c c' :=
  ⟨fun k hk => by rw [h]; exact hk, h1, h2, by rw [h]; exact List.prefix_rfl⟩

theorem pollModify_bk (c : PubCtx) (i : Nat) (d : Option Nat) (o n : Act) : Bk c (pollModify c i d o n) :=
  ⟨fun _ h => h.poll _, rfl, rfl, List.prefix_rfl⟩

theorem setConn_bk {c : PubCtx} {i : Nat} {x : Conn} (hd : x.desc = (c.cv.conns i).desc) : Bk c (setConn c i x) :=
  ⟨fun _ h => h.set hd, rfl, rfl, List.prefix_rfl⟩

theorem packetAck_bk {c c' : PubCtx} {i pid : Nat} (h : packetAck c i pid = .ok c') : Bk c c' := by
  unfold packetAck at h
  obtain ⟨s, _, h⟩ := bind_ok h
  dsimp only at h
  have h := Except.ok.inj h
  subst h
  split <;> exact .same rfl rfl rfl

theorem ackRange_bk {i : Nat} : ∀ (n : Nat) {c c' : PubCtx} {pid : Nat}, ackRange c i pid n = .ok c' → Bk c c' := by
  intro n
  induction n with
  | zero => intro c c' pid h; cases h; exact .refl _
  | succ n ih =>
    intro c c' pid h
    unfold ackRange at h
    obtain ⟨c1, h1, h2⟩ := bind_ok h
    exact (packetAck_bk h1).trans (ih h2)

theorem handler_bk {i : Nat} (c0 : PubCtx) : ∀ c h, lookup (table i) c = some h → ∀ s b r s' b', Bk c0 s →
    h s b = .ok (r, s', b') → Bk c0 s' := by
  intro c h hl s b r s' b' hs hx
  have hh : h = processAck i ∨ h = processCtl i := by
    unfold table lookup at hl
    repeat' (first | split at hl | unfold lookup at hl)
    all_goals first | exact .inl (Option.some.inj hl).symm | exact .inr (Option.some.inj hl).symm | cases hl
  rcases hh with rfl | rfl
  · unfold processAck at hx
    split at hx
    · cases hx; exact hs
    · obtain ⟨x, _, hx⟩ := bind_ok hx
      obtain ⟨c2, h2, hx⟩ := bind_ok hx
      cases hx
      unfold ackInterval at h2
      split at h2
      · cases h2
      · exact hs.trans (ackRange_bk _ h2)
  · unfold processCtl at hx
    split at hx
    · cases hx; exact hs
    · obtain ⟨x, _, hx⟩ := bind_ok hx
      dsimp only at hx
      split at hx
      · cases hx; exact hs
      · obtain ⟨c2, h2, hx⟩ := bind_ok hx
        cases hx
        split at h2
        · cases h2
        · cases h2; exact hs
        · obtain ⟨y, _, h2⟩ := bind_ok h2
          cases h2; exact hs.trans (.same rfl rfl rfl)

theorem closeConnection_bk {c c' : PubCtx} {i r : Nat} (hx : closeConnection c i = .ok (r, c')) : Bk c c' := by
  unfold closeConnection at hx
  split at hx
  · cases hx; exact .refl _
  · dsimp only at hx
    obtain ⟨s, _, hx⟩ := bind_ok hx
    cases hx
    exact ⟨fun _ h => h.close i, rfl, rfl, close_fds _ _⟩

theorem readListen_bk {c c' : PubCtx} {ar : AccRes} {cb : Option Bool} {r : Nat} (hx : readListen c ar cb = .ok (r, c')) :
    Bk c c' := by
  have ha : Bk c { c with cv := (ConnVec.accept c.cv c.listen ar).2.2 } := ⟨fun _ h => h.accept _ _, rfl, rfl, accept_fds _ _ _⟩
  unfold readListen at hx
  dsimp only at hx
  split at hx
  · cases hx; exact ha
  · split at hx
    · cases hx
    · split at hx
      · cases hx
      · split at hx
        · cases hx; exact ha.trans (.same rfl rfl rfl)
        · split at hx
          · cases hx; exact ha.trans (.same rfl rfl rfl)
          · obtain ⟨⟨r1, c1⟩, hy, hx⟩ := bind_ok hx
            cases hx
            have h1 := closeConnection_bk hy
            refine ha.trans (Bk.trans ?_ h1)
            exact .same rfl rfl rfl

theorem readConn_bk {c c' : PubCtx} {i r : Nat} {rv : Option (List UInt8)} (hx : readConn c i rv = .ok (r, c')) : Bk c c' := by
  unfold readConn at hx
  split at hx
  · cases hx; exact .refl _
  · obtain ⟨⟨r1, c1, b1⟩, h1, hx⟩ := bind_ok hx
    have h2 : Bk c c1 := tcpRead_pres (P := fun s => Bk c s) (handler_bk c) (.refl c) h1
    have h3 : Bk c1 (setConn c1 i { c1.cv.conns i with readBuf := b1 }) := setConn_bk rfl
    dsimp only at hx
    split at hx
    · obtain ⟨⟨r2, c2⟩, h4, hx⟩ := bind_ok hx
      cases hx
      exact h2.trans (h3.trans (closeConnection_bk h4))
    · cases hx
      refine h2.trans (h3.trans (Bk.trans ?_ (pollModify_bk _ _ _ _ _)))
      exact setConn_bk rfl

theorem writeConn_bk {c c' : PubCtx} {i r : Nat} {wv : Except Nat Nat} (hx : writeConn c i wv = .ok (r, c')) : Bk c c' := by
  unfold writeConn at hx
  split at hx
  · cases hx; exact .refl _
  · split at hx
    · cases hx; exact .refl _
    · split at hx
      · cases hx; exact .refl _
      · obtain ⟨x, _, hx⟩ := bind_ok hx
        cases hx
        refine Bk.trans ?_ (pollModify_bk _ _ _ _ _)
        exact ⟨fun _ h => h.set (by rfl), rfl, rfl, List.prefix_rfl⟩

theorem armWrite_bk (c : PubCtx) (i : Nat) : Bk c (armWrite c i) := by
  unfold armWrite
  dsimp only
  split
  · exact .refl _
  · refine Bk.trans ?_ (pollModify_bk _ _ _ _ _)
    exact setConn_bk (by rfl)

theorem resend_bk {c c' : PubCtx} {i r : Nat} {p : Pkt} (hx : resendPacket c i p = .ok (r, c')) : Bk c c' := by
  unfold resendPacket at hx
  dsimp only at hx
  split at hx
  · cases hx; exact armWrite_bk _ _
  · obtain ⟨b, _, hx⟩ := bind_ok hx
    cases hx
    refine Bk.trans (b := setConn c i { c.cv.conns i with writeBuf := b }) (setConn_bk ?_) (armWrite_bk _ _)
    rfl

theorem sentPacket_bk {c c' : PubCtx} {i a r : Nat} (hx : sentPacketTimeout c i a = .ok (r, c')) : Bk c c' := by
  unfold sentPacketTimeout at hx
  obtain ⟨p, _, hx⟩ := bind_ok hx
  split at hx
  · obtain ⟨c1, h1, hx⟩ := bind_ok hx
    cases hx
    exact packetAck_bk h1
  · obtain ⟨⟨r1, c1⟩, h1, hx⟩ := bind_ok hx
    dsimp only at hx
    split at hx
    · obtain ⟨c2, h2, hx⟩ := bind_ok hx
      cases hx
      exact (resend_bk h1).trans (packetAck_bk h2)
    · cases hx; exact resend_bk h1

theorem resendLoop_bk {i : Nat} : ∀ (as : List Nat) {c c' : PubCtx} {r : Nat}, resendLoop c i as = .ok (r, c') → Bk c c' := by
  intro as
  induction as with
  | nil => intro c c' r hx; cases hx; exact .refl _
  | cons a as ih =>
    intro c c' r hx
    rw [resendLoop_cons] at hx
    obtain ⟨⟨r1, c1⟩, h1, hx⟩ := bind_ok hx
    dsimp only at hx
    split at hx
    · cases hx; exact sentPacket_bk h1
    · exact (sentPacket_bk h1).trans (ih hx)

theorem subscribers_bk {now : Int} : ∀ (ks : List Nat) {c c' : PubCtx} {r : Nat},
    subscribersTimeout c now ks = .ok (r, c') → Bk c c' := by
  intro ks
  induction ks with
  | nil => intro c c' r hx; cases hx; exact .refl _
  | cons k ks ih =>
    intro c c' r hx
    rw [subscribersTimeout_cons] at hx
    obtain ⟨⟨r1, c1⟩, h1, hx⟩ := bind_ok hx
    have f1 : Bk c c1 := by
      unfold subscriberTimeout at h1
      obtain ⟨as, _, h1⟩ := bind_ok h1
      exact resendLoop_bk as h1
    dsimp only at hx
    split at hx
    · cases hx; exact f1
    · exact f1.trans (ih hx)

theorem queue_bk {c c' : PubCtx} {p : Payload} {ann : Bool} {r : Nat} (hx : queuePacket c p ann = .ok (r, c')) : Bk c c' := by
  unfold queuePacket at hx
  split at hx
  · cases hx; exact .refl _
  · split at hx
    · cases hx; exact .refl _
    · dsimp only at hx
      split at hx
      all_goals
        obtain ⟨s, _, hx⟩ := bind_ok hx
        have hx := congrArg Prod.snd (Except.ok.inj hx)
        dsimp only at hx
        rw [← hx]
        split <;> exact ⟨fun _ h => h.poll _, rfl, rfl, List.prefix_rfl⟩

theorem timeout_bk {c c' : PubCtx} {now : Int} {cb : Option (Bool × List UInt8)} {sp r : Nat}
    (hx : timeoutProcess c now cb sp = .ok (r, c')) : Bk c c' := by
  unfold timeoutProcess at hx
  split at hx
  · dsimp only at hx
    split at hx
    · obtain ⟨⟨r1, c1⟩, h1, hx⟩ := bind_ok hx
      cases hx
      have h2 : Bk c (ev c (.announce now c.annInterval)) := .same rfl rfl rfl
      exact h2.trans ((queue_bk h1).trans (.same rfl rfl rfl))
    · cases hx; exact .same rfl rfl rfl
  · obtain ⟨ks, _, hx⟩ := bind_ok hx
    exact subscribers_bk ks hx

theorem sendSingle_bk {c c' : PubCtx} {a r : Nat} {sr : SendRes} (hx : sendSingle c a sr = .ok (r, c')) : Bk c c' := by
  unfold sendSingle at hx
  split at hx
  · cases hx; exact .refl _
  · obtain ⟨p, _, hx⟩ := bind_ok hx
    split at hx
    · cases hx; exact .refl _
    · split at hx
      · split at hx
        · cases hx; exact .refl _
        · cases hx; exact pollModify_bk _ _ _ _ _
      · obtain ⟨s, _, hx⟩ := bind_ok hx
        cases hx
        exact ⟨fun _ h => h.poll _, rfl, rfl, List.prefix_rfl⟩

theorem multicastWrite_bk : ∀ (rs : List SendRes) {c c' : PubCtx} {r : Nat}, multicastWrite c rs = .ok (r, c') → Bk c c' := by
  intro rs
  induction rs with
  | nil =>
    intro c c' r hx
    unfold multicastWrite at hx
    split at hx
    · cases hx; exact .refl _
    · exact sendSingle_bk hx
  | cons s rs ih =>
    intro c c' r hx
    unfold multicastWrite at hx
    split at hx
    · cases hx; exact .refl _
    · obtain ⟨⟨r1, c1⟩, h1, hx⟩ := bind_ok hx
      dsimp only at hx
      split at hx
      · cases hx; exact sendSingle_bk h1
      · exact (sendSingle_bk h1).trans (ih hx)

theorem closeAll_bk : ∀ (l : List Nat) {c c' : PubCtx}, closeAll c l = .ok c' → Bk c c' := by
  intro l
  induction l with
  | nil => intro c c' h; cases h; exact .refl _
  | cons i is ih =>
    intro c c' h
    unfold closeAll at h
    split at h
    · exact ih h
    · obtain ⟨⟨r1, c1⟩, h1, h⟩ := bind_ok h
      exact (closeConnection_bk h1).trans (ih h)

/-- Calls other than activation and deactivation. -/
theorem step_bk {c c' : PubCtx} {op : Op} {r : Nat} (h1 : ∀ x, op ≠ .activate x) (h2 : op ≠ .deactivate)
    (hx : step c op = .ok (r, c')) : Bk c c' := by
  cases op with
  | queue p ann => exact queue_bk hx
  | readListen ar cb => exact readListen_bk hx
  | readMcast err =>
    have hx := congrArg Prod.snd (Except.ok.inj hx)
    unfold readMcast at hx
    subst hx
    split
    · exact .refl _
    · split
      · exact .refl _
      · exact pollModify_bk _ _ _ _ _
  | read i rv => exact readConn_bk hx
  | writeMcast rs => exact multicastWrite_bk rs hx
  | write i wv => exact writeConn_bk hx
  | timeout now cb sp => exact timeout_bk hx
  | close i => exact closeConnection_bk hx
  | setAnnounce n now => cases hx; exact .same rfl rfl rfl
  | throttling s t =>
    have hx := congrArg Prod.snd (Except.ok.inj hx)
    unfold throttling at hx
    subst hx
    split <;> exact .same rfl rfl rfl
  | setCtlCb b => cases hx; exact .same rfl rfl rfl
  | activate x => exact absurd rfl (h1 x)
  | deactivate => exact absurd rfl h2

/-- What was obtained and closed before stays on record. -/
theorem step_fds {c c' : PubCtx} {op : Op} {r : Nat} (hx : step c op = .ok (r, c')) : c.cv.fds <+: c'.cv.fds := by
  by_cases ha : ∃ x, op = .activate x
  · obtain ⟨x, rfl⟩ := ha
    have hx' : activate c x = (r, c') := Except.ok.inj hx
    unfold activate at hx'
    split at hx' <;> cases hx'
    · show _ <+: (fdAll _ _).fds
      rw [fdAll_fds]; exact List.prefix_append _ _
    · show _ <+: (fdAll _ _).fds
      rw [fdAll_fds]; exact List.prefix_append _ _
  · by_cases hd : op = .deactivate
    · subst hd
      have hx' : deactivate c = .ok (r, c') := hx
      unfold deactivate at hx'
      dsimp only at hx'
      split at hx'
      · cases hx'
        show _ <+: (fdAll _ _).fds
        rw [fdAll_fds]; exact List.prefix_append _ _
      · obtain ⟨c1, h1, hx'⟩ := bind_ok hx'
        cases hx'
        show _ <+: (fdAll _ _).fds
        rw [fdAll_fds]
        exact (closeAll_bk _ h1).pre.trans (List.prefix_append _ _)
    · exact (step_bk (fun x e => ha ⟨x, e⟩) hd hx).pre

/-- The descriptors the context holds itself. -/
def own (c : PubCtx) (d : Nat) : Nat := one c.mcast d + one c.listen d

theorem deactivate_led {c c' : PubCtx} {r : Nat} {k k' : Nat → Nat} (hk : ∀ d, k d = k' d + own c d) (h : Ledger c.cv k)
    (hx : deactivate c = .ok (r, c')) : Ledger c'.cv k' ∧ c'.mcast = none ∧ c'.listen = none := by
  unfold deactivate at hx
  dsimp only at hx
  have h3 : Bk c { c with cv := (c.cv.poll (.remove MULTICAST_INDEX c.mcast)).poll (.remove LISTEN_INDEX c.listen) } :=
    ⟨fun _ h => (h.poll _).poll _, rfl, rfl, List.prefix_rfl⟩
  obtain ⟨c1, h2, hx⟩ : ∃ c1, Bk c c1 ∧ .ok (0, { c1 with
      mcast := none, listen := none, cv := c1.cv.fdAll [.closed c1.mcast, .closed c1.listen] }) = (.ok (r, c') : M (Nat × PubCtx)) := by
    split at hx
    · exact ⟨_, h3, hx⟩
    · obtain ⟨c1, h1, hx⟩ := bind_ok hx
      exact ⟨c1, h3.trans (closeAll_bk _ h1), hx⟩
  cases hx
  refine ⟨?_, rfl, rfl⟩
  show Ledger (c1.cv.fdAll [.closed c1.mcast, .closed c1.listen]) k'
  rw [fdAll_cons, fdAll_cons, fdAll_nil, h2.mcast, h2.listen]
  refine ((h2.led k h).fdClosed c.mcast (k' := fun d => k' d + one c.listen d) fun d => ?_).fdClosed c.listen fun d => rfl
  show k d = k' d + one c.listen d + one c.mcast d
  rw [hk d]; unfold own; omega

theorem closeIf_led {v : ConnVec} {k k' : Nat → Nat} {x : Option Nat} (hk : ∀ d, k d = k' d + one x d) (h : Ledger v k) :
    Ledger (v.fdAll (closeIf x)) k' := by
  unfold closeIf
  split
  · rename_i hx
    rw [fdAll_nil]
    exact h.weak fun d => by rw [hk d, hx]; rfl
  · rw [fdAll_cons, fdAll_nil]
    exact h.fdClosed x hk

theorem fdAll_append (v : ConnVec) (es fs : List FdEv) : v.fdAll (es ++ fs) = (v.fdAll es).fdAll fs := by
  unfold fdAll; simp

/-- A failing activation: what it leaves is what was outside before, without the listen descriptor if that was closed. -/
theorem actErr_led {v : ConnVec} {k : Nat → Nat} {old : Option Nat} (w : ActErr) (hk : ∀ d, one old d ≤ k d) (h : Ledger v k) :
    ∃ k', (∀ d, k' d ≤ k d) ∧ (old = none → k' = k) ∧ Ledger (v.fdAll (w.fds old)) k' := by
  have hsub : ∀ d, k d = (k d - one old d) + one old d := fun d => by have := hk d; omega
  have hnone : old = none → (fun d => k d - one old d) = k := by
    intro e; funext d; rw [e]; show k d - 0 = _; omega
  cases w with
  | mcastSocket => exact ⟨fun d => k d - one old d, fun d => Nat.sub_le _ _, hnone, closeIf_led hsub h⟩
  | mcastIf md =>
    refine ⟨fun d => k d - one old d, fun d => Nat.sub_le _ _, hnone, ?_⟩
    show Ledger (v.fdAll ([.opened md, .closed (some md)] ++ closeIf old)) _
    rw [fdAll_append, fdAll_cons, fdAll_cons, fdAll_nil]
    refine closeIf_led hsub ?_
    exact (h.fdOpened md).fdClosed (some md) fun d => rfl
  | listenSocket md =>
    refine ⟨k, fun d => Nat.le_refl _, fun _ => rfl, ?_⟩
    show Ledger (v.fdAll [.opened md, .closed (some md)]) _
    rw [fdAll_cons, fdAll_cons, fdAll_nil]
    exact (h.fdOpened md).fdClosed (some md) fun d => rfl
  | listenSetup md ld =>
    refine ⟨k, fun d => Nat.le_refl _, fun _ => rfl, ?_⟩
    show Ledger (v.fdAll [.opened md, .opened ld, .closed (some md), .closed (some ld)]) _
    rw [fdAll_cons, fdAll_cons, fdAll_cons, fdAll_cons, fdAll_nil]
    refine (((h.fdOpened md).fdOpened ld).fdClosed (some md) (k' := fun d => k d + one (some ld) d) fun d => ?_).fdClosed (some ld) fun d => rfl
    show k d + one (some md) d + one (some ld) d = _
    omega

theorem activate_ok_led {c : PubCtx} {k : Nat → Nat} (md ld port : Nat) (h : Ledger c.cv k) :
    Ledger (activate c (.ok (md, ld, port))).2.cv (fun d => k d + (one (some md) d + one (some ld) d)) := by
  show Ledger (((c.cv.fdAll [.opened md, .opened ld]).poll _).poll _) _
  refine Ledger.poll (Ledger.poll ?_ _) _
  rw [fdAll_cons, fdAll_cons, fdAll_nil]
  exact ((h.fdOpened md).fdOpened ld).weak fun d => by omega

/-- Reading a history, `active` says whether the context is active: it is activated only while it is not. -/
def onceActive : Bool → List Op → Prop
  | _, [] => True
  | a, .activate (.ok _) :: ops => a = false ∧ onceActive true ops
  | a, .activate (.error _ _) :: ops => a = false ∧ onceActive false ops
  | _, .deactivate :: ops => onceActive false ops
  | a, _ :: ops => onceActive a ops

theorem run_led : ∀ (ops : List Op) {c c' : PubCtx} {rs : List Nat}, (∃ k, (∀ d, own c d ≤ k d) ∧ Ledger c.cv k) →
    run c ops = .ok (rs, c') → ∃ k, (∀ d, own c' d ≤ k d) ∧ Ledger c'.cv k := by
  intro ops
  induction ops with
  | nil => intro c c' rs h hx; cases hx; exact h
  | cons op ops ih =>
    intro c c' rs h hx
    rw [run_cons] at hx
    obtain ⟨⟨r0, c0⟩, k1, hx⟩ := bind_ok hx
    obtain ⟨⟨rs1, c2⟩, k2, hx⟩ := bind_ok hx
    cases hx
    refine ih ?_ k2
    obtain ⟨k, hk, hl⟩ := h
    by_cases ha : ∃ x, op = .activate x
    · obtain ⟨x, rfl⟩ := ha
      cases x with
      | error e w =>
        have e : (activate c (.error e w)).2 = c0 := congrArg Prod.snd (Except.ok.inj k1)
        obtain ⟨k', h1, _, h2⟩ := actErr_led (old := c.listen) w (fun d => by have := hk d; unfold own at this; omega) hl
        refine ⟨k', fun d => ?_, by rw [← e]; exact h2⟩
        rw [← e]; exact Nat.zero_le _
      | ok t =>
        obtain ⟨md, ld, port⟩ := t
        have e : (activate c (.ok (md, ld, port))).2 = c0 := congrArg Prod.snd (Except.ok.inj k1)
        refine ⟨_, fun d => ?_, by rw [← e]; exact activate_ok_led md ld port hl⟩
        rw [← e]
        show one (some md) d + one (some ld) d ≤ _
        omega
    · by_cases hd : op = .deactivate
      · subst hd
        obtain ⟨h1, h2, h3⟩ := deactivate_led (k' := fun d => k d - own c d) (fun d => by have := hk d; omega) hl k1
        refine ⟨_, fun d => ?_, h1⟩
        unfold own; rw [h2, h3]; exact Nat.zero_le _
      · have b := step_bk (fun x e => ha ⟨x, e⟩) hd k1
        refine ⟨k, fun d => ?_, b.led k hl⟩
        have := hk d
        unfold own at this ⊢
        rw [b.mcast, b.listen]; exact this

theorem run_led_once : ∀ (ops : List Op) {c c' : PubCtx} {rs : List Nat} {a : Bool}, Ledger c.cv (own c) →
    (a = false → c.mcast = none ∧ c.listen = none) → onceActive a ops → run c ops = .ok (rs, c') → Ledger c'.cv (own c') := by
  intro ops
  induction ops with
  | nil => intro c c' rs a h _ _ hx; cases hx; exact h
  | cons op ops ih =>
    intro c c' rs a hl ha ho hx
    rw [run_cons] at hx
    obtain ⟨⟨r0, c0⟩, k1, hx⟩ := bind_ok hx
    obtain ⟨⟨rs1, c2⟩, k2, hx⟩ := bind_ok hx
    have hx := congrArg Prod.snd (Except.ok.inj hx)
    dsimp only at hx
    subst hx
    have other : (∀ x, op ≠ .activate x) → op ≠ .deactivate → onceActive a ops → Ledger c2.cv (own c2) := by
      intro h1 h2 h3
      have b := step_bk h1 h2 k1
      refine ih ?_ ?_ h3 k2
      · refine (b.led _ hl).weak fun d => ?_
        unfold own; rw [b.mcast, b.listen]
      · intro e; rw [b.mcast, b.listen]; exact ha e
    cases op with
    | activate x =>
      cases x with
      | error e w =>
        have hn := ha ho.1
        have e : (activate c (.error e w)).2 = c0 := congrArg Prod.snd (Except.ok.inj k1)
        obtain ⟨k', _, h1, h2⟩ := actErr_led (old := c.listen) w (fun d => by unfold own; omega) hl
        refine ih (a := false) ?_ ?_ ho.2 k2
        · rw [h1 hn.2] at h2
          rw [← e]
          refine Ledger.weak h2 fun d => ?_
          show own c d = one none d + one none d
          unfold own; rw [hn.1, hn.2]
        · intro _; rw [← e]; exact ⟨rfl, rfl⟩
      | ok t =>
        obtain ⟨md, ld, port⟩ := t
        have hn := ha ho.1
        have e : (activate c (.ok (md, ld, port))).2 = c0 := congrArg Prod.snd (Except.ok.inj k1)
        refine ih (a := true) ?_ (by simp) ho.2 k2
        rw [← e]
        refine (activate_ok_led md ld port hl).weak fun d => ?_
        show own c d + _ = one (some md) d + one (some ld) d
        unfold own; rw [hn.1, hn.2]; show 0 + 0 + _ = _; omega
    | deactivate =>
      obtain ⟨h1, h2, h3⟩ := deactivate_led (k' := fun _ => 0) (fun d => by omega) hl k1
      refine ih (a := false) ?_ (fun _ => ⟨h2, h3⟩) ho k2
      refine h1.weak fun d => ?_
      unfold own; rw [h2, h3]; rfl
    | _ => exact other (by simp) (by simp) ho

/-- C61 for the publisher, every history of calls whatever the system calls answer: at no time was a descriptor closed more often
than it had been obtained, and a descriptor held by a connection or as multicast or listen socket is one that was obtained and not
closed since, once for every holder. -/
theorem C61_publisher_held {mem : Nat → Conn} {n nid ip port : Nat} {ops : List Op} {rs : List Nat} {c : PubCtx}
    (h : run (init mem n nid ip port) ops = .ok (rs, c)) :
    NoneTwice c.cv.fds ∧ ∀ d, closes c.cv.fds d + (holds c.cv d + one c.mcast d + one c.listen d) ≤ opens c.cv.fds d := by
  obtain ⟨k, h1, h2⟩ := run_led ops ⟨fun _ => 0, fun d => Nat.le_refl _, Ledger.init mem n RMC_MAX_PACKET⟩ h
  refine ⟨h2.ok, fun d => ?_⟩
  have := h1 d
  unfold own at this
  rw [h2.bal d]; omega

/-- C61 for the publisher: if the context is activated only while it is not active, then after every history every descriptor
obtained was closed exactly once, or is held: by one connection, as multicast socket or as listen socket.
Missing for the full property: other histories, see `C61_publisher_false`. -/
theorem C61_publisher_partial {mem : Nat → Conn} {n nid ip port : Nat} {ops : List Op} {rs : List Nat} {c : PubCtx}
    (h : run (init mem n nid ip port) ops = .ok (rs, c)) (ho : onceActive false ops) :
    NoneTwice c.cv.fds ∧ ∀ d, opens c.cv.fds d = closes c.cv.fds d + (holds c.cv d + one c.mcast d + one c.listen d) := by
  have := run_led_once ops (c := init mem n nid ip port) (a := false) (Ledger.init mem n RMC_MAX_PACKET) (fun _ => ⟨rfl, rfl⟩) ho h
  refine ⟨this.ok, fun d => ?_⟩
  rw [this.bal d]; unfold own; omega

/-- C61: nothing is left open by a deactivation, if the context was activated only while it was not active. -/
theorem C61_publisher_deactivated {ops : List Op} {c : PubCtx} (h : Reaches (ops ++ [.deactivate]) c) (ho : onceActive false ops) :
    ∀ d, opens c.cv.fds d = closes c.cv.fds d := by
  have happ : ∀ (ops : List Op) (a : Bool), onceActive a ops → onceActive a (ops ++ [.deactivate]) := by
    intro ops
    induction ops with
    | nil => intro a _; trivial
    | cons op ops ih =>
      intro a h
      cases op with
      | activate x =>
        cases x with
        | error e w => exact ⟨h.1, ih _ h.2⟩
        | ok t => exact ⟨h.1, ih _ h.2⟩
      | deactivate => exact ih _ h
      | _ => exact ih a h
  intro d
  obtain ⟨mem, n, nid, ip, port, rs, h1, h2, h3, h4⟩ := h
  have key := (C61_publisher_partial h4 (happ ops false ho)).2 d
  obtain ⟨rs1, r, c1, k1, k2, _⟩ := run_snoc_inv ops h4
  have hr : Reaches ops c1 := ⟨mem, n, nid, ip, port, rs1, h1, fun o ho => h2 o (by simp [ho]), by simp at h3; omega, k1⟩
  obtain ⟨pops, L, g, _⟩ := hr.good
  obtain ⟨c', ys, ds, e, g', _, _, _, _, hc, _⟩ := deactivate_spec g
  have k2' : deactivate c1 = .ok (r, c) := k2
  rw [e] at k2'
  cases k2'
  have e1 : c.mcast = none := by have := congrArg Cfg.mcast hc; exact this
  have e2 : c.listen = none := by have := congrArg Cfg.listen hc; exact this
  have e3 : holds c.cv d = 0 := holds_none (fun i hi => by
    have := g'.v.desc i hi
    cases hd : (c.cv.conns i).desc with
    | none => rfl
    | some x => exact absurd (this.1 (by rw [hd]; simp)) (by simp)) d
  rw [key, e1, e2, e3]; rfl

/-- Activated twice, the publisher loses the first pair of sockets: they are never closed. -/
theorem C61_publisher_false : ∃ (ops : List Op) (c : PubCtx), Reaches ops c ∧ ∃ d,
    opens c.cv.fds d = 1 ∧ closes c.cv.fds d = 0 ∧ holds c.cv d = 0 ∧ c.mcast ≠ some d ∧ c.listen ≠ some d := by
  obtain ⟨c, _, h1, _, h2⟩ := reaches_of (ops := [.activate (.ok (3, 4, 4711)), .activate (.ok (5, 6, 4711)), .deactivate])
    (P := fun rs c => decide (rs = [0, 0, 0]) && (opens c.cv.fds 3 == 1) && (closes c.cv.fds 3 == 0) && (holds c.cv 3 == 0) &&
      decide (c.mcast = none) && decide (c.listen = none))
    (by intro op hop; simp at hop; rcases hop with rfl | rfl | rfl <;> trivial) (by decide +kernel) (by decide +kernel)
  refine ⟨_, c, h1, 3, ?_⟩
  simp only [Bool.and_eq_true, beq_iff_eq, decide_eq_true_eq] at h2
  obtain ⟨⟨⟨⟨⟨_, a⟩, b⟩, d⟩, e⟩, f⟩ := h2
  exact ⟨a, b, d, by rw [e]; simp, by rw [f]; simp⟩

/-- The hypotheses are met by a history with a failing and two successful activations in turn, connections taken, closed and refused;
at the end descriptor 5 was obtained and closed twice and is held again, 6 is held, 9 is the multicast socket. -/
example : ∃ (ops : List Op) (c : PubCtx), Reaches ops c ∧ onceActive false ops ∧
    opens c.cv.fds 5 = 3 ∧ closes c.cv.fds 5 = 2 ∧ holds c.cv 5 = 1 ∧ holds c.cv 6 = 1 ∧ c.mcast = some 9 := by
  obtain ⟨c, _, h1, _, h2⟩ := reaches_of (ops := [.activate (.error 98 (.listenSetup 3 5)), .activate (.ok (7, 8, 4711)),
      .readListen (.ok 5 1) none, .deactivate, .activate (.ok (9, 10, 4711)), .readListen (.ok 5 1) none,
      .readListen (.ok 6 1) (some true), .readListen (.ok 12 1) none])
    (P := fun _ c => (opens c.cv.fds 5 == 3) && (closes c.cv.fds 5 == 2) && (holds c.cv 5 == 1) && (holds c.cv 6 == 1) &&
      decide (c.mcast = some 9))
    (by intro op hop; simp at hop; rcases hop with rfl | rfl | rfl | rfl | rfl | rfl | rfl | rfl <;> trivial)
    (by decide +kernel) (by decide +kernel)
  refine ⟨_, c, h1, ⟨rfl, rfl, rfl, trivial⟩, ?_⟩
  simp only [Bool.and_eq_true, beq_iff_eq, decide_eq_true_eq] at h2
  obtain ⟨⟨⟨⟨a, b⟩, d⟩, e⟩, f⟩ := h2
  exact ⟨a, b, d, e, f⟩

end PubCtx

namespace SubCtx
open ConnVec

/-- Every small step keeps the books. -/
theorem Micro.led {tm : Nat} {c c' : SubCtx} (m : Micro tm c c') (h : Ledger c.cv (one c.mcast)) : Ledger c'.cv (one c'.mcast) := by
  cases m with
  | sock m es hes hfs => exact (hfs h).congr rfl (fun _ _ => rfl) rfl
  | io hu rb a es => exact (h.set (x := { c.cv.conns _ with readBuf := rb, action := a }) rfl).congr rfl (fun _ _ => rfl) rfl
  | msg hu hw hz hb he =>
    unfold armWrite
    exact (h.set (by rfl)).poll _
  | out hu hw hz hb a es =>
    exact (h.set (x := { c.cv.conns _ with writeBuf := _, action := a }) rfl).congr rfl (fun _ _ => rfl) rfl
  | connect addr port nid d hv hL hi hv' h1 h2 h3 h4 h5 hk hl => exact hl.1 _ h
  | noConnect hv hv' h1 h2 h3 h4 hl => exact hl.1 _ h
  | complete hi hm => exact (h.set (by rfl)).poll _
  | noComplete hi hm hv hv' h1 h2 h3 h4 hx hes hk hl => exact hl.1 _ h
  | close hi hs hk => exact h.close _
  | _ => exact h

/-- C61 for the subscriber: after every history, at no time was a descriptor closed more often than it had been obtained, and every
descriptor obtained was closed exactly once, or is held: by one connection, or as multicast socket. -/
theorem C61_subscriber {ops : List Op} {c : SubCtx} (h : Reaches ops c) :
    NoneTwice c.cv.fds ∧ ∀ d, opens c.cv.fds d = closes c.cv.fds d + (holds c.cv d + one c.mcast d) := by
  have key : Ledger c.cv (one c.mcast) := by
    refine Reaches.induct (P := fun _ c => Ledger c.cv (one c.mcast)) ?_ ?_ h
    · intro mem n nid hn
      exact (Ledger.init mem n RMC_MAX_PACKET).weak fun _ => rfl
    · intro ops op c r c' hr ih hs
      rcases step_cases hr.inv.core hr.inv.mem hs with m | ⟨_, m⟩
      · exact m.inv (P := fun c => Ledger c.cv (one c.mcast)) (fun a b m h => m.led h) ih
      · exact m.inv (P := fun c => Ledger c.cv (one c.mcast)) (fun a b m h => m.led h) ih
  exact ⟨key.ok, fun d => by rw [key.bal d]; omega⟩

/-- C61: nothing is left open by a deactivation. -/
theorem C61_subscriber_deactivated {ops : List Op} {c : SubCtx} (h : Reaches (ops ++ [.deactivate]) c) :
    ∀ d, opens c.cv.fds d = closes c.cv.fds d := by
  intro d
  have key := (C61_subscriber h).2 d
  obtain ⟨rs, mem, n, nid, hn, hrun⟩ := h
  obtain ⟨rs1, r, c1, k1, k2, _⟩ := run_snoc_inv hrun
  have hr : Reaches ops c1 := ⟨rs1, mem, n, nid, hn, k1⟩
  obtain ⟨h1, h2⟩ := deactivate_closed hr.inv.core hr.inv.mem k2
  have hc := (hr.snoc k2).inv.core
  obtain ⟨L, hL⟩ := hc.v
  have e3 : holds c.cv d = 0 := holds_none (fun i hi => by
    have h3 := h1 i
    rw [findByIndex_spec hL] at h3
    have h4 : i ∉ L := by intro hi; rw [if_pos hi] at h3; cases h3
    cases hd : (c.cv.conns i).desc with
    | none => rfl
    | some x => exact absurd ((hL.desc i hi).1 (by rw [hd]; simp)) h4) d
  rw [key, h2, e3]; rfl

/-- The hypotheses are met by a history with a failing activation, a successful one, a connection opened, lost and opened again, and a
connect() that fails. -/
example : ∃ (ops : List Op) (c : SubCtx), Reaches ops c ∧
    opens c.cv.fds 104 = 3 ∧ closes c.cv.fds 104 = 2 ∧ holds c.cv 104 = 1 ∧ opens c.cv.fds 3 = 2 ∧ closes c.cv.fds 3 = 1 ∧
    c.mcast = some 3 := by
  obtain ⟨c, _, h1, _, h2⟩ := reaches_of (ops := .activate (.setupFailed 3 19) :: exUp ++ [.close 0,
      .readMcast [.dgram 77 ((PacketHeader.mk 0 5 0 0 4).enc) 5 none (.ok 104) (.failed 111)], .readMcast [exDg 4 0 [] 1]])
    (P := fun _ c => (opens c.cv.fds 104 == 3) && (closes c.cv.fds 104 == 2) && (holds c.cv 104 == 1) &&
      (opens c.cv.fds 3 == 2) && (closes c.cv.fds 3 == 1) && decide (c.mcast = some 3)) (by decide +kernel)
  refine ⟨_, c, h1, ?_⟩
  simp only [Bool.and_eq_true, beq_iff_eq, decide_eq_true_eq] at h2
  obtain ⟨⟨⟨⟨⟨a, b⟩, d⟩, e⟩, f⟩, g⟩ := h2
  exact ⟨a, b, d, e, f, g⟩

end SubCtx
end Rmc
