import Verif.Epoll
import Verif.Props.Fds
import Verif.Props.Access
import Verif.Props.PubCtxPoll

/-!
# C79 for the publisher: the descriptors the event loop is told about
-/

set_option linter.unusedSimpArgs false
set_option linter.unusedVariables false

namespace Rmc
namespace PubCtx
open CircBuf ConnVec Proto PLog

variable {K : Nat → Prop}

/-- The event loop knows the sockets in `K`. -/
def T (K : Nat → Prop) (c : PubCtx) : Prop := TInv K c.cv c.mcast c.listen

theorem T.same {c c' : PubCtx} (h : T K c) (h1 : c'.cv = c.cv) (h2 : c'.mcast = c.mcast) (h3 : c'.listen = c.listen) : T K c' := by
  unfold T; rw [h1, h2, h3]; exact h

theorem T.mcastModify {c : PubCtx} (h : T K c) (hm : K MULTICAST_INDEX → c.mcast ≠ none) (o n : Act) :
    T K (pollModify c MULTICAST_INDEX c.mcast o n) := by
  refine TInv.modify h (.inr (.inr rfl)) ?_ ?_ o n (fun e => absurd e (by decide))
  · unfold descOf; rw [if_pos rfl]
  · unfold descOf; rw [if_pos rfl]; exact hm

theorem queue_told {c c' : PubCtx} (h : T K c) (hm : K MULTICAST_INDEX → c.mcast ≠ none) {p : Payload} {ann : Bool} {r : Nat}
    (hx : queuePacket c p ann = .ok (r, c')) : T K c' := by
  unfold queuePacket at hx
  split at hx
  · cases hx; exact h
  · split at hx
    · cases hx; exact h
    · have key : ∀ (s : Pub) (o : Act), T K (pollModify { c with suspended := false, pub := s } MULTICAST_INDEX c.mcast o .W) := fun s o =>
        T.mcastModify (c := { c with suspended := false, pub := s }) (h.same rfl rfl rfl) hm o .W
      dsimp only at hx
      split at hx
      · obtain ⟨s, _, hx⟩ := bind_ok hx
        cases hx
        split
        · exact (key s _).same rfl rfl rfl
        · exact key s _
      · obtain ⟨s, _, hx⟩ := bind_ok hx
        cases hx
        split
        · exact (key s _).same rfl rfl rfl
        · exact key s _

theorem sendSingle_told {c c' : PubCtx} (h : T K c) {a : Nat} {s : SendRes} {r : Nat} (hx : sendSingle c a s = .ok (r, c')) : T K c' := by
  unfold sendSingle at hx
  split at hx
  · cases hx; exact h
  · rename_i hm
    obtain ⟨p, _, hx⟩ := bind_ok hx
    split at hx
    · cases hx; exact h
    · split at hx
      · split at hx
        · cases hx; exact h
        · cases hx; exact h.mcastModify (fun _ => hm) _ _
      · obtain ⟨s, _, hx⟩ := bind_ok hx
        cases hx
        exact T.mcastModify (c := ev { c with pub := s } _) (h.same rfl rfl rfl) (fun _ => hm) _ _

theorem multicastWrite_told : ∀ (rs : List SendRes) {c c' : PubCtx} {r : Nat}, T K c → multicastWrite c rs = .ok (r, c') → T K c' := by
  intro rs
  induction rs with
  | nil =>
    intro c c' r h hx
    unfold multicastWrite at hx
    split at hx
    · cases hx; exact h
    · exact sendSingle_told h hx
  | cons x rs ih =>
    intro c c' r h hx
    rw [multicastWrite.eq_2] at hx
    split at hx
    · cases hx; exact h
    · obtain ⟨⟨r1, c1⟩, h1, hx⟩ := bind_ok hx
      have h2 := sendSingle_told h h1
      dsimp only at hx
      split at hx
      · cases hx; exact h2
      · exact ih h2 hx

/-- A connected slot. -/
structure At (c : PubCtx) (i : Nat) : Prop where
  lt : i < c.cv.size
  desc : (c.cv.conns i).desc ≠ none

theorem T.connModify {c : PubCtx} (h : T K c) {i : Nat} (hi : At c i) (o n : Act) : T K (pollModify c i (c.cv.conns i).desc o n) :=
  TInv.modify h (.inl hi.lt) (descOf_lt hi.lt h.sz).symm (by rw [descOf_lt hi.lt h.sz]; exact fun _ => hi.desc) o n
    (fun e => absurd hi.lt (by have := h.sz; omega))

theorem T.set {c : PubCtx} (h : T K c) {i : Nat} {x : Conn} (hx : x.desc = (c.cv.conns i).desc) : T K (setConn c i x) := TInv.setSame h hx

theorem set_desc {c : PubCtx} {i : Nat} {x : Conn} (hx : x.desc = (c.cv.conns i).desc) (j : Nat) :
    ((setConn c i x).cv.conns j).desc = (c.cv.conns j).desc := by
  show (if j = i then x else c.cv.conns j).desc = _
  by_cases e : j = i
  · subst e; rw [if_pos rfl, hx]
  · rw [if_neg e]

theorem At.set {c : PubCtx} {i k : Nat} {x : Conn} (hx : x.desc = (c.cv.conns i).desc) (h : At c k) : At (setConn c i x) k :=
  ⟨h.lt, by rw [set_desc hx]; exact h.desc⟩

/-- Told and the slots connected stay so. -/
def Keeps (K : Nat → Prop) (c c' : PubCtx) : Prop := T K c' ∧ ∀ k, At c k → At c' k

theorem armWrite_told {c : PubCtx} (h : T K c) {i : Nat} (hi : At c i) : Keeps K c (armWrite c i) := by
  unfold armWrite
  dsimp only
  split
  · exact ⟨h, fun _ x => x⟩
  · have e : (({ c.cv.conns i with action := (c.cv.conns i).action.setW } : Conn)).desc = (c.cv.conns i).desc := rfl
    refine ⟨?_, fun k hk => ⟨hk.lt, (hk.set e).desc⟩⟩
    have := T.connModify (h.set e) (hi.set e) (c.cv.conns i).action (c.cv.conns i).action.setW
    rw [set_desc e] at this
    exact this

theorem resend_told {c c' : PubCtx} (h : T K c) {i : Nat} (hi : At c i) {p : Pkt} {r : Nat} (hx : resendPacket c i p = .ok (r, c')) :
    Keeps K c c' := by
  unfold resendPacket at hx
  dsimp only at hx
  split at hx
  · cases hx; exact armWrite_told h hi
  · obtain ⟨b, _, hx⟩ := bind_ok hx
    cases hx
    have e : (({ c.cv.conns i with writeBuf := b } : Conn)).desc = (c.cv.conns i).desc := rfl
    obtain ⟨g1, g2⟩ := armWrite_told (h.set e) (hi.set e)
    exact ⟨g1, fun k hk => g2 k (hk.set e)⟩

theorem packetAck_frame {c c' : PubCtx} {i pid : Nat} (h : packetAck c i pid = .ok c') : c'.cv = c.cv ∧ c'.mcast = c.mcast ∧ c'.listen = c.listen := by
  unfold packetAck at h
  obtain ⟨s, _, h⟩ := bind_ok h
  dsimp only at h
  have h := Except.ok.inj h
  subst h
  split <;> exact ⟨rfl, rfl, rfl⟩

theorem Keeps.ack {c c' : PubCtx} (h : T K c) {i pid : Nat} (hx : packetAck c i pid = .ok c') : Keeps K c c' := by
  obtain ⟨h1, h2, h3⟩ := packetAck_frame hx
  exact ⟨h.same h1 h2 h3, fun k hk => ⟨by rw [h1]; exact hk.lt, by rw [h1]; exact hk.desc⟩⟩

theorem Keeps.trans {a b c : PubCtx} (h1 : Keeps K a b) (h2 : Keeps K b c) : Keeps K a c := ⟨h2.1, fun k hk => h2.2 k (h1.2 k hk)⟩

theorem sentPacket_told {c c' : PubCtx} (h : T K c) {i : Nat} (hi : At c i) {a r : Nat} (hx : sentPacketTimeout c i a = .ok (r, c')) :
    Keeps K c c' := by
  unfold sentPacketTimeout at hx
  obtain ⟨p, _, hx⟩ := bind_ok hx
  split at hx
  · obtain ⟨c1, h1, hx⟩ := bind_ok hx
    cases hx
    exact .ack h h1
  · obtain ⟨⟨r1, c1⟩, h1, hx⟩ := bind_ok hx
    have k := resend_told h hi h1
    dsimp only at hx
    split at hx
    · obtain ⟨c2, h2, hx⟩ := bind_ok hx
      cases hx
      exact k.trans (.ack k.1 h2)
    · cases hx; exact k

theorem resendLoop_told {i : Nat} : ∀ (as : List Nat) {c c' : PubCtx} {r : Nat}, T K c → At c i → resendLoop c i as = .ok (r, c') → Keeps K c c' := by
  intro as
  induction as with
  | nil => intro c c' r h _ hx; cases hx; exact ⟨h, fun _ x => x⟩
  | cons a as ih =>
    intro c c' r h hi hx
    rw [resendLoop_cons] at hx
    obtain ⟨⟨r1, c1⟩, h1, hx⟩ := bind_ok hx
    have k := sentPacket_told h hi h1
    dsimp only at hx
    split at hx
    · cases hx; exact k
    · exact k.trans (ih k.1 (k.2 i hi) hx)

theorem subscribers_told {now : Int} : ∀ (ks : List Nat) {c c' : PubCtx} {r : Nat}, (∀ k ∈ ks, At c k) → T K c →
    subscribersTimeout c now ks = .ok (r, c') → Keeps K c c' := by
  intro ks
  induction ks with
  | nil => intro c c' r _ h hx; cases hx; exact ⟨h, fun _ x => x⟩
  | cons k ks ih =>
    intro c c' r hk h hx
    rw [subscribersTimeout_cons] at hx
    obtain ⟨⟨r1, c1⟩, h1, hx⟩ := bind_ok hx
    have f1 : Keeps K c c1 := by
      unfold subscriberTimeout at h1
      obtain ⟨as, _, h1⟩ := bind_ok h1
      exact resendLoop_told as h (hk k (by simp)) h1
    dsimp only at hx
    split at hx
    · cases hx; exact f1
    · exact f1.trans (ih (fun j hj => f1.2 j (hk j (by simp [hj]))) f1.1 hx)

theorem close_tinv {c c' : PubCtx} {m l : Option Nat} {i r : Nat} (h : TInv K c.cv m l) (hd : (c.cv.conns i).mode ≠ .closed → (c.cv.conns i).desc ≠ none)
    (hx : closeConnection c i = .ok (r, c')) : TInv K c'.cv m l := by
  unfold closeConnection at hx
  split at hx
  · cases hx; exact h
  · dsimp only at hx
    obtain ⟨s, _, hx⟩ := bind_ok hx
    cases hx
    exact TInv.close (v := c.cv) h hd

theorem close_told {c c' : PubCtx} {i r : Nat} (h : T K c) (hd : (c.cv.conns i).mode ≠ .closed → (c.cv.conns i).desc ≠ none)
    (hx : closeConnection c i = .ok (r, c')) : T K c' := by
  unfold closeConnection at hx
  split at hx
  · cases hx; exact h
  · dsimp only at hx
    obtain ⟨s, _, hx⟩ := bind_ok hx
    cases hx
    exact TInv.close (v := c.cv) h hd

theorem good_desc {c : PubCtx} {pops : List POp} {L : List Nat} (g : Good c pops L) {i : Nat} (hi : i < c.cv.size)
    (hm : (c.cv.conns i).mode ≠ .closed) : (c.cv.conns i).desc ≠ none := (g.v.desc i hi).2 ((g.v.mode i hi).1 hm)

theorem readListen_told {c c' : PubCtx} {pops : List POp} {L : List Nat} (g : Good c pops L) (h : T K c) (hl : K LISTEN_INDEX → c.listen ≠ none)
    {ar : AccRes} (hs : saneAcc ar) {cb : Option Bool} {r : Nat}
    (hf : K NIL_INDEX → (∀ j, K j) ∧ ∀ d, c.cv.fds ++ [.opened d] <+: c'.cv.fds → ∀ j, Idx c.cv j → descOf c.cv c.mcast c.listen j ≠ some d)
    (hx : readListen c ar cb = .ok (r, c')) : T K c' := by
  cases ar with
  | noDelayFailed d e => exact hs.elim
  | failed e =>
    obtain ⟨r1, m, h1, h2, h3⟩ := ConnVec.accept_failed g.v c.listen e
    unfold readListen at hx
    rw [h1] at hx
    dsimp only at hx
    have h0 : r1 ≠ 0 := by
      rcases h3 with rfl | rfl
      · decide
      · exact hs
    rw [if_pos h0] at hx
    cases hx
    exact TInv.same (v := c.cv) h rfl rfl (fun _ => rfl)
  | ok d a =>
    rcases ConnVec.accept_ok g.v c.listen d a with ⟨_, h1⟩ | ⟨_, i, v', h1, h2, h3, h4, h5, h6, h7, h8, h9⟩
    · unfold readListen at hx
      rw [h1] at hx
      dsimp only at hx
      rw [if_pos (by decide)] at hx
      cases hx; exact h.same rfl rfl rfl
    · have hd : (c.cv.conns i).desc = none := by
        apply Classical.byContradiction
        intro x; exact h3 ((g.v.desc i h2).1 x)
      have hfd : c.cv.fds ++ [.opened d] <+: c'.cv.fds := by
        rw [← accept_opens h1]
        have hx := hx
        unfold readListen at hx
        rw [h1] at hx
        dsimp only at hx
        rw [if_neg (by simp)] at hx
        split at hx
        · cases hx
        · split at hx
          · cases hx; exact List.prefix_rfl
          · split at hx
            · cases hx; exact List.prefix_rfl
            · obtain ⟨y, hy, hx⟩ := bind_ok hx
              cases hx
              exact (closeConnection_bk hy).pre
      have t1 : TInv K { v' with polls := c.cv.polls ++ [.add i (some d) .R] } c.mcast c.listen :=
        TInv.opens (v := c.cv) h (a := .R) h2 hd h5 rfl (by show (v'.conns i).desc = _; rw [h8]) (fun j hj => by show (v'.conns j).desc = _; rw [h7 j hj])
          (fun hk => ⟨fun j _ => (hf hk).1 j, (hf hk).2 d hfd⟩)
      have t2 : TInv K v' c.mcast c.listen := by
        have e : v' = ({ v' with polls := c.cv.polls ++ [.add i (some d) .R] } : ConnVec).poll (.modify LISTEN_INDEX c.listen .R .R) := by
          unfold poll
          dsimp only
          rw [List.append_assoc]
          show v' = { v' with polls := c.cv.polls ++ [.add i (some d) .R, .modify LISTEN_INDEX c.listen .R .R] }
          rw [← h9]
        rw [e]
        refine t1.modify (.inr (.inl rfl)) ?_ ?_ _ _ (fun _ => ⟨rfl, rfl⟩)
        · unfold descOf; rw [if_neg (by decide), if_pos rfl]
        · unfold descOf; rw [if_neg (by decide), if_pos rfl]; exact hl
      unfold readListen at hx
      rw [h1] at hx
      dsimp only at hx
      rw [if_neg (by simp)] at hx
      split at hx
      · cases hx
      · split at hx
        · cases hx; exact t2
        · split at hx
          · cases hx; exact t2
          · obtain ⟨y, hy, hx⟩ := bind_ok hx
            cases hx
            refine close_told (c := ev { c with cv := v', pub := Pub.initSubscriber c.pub i } _) t2 ?_ hy
            intro _
            show (v'.conns i).desc ≠ none
            rw [h8]; simp

theorem handler_frame {i : Nat} (m l : Option Nat) : ∀ c h, lookup (table i) c = some h → ∀ s b r s' b', PubCtx.mcast s = m ∧ PubCtx.listen s = l →
    h s b = .ok (r, s', b') → PubCtx.mcast s' = m ∧ PubCtx.listen s' = l := by
  have range : ∀ (n : Nat) {c c' : PubCtx} {pid : Nat}, ackRange c i pid n = .ok c' → c'.mcast = c.mcast ∧ c'.listen = c.listen := by
    intro n
    induction n with
    | zero => intro c c' pid h; cases h; exact ⟨rfl, rfl⟩
    | succ n ih =>
      intro c c' pid h
      unfold ackRange at h
      obtain ⟨c1, h1, h2⟩ := bind_ok h
      obtain ⟨_, q1, q2⟩ := packetAck_frame h1
      obtain ⟨p1, p2⟩ := ih h2
      exact ⟨p1.trans q1, p2.trans q2⟩
  intro c h hl s b r s' b' hs hx
  have hh : h = processAck i ∨ h = processCtl i := by
    unfold table lookup at hl
    repeat' (first | split at hl | unfold lookup at hl)
    all_goals first | exact .inl (Option.some.inj hl).symm | exact .inr (Option.some.inj hl).symm | cases hl
  rcases hh with rfl | rfl
  · unfold processAck at hx
    split at hx
    · cases hx; exact hs
    · obtain ⟨x, _, hx⟩ := bind_ok hx
      obtain ⟨c2, h2, hx⟩ := bind_ok hx
      cases hx
      unfold ackInterval at h2
      split at h2
      · cases h2
      · obtain ⟨p1, p2⟩ := range _ h2
        exact ⟨p1.trans hs.1, p2.trans hs.2⟩
  · unfold processCtl at hx
    split at hx
    · cases hx; exact hs
    · obtain ⟨x, _, hx⟩ := bind_ok hx
      dsimp only at hx
      split at hx
      · cases hx; exact hs
      · obtain ⟨c2, h2, hx⟩ := bind_ok hx
        cases hx
        split at h2
        · cases h2
        · cases h2; exact hs
        · obtain ⟨y, _, h2⟩ := bind_ok h2
          cases h2; exact hs

theorem readConn_told {c c' : PubCtx} {pops : List POp} {L : List Nat} (g : Good c pops L) (h : T K c) {i r : Nat} {rv : Option (List UInt8)}
    (hx : readConn c i rv = .ok (r, c')) : T K c' := by
  unfold readConn at hx
  split at hx
  · cases hx; exact h
  · rename_i hc
    rw [not_or, Classical.not_not] at hc
    have hi : At c i := by
      have : i < c.cv.size := by
        have := hc.1
        unfold findByIndex at this
        split at this
        · exact absurd rfl this
        · omega
      exact ⟨this, good_desc g this (by rw [hc.2]; decide)⟩
    obtain ⟨⟨r1, c1, b1⟩, h1, hx⟩ := bind_ok hx
    have hcv : c1.cv = c.cv := tcpRead_pres (P := fun s => PubCtx.cv s = c.cv) (handler_cv c.cv) rfl h1
    obtain ⟨hm, hl⟩ : c1.mcast = c.mcast ∧ c1.listen = c.listen :=
      tcpRead_pres (P := fun s => PubCtx.mcast s = c.mcast ∧ PubCtx.listen s = c.listen) (handler_frame c.mcast c.listen) ⟨rfl, rfl⟩ h1
    have t1 : T K c1 := h.same hcv hm hl
    have a1 : At c1 i := ⟨by rw [hcv]; exact hi.lt, by rw [hcv]; exact hi.desc⟩
    have e : (({ c1.cv.conns i with readBuf := b1 } : Conn)).desc = (c1.cv.conns i).desc := rfl
    obtain ⟨c2, hc2⟩ : ∃ c2, c2 = setConn c1 i { c1.cv.conns i with readBuf := b1 } := ⟨_, rfl⟩
    have t2 : T K c2 := hc2 ▸ t1.set e
    have a2 : At c2 i := hc2 ▸ a1.set e
    dsimp only at hx
    rw [← hc2] at hx
    split at hx
    · obtain ⟨⟨r2, c3⟩, h2, hx⟩ := bind_ok hx
      cases hx
      exact close_told t2 (fun _ => a2.desc) h2
    · cases hx
      have e2 : ∀ a : Act, (({ c2.cv.conns i with action := a } : Conn)).desc = (c2.cv.conns i).desc := fun _ => rfl
      have := T.connModify (t2.set (e2 ⟨true, decide (pendingLen c2.cv i > 0)⟩)) (a2.set (e2 _)) (c2.cv.conns i).action ⟨true, decide (pendingLen c2.cv i > 0)⟩
      rw [set_desc (e2 _)] at this
      exact this

theorem writeConn_told {c c' : PubCtx} {pops : List POp} {L : List Nat} (g : Good c pops L) (h : T K c) {i r : Nat} {wv : Except Nat Nat}
    (hx : writeConn c i wv = .ok (r, c')) : T K c' := by
  unfold writeConn at hx
  split at hx
  · cases hx; exact h
  · rename_i hi
    split at hx
    · cases hx; exact h
    · rename_i hc
      rw [not_or, Classical.not_not] at hc
      have hi : At c i := ⟨by omega, good_desc g (by omega) (by rw [hc.2]; decide)⟩
      split at hx
      · cases hx; exact h
      · obtain ⟨x, _, hx⟩ := bind_ok hx
        cases hx
        have key : ∀ (b : CircBuf) (a : Act) (e : CEv),
            T K (pollModify (ev (setConn c i { c.cv.conns i with writeBuf := b, action := a }) e) i (c.cv.conns i).desc (c.cv.conns i).action a) := by
          intro b a v
          have e : (({ c.cv.conns i with writeBuf := b, action := a } : Conn)).desc = (c.cv.conns i).desc := rfl
          have := T.connModify (h.set e) (hi.set e) (c.cv.conns i).action a
          rw [set_desc e] at this
          exact this.same rfl rfl rfl
        exact key _ _ _

/-- Specification: the context is used in an orderly way: activated while not active, deactivated and used while active. -/
def orderly (b : Bool) : Op → Prop
  | .activate _ => b = false
  | .deactivate => b = true
  | .queue _ _ => b = true
  | .timeout _ _ _ => b = true
  | .readListen _ _ => b = true
  | _ => True

/-- Specification: so it is used throughout. -/
def Orderly (ops : List Op) : Prop := ∀ pre op post, ops = pre ++ op :: post → orderly (activeBy pre) op

theorem closeAll_tinv {m l : Option Nat} : ∀ (is : List Nat) {c c' : PubCtx} {pops : List POp} {L : List Nat}, Good c pops L → TInv K c.cv m l →
    closeAll c is = .ok c' → TInv K c'.cv m l := by
  intro is
  induction is with
  | nil => intro c c' pops L _ h hx; cases hx; exact h
  | cons i is ih =>
    intro c c' pops L g h hx
    unfold closeAll at hx
    split at hx
    · exact ih g h hx
    · rename_i hf
      obtain ⟨⟨r, c1⟩, h1, hx⟩ := bind_ok hx
      have hi : i < c.cv.size := by
        unfold findByIndex at hf
        split at hf
        · exact absurd rfl hf
        · omega
      have t1 := close_tinv h (good_desc g hi) h1
      have hiL : i ∈ L := by
        apply Classical.byContradiction
        intro x
        rw [ConnVec.findByIndex_spec g.v, if_neg x] at hf
        exact hf rfl
      obtain ⟨c'', e, g1, g3, _⟩ := close_spec g hiL
      rw [e] at h1; cases h1
      exact ih g1 t1 hx

theorem step_listening {c c' : PubCtx} {pops : List POp} {L : List Nat} {op : Op} {r : Nat} (h : Good c pops L) (hs : op.sane)
    (hb : (queueArgs pops).length + 2 < U64) (hx : step c op = .ok (r, c')) :
    c'.listen.isSome = activeAfter c.listen.isSome op := by
  have same : ∀ {d : PubCtx}, cfg d = cfg c → d.listen.isSome = c.listen.isSome := fun {d} e => by
    rw [show d.listen = c.listen from congrArg Cfg.listen e]
  cases op with
  | queue p ann =>
    have hx' : queuePacket c p ann = .ok (r, c') := hx
    rcases queue_cases h p ann hb with ⟨_, e⟩ | ⟨_, _, e⟩ | ⟨_, _, s', h1, h2, h3, e⟩ <;> rw [e] at hx' <;> cases hx' <;>
      exact same rfl
  | readListen ar cb =>
    obtain ⟨r', c'', ys, L', ds, g1, g2, g3, _, g4, g5, _⟩ := readListen_spec h hs cb
    have : step c (.readListen ar cb) = .ok (r', c'') := g1
    rw [this] at hx; cases hx; exact same g3
  | readMcast err =>
    have hx' : readMcast c err = (r, c') := Except.ok.inj hx
    unfold readMcast at hx'
    split at hx'
    · cases hx'; exact same rfl
    · split at hx' <;> cases hx' <;> exact same rfl
  | read i rv =>
    rcases readConn_spec h hx with ⟨_, _, e⟩ | ⟨_, c1, ys, zs, ds, L', hst, hy, g, hcf, _⟩
    · subst e; exact same rfl
    · exact same hcf
  | writeMcast rs =>
    obtain ⟨r', c'', ys, es, ds, g1, g2, g3, _⟩ := multicastWrite_spec rs h
    have : step c (.writeMcast rs) = .ok (r', c'') := g1
    rw [this] at hx; cases hx; exact same g3
  | write i wv =>
    have hx' : writeConn c i wv = .ok (r, c') := hx
    rcases writeConn_spec h i wv with ⟨_, e | e⟩ | ⟨_, _, e⟩ | ⟨_, _, r', c'', out, e, g, g3, _, _, g2, _⟩ <;> rw [e] at hx' <;>
      cases hx'
    · exact same rfl
    · exact same rfl
    · exact same rfl
    · exact same g3
  | timeout now cb sp =>
    have hx' : timeoutProcess c now cb sp = .ok (r, c') := hx
    by_cases hd : annDue c now
    · have key : ∀ x, timeoutProcess c now cb sp = .ok x →
          x.2.nodeId = c.nodeId ∧ x.2.listenIp = c.listenIp ∧ x.2.listenPort = c.listenPort ∧ x.2.listen = c.listen := by
        intro x hx
        unfold timeoutProcess at hx
        rw [if_pos ⟨hd.1, hd.2.1, by have := hd.2.2; omega⟩] at hx
        dsimp only at hx
        split at hx
        · have h' : Good (ev c (.announce now c.annInterval)) pops L := h.congr rfl rfl
          rcases queue_cases h' ⟨sp, (annAnswer cb).2, true⟩ true hb with ⟨_, e⟩ | ⟨_, _, e⟩ | ⟨_, _, s', _, _, _, e⟩ <;>
            rw [e, Pub.ok_bind] at hx <;> cases hx <;> exact ⟨rfl, rfl, rfl, rfl⟩
        · rw [Pub.ok_bind] at hx; cases hx; exact ⟨rfl, rfl, rfl, rfl⟩
      obtain ⟨k1, k2, k3, k4⟩ := key _ hx'
      exact congrArg Option.isSome k4
    · have ht := timeout_resend h hd hx'
      obtain ⟨_, ys, g1, g2, g3, _⟩ := subscribersTimeout_spec _ ((subs_nodup h).filter _)
        (fun k hk => (h.slots k).2 (List.mem_filter.mp hk).1) h ht
      exact same g2.cfg
  | close i =>
    have hx' : closeConnection c i = .ok (r, c') := hx
    by_cases hi : i ∈ L
    · obtain ⟨c'', e, g, g3, _, g2, _⟩ := close_spec h hi
      rw [e] at hx'; cases hx'; exact same g3
    · rw [close_none h hi] at hx'; cases hx'
      exact same rfl
  | setAnnounce n now => cases hx; rfl
  | throttling a b =>
    have hx' : throttling c a b = (r, c') := Except.ok.inj hx
    unfold throttling at hx'
    split at hx' <;> cases hx' <;> rfl
  | setCtlCb b => cases hx; rfl
  | activate x =>
    have hx' : activate c x = (r, c') := Except.ok.inj hx
    unfold activate at hx'
    split at hx' <;> cases hx' <;> rfl
  | deactivate =>
    obtain ⟨c'', ys, ds, e, g, _, hd, hd2, hy, g2, _⟩ := deactivate_spec h
    have hx' : deactivate c = .ok (r, c') := hx
    rw [e] at hx'; cases hx'
    show c'.listen.isSome = _
    rw [show c'.listen = none from congrArg Cfg.listen g2]; rfl


/-- A descriptor the system hands out is not held. -/
theorem fresh {c c' : PubCtx} (hl : Ledger c.cv (own c)) (ho : OsOk c'.cv.fds) (d : Nat) (hp : c.cv.fds ++ [.opened d] <+: c'.cv.fds) :
    ∀ j, Idx c.cv j → descOf c.cv c.mcast c.listen j ≠ some d := by
  intro j hj he
  have h1 := ho _ hp d
  rw [opens_append, closes_append, opens_opened, closes_opened] at h1
  have h2 : one (some d) d = 1 := by unfold one; rw [if_pos rfl]
  have h3 := hl.bal d
  unfold own at h3
  have h4 : ∀ x : Option Nat, x = some d → one x d = 1 := by intro x hx; unfold one; rw [if_pos hx]
  unfold descOf at he
  by_cases e1 : j = MULTICAST_INDEX
  · rw [if_pos e1] at he
    have := h4 _ he
    omega
  · rw [if_neg e1] at he
    by_cases e2 : j = LISTEN_INDEX
    · rw [if_pos e2] at he
      have := h4 _ he
      omega
    · rw [if_neg e2] at he
      rcases hj with hj | hj | hj
      · have := holds_pos hj he
        omega
      · exact e2 hj
      · exact e1 hj

theorem step_told {c c' : PubCtx} {pops : List POp} {L : List Nat} {op : Op} {r : Nat} (g : Good c pops L) (hs : op.sane) {b : Bool}
    (ho : (K LISTEN_INDEX ∨ K MULTICAST_INDEX) → orderly b op) (hm : c.mcast.isSome = b) (hl : c.listen.isSome = b) (h : T K c)
    (hf : K NIL_INDEX → (∀ j, K j) ∧ Ledger c.cv (own c) ∧ OsOk c'.cv.fds) (hx : step c op = .ok (r, c')) : T K c' := by
  have some : ∀ {o : Option Nat}, o.isSome = b → b = true → o ≠ none := by
    intro o h1 h2 h3; rw [h3] at h1; rw [← h1] at h2; cases h2
  cases op with
  | queue p ann => exact queue_told h (fun hk => some hm (ho (.inr hk))) hx
  | readListen ar cb => exact readListen_told g h (fun hk => some hl (ho (.inl hk))) hs (fun hk => ⟨(hf hk).1, fresh (hf hk).2.1 (hf hk).2.2⟩) hx
  | readMcast err =>
    have hx' : readMcast c err = (r, c') := Except.ok.inj hx
    unfold readMcast at hx'
    split at hx'
    · cases hx'; exact h
    · rename_i hc
      split at hx' <;> cases hx'
      · exact h
      · exact h.mcastModify (fun _ => hc) _ _
  | read i rv => exact readConn_told g h hx
  | writeMcast rs => exact multicastWrite_told rs h hx
  | write i wv => exact writeConn_told g h hx
  | timeout now cb sp =>
    have hx' : timeoutProcess c now cb sp = .ok (r, c') := hx
    by_cases hd : annDue c now
    · unfold timeoutProcess at hx'
      rw [if_pos ⟨hd.1, hd.2.1, by have := hd.2.2; omega⟩] at hx'
      dsimp only at hx'
      split at hx'
      · obtain ⟨⟨r1, c1⟩, h1, hx'⟩ := bind_ok hx'
        cases hx'
        have : T K c1 := queue_told (c := ev c (.announce now c.annInterval)) (h.same rfl rfl rfl) (fun hk => some hm (ho (.inr hk))) h1
        exact this.same rfl rfl rfl
      · cases hx'; exact h.same rfl rfl rfl
    · have ht := timeout_resend g hd hx'
      refine (subscribers_told _ ?_ h ht).1
      intro k hk
      have hkL := (g.slots k).2 (List.mem_filter.mp hk).1
      exact ⟨g.v.lt k hkL, (g.v.desc k (g.v.lt k hkL)).2 hkL⟩
  | close i =>
    have hx' : closeConnection c i = .ok (r, c') := hx
    by_cases hi : i < c.cv.size
    · exact close_told h (good_desc g hi) hx'
    · have hiL : i ∉ L := fun x => hi (g.v.lt i x)
      rw [close_none g hiL] at hx'; cases hx'; exact h
  | setAnnounce n now => cases hx; exact h.same rfl rfl rfl
  | throttling a b =>
    have hx' : throttling c a b = (r, c') := Except.ok.inj hx
    unfold throttling at hx'
    split at hx' <;> cases hx'
    · exact h
    · exact h.same rfl rfl rfl
  | setCtlCb b => cases hx; exact h.same rfl rfl rfl
  | activate x =>
    have hx' : activate c x = (r, c') := Except.ok.inj hx
    have none : ∀ {o : Option Nat}, o.isSome = b → b = false → o = none := by
      intro o h1 h2; rw [h2] at h1; cases o with
      | none => rfl
      | some _ => cases h1
    unfold activate at hx'
    split at hx' <;> cases hx'
    · refine ⟨h.sz, fun i hk hi => ?_, h.other, h.dist, h.lst⟩
      show told i c.cv.polls = _
      rw [h.ok i hk hi]
      have h1 : LISTEN_INDEX = 32765 := rfl
      have h2 : MULTICAST_INDEX = 32766 := rfl
      have := h.sz
      unfold descOf
      by_cases e1 : i = MULTICAST_INDEX
      · subst e1; rw [if_pos rfl, if_pos rfl, none hm (ho (.inr hk))]
      · rw [if_neg e1, if_neg e1]
        by_cases e2 : i = LISTEN_INDEX
        · subst e2; rw [if_pos rfl, if_pos rfl, none hl (ho (.inl hk))]
        · rw [if_neg e2, if_neg e2]; rfl
    · rename_i md ld port
      refine ⟨h.sz, fun i hk hi => ?_, fun i hi => ?_, fun hk => ?_, lst_snoc (e := .add LISTEN_INDEX (Option.some ld) .R)
          (lst_snoc (e := .add MULTICAST_INDEX (Option.some md) .R) h.lst (fun _ => rfl)) (fun _ => rfl)⟩
      rotate_left
      · show told i (c.cv.polls ++ [.add MULTICAST_INDEX (Option.some md) .R] ++ [.add LISTEN_INDEX (Option.some ld) .R]) = _
        rw [told_other (by exact fun (e : LISTEN_INDEX = i) => hi (.inr (.inl e.symm))), told_other (by exact fun (e : MULTICAST_INDEX = i) => hi (.inr (.inr e.symm)))]
        exact h.other i hi
      · show Dist (c.cv.polls ++ [.add MULTICAST_INDEX (Option.some md) .R] ++ [.add LISTEN_INDEX (Option.some ld) .R])
        obtain ⟨f1, f2, f3⟩ := hf hk
        have f3 : OsOk (c.cv.fds ++ [.opened md, .opened ld]) := f3
        have nt : ∀ d, (∀ j, Idx c.cv j → descOf c.cv c.mcast c.listen j ≠ Option.some d) → ∀ j, told j c.cv.polls ≠ Option.some (Option.some d) := by
          intro d hd j hj
          by_cases hji : Idx c.cv j
          · rw [h.ok j (f1 j) hji] at hj
            exact hd j hji (Option.some.inj hj)
          · rw [h.other j hji] at hj; cases hj
        have hmd := nt md (fresh (c' := { c with cv := c.cv.fdAll [.opened md, .opened ld] }) f2 f3 md
          (by show c.cv.fds ++ [.opened md] <+: c.cv.fds ++ [.opened md, .opened ld]; exact ⟨[.opened ld], by simp⟩))
        have hbal := fun d => f2.bal d
        have hpre := fun d => f3 _ List.prefix_rfl d
        have hld : (∀ j, told j c.cv.polls ≠ Option.some (Option.some ld)) ∧ ld ≠ md := by
          have q := f3 _ List.prefix_rfl ld
          have e0 : c.cv.fds ++ [.opened md, .opened ld] = c.cv.fds ++ [.opened md] ++ [.opened ld] := by simp
          rw [e0, opens_append, closes_append, opens_append, closes_append, opens_opened, closes_opened, opens_opened, closes_opened] at q
          have q2 : one (Option.some ld) ld = 1 := by unfold one; rw [if_pos rfl]
          have q3 := f2.bal ld
          constructor
          · refine nt ld fun j hji hj => ?_
            refine fresh (c := c) (c' := { c with cv := c.cv.fdAll [.opened ld] }) f2 ?_ ld List.prefix_rfl j hji hj
            intro pre hp d
            rcases List.prefix_concat_iff.1 (show pre <+: c.cv.fds ++ [.opened ld] from hp) with hp | hp
            · subst hp
              rw [opens_append, closes_append, opens_opened, closes_opened]
              have w := f3 _ List.prefix_rfl d
              rw [e0, opens_append, closes_append, opens_append, closes_append, opens_opened, closes_opened, opens_opened, closes_opened] at w
              omega
            · exact f3 pre (hp.trans (List.prefix_append _ _)) d
          · intro e
            subst e
            omega
        refine ((h.dist hk).add hmd).add fun j hj => ?_
        by_cases e : MULTICAST_INDEX = j
        · subst e
          rw [told_snoc] at hj
          cases ht : told MULTICAST_INDEX c.cv.polls with
          | none => rw [ht] at hj; cases hj
          | some r =>
            rw [ht] at hj
            simp only [toldStep, if_pos] at hj
            split at hj
            · exact hld.2 (Option.some.inj (Option.some.inj hj)).symm
            · cases hj
        · rw [told_other (by exact e)] at hj
          exact hld.1 j hj
      show told i (c.cv.polls ++ [.add MULTICAST_INDEX (Option.some md) .R] ++ [.add LISTEN_INDEX (Option.some ld) .R]) = _
      unfold descOf
      by_cases e1 : i = MULTICAST_INDEX
      · subst e1
        rw [told_other (by show LISTEN_INDEX ≠ MULTICAST_INDEX; decide), told_snoc, h.ok _ hk hi, if_pos rfl]
        unfold descOf
        rw [if_pos rfl, none hm (ho (.inr hk))]
        simp [toldStep]
      · rw [if_neg e1]
        by_cases e2 : i = LISTEN_INDEX
        · subst e2
          rw [told_snoc, told_other (by exact fun x => e1 x.symm), h.ok _ hk hi, if_pos rfl]
          unfold descOf
          rw [if_neg e1, if_pos rfl, none hl (ho (.inl hk))]
          simp [toldStep]
        · rw [if_neg e2, told_other (by exact fun x => e2 x.symm), told_other (by exact fun x => e1 x.symm), h.ok _ hk hi]
          unfold descOf
          rw [if_neg e1, if_neg e2]; rfl
  | deactivate =>
    have hx' : deactivate c = .ok (r, c') := hx
    unfold deactivate at hx'
    obtain ⟨v0, hv0⟩ : ∃ v0, v0 = (c.cv.poll (.remove MULTICAST_INDEX c.mcast)).poll (.remove LISTEN_INDEX c.listen) := ⟨_, rfl⟩
    have g0 : Good { c with cv := v0 } pops L := hv0 ▸
      (g.pollOther (e := .remove MULTICAST_INDEX c.mcast) (by show LISTEN_INDEX ≤ MULTICAST_INDEX; decide)).pollOther
        (e := .remove LISTEN_INDEX c.listen) (by show LISTEN_INDEX ≤ LISTEN_INDEX; decide)
    have t0 : TInv K v0 none none := by
      rw [hv0]
      refine ⟨h.sz, fun i hk hi => ?_, fun i hi => ?_, fun hk => ((h.dist hk).quiet (by simp)).quiet (by simp),
        lst_snoc (e := .remove LISTEN_INDEX c.listen) (lst_snoc (e := .remove MULTICAST_INDEX c.mcast) h.lst trivial) trivial⟩
      rotate_left
      · show told i (c.cv.polls ++ [.remove MULTICAST_INDEX c.mcast] ++ [.remove LISTEN_INDEX c.listen]) = _
        rw [told_other (by exact fun (e : LISTEN_INDEX = i) => hi (.inr (.inl e.symm))), told_other (by exact fun (e : MULTICAST_INDEX = i) => hi (.inr (.inr e.symm)))]
        exact h.other i hi
      show told i (c.cv.polls ++ [.remove MULTICAST_INDEX c.mcast] ++ [.remove LISTEN_INDEX c.listen]) = _
      unfold descOf
      by_cases e1 : i = MULTICAST_INDEX
      · subst e1
        rw [told_other (by show LISTEN_INDEX ≠ MULTICAST_INDEX; decide), told_snoc, h.ok _ hk hi, if_pos rfl]
        unfold descOf
        rw [if_pos rfl]
        simp [toldStep, some hm (ho (.inr hk))]
      · rw [if_neg e1]
        by_cases e2 : i = LISTEN_INDEX
        · subst e2
          rw [told_snoc, told_other (by exact fun x => e1 x.symm), h.ok _ hk hi, if_pos rfl]
          unfold descOf
          rw [if_neg e1, if_pos rfl]
          simp [toldStep, some hl (ho (.inl hk))]
        · rw [if_neg e2, told_other (by exact fun x => e2 x.symm), told_other (by exact fun x => e1 x.symm), h.ok _ hk hi]
          unfold descOf
          rw [if_neg e1, if_neg e2]; rfl
    dsimp only at hx'
    rw [← hv0] at hx'
    split at hx'
    · cases hx'
      exact TInv.same (v := v0) t0 rfl rfl (fun _ => rfl)
    · obtain ⟨c1, h1, hx'⟩ := bind_ok hx'
      cases hx'
      exact TInv.same (v := c1.cv) (closeAll_tinv _ g0 t0 h1) rfl rfl (fun _ => rfl)

/-- The books are kept exactly when the context is activated only while inactive. -/
theorem step_led {c c' : PubCtx} {op : Op} {r : Nat} (ho : ∀ x, op = .activate x → c.mcast = none ∧ c.listen = none) (hl : Ledger c.cv (own c))
    (hx : step c op = .ok (r, c')) : Ledger c'.cv (own c') := by
  by_cases ha : ∃ x, op = .activate x
  · obtain ⟨x, rfl⟩ := ha
    have hn := ho x rfl
    cases x with
    | error e w =>
      have e : (activate c (.error e w)).2 = c' := congrArg Prod.snd (Except.ok.inj hx)
      obtain ⟨k', _, h1, h2⟩ := actErr_led (old := c.listen) w (fun d => by unfold own; omega) hl
      rw [h1 hn.2] at h2
      rw [← e]
      refine Ledger.weak h2 fun d => ?_
      show own c d = one none d + one none d
      unfold own; rw [hn.1, hn.2]
    | ok t =>
      obtain ⟨md, ld, port⟩ := t
      have e : (activate c (.ok (md, ld, port))).2 = c' := congrArg Prod.snd (Except.ok.inj hx)
      rw [← e]
      refine (activate_ok_led md ld port hl).weak fun d => ?_
      show own c d + _ = one (some md) d + one (some ld) d
      unfold own; rw [hn.1, hn.2]; show 0 + 0 + _ = _; omega
  · by_cases hd : op = .deactivate
    · subst hd
      obtain ⟨h1, h2, h3⟩ := deactivate_led (k' := fun _ => 0) (fun d => by omega) hl hx
      refine h1.weak fun d => ?_
      unfold own; rw [h2, h3]; rfl
    · have b := step_bk (fun x e => ha ⟨x, e⟩) hd hx
      refine (b.led _ hl).weak fun d => ?_
      unfold own; rw [b.mcast, b.listen]

theorem Reaches.told {ops : List Op} {c : PubCtx} (h : Reaches ops c) (hK : (K LISTEN_INDEX ∨ K MULTICAST_INDEX) → Orderly ops)
    (hf : K NIL_INDEX → (∀ j, K j) ∧ OsOk c.cv.fds) :
    T K c ∧ c.mcast.isSome = activeBy ops ∧ c.listen.isSome = activeBy ops ∧ (K NIL_INDEX → Ledger c.cv (own c)) := by
  refine Reaches.induct (P := fun ops c => ((K LISTEN_INDEX ∨ K MULTICAST_INDEX) → Orderly ops) → (K NIL_INDEX → (∀ j, K j) ∧ OsOk c.cv.fds) →
    T K c ∧ c.mcast.isSome = activeBy ops ∧ c.listen.isSome = activeBy ops ∧ (K NIL_INDEX → Ledger c.cv (own c))) ?_ ?_ h hK hf
  · intro mem n nid ip port hn _ _
    refine ⟨⟨hn, fun i _ _ => ?_, fun i _ => rfl, fun _ => Dist.nil, fun e he => absurd he List.not_mem_nil⟩, rfl, rfl, fun _ => Ledger.init mem n RMC_MAX_PACKET⟩
    show some none = _
    unfold descOf
    split
    · rfl
    · split <;> rfl
  · intro ops c op r c' hr ha hs hb hx ho hf
    obtain ⟨i1, i2, i3, i4⟩ := ha (fun k pre o post e => ho k pre o (post ++ [op]) (by rw [e]; simp))
      (fun hk => ⟨(hf hk).1, (hf hk).2.mono (step_fds hx)⟩)
    obtain ⟨pops, L, g, hq, _⟩ := hr.good
    have e : activeBy (ops ++ [op]) = activeAfter (activeBy ops) op := by unfold activeBy; rw [List.foldl_append]; rfl
    rw [e]
    refine ⟨step_told g hs (fun k => ho k ops op [] rfl) i2 i3 i1 (fun hk => ⟨(hf hk).1, i4 hk, (hf hk).2⟩) hx, ?_, ?_, fun hk => ?_⟩
    · rw [step_active g hs (by omega) hx, i2]
    · rw [step_listening g hs (by omega) hx, i3]
    · refine step_led (fun x ex => ?_) (i4 hk) hx
      have hb : orderly (activeBy ops) op := ho (.inl ((hf hk).1 _)) ops op [] rfl
      rw [ex] at hb
      have hb : activeBy ops = false := hb
      rw [hb] at i2 i3
      constructor
      · cases hm : c.mcast with
        | none => rfl
        | some _ => rw [hm] at i2; cases i2
      · cases hm : c.listen with
        | none => rfl
        | some _ => rw [hm] at i3; cases i3

/-- C79 for the connections of a publisher: in every history, the calls of the poll callbacks for a slot carry the descriptor of the connection in the
slot, from its registration to its removal. -/
theorem C79_connections {ops : List Op} {c : PubCtx} (h : Reaches ops c) {i : Nat} (hi : i < c.cv.size) :
    told i c.cv.polls = some (c.cv.conns i).desc := by
  have t := (h.told (K := fun i => i < c.cv.size) ?_ ?_).1
  · rw [t.ok i hi (.inl hi), descOf_lt hi t.sz]
  · have h1 : LISTEN_INDEX = 32765 := rfl
    have h2 : MULTICAST_INDEX = 32766 := rfl
    obtain ⟨pops, L, g, _⟩ := h.good
    have := g.v.sz
    intro x; exfalso; omega
  · have h1 : LISTEN_INDEX = 32765 := rfl
    have h2 : NIL_INDEX = 32767 := rfl
    obtain ⟨pops, L, g, _⟩ := h.good
    have := g.v.sz
    intro x; exfalso; omega

/-- C79 for the sockets of a publisher, if it is activated only while inactive, deactivated only while active, and packets are queued, timeouts
processed and connections accepted only while active: the listen and multicast sockets are registered, with their descriptors, exactly while the context
is active.
Missing for the full property: other histories, see `C79_false`. -/
theorem C79_sockets_partial {ops : List Op} {c : PubCtx} (h : Reaches ops c) (ho : Orderly ops) :
    told LISTEN_INDEX c.cv.polls = some c.listen ∧ told MULTICAST_INDEX c.cv.polls = some c.mcast ∧
    (c.listen ≠ none ↔ activeBy ops = true) ∧ (c.mcast ≠ none ↔ activeBy ops = true) := by
  obtain ⟨t, t1, t2, _⟩ := h.told (K := fun i => i ≠ NIL_INDEX) (fun _ => ho) (fun h => absurd rfl h)
  refine ⟨?_, ?_, ?_, ?_⟩
  · rw [t.ok _ (by decide) (.inr (.inl rfl))]; rfl
  · rw [t.ok _ (by decide) (.inr (.inr rfl))]; rfl
  · rw [← t2]; cases c.listen <;> simp
  · rw [← t1]; cases c.mcast <;> simp

/-- Non-vacuity: activated, used and deactivated. -/
def exCycle : List Op := exPre ++ [.deactivate, .activate (.ok (17, 18, 9)), .readListen (.ok 25 1) none]

example : Orderly exCycle := by
  intro pre op post e
  have key : ∀ k < exCycle.length, orderly (activeBy (exCycle.take k)) (exCycle[k]?.getD .deactivate) := by
    have : exCycle.length = 11 := rfl
    rw [this]
    intro k hk
    have hk : k = 0 ∨ k = 1 ∨ k = 2 ∨ k = 3 ∨ k = 4 ∨ k = 5 ∨ k = 6 ∨ k = 7 ∨ k = 8 ∨ k = 9 ∨ k = 10 := by omega
    rcases hk with rfl | rfl | rfl | rfl | rfl | rfl | rfl | rfl | rfl | rfl | rfl <;> first | trivial | rfl
  have := key pre.length (by rw [e]; simp)
  rw [e] at this
  simpa using this

example : ∃ c rs, Reaches exCycle c ∧ run exC0 exCycle = .ok (rs, c) ∧
    decide (told LISTEN_INDEX c.cv.polls = some (some 18) ∧ told MULTICAST_INDEX c.cv.polls = some (some 17) ∧ told 0 c.cv.polls = some (some 25) ∧
      told 1 c.cv.polls = some none ∧ c.cv.size = 2) = true :=
  reaches_of (P := fun rs c => decide _) (by simp [exCycle, exPre, Op.sane, saneAcc]) (by decide) (by decide +kernel)

/-- C79 is not true in full: a packet queued before the context is activated makes the library modify a registration that does not exist. -/
theorem C79_false : ∃ c, Reaches [.queue (exPay 1) false] c ∧ c.cv.polls = [.modify MULTICAST_INDEX none .none .W] ∧
    told MULTICAST_INDEX c.cv.polls = none := by
  obtain ⟨c, rs, h1, _, h2⟩ := reaches_of (ops := [.queue (exPay 1) false])
    (P := fun rs c => decide (c.cv.polls = [.modify MULTICAST_INDEX none .none .W] ∧ told MULTICAST_INDEX c.cv.polls = none))
    (by simp [Op.sane, saneAcc]) (by decide) (by decide +kernel)
  exact ⟨c, h1, of_decide_eq_true h2⟩

end PubCtx
end Rmc
