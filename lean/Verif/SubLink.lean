import Verif.Props.SubCtxTcp
import Verif.Props.SubCtxCalls

/-! # What the calls on other connections, timers and datagrams do to one connection of the subscriber -/

set_option linter.unusedSimpArgs false
set_option linter.unusedVariables false

namespace Rmc
namespace SubCtx
open SubPub CircBuf ConnVec Proto

/-- Events by which the connection in slot `i` is set up or used. -/
def uses (i : Nat) : SEv → Bool
  | .complete j => j == i
  | .arrive j _ _ _ => j == i
  | .tcpOut j _ => j == i
  | _ => false

/-- How slot `i`, occupied before and after, has fared. -/
inductive Phase (i : Nat) (c c' : SubCtx) (es : List SEv) : Prop
  | up (h : Up c i) (h' : Up c' i) (hn : SEv.complete i ∉ es)
  | waiting (h : ¬ Up c i) (h' : ¬ Up c' i) (hn : ∀ e ∈ es, uses i e = false)
  | done (h : ¬ Up c i) (h' : Up c' i) (e1 e2 : List SEv) (he : es = e1 ++ .complete i :: e2)
      (h1 : ∀ e ∈ e1, uses i e = false) (h2 : SEv.complete i ∉ e2)

/-- Slot `i` holds the same connection before and after, and its read buffer has not changed; `es` has happened; packets
have arrived only if the call reads datagrams. -/
structure Kept (tm i : Nat) (c c' : SubCtx) (es : List SEv) : Prop where
  live : Live c' i
  rb : (c'.cv.conns i).readBuf = (c.cv.conns i).readBuf
  addr : (c'.cv.conns i).addr = (c.cv.conns i).addr
  port : (c'.cv.conns i).port = (c.cv.conns i).port
  size : c'.cv.size = c.cv.size
  log : c'.log = c.log ++ es
  ph : Phase i c c' es
  arr : ∀ p m ts, SEv.arrive i p m ts ∈ es → tm = 2 ∧ m = true

theorem Kept.refl {tm i : Nat} {c : SubCtx} (h : Live c i) : Kept tm i c c [] := by
  refine ⟨h, rfl, rfl, rfl, rfl, by simp, ?_, by simp⟩
  by_cases hu : Up c i
  · exact .up hu hu (by simp)
  · exact .waiting hu hu (by simp)

theorem Kept.trans {tm i : Nat} {a b c : SubCtx} {es fs : List SEv} (h : Kept tm i a b es) (g : Kept tm i b c fs) :
    Kept tm i a c (es ++ fs) := by
  refine ⟨g.live, g.rb.trans h.rb, g.addr.trans h.addr, g.port.trans h.port, g.size.trans h.size,
    by rw [g.log, h.log, List.append_assoc], ?_, fun p m ts hx => ?_⟩
  rotate_left
  · rcases List.mem_append.1 hx with hx | hx
    · exact h.arr p m ts hx
    · exact g.arr p m ts hx
  cases h.ph with
  | up h1 h2 h3 =>
    cases g.ph with
    | up g1 g2 g3 => exact .up h1 g2 (by simp [h3, g3])
    | waiting g1 g2 g3 => exact absurd h2 g1
    | done g1 g2 => exact absurd h2 g1
  | waiting h1 h2 h3 =>
    cases g.ph with
    | up g1 g2 g3 => exact absurd g1 h2
    | waiting g1 g2 g3 =>
      refine .waiting h1 g2 ?_
      intro e he
      rcases List.mem_append.1 he with he | he
      · exact h3 e he
      · exact g3 e he
    | done g1 g2 e1 e2 e3 e4 e5 =>
      refine .done h1 g2 (es ++ e1) e2 (by rw [e3, List.append_assoc]) ?_ e5
      intro e he
      rcases List.mem_append.1 he with he | he
      · exact h3 e he
      · exact e4 e he
  | done h1 h2 e1 e2 e3 e4 e5 =>
    cases g.ph with
    | up g1 g2 g3 =>
      exact .done h1 g2 e1 (e2 ++ fs) (by rw [e3]; simp) e4 (by simp [e5, g3])
    | waiting g1 g2 g3 => exact absurd h2 g1
    | done g1 g2 => exact absurd h2 g1

/-- A step that does not change slot `i` at all, other than by events of it if it is set up. -/
theorem Kept.of_conn {tm i : Nat} {c c' : SubCtx} {es : List SEv} (h : Live c i) (h1 : c'.cv.size = c.cv.size)
    (h2 : (c'.cv.conns i).mode = (c.cv.conns i).mode) (h3 : (c'.cv.conns i).readBuf = (c.cv.conns i).readBuf)
    (h4 : (c'.cv.conns i).addr = (c.cv.conns i).addr) (h5 : (c'.cv.conns i).port = (c.cv.conns i).port)
    (h6 : c'.log = c.log ++ es) (h7 : SEv.complete i ∉ es) (h8 : ¬ Up c i → ∀ e ∈ es, uses i e = false)
    (h9 : ∀ p m ts, SEv.arrive i p m ts ∈ es → tm = 2 ∧ m = true) : Kept tm i c c' es := by
  have hu : Up c' i ↔ Up c i := by unfold Up; rw [h1, h2]
  refine ⟨⟨h1 ▸ h.1, by rw [h2]; exact h.2⟩, h3, h4, h5, h1, h6, ?_, h9⟩
  by_cases hc : Up c i
  · exact .up hc (hu.2 hc) h7
  · exact .waiting hc (fun x => hc (hu.1 x)) (h8 hc)

theorem Micro.slot {tm : Nat} {c c' : SubCtx} (m : Micro tm c c') (hc : Core c) {i : Nat} (hl : Live c i) (ht : tm ≠ 3 + i) :
    (¬ Live c' i ∧ tm ≠ 2) ∨ ∃ es, Kept tm i c c' es := by
  have ea : ∀ {e : SEv}, uses i e = false → ∀ p m ts, SEv.arrive i p m ts ∈ [e] → tm = 2 ∧ m = true := by
    intro e h p m ts hx
    rw [List.mem_singleton] at hx
    rw [← hx] at h; simp [uses] at h
  have el : ∀ {es : List SEv}, (∀ e ∈ es, uses i e = false) → ∀ p m ts, SEv.arrive i p m ts ∈ es → tm = 2 ∧ m = true := by
    intro es h p m ts hx
    have := h _ hx; simp [uses] at this
  have quiet : ∀ (e : SEv) (d : SubCtx), d.cv = c.cv → d.log = c.log ++ [e] → uses i e = false →
      (¬ Live d i ∧ tm ≠ 2) ∨ ∃ es, Kept tm i c d es := by
    intro e d h1 h2 h3
    refine .inr ⟨[e], .of_conn hl (by rw [h1]) (by rw [h1]) (by rw [h1]) (by rw [h1]) (by rw [h1]) h2 ?_ ?_ (ea h3)⟩
    · intro h
      rw [List.mem_singleton] at h
      rw [← h] at h3; simp [uses] at h3
    · intro _ e' he
      rw [List.mem_singleton] at he
      rw [he]; exact h3
  have silent : ∀ (d : SubCtx), d.cv.size = c.cv.size → d.cv.conns i = c.cv.conns i → d.log = c.log →
      (¬ Live d i ∧ tm ≠ 2) ∨ ∃ es, Kept tm i c d es := by
    intro d h0 h1 h2
    exact .inr ⟨[], .of_conn hl h0 (by rw [h1]) (by rw [h1]) (by rw [h1]) (by rw [h1]) (by simpa using h2) (by simp) (by simp) (by simp)⟩
  have setc : ∀ (j : Nat) (x : Conn) (es : List SEv) (d : SubCtx), d.cv.size = c.cv.size →
      (∀ k, d.cv.conns k = if k = j then x else c.cv.conns k) → x.mode = (c.cv.conns j).mode →
      x.readBuf = (c.cv.conns j).readBuf → x.addr = (c.cv.conns j).addr → x.port = (c.cv.conns j).port →
      d.log = c.log ++ es → SEv.complete i ∉ es → (¬ Up c i → ∀ e ∈ es, uses i e = false) →
      (∀ p m ts, SEv.arrive i p m ts ∈ es → tm = 2 ∧ m = true) → (¬ Live d i ∧ tm ≠ 2) ∨ ∃ es, Kept tm i c d es := by
    intro j x es d h0 h1 h2 h3 h4 h5 h6 h7 h8 h9
    by_cases e : i = j
    · subst e
      have h1 := h1 i
      rw [if_pos rfl] at h1
      exact .inr ⟨es, .of_conn hl h0 (by rw [h1]; exact h2) (by rw [h1]; exact h3) (by rw [h1]; exact h4) (by rw [h1]; exact h5) h6 h7 h8 h9⟩
    · have h1 := h1 i
      rw [if_neg e] at h1
      exact .inr ⟨es, .of_conn hl h0 (by rw [h1]) (by rw [h1]) (by rw [h1]) (by rw [h1]) h6 h7 h8 h9⟩
  cases m with
  | user hx he =>
    rcases he with rfl | rfl
    · exact quiet _ _ rfl rfl rfl
    · exact quiet _ _ rfl rfl rfl
  | cb hk => exact quiet _ _ rfl rfl rfl
  | setCb f hk => exact silent _ rfl rfl rfl
  | annCb a => exact quiet _ _ rfl rfl rfl
  | sock m es => exact silent _ rfl rfl rfl
  | @dup j s hu hs p m ts hp hd hk =>
    refine .inr ⟨[.arrive j p m ts], .of_conn hl rfl rfl rfl rfl rfl rfl (by simp) ?_ ?_⟩
    rotate_left
    · intro p' m' ts' hx; simp only [List.mem_singleton, SEv.arrive.injEq] at hx; grind
    intro hn e he
    rw [List.mem_singleton] at he
    subst he
    have : j ≠ i := by rintro rfl; exact hn hu
    simpa [uses] using this
  | @recv j s hu hs pid data m ts hd al ha hk =>
    refine .inr ⟨_, .of_conn hl rfl rfl rfl rfl rfl (by show _ ++ _ ++ _ ++ _ = _; rw [List.append_assoc, List.append_assoc]) ?_ ?_ ?_⟩
    rotate_right
    · intro p' m' ts' h
      rw [List.mem_append, List.mem_append, List.mem_map] at h
      rcases h with h | h | ⟨q, _, h⟩
      · simp only [List.mem_singleton, SEv.arrive.injEq] at h; grind
      · simp at h
      · cases h
    · intro h
      rw [List.mem_append, List.mem_append, List.mem_map] at h
      rcases h with h | h | ⟨q, _, h⟩
      · simp at h
      · simp at h
      · cases h
    intro hn e he
    rw [List.mem_append, List.mem_append, List.mem_map] at he
    have : j ≠ i := by rintro rfl; exact hn hu
    rcases he with h | h | ⟨q, _, rfl⟩
    · rw [List.mem_singleton] at h; subst h; simpa [uses] using this
    · rw [List.mem_singleton] at h; subst h; rfl
    · rfl
  | @io j hu rb a es hact hes hk =>
    have : i ≠ j := by rintro rfl; exact ht hk
    refine silent _ rfl ?_ rfl
    show (if i = j then _ else _) = _
    rw [if_neg this]
  | taken hs hi ha => exact quiet _ _ rfl rfl rfl
  | dropAck ha hs hi => exact silent _ rfl rfl rfl
  | @msg j hu b e xs hw hz hb he =>
    have hue : uses i e = false := by
      rcases he with ⟨iv, _, rfl, _⟩ | ⟨bs, ds, rfl, _⟩ <;> rfl
    have hce : SEv.complete i ∉ [e] := by
      intro h
      rw [List.mem_singleton] at h
      rw [← h] at hue; simp [uses] at hue
    exact setc j _ [e] _ rfl (fun k => rfl) rfl rfl rfl rfl rfl hce
      (fun _ x hx => by rw [List.mem_singleton] at hx; rw [hx]; exact hue) (ea hue)
  | @out j hu b xs hw hz hb a es hact hes hr =>
    refine setc j _ [.tcpOut j xs] _ rfl (fun k => rfl) rfl rfl rfl rfl rfl (by simp) ?_ (by simp)
    intro hn e he
    rw [List.mem_singleton] at he
    subst he
    have : j ≠ i := by rintro rfl; exact hn hu
    simpa [uses] using this
  | @connect j addr port nid d L hv hL hi v hv' h1 h2 h3 h4 h5 hk =>
    have : i ≠ j := by rintro rfl; exact hL ((live_iff hv i).1 hl)
    have e := h3 i this
    refine .inr ⟨[.connect j addr port], .of_conn hl h1 (congrArg Conn.mode e) (congrArg Conn.readBuf e) (congrArg Conn.addr e)
      (congrArg Conn.port e) rfl (by simp) ?_ (by simp)⟩
    intro _ x hx
    rw [List.mem_singleton] at hx; subst hx; rfl
  | @noConnect L hv v hv' h1 h2 h3 h4 => exact silent _ h1 (h4 i ((live_iff hv i).1 hl)) rfl
  | @complete j hi hm =>
    by_cases e : i = j
    · subst e
      have hn : ¬ Up c i := by intro h; have := h.2; rw [hm] at this; cases this
      have hx : ∀ (d : SubCtx), d.cv.size = c.cv.size → d.cv.conns i = { c.cv.conns i with mode := .connected, action := .R } →
          d.log = c.log ++ [.complete i] → Kept tm i c d [.complete i] := by
        intro d k1 k2 k3
        refine ⟨⟨by rw [k1]; exact hl.1, by rw [k2]; simp⟩, by rw [k2], by rw [k2], by rw [k2], k1, k3, ?_, by simp⟩
        exact .done hn ⟨by rw [k1]; exact hl.1, by rw [k2]⟩ [] [] rfl (by simp) (by simp)
      refine .inr ⟨_, hx _ rfl ?_ rfl⟩
      show (if i = i then _ else _) = _
      rw [if_pos rfl]
    · refine .inr ⟨[.complete j], .of_conn hl rfl ?_ ?_ ?_ ?_ rfl ?_ ?_ (by simp)⟩
      · show Conn.mode (if i = j then _ else _) = _; rw [if_neg e]
      · show Conn.readBuf (if i = j then _ else _) = _; rw [if_neg e]
      · show Conn.addr (if i = j then _ else _) = _; rw [if_neg e]
      · show Conn.port (if i = j then _ else _) = _; rw [if_neg e]
      · simp [e]
      · intro _ x hx
        rw [List.mem_singleton] at hx; subst hx
        simp only [uses, beq_eq_false_iff_ne]; exact fun x => e x.symm
  | @noComplete j hi hm L hv v hv' h1 h2 h3 h4 xs hx hes hk =>
    by_cases e : i = j
    · subst e
      refine .inl ⟨?_, hk⟩
      intro hl'
      have : (v.conns i).mode ≠ .closed := hl'.2
      rw [h4] at this; exact this rfl
    · have hc3 := h3 i e
      refine .inr ⟨xs, .of_conn hl h1 (congrArg Conn.mode hc3) (congrArg Conn.readBuf hc3) (congrArg Conn.addr hc3)
        (congrArg Conn.port hc3) rfl ?_ ?_ (by rcases hx with rfl | rfl <;> simp)⟩
      · rcases hx with rfl | rfl <;> simp [e]
      · intro _ x hx'
        rcases hx with rfl | rfl
        · cases hx'
        · rw [List.mem_singleton] at hx'; subst hx'
          simp only [uses, beq_eq_false_iff_ne]; exact fun x => e x.symm
  | @close j s hi hs hk =>
    obtain ⟨L, hL⟩ := hc.v
    have hlog : (closedAt c j s).log = c.log ++ (.closed j :: (reset s).2.map fun p => SEv.free p.payload.ptr p.payload.data.length (.u32 p.slot)) := by
      show _ ++ _ ++ _ = _; rw [List.append_assoc]; rfl
    have hq : ∀ e ∈ (.closed j :: (reset s).2.map fun p => SEv.free p.payload.ptr p.payload.data.length (.u32 p.slot)), uses i e = false := by
      intro e he
      rcases List.mem_cons.1 he with rfl | he
      · rfl
      · obtain ⟨q, _, rfl⟩ := List.mem_map.1 he; rfl
    have hq2 : SEv.complete i ∉ (.closed j :: (reset s).2.map fun p => SEv.free p.payload.ptr p.payload.data.length (.u32 p.slot)) := by
      intro h; have := hq _ h; simp [uses] at this
    by_cases hjL : j ∈ L
    · obtain ⟨q1, q2, q3, q4, q5, q6, q7⟩ := (close_spec hL j).1 hjL
      by_cases e : i = j
      · subst e
        refine .inl ⟨?_, hk⟩
        intro hl'
        have : ((ConnVec.close c.cv i).2.conns i).mode ≠ .closed := hl'.2
        rw [q6] at this; exact this rfl
      · have e5 := q5 i e
        exact .inr ⟨_, .of_conn hl q3 (congrArg Conn.mode e5) (congrArg Conn.readBuf e5) (congrArg Conn.addr e5)
          (congrArg Conn.port e5) hlog hq2 (fun _ => hq) (el hq)⟩
    · have e := ((close_spec hL j).2 hjL).2
      have e' : (closedAt c j s).cv = c.cv := e
      exact .inr ⟨_, .of_conn hl (by rw [e']) (by rw [e']) (by rw [e']) (by rw [e']) (by rw [e']) hlog hq2 (fun _ => hq) (el hq)⟩

/-- A sequence of small steps after which slot `i` is occupied, as before: it was occupied all the time. -/
theorem Steps.slot {tm : Nat} {c c' : SubCtx} (m : Steps tm c c') (hc : Core c) {i : Nat} (hl : Live c i) (ht : tm ≠ 3 + i)
    (hl' : Live c' i) : ∃ es, Kept tm i c c' es := by
  have key := (Steps.both (P := Core) (Q := fun d => (¬ Live d i ∧ tm ≠ 2) ∨ ∃ es, Kept tm i c d es) (fun _ _ m h => h.micro m)
    (fun a b m h1 h2 => by
      rcases h2 with ⟨h2, h3⟩ | ⟨es, h2⟩
      · refine .inl ⟨?_, h3⟩
        intro hb
        exact h2 (m.keys h1 h3 _ _ i ⟨hb, rfl, rfl⟩).1
      · rcases m.slot h1 h2.live ht with h3 | ⟨fs, h3⟩
        · exact .inl h3
        · exact .inr ⟨_, h2.trans h3⟩) m hc (.inr ⟨[], .refl hl⟩)).2
  rcases key with ⟨h, _⟩ | h
  · exact absurd hl' h
  · exact h

theorem kind_ne {op : Op} {i : Nat} (h : ∀ rv ts, op ≠ .read i rv ts) : op.kind ≠ 3 + i := by
  cases op with
  | read j rv ts =>
    intro e
    have : 3 + j = 3 + i := e
    have : j = i := by omega
    subst this
    exact h _ _ rfl
  | readMcast rs => show 2 ≠ _; omega
  | timeout now => show 1 ≠ _; omega
  | _ => show 0 ≠ _; omega

/-- A call other than a read on connection `i` or deactivation, after which slot `i` is occupied, as before. -/
theorem step_slot {c c' : SubCtx} {op : Op} {r i : Nat} (hi : Inv c) (hs : step c op = .ok (r, c')) (h1 : ∀ rv ts, op ≠ .read i rv ts)
    (h2 : op ≠ .deactivate) (hl : Live c i) (hl' : Live c' i) : ∃ es, Kept op.kind i c c' es :=
  (step_steps hi.core hi.mem h2 hs).slot hi.core hl (kind_ne h1) hl'

/-- Reading datagrams closes no connection. -/
theorem Steps.slot2 {c c' : SubCtx} (m : Steps 2 c c') (hc : Core c) {i : Nat} (hl : Live c i) : ∃ es, Kept 2 i c c' es := by
  have key := (Steps.both (P := Core) (Q := fun d => ∃ es, Kept 2 i c d es) (fun _ _ m h => h.micro m)
    (fun a b m h1 h2 => by
      obtain ⟨es, h2⟩ := h2
      rcases m.slot h1 h2.live (by omega) with ⟨_, h3⟩ | ⟨fs, h3⟩
      · exact absurd rfl h3
      · exact ⟨_, h2.trans h3⟩) m hc ⟨[], .refl hl⟩).2
  exact key

/-- The packet `p` is in the datagram `bs` received from address `src`, and comes from the publisher listening at address
`a` and port `q`. -/
def InDatagram (a q : Nat) (p : SPkt) (src : Nat) (bs : List UInt8) : Prop :=
  ∃ (hd : PacketHeader) (data rest : List UInt8), hd.Valid ∧ bs = hd.enc ++ data ++ rest ∧ data.length = hd.payloadLen ∧
    hd.pid ≠ 0 ∧ a = (if hd.listenIp = 0 then src else hd.listenIp) ∧ q = hd.listenPort ∧ p.pid = hd.pid ∧ p.payload.data = data

theorem mcastLoop_arrives {i : Nat} : ∀ (rs : List RecvRes) {c c' : SubCtx} {r : Nat}, Core c → Live c i →
    mcastLoop c rs = .ok (r, c') → ∃ as, arrives c'.log = arrives c.log ++ as ∧ ∀ p m ts, (i, p, m, ts) ∈ as →
      ∃ src bs ts ann sk cr, RecvRes.dgram src bs ts ann sk cr ∈ rs ∧
        InDatagram (c.cv.conns i).addr (c.cv.conns i).port p src (bs.take RMC_MAX_PACKET) := by
  intro rs
  induction rs with
  | nil => intro c c' r hc hl h; cases h; exact ⟨[], by simp, by simp⟩
  | cons x rs ih =>
    intro c c' r hc hl h
    cases x with
    | err e => cases h; exact ⟨[], by simp, by simp⟩
    | dgram src bs ts ann sk cr =>
      unfold mcastLoop at h
      split at h
      · cases h; exact ⟨[], by simp, by simp⟩
      · obtain ⟨⟨r1, c1⟩, h1, h2⟩ := bind_ok h
        have hst := mcastPacket_steps hc h1
        obtain ⟨es, hk⟩ := hst.slot2 hc hl
        obtain ⟨as1, e1, g1⟩ : ∃ as, arrives c1.log = arrives c.log ++ as ∧ ∀ p m ts, (i, p, m, ts) ∈ as →
            InDatagram (c.cv.conns i).addr (c.cv.conns i).port p src (bs.take RMC_MAX_PACKET) := by
          rcases mcast_arrives hc h1 with e | ⟨hd, data, rest, j, k1, k2, k3, k4, k5, k6, k7, a, k8⟩
          · exact ⟨[], by simpa using e, by simp⟩
          · refine ⟨_, k8, ?_⟩
            intro p m ts' hp
            simp only [List.mem_singleton, Prod.mk.injEq] at hp
            obtain ⟨rfl, rfl, _⟩ := hp
            exact ⟨hd, data, rest, k1, k2, k3, k4, k6, k7, rfl, rfl⟩
        dsimp only at h2
        split at h2
        · cases h2
          exact ⟨as1, e1, fun p m ts' hp => ⟨_, _, _, _, _, _, List.mem_cons_self, g1 p m ts' hp⟩⟩
        · obtain ⟨as2, e2, g2⟩ := ih (hc.steps hst) hk.live h2
          refine ⟨as1 ++ as2, by rw [e2, e1, List.append_assoc], ?_⟩
          intro p m ts' hp
          rcases List.mem_append.1 hp with hp | hp
          · exact ⟨_, _, _, _, _, _, List.mem_cons_self, g1 p m ts' hp⟩
          · obtain ⟨s, b, t, a, k, q, hm, hd⟩ := g2 p m ts' hp
            rw [hk.addr, hk.port] at hd
            exact ⟨s, b, t, a, k, q, List.mem_cons_of_mem _ hm, hd⟩

theorem mem_arrives {i : Nat} {p : SPkt} {m : Bool} {ts : Int} {l : List SEv} :
    (i, p, m, ts) ∈ arrives l ↔ SEv.arrive i p m ts ∈ l := by
  unfold arrives
  rw [List.mem_filterMap]
  constructor
  · rintro ⟨e, he, h⟩
    cases e <;> simp only [reduceCtorEq, Option.some.injEq, Prod.mk.injEq] at h
    obtain ⟨rfl, rfl, rfl, rfl⟩ := h
    exact he
  · intro h; exact ⟨_, h, rfl⟩

/-- A call other than a read on connection `i` or deactivation, after which slot `i` is occupied, as before; and the
packets that arrived for it are in the datagrams read. -/
theorem step_link {c c' : SubCtx} {op : Op} {r i : Nat} (hi : Inv c) (hs : step c op = .ok (r, c')) (h1 : ∀ rv ts, op ≠ .read i rv ts)
    (h2 : op ≠ .deactivate) (hl : Live c i) (hl' : Live c' i) :
    ∃ es, Kept op.kind i c c' es ∧ ∀ p m ts, SEv.arrive i p m ts ∈ es → m = true ∧ ∃ rs src bs ts ann sk cr, op = .readMcast rs ∧
      RecvRes.dgram src bs ts ann sk cr ∈ rs ∧
      InDatagram (c.cv.conns i).addr (c.cv.conns i).port p src (bs.take RMC_MAX_PACKET) := by
  obtain ⟨es, hk⟩ := step_slot hi hs h1 h2 hl hl'
  refine ⟨es, hk, ?_⟩
  intro p m ts hp
  obtain ⟨h2, hm⟩ := hk.arr p m ts hp
  refine ⟨hm, ?_⟩
  obtain ⟨rs, rfl⟩ : ∃ rs, op = .readMcast rs := by
    cases op with
    | readMcast rs => exact ⟨rs, rfl⟩
    | read j rv ts => have : 3 + j = 2 := h2; omega
    | timeout now => cases h2
    | _ => cases h2
  have hs' : readMcast c rs = .ok (r, c') := hs
  unfold readMcast at hs'
  split at hs'
  · cases hs'
    have hl0 := hk.log
    have : es = [] := by
      have := congrArg List.length hl0
      rw [List.length_append] at this
      exact List.length_eq_zero_iff.1 (by omega)
    subst this; cases hp
  · obtain ⟨⟨r1, c1⟩, g1, g2⟩ := bind_ok hs'
    have e2 : c'.log = c1.log := by
      have := congrArg Prod.snd (Except.ok.inj g2)
      dsimp only at this
      rw [← this]; rfl
    obtain ⟨as, e1, ga⟩ := mcastLoop_arrives rs hi.core hl g1
    rw [← e2, hk.log, arrives_append] at e1
    have e3 := List.append_cancel_left e1
    rw [← mem_arrives, e3] at hp
    obtain ⟨src, bs, ts', ann, sk, cr, k1, k2⟩ := ga p m ts hp
    exact ⟨rs, src, bs, ts', ann, sk, cr, rfl, k1, k2⟩

/-! ## The session of the slot -/

theorem since_append_of {i : Nat} {log es : List SEv} (h : SEv.complete i ∉ es) : since i (log ++ es) = since i log ++ es := by
  unfold since
  rw [List.reverse_append, List.takeWhile_append_of_pos (by
    intro e he
    simp only [decide_eq_true_eq]
    rintro rfl
    exact h (List.mem_reverse.1 he)), List.reverse_append, List.reverse_reverse]

theorem since_complete {i : Nat} {log e1 e2 : List SEv} (h : SEv.complete i ∉ e2) :
    since i (log ++ (e1 ++ .complete i :: e2)) = e2 := by
  rw [show log ++ (e1 ++ .complete i :: e2) = (log ++ e1 ++ [.complete i]) ++ e2 by simp, since_append_of h]
  have : since i (log ++ e1 ++ [.complete i]) = [] := by
    unfold since
    rw [List.reverse_append]
    simp
  rw [this, List.nil_append]

/-- Bytes that left on connection `i`. -/
def outs (i : Nat) (es : List SEv) : List UInt8 :=
  (es.filterMap fun e => match e with
    | .tcpOut j bs => if j = i then some bs else none
    | _ => none).flatten

theorem outs_append (i : Nat) (a b : List SEv) : outs i (a ++ b) = outs i a ++ outs i b := by
  unfold outs; rw [List.filterMap_append, List.flatten_append]

theorem outs_unused {i : Nat} {es : List SEv} (h : ∀ e ∈ es, uses i e = false) : outs i es = [] := by
  unfold outs
  have : es.filterMap (fun e => match e with
    | .tcpOut j bs => if j = i then some bs else none
    | _ => none) = [] := by
    rw [List.filterMap_eq_nil_iff]
    intro e he
    have := h e he
    cases e with
    | tcpOut j bs =>
      have hj : j ≠ i := by simpa [uses] using this
      simp [hj]
    | _ => rfl
  rw [this]; rfl

theorem bytesOut_up {i : Nat} {log es : List SEv} (h : SEv.complete i ∉ es) :
    bytesOutAt i (log ++ es) = bytesOutAt i log ++ outs i es := by
  unfold bytesOutAt outs
  rw [since_append_of h, List.filterMap_append, List.flatten_append]
  rfl

theorem bytesOut_done {i : Nat} {log e1 e2 : List SEv} (h1 : ∀ e ∈ e1, uses i e = false) (h : SEv.complete i ∉ e2) :
    bytesOutAt i (log ++ (e1 ++ .complete i :: e2)) = outs i (e1 ++ .complete i :: e2) := by
  rw [outs_append, outs_unused h1, List.nil_append]
  unfold bytesOutAt
  rw [since_complete h]
  rfl

theorem messages_up {i : Nat} {log es : List SEv} (h : SEv.complete i ∉ es) : ∃ ms,
    messagesAt i (log ++ es) = messagesAt i log ++ ms := by
  unfold messagesAt
  rw [since_append_of h, List.filterMap_append]
  exact ⟨_, rfl⟩

theorem arrivedAt_up {i : Nat} {log es : List SEv} (h : SEv.complete i ∉ es) : ∃ as,
    arrivedAt i (log ++ es) = arrivedAt i log ++ as ∧ ∀ a, a ∈ as ↔ SEv.arrive i a.1 a.2.1 a.2.2 ∈ es := by
  unfold arrivedAt
  rw [since_append_of h, List.filterMap_append]
  refine ⟨_, rfl, ?_⟩
  rintro ⟨p, m, ts⟩
  rw [List.mem_filterMap]
  constructor
  · rintro ⟨e, he, hx⟩
    cases e with
    | arrive j p' m' ts' =>
      dsimp only at hx
      split at hx
      · rename_i hj
        cases hx; rw [← hj]; exact he
      · cases hx
    | _ => cases hx
  · intro h; exact ⟨_, h, by simp⟩

theorem arrivedAt_done {i : Nat} {log e1 e2 : List SEv} (h : SEv.complete i ∉ e2) :
    ∀ a, a ∈ arrivedAt i (log ++ (e1 ++ .complete i :: e2)) ↔ SEv.arrive i a.1 a.2.1 a.2.2 ∈ e2 := by
  have hs := since_complete (log := log) (e1 := e1) h
  obtain ⟨as, ha, hb⟩ := arrivedAt_up (i := i) (log := []) h
  intro a
  rw [← hb a]
  unfold arrivedAt at ha ⊢
  rw [since_append_of h] at ha
  rw [hs]
  have : since i ([] : List SEv) = [] := rfl
  rw [this, List.nil_append, List.filterMap_nil, List.nil_append] at ha
  rw [ha]

end SubCtx
end Rmc
