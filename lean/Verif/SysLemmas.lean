import Verif.PubLink
import Verif.SubLink
import Verif.FrameStream
import Verif.BadRead

/-! # One connection between a publisher and a subscriber: what each side reads -/

set_option linter.unusedSimpArgs false
set_option linter.unusedVariables false

namespace Rmc
namespace SubCtx
open SubPub CircBuf ConnVec Proto

/-- Events that happen when a packet arrives. -/
def quietEv : SEv → Bool
  | .arrive _ _ _ _ => true
  | .ready _ => true
  | .alloc _ => true
  | .free _ _ _ => true
  | .keep _ => true
  | .readyCb => true
  | _ => false

theorem userOps_qev : ∀ (us : List UOp) (c : SubCtx), ∃ es, (us.foldl userOp c).log = c.log ++ es ∧ ∀ e ∈ es, quietEv e = true := by
  intro us
  induction us with
  | nil => intro c; exact ⟨[], by simp, by simp⟩
  | cons u us ih =>
    intro c
    rw [List.foldl_cons]
    obtain ⟨es, h1, h2⟩ := ih (userOp c u)
    have : ∃ fs, (userOp c u).log = c.log ++ fs ∧ ∀ e ∈ fs, quietEv e = true := by
      cases u with
      | dispatched a =>
        unfold userOp dispatched
        dsimp only
        split
        · exact ⟨[], by simp, by simp⟩
        · exact ⟨[_], rfl, by simp [quietEv]⟩
      | keep a =>
        unfold userOp dispatchedKeep
        dsimp only
        split
        · exact ⟨[], by simp, by simp⟩
        · exact ⟨[_], rfl, by simp [quietEv]⟩
    obtain ⟨fs, g1, g2⟩ := this
    refine ⟨fs ++ es, by rw [h1, g1, List.append_assoc], ?_⟩
    intro e he
    rcases List.mem_append.1 he with he | he
    · exact g2 e he
    · exact h2 e he

theorem readyCb_qev (c : SubCtx) : ∃ es, (runReadyCb c).log = c.log ++ es ∧ ∀ e ∈ es, quietEv e = true := by
  unfold runReadyCb
  split
  · exact ⟨[], by simp, by simp⟩
  · rename_i f _
    obtain ⟨es, h1, h2⟩ := userOps_qev (f c.cbCount c.ready) (ev { c with cbCount := c.cbCount + 1 } .readyCb)
    refine ⟨.readyCb :: es, by rw [h1]; show (c.log ++ [_]) ++ es = _; simp, ?_⟩
    intro e he
    rcases List.mem_cons.1 he with rfl | he
    · rfl
    · exact h2 e he

theorem deliver_qev {c c' : SubCtx} {i pid : Nat} {data : List UInt8} {m : Bool} {ts : Int}
    (h : deliver c i pid data m ts = .ok c') : ∃ es, c'.log = c.log ++ es ∧ ∀ e ∈ es, quietEv e = true := by
  unfold deliver at h
  obtain ⟨s, hs, h⟩ := bind_ok h
  dsimp only at h
  split at h
  · cases h; exact ⟨[_], rfl, by simp [quietEv]⟩
  · have fin2 : ∀ (c2 : SubCtx) (r : SubPub × List SPkt), c2.log = c.log ++ [.arrive i ⟨c.nextAddr, pid, ⟨c.nextAddr, data, false⟩, i⟩ m ts] ++
        [.alloc ⟨c.nextAddr, pid, ⟨c.nextAddr, data, false⟩, i⟩] → ∀ c3,
        (if r.2 = [] then { SubCtx.setPub c2 i r.1 with ready := (SubCtx.setPub c2 i r.1).ready ++ r.2, log := (SubCtx.setPub c2 i r.1).log ++ r.2.map .ready }
          else runReadyCb { SubCtx.setPub c2 i r.1 with ready := (SubCtx.setPub c2 i r.1).ready ++ r.2, log := (SubCtx.setPub c2 i r.1).log ++ r.2.map .ready }) = c3 →
        ∃ es, c3.log = c.log ++ es ∧ ∀ e ∈ es, quietEv e = true := by
      intro c2 r e c3 e3
      have base : ∃ es, c2.log ++ r.2.map SEv.ready = c.log ++ es ∧ ∀ e ∈ es, quietEv e = true := by
        refine ⟨[.arrive i ⟨c.nextAddr, pid, ⟨c.nextAddr, data, false⟩, i⟩ m ts] ++
          [.alloc ⟨c.nextAddr, pid, ⟨c.nextAddr, data, false⟩, i⟩] ++ r.2.map SEv.ready, by rw [e]; simp, ?_⟩
        intro x hx
        rw [List.mem_append, List.mem_append, List.mem_singleton, List.mem_singleton, List.mem_map] at hx
        rcases hx with (rfl | rfl) | ⟨q, _, rfl⟩ <;> rfl
      subst e3
      obtain ⟨es, b1, b2⟩ := base
      split
      · exact ⟨es, b1, b2⟩
      · obtain ⟨fs, g1, g2⟩ := readyCb_qev { SubCtx.setPub c2 i r.1 with ready := (SubCtx.setPub c2 i r.1).ready ++ r.2, log := (SubCtx.setPub c2 i r.1).log ++ r.2.map .ready }
        refine ⟨es ++ fs, ?_, ?_⟩
        · rw [g1]
          show (c2.log ++ r.2.map SEv.ready) ++ fs = _
          rw [b1, List.append_assoc]
        · intro x hx
          rcases List.mem_append.1 hx with hx | hx
          · exact b2 x hx
          · exact g2 x hx
    cases m with
    | true =>
      rw [if_pos rfl] at h
      obtain ⟨c2, h2, h⟩ := bind_ok h
      exact fin2 c2 _ (noteAck_log h2) _ (Except.ok.inj h)
    | false =>
      rw [if_neg (by simp), ok_bind] at h
      exact fin2 _ _ rfl _ (Except.ok.inj h)

theorem effects_qev {i : Nat} {ts : Int} : ∀ (cs : List (List UInt8)) {c d : SubCtx}, effects (subLang i ts) c cs = .ok d →
    ∃ es, d.log = c.log ++ es ∧ ∀ e ∈ es, quietEv e = true := by
  intro cs
  induction cs with
  | nil => intro c d h; cases h; exact ⟨[], by simp, by simp⟩
  | cons x cs ih =>
    intro c d h
    rw [effects_cons] at h
    obtain ⟨c1, h1, h2⟩ := bind_ok h
    have : ∃ es, c1.log = c.log ++ es ∧ ∀ e ∈ es, quietEv e = true := by
      cases x with
      | nil => cases h1; exact ⟨[], by simp, by simp⟩
      | cons y ys => exact deliver_qev h1
    obtain ⟨es, e1, e2⟩ := this
    obtain ⟨fs, f1, f2⟩ := ih h2
    refine ⟨es ++ fs, by rw [f1, e1, List.append_assoc], ?_⟩
    intro e he
    rcases List.mem_append.1 he with he | he
    · exact e2 e he
    · exact f2 e he

theorem came_append (a b : List SEv) : came (a ++ b) = came a ++ came b := by
  unfold came; rw [arrives_append, List.map_append]

theorem mem_came {i pid : Nat} {data : List UInt8} {m : Bool} {l : List SEv} :
    (i, pid, data, m) ∈ came l ↔ ∃ p ts, SEv.arrive i p m ts ∈ l ∧ p.pid = pid ∧ p.payload.data = data := by
  unfold came
  rw [List.mem_map]
  constructor
  · rintro ⟨⟨j, p, m', ts⟩, h1, h2⟩
    simp only [Prod.mk.injEq] at h2
    obtain ⟨rfl, rfl, rfl, rfl⟩ := h2
    exact ⟨p, ts, mem_arrives.1 h1, rfl, rfl⟩
  · rintro ⟨p, ts, h1, rfl, rfl⟩
    exact ⟨(i, p, m, ts), mem_arrives.2 h1, rfl⟩

theorem table_bad (i : Nat) (ts : Int) : ∀ x f, lookup (table i ts) x = some f → KeepsBad f := by
  intro x f hl
  by_cases h1 : x = CMD_PACKET
  · have : lookup (table i ts) x = some (processPacket i ts) := by rw [h1]; rfl
    rw [hl] at this
    cases this
    intro s b r s' b' hb h
    have hi := hb.inUse
    unfold processPacket at h
    rw [if_neg (by unfold HDR_LEN; simp only [U32] at hi; omega)] at h
    obtain ⟨y, h2, h3⟩ := bind_ok h
    dsimp only at h3
    have hp := (PacketHeader.valid_dec y.2).payloadLen
    rw [if_neg (by unfold HDR_LEN; simp only [U32] at hi; omega)] at h3
    obtain ⟨z, h4, h5⟩ := bind_ok h3
    obtain ⟨c1, h6, h7⟩ := bind_ok h5
    cases h7
    exact ⟨rfl, (hb.free (by decide)).free (by omega)⟩
  · have : lookup (table i ts) x = none := by
      show (if x = CMD_PACKET then _ else none) = none
      rw [if_neg h1]
    rw [hl] at this; cases this

theorem close_mode {v : ConnVec} {i : Nat} (h : i < v.size) : ((close v i).2.conns i).mode = .closed := by
  unfold close
  rw [if_neg (by omega)]
  split
  · assumption
  · dsimp only
    have hs : ((set (poll v (.remove i (v.conns i).desc)) i
        (resetConn (poll v (.remove i (v.conns i).desc)).bufSize ((poll v (.remove i (v.conns i).desc)).conns i) i)).conns i).mode = .closed := by
      show (if i = i then _ else _ : Conn).mode = _
      rw [if_pos rfl]; rfl
    split
    · unfold resetMax
      split <;> exact hs
    · exact hs

theorem closeConnection_down {c c' : SubCtx} {i r : Nat} (h : closeConnection c i = .ok (r, c')) : ¬ Up c' i := by
  unfold closeConnection at h
  dsimp only at h
  split at h
  · cases h
  · rename_i hlt
    obtain ⟨s, h1, h2⟩ := bind_ok h
    have e : _ = c' := congrArg Prod.snd (Except.ok.inj h2)
    rintro ⟨u1, u2⟩
    have hsz : i < c.cv.size := by
      have hh : ¬ i ≥ (close c.cv i).2.size := hlt
      have : (close c.cv i).2.size = c.cv.size := by
        unfold close
        split
        · rfl
        · split
          · rfl
          · dsimp only
            split
            · unfold resetMax; split <;> rfl
            · rfl
      omega
    have hm := close_mode hsz
    rw [← e] at u2
    have u2' : ((close c.cv i).2.conns i).mode = .connected := u2
    rw [hm] at u2'; cases u2'

/-- A read that runs into the defect of circ_buf_trim closes the connection (if it returns at all). -/
theorem read_safe {c c' : SubCtx} {r i : Nat} {ts : Int} (hu : Up c i) (hw : WF (c.cv.conns i).readBuf)
    (hsz : (c.cv.conns i).readBuf.size ≤ 65536) {xs : List UInt8} (hx : xs ≠ []) (hlen : xs.length ≤ available (c.cv.conns i).readBuf)
    (hs : readConn c i (some xs) ts = .ok (r, c')) (hu' : Up c' i) : ReadSafe (c.cv.conns i).readBuf xs.length := by
  apply Classical.byContradiction
  intro hc
  unfold readConn at hs
  have hf : ¬ (findByIndex c.cv i = none ∨ (c.cv.conns i).mode ≠ .connected) := by
    rintro (h | h)
    · unfold findByIndex at h
      rw [if_neg (by have := hu.1; omega), if_neg (by rw [hu.2]; simp)] at h
      cases h
    · exact h hu.2
  rw [if_neg hf] at hs
  obtain ⟨⟨r1, s1, b1⟩, h1, h2⟩ := bind_ok hs
  have := tcpRead_bad (table_bad i ts) hw hsz hx hlen hc h1
  subst this
  dsimp only at h2
  rw [if_neg (by decide), if_neg (by decide)] at h2
  obtain ⟨c2, h3, h4⟩ := bind_ok h2
  rw [if_pos rfl] at h4
  obtain ⟨⟨r3, c3⟩, h5, h6⟩ := bind_ok h4
  have e : c3 = c' := congrArg Prod.snd (Except.ok.inj h6)
  subst e
  exact closeConnection_down h5 hu'

/-- Reading from connection `i` part of a stream of complete frames. -/
theorem read_link {c c' : SubCtx} {r i : Nat} (hi : Inv c) (hu : Up c i) (hw : WF (c.cv.conns i).readBuf)
    (hsz : (c.cv.conns i).readBuf.size = RMC_MAX_PACKET) {xs : List UInt8} {ts : Int}
    (hx : xs ≠ []) (hlen : xs.length ≤ available (c.cv.conns i).readBuf) (hu' : Up c' i)
    {fs : List (PacketHeader × List UInt8)} (hf : WellFormed fs) {ys : List UInt8}
    (he : bytes (c.cv.conns i).readBuf ++ xs ++ ys = (fs.map fun p => frameOf p.1 p.2).flatten)
    (hs : step c (.read i (some xs) ts) = .ok (r, c')) :
    ∃ f1 f2 es, fs = f1 ++ f2 ∧ Up c' i ∧ WF (c'.cv.conns i).readBuf ∧ (c'.cv.conns i).readBuf.size = RMC_MAX_PACKET ∧
      bytes (c'.cv.conns i).readBuf ++ ys = (f2.map fun p => frameOf p.1 p.2).flatten ∧
      (c'.cv.conns i).writeBuf = (c.cv.conns i).writeBuf ∧ (c'.cv.conns i).addr = (c.cv.conns i).addr ∧
      (c'.cv.conns i).port = (c.cv.conns i).port ∧
      c'.log = c.log ++ es ∧ (∀ e ∈ es, quietEv e = true) ∧
      came es = f1.map (fun p => (i, p.1.pid, p.2, false)) := by
  have hrs := read_safe hu hw (by rw [hsz]; decide) hx hlen (show readConn c i (some xs) ts = .ok (r, c') from hs) hu'
  obtain ⟨d, b', h1, h2, h3, h4, h5, h6, h7, h8, h9, _⟩ := readConn_lang hi.core hu hw (by rw [hsz]; decide) ts hx hlen hrs
  obtain ⟨ms1, ms2, e1, e2, e3, e4⟩ := Lang.prefix_split (subLang_ok i ts) (fs.map fun p => frameOf p.1 p.2)
    (bytes (c.cv.conns i).readBuf ++ xs) ys (by
      intro m hm more
      obtain ⟨p, hp, rfl⟩ := List.mem_map.1 hm
      exact frameOf_frame (hf p hp).1 (hf p hp).2 more) he
  have hr := h9 e4
  have hs' : readConn c i (some xs) ts = .ok (r, c') := hs
  rw [hr] at hs'
  have hc' : afterRead d i b' = c' := congrArg Prod.snd (Except.ok.inj hs')
  obtain ⟨es, l1, l2⟩ := effects_qev _ h1
  obtain ⟨f1, f2, q1, q2, q3⟩ := List.map_eq_append_iff.1 e1
  have hud : Up d i := hu.congr h3
  have hrb : (c'.cv.conns i).readBuf = b' := by rw [← hc']; exact afterRead_self d i b'
  have hconn : c'.cv.conns i = { c.cv.conns i with readBuf := b' } := by
    rw [← hc']
    show (if i = i then _ else _) = _
    rw [if_pos rfl, h3]
  refine ⟨f1, f2, es, q1, by rw [← hc']; exact hu.afterRead h3 b', by rw [hrb]; exact h5, by rw [hrb, h6, hsz], ?_, by rw [hconn],
    by rw [hconn], by rw [hconn], ?_, l2, ?_⟩
  · rw [hrb, h7, q3]; exact e3
  · rw [← hc']; exact l1
  · rw [l1, came_append, e2] at h4
    rw [List.append_cancel_left h4, ← q2, List.map_map]
    apply List.map_congr_left
    intro p hp
    have hp' : p ∈ fs := by rw [q1]; exact List.mem_append_left _ hp
    show (i, (pktOf _).1, (pktOf _).2, false) = _
    rw [frameOf_pkt (hf p hp').1]

theorem quietEv_outs {i : Nat} {es : List SEv} (h : ∀ e ∈ es, quietEv e = true) : outs i es = [] := by
  unfold outs
  have : es.filterMap (fun e => match e with
    | .tcpOut j bs => if j = i then some bs else none
    | _ => none) = [] := by
    rw [List.filterMap_eq_nil_iff]
    intro e he
    have := h e he
    cases e <;> first | rfl | cases this
  exact (congrArg List.flatten this).trans rfl

theorem quietEv_complete {i : Nat} {es : List SEv} (h : ∀ e ∈ es, quietEv e = true) : SEv.complete i ∉ es := by
  intro hx; have := h _ hx; cases this

theorem quietEv_messages {i : Nat} {log es : List SEv} (h : ∀ e ∈ es, quietEv e = true) : messagesAt i (log ++ es) = messagesAt i log := by
  unfold messagesAt
  rw [since_append_of (quietEv_complete h), List.filterMap_append]
  have : es.filterMap (fun e => match e with
    | .ack j f l => if j = i then some (ackFrame f l) else none
    | .ctl j bs ds => if j = i then some (ctlFrame bs.length ds) else none
    | _ => none) = [] := by
    rw [List.filterMap_eq_nil_iff]
    intro e he
    have := h e he
    cases e <;> first | rfl | cases this
  exact (congrArg _ this).trans (List.append_nil _)

end SubCtx
end Rmc
