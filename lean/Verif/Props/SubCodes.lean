import Verif.Props.Codes
import Verif.Props.SubCtxCalls
import Verif.SysLemmas
import Verif.Props.SubCtxMem

/-!
# C62 for the subscriber: the return codes of all calls
-/

set_option linter.unusedVariables false
set_option linter.unusedSimpArgs false

namespace Rmc
namespace SubCtx
open CircBuf ConnVec

/-- Specification: a datagram that is too short for its header or for the payload its header announces. -/
def malformed (bs : List UInt8) : Bool :=
  decide (bs.length < 20) || decide (bs.length < 20 + (PacketHeader.dec (bs.take 20)).payloadLen)

/-- Specification: the result of reading the multicast socket. It is read until there is nothing to read (0), an error, or a
malformed datagram (EPROTO). -/
def mcastCode : List RecvRes → Nat
  | [] => 0
  | .err e :: _ => if e = EAGAIN then 0 else e
  | .dgram _ bs _ _ _ _ :: rs =>
    if bs = [] then 0 else if malformed (bs.take RMC_MAX_PACKET) then EPROTO else mcastCode rs

/-- Specification: the result of `getsockopt(SO_ERROR)` and `setsockopt(TCP_NODELAY)` together, when a connection is completed. -/
def completeCode (so : Except Nat Nat) (nd : Option Nat) : Nat :=
  match so with
  | .error e => e
  | .ok 0 => nd.getD 0
  | .ok e => e

/-- Specification: what each call returns in state `c`, and when it changes nothing. `c'` is the state after it. -/
def Code (c : SubCtx) (op : Op) (r : Nat) (c' : SubCtx) : Prop :=
  match op with
  | .readMcast rs => if c.mcast = none then r = ENOTCONN ∧ c' = c else r = mcastCode rs
  | .read i rv _ =>                      -- not connected; buffer full; end of stream or error; no command; bytes
    (¬ Up c i ∧ r = ENOTCONN ∧ c' = c) ∨
    (Up c i ∧
      if available (c.cv.conns i).readBuf = 0 then r = ENOMEM ∧ Up c' i
      else if rv.getD [] = [] then r = 0 ∧ ¬ Live c' i
      else (r = EPROTO ∧ ¬ Live c' i) ∨ ((r = 0 ∨ r = EAGAIN) ∧ Up c' i))
  | .write i so nd wv =>                 -- no connection; set up or not; nothing to write; writev() fails; written
    (¬ Live c i ∧ r = ENOTCONN ∧ c' = c) ∨
    (Live c i ∧ ¬ Up c i ∧ r = completeCode so nd ∧ (Up c' i ↔ r = 0) ∧ (Live c' i ↔ r = 0)) ∨
    (Up c i ∧ if bytes (c.cv.conns i).writeBuf = [] then r = ENODATA ∧ c' = c
      else Up c' i ∧ r = match wv with | .error e => e | .ok _ => 0)
  | .timeout _ => r = 0 ∨ (r = ENOMEM ∧ ∃ i, Up c' i ∧ available (c'.cv.conns i).writeBuf < 17)
  | .dispatched a => if ∃ p ∈ c.ready, p.addr = a then r = 0 else r = ENOENT ∧ c' = c
  | .keep a => if ∃ p ∈ c.ready, p.addr = a then r = 0 else r = ENOENT ∧ c' = c
  | .close i => r = 0 ∧ ¬ Live c' i
  | .ctlAddr _ _ bs _ => if bs = [] then r = EINVAL ∧ c' = c else r = 0 ∨ (r = ENOTCONN ∧ c' = c) ∨ (r = ENOMEM ∧ c' = c)
  | .ctlNode _ bs _ => if bs = [] then r = EINVAL ∧ c' = c else r = 0 ∨ (r = ENOTCONN ∧ c' = c) ∨ (r = ENOMEM ∧ c' = c)
  | .setReadyCb _ => r = 0
  | .activate x =>
    if c.mcast ≠ none then r = EEXIST ∧ c' = c
    else match x with
      | .ok d => r = 0 ∧ c'.mcast = some d
      | .bindFailed _ e => r = e
      | .failed e => r = e ∧ c' = c
      | .setupFailed _ e => r = e ∧ c'.mcast = none
  | .deactivate => r = 0 ∧ c'.mcast = none ∧ ∀ i, ¬ Live c' i

theorem mcastPacket_code {c c' : SubCtx} {src : Nat} {bs : List UInt8} {ts : Int} {ann : Option Bool} {sk : Except Nat Nat}
    {cr : ConnRes} {r : Nat} (h : mcastPacket c src bs ts ann sk cr = .ok (r, c')) :
    r = if malformed bs then EPROTO else 0 := by
  have hl : HDR_LEN = 20 := rfl
  unfold mcastPacket at h
  unfold malformed
  rw [hl] at h
  by_cases h1 : bs.length < 20
  · rw [if_pos h1] at h
    rw [if_pos (by simp [h1])]
    exact (congrArg Prod.fst (Except.ok.inj h)).symm
  · rw [if_neg h1] at h
    dsimp only at h
    by_cases h2 : bs.length < 20 + (PacketHeader.dec (bs.take 20)).payloadLen
    · rw [if_pos h2] at h
      rw [if_pos (by simp [h2])]
      exact (congrArg Prod.fst (Except.ok.inj h)).symm
    · rw [if_neg h2] at h
      rw [if_neg (by simp [h1, h2])]
      split at h
      · exact (congrArg Prod.fst (Except.ok.inj h)).symm
      · split at h
        · exact (congrArg Prod.fst (Except.ok.inj h)).symm
        · split at h
          · exact (congrArg Prod.fst (Except.ok.inj h)).symm
          · obtain ⟨c1, _, h⟩ := bind_ok h
            exact (congrArg Prod.fst (Except.ok.inj h)).symm

theorem mcastLoop_code : ∀ (rs : List RecvRes) {c c' : SubCtx} {r : Nat}, mcastLoop c rs = .ok (r, c') →
    (if r = EAGAIN then 0 else r) = mcastCode rs := by
  intro rs
  induction rs with
  | nil =>
    intro c c' r h
    have : EAGAIN = r := congrArg Prod.fst (Except.ok.inj h)
    rw [if_pos this.symm]; rfl
  | cons x rs ih =>
    intro c c' r h
    cases x with
    | err e =>
      have : e = r := congrArg Prod.fst (Except.ok.inj h)
      subst this; rfl
    | dgram src bs ts ann sk cr =>
      unfold mcastLoop at h
      unfold mcastCode
      by_cases hb : bs = []
      · rw [if_pos hb] at h ⊢
        have : EAGAIN = r := congrArg Prod.fst (Except.ok.inj h)
        rw [if_pos this.symm]
      · rw [if_neg hb] at h ⊢
        obtain ⟨⟨r1, c1⟩, h1, h⟩ := bind_ok h
        have hr := mcastPacket_code h1
        dsimp only at h
        by_cases hm : malformed (bs.take RMC_MAX_PACKET) = true
        · rw [if_pos hm] at hr ⊢
          subst hr
          rw [if_pos (by decide)] at h
          have : EPROTO = r := congrArg Prod.fst (Except.ok.inj h)
          subst this; rfl
        · rw [if_neg hm] at hr ⊢
          subst hr
          rw [if_neg (by simp)] at h
          exact ih h

theorem handler_code {i : Nat} {ts : Int} : ∀ c h, Proto.lookup (table i ts) c = some h → ∀ s b r s' b',
    h s b = .ok (r, s', b') → r = 0 ∨ r = EAGAIN := by
  intro c h hl s b r s' b' hx
  have hh : h = processPacket i ts := by
    unfold table Proto.lookup at hl
    repeat' (first | split at hl | unfold Proto.lookup at hl)
    all_goals first | exact (Option.some.inj hl).symm | cases hl
  subst hh
  unfold processPacket at hx
  split at hx
  · exact .inr (congrArg Prod.fst (Except.ok.inj hx)).symm
  · obtain ⟨x, _, hx⟩ := bind_ok hx
    dsimp only at hx
    split at hx
    · exact .inr (congrArg Prod.fst (Except.ok.inj hx)).symm
    · obtain ⟨y, _, hx⟩ := bind_ok hx
      obtain ⟨z, _, hx⟩ := bind_ok hx
      exact .inl (congrArg Prod.fst (Except.ok.inj hx)).symm

theorem closeConnection_code {c c' : SubCtx} {i r : Nat} (h : closeConnection c i = .ok (r, c')) : r = 0 ∧ ¬ Live c' i := by
  unfold closeConnection at h
  dsimp only at h
  split at h
  · cases h
  · rename_i hlt
    obtain ⟨s, h1, h2⟩ := bind_ok h
    have e := Except.ok.inj h2
    refine ⟨(congrArg Prod.fst e).symm, ?_⟩
    have e2 : _ = c' := congrArg Prod.snd e
    rw [← e2]
    rintro ⟨u1, u2⟩
    apply u2
    have hz : (ConnVec.close c.cv i).2.size = c.cv.size := by
      unfold ConnVec.close
      split
      · rfl
      · split
        · rfl
        · dsimp only
          split
          · unfold resetMax; split <;> rfl
          · rfl
    exact close_mode (by rw [← hz]; exact Nat.lt_of_not_le hlt)

theorem processAt_cv {c c' : SubCtx} {i : Nat} (h : processAt c i = .ok c') : c'.cv = c.cv := by
  unfold processAt at h
  obtain ⟨s, _, h⟩ := bind_ok h
  rw [← Except.ok.inj h]; rfl

theorem readConn_code {c c' : SubCtx} (hc : Core c) {i r : Nat} {rv : Option (List UInt8)} {ts : Int}
    (hs : readConn c i rv ts = .ok (r, c')) : Code c (.read i rv ts) r c' := by
  unfold Code
  dsimp only
  obtain ⟨L, hL⟩ := hc.v
  unfold readConn at hs
  by_cases hu : Up c i
  · refine .inr ⟨hu, ?_⟩
    have hi : i ∈ L := (hL.mode i hu.1).1 (by rw [hu.2]; simp)
    rw [ConnVec.findByIndex_spec hL, if_pos hi, if_neg (by simp [hu.2])] at hs
    obtain ⟨⟨r1, c1, b1⟩, h1, hs⟩ := bind_ok hs
    have hcv : c1.cv = c.cv := (readTcp_steps hu h1).2
    have hcode := Proto.tcpRead_code handler_code h1
    dsimp only at hs
    have up1 : ∀ (c2 : SubCtx), c2.cv = (setConn c1 i { c1.cv.conns i with readBuf := b1 }).cv → ∀ d, Up (pollModify c2 i d .R .R) i := by
      intro c2 e d
      have e' : (pollModify c2 i d .R .R).cv = c2.cv.poll (.modify i d .R .R) := rfl
      refine ⟨?_, ?_⟩
      · rw [e', e]; show i < c1.cv.size; rw [hcv]; exact hu.1
      · rw [e', e]
        show (if i = i then { c1.cv.conns i with readBuf := b1 } else _ : Conn).mode = _
        rw [if_pos rfl]; show (c1.cv.conns i).mode = _; rw [hcv]; exact hu.2
    rcases hcode with ⟨h2, h3, _⟩ | ⟨h2, h3, h4, _⟩ | ⟨h2, h3, h4⟩
    · rw [if_pos h2]
      rw [if_pos h3] at hs
      have e := Except.ok.inj hs
      have e2 : _ = c' := congrArg Prod.snd e
      exact ⟨(congrArg Prod.fst e).symm, by rw [← e2]; exact up1 _ rfl _⟩
    · rw [if_neg h2, if_pos h3]
      rw [if_neg (by rw [h4]; decide), if_pos h4] at hs
      obtain ⟨⟨r2, c2⟩, h5, hs⟩ := bind_ok hs
      have e := Except.ok.inj hs
      have e2 : c2 = c' := congrArg Prod.snd e
      exact ⟨(congrArg Prod.fst e).symm, by rw [← e2]; exact (closeConnection_code h5).2⟩
    · rw [if_neg h2, if_neg h3]
      rw [if_neg (by rcases h4 with h4 | h4 | h4 <;> rw [h4] <;> decide),
        if_neg (by rcases h4 with h4 | h4 | h4 <;> rw [h4] <;> decide)] at hs
      obtain ⟨c2, h5, hs⟩ := bind_ok hs
      have h6 := processAt_cv h5
      by_cases hp : r1 = EPROTO
      · rw [if_pos hp] at hs
        obtain ⟨⟨r3, c3⟩, h7, hs⟩ := bind_ok hs
        have e := Except.ok.inj hs
        have e2 : c3 = c' := congrArg Prod.snd e
        exact .inl ⟨(congrArg Prod.fst e).symm, by rw [← e2]; exact (closeConnection_code h7).2⟩
      · rw [if_neg hp] at hs
        have e := Except.ok.inj hs
        have e1 : r1 = r := congrArg Prod.fst e
        have e2 : _ = c' := congrArg Prod.snd e
        refine .inr ⟨?_, by rw [← e2]; exact up1 _ h6 _⟩
        rw [← e1]
        rcases h4 with h4 | h4 | h4
        · exact .inl h4
        · exact .inr h4
        · exact absurd h4 hp
  · refine .inl ⟨hu, ?_⟩
    have hf : findByIndex c.cv i = none ∨ (c.cv.conns i).mode ≠ .connected := by
      rw [ConnVec.findByIndex_spec hL]
      by_cases hi : i ∈ L
      · exact .inr (fun e => hu ⟨hL.lt i hi, e⟩)
      · exact .inl (if_neg hi)
    rw [if_pos hf] at hs
    have e := Except.ok.inj hs
    exact ⟨(congrArg Prod.fst e).symm, (congrArg Prod.snd e).symm⟩

theorem writeConn_code {c c' : SubCtx} (hc : Core c) {i r : Nat} {so : Except Nat Nat} {nd : Option Nat} {wv : Except Nat Nat}
    (hso : so ≠ .error 0) (hnd : nd ≠ some 0)
    (hs : writeConn c i so nd wv = .ok (r, c')) : Code c (.write i so nd wv) r c' := by
  unfold Code
  dsimp only
  obtain ⟨L, hL⟩ := hc.v
  unfold writeConn at hs
  rw [ConnVec.findByIndex_spec hL] at hs
  by_cases hi : i ∈ L
  · rw [if_pos hi, if_neg (by simp)] at hs
    have hlt := hL.lt i hi
    have hlive : Live c i := ⟨hlt, (hL.mode i hlt).2 hi⟩
    by_cases hm : (c.cv.conns i).mode = .connecting
    · refine .inr (.inl ⟨hlive, (fun hu => absurd (hm.symm.trans hu.2) (by decide)), ?_⟩)
      rw [if_pos hm] at hs
      dsimp only at hs
      have hcode : (ConnVec.complete c.cv i so nd).1 = completeCode so nd := by
        unfold ConnVec.complete completeCode
        cases so with
        | error e => rfl
        | ok e =>
          by_cases he : e = 0
          · subst he
            simp only [ne_eq, not_true_eq_false, if_false]
            cases nd <;> rfl
          · dsimp only
            rw [if_pos he]
            cases e with
            | zero => exact absurd rfl he
            | succ n => rfl
      rcases ConnVec.complete_spec hL hi so nd with ⟨h1, h2, h3, h4⟩ | ⟨h1, h2, h3, h4, h5, h6, _⟩
      · have h0 : completeCode so nd = 0 := by rw [h1, h2]; rfl
        rw [show (setPub c i SubPub.init).cv = c.cv from rfl, if_neg (by rw [hcode, h0]; simp)] at hs
        have e := Except.ok.inj hs
        have e1 : 0 = r := congrArg Prod.fst e
        have e2 : _ = c' := congrArg Prod.snd e
        have hu : Up c' i := by
          rw [← e2]
          unfold Up
          show i < (ConnVec.complete c.cv i so nd).2.size ∧ ((ConnVec.complete c.cv i so nd).2.conns i).mode = _
          rw [h3]
          refine ⟨hlt, ?_⟩
          show (if i = i then _ else _ : Conn).mode = _
          rw [if_pos rfl]
        exact ⟨by rw [h0, e1], by rw [← e1]; simp [hu], by rw [← e1]; simp; exact ⟨hu.1, by rw [hu.2]; simp⟩⟩
      · have h0 : completeCode so nd ≠ 0 := by
          unfold completeCode
          cases so with
          | error e => intro e0; exact hso (by rw [← e0])
          | ok e =>
            cases e with
            | zero =>
              cases nd with
              | none => exact absurd ⟨rfl, rfl⟩ h1
              | some x => intro e0; exact hnd (by rw [← e0]; rfl)
            | succ n => simp
        rw [show (setPub c i SubPub.init).cv = c.cv from rfl, if_pos (by rw [hcode]; exact h0)] at hs
        have e := Except.ok.inj hs
        have e1 : (ConnVec.complete c.cv i so nd).1 = r := congrArg Prod.fst e
        have e2 : _ = c' := congrArg Prod.snd e
        have hd : ¬ Live c' i := by
          rw [← e2]
          rintro ⟨u1, u2⟩
          exact u2 (close_mode (by show i < (ConnVec.complete c.cv i so nd).2.size; rw [h3]; exact hlt))
        have hr : r ≠ 0 := by rw [← e1, hcode]; exact h0
        exact ⟨by rw [← e1, hcode], by simp [hr]; intro hu; exact hd ⟨hu.1, by rw [hu.2]; simp⟩, by simp [hr, hd]⟩
    · have hu : Up c i := ⟨hlt, by
        have := hlive.2
        cases h : (c.cv.conns i).mode <;> simp_all⟩
      refine .inr (.inr ⟨hu, ?_⟩)
      rw [if_neg hm] at hs
      by_cases hb : bytes (c.cv.conns i).writeBuf = []
      · rw [if_pos hb]
        rw [if_pos (inUse_zero_iff.mpr hb)] at hs
        have e := Except.ok.inj hs
        exact ⟨(congrArg Prod.fst e).symm, (congrArg Prod.snd e).symm⟩
      · rw [if_neg hb]
        rw [if_neg (fun e => hb (inUse_zero_iff.mp e))] at hs
        obtain ⟨w1, w2⟩ := hc.wb i hlt
        obtain ⟨code, left, b', out, t1, t2, t3, t4, t5, t6, t7, _⟩ := Proto.tcpWrite_spec w1 (by rw [w2]; exact Nat.le_refl _) wv
        rw [if_neg hb] at t6
        dsimp only at hs
        rw [t1, Proto.ok_bind] at hs
        have e := Except.ok.inj hs
        have e1 : code = r := congrArg Prod.fst e
        have e2 : _ = c' := congrArg Prod.snd e
        refine ⟨?_, by rw [← e1]; exact t6⟩
        rw [← e2]
        refine ⟨hlt, ?_⟩
        show (if i = i then _ else _ : Conn).mode = _
        rw [if_pos rfl]; exact hu.2
  · refine .inl ⟨fun h => hi ((hL.mode i h.1).1 h.2), ?_⟩
    rw [if_neg hi, if_pos rfl] at hs
    have e := Except.ok.inj hs
    exact ⟨(congrArg Prod.fst e).symm, (congrArg Prod.snd e).symm⟩

theorem ackAll_code : ∀ (ivs : List Intv) {c c' : SubCtx} {i r : Nat} {s : SubPub}, Core c → i ∈ c.ackList →
    c.publishers i = some { s with intervals := ivs } → ackAll c i s ivs = .ok (r, c') →
    r = 0 ∨ (r = ENOMEM ∧ Up c' i ∧ available (c'.cv.conns i).writeBuf < 17) := by
  intro ivs
  induction ivs with
  | nil => intro c c' i r s hc hi hs h; exact .inl (congrArg Prod.fst (Except.ok.inj h)).symm
  | cons iv rest ih =>
    intro c c' i r s hc hi hs h
    have hu : Up c i := by
      by_cases hu : Up c i
      · exact hu
      · exact absurd (hc.idle i _ hs hu).2 (by simp)
    unfold ackAll at h
    have mt : Micro 1 c (ev (SubCtx.setPub c i { s with intervals := rest }) (.taken i iv)) :=
      Micro.taken (s := { s with intervals := iv :: rest }) hs rfl hi rfl
    have htk : iv ∈ (sess i (ev (SubCtx.setPub c i { s with intervals := rest }) (.taken i iv)).log).taken := by
      show iv ∈ (sess i (c.log ++ [_])).taken
      rw [sess_snoc]
      simp [Sess.step]
    obtain ⟨d, hd⟩ : ∃ d, d = ev (SubCtx.setPub c i { s with intervals := rest }) (.taken i iv) := ⟨_, rfl⟩
    dsimp only at h
    rw [← hd] at h mt htk
    have hdc : d.cv = c.cv := by rw [hd]; rfl
    have hud : Up d i := hu.congr hdc
    have hcd := hc.micro mt
    have hx := writeAck_exact hcd hud iv
    dsimp only at hx
    split at hx
    · rename_i hav
      rw [hx, Proto.ok_bind] at h
      dsimp only at h
      rw [if_pos (by decide)] at h
      have e := Except.ok.inj h
      have e1 : ENOMEM = r := congrArg Prod.fst e
      have e2 : d = c' := congrArg Prod.snd e
      exact .inr ⟨e1.symm, by rw [← e2]; exact hud, by rw [← e2]; exact hav⟩
    · rename_i hav
      split at hx
      · rw [hx] at h
        cases h
      · obtain ⟨b, hb, hw, hz, hs1, hs2, hbb⟩ := hx
        have hai : i ∈ d.ackList := by rw [hd]; exact hi
        have hdp : d.publishers i = some { s with intervals := rest } := by
          rw [hd]; show (if i = i then _ else _) = _; rw [if_pos rfl]
        have mm : Micro 1 d (armWrite (ev d (.ack i iv.first iv.last)) i b) :=
          .msg hud hw hz hbb (.inl ⟨iv, htk, rfl, rfl⟩)
        rw [hb, Proto.ok_bind] at h
        dsimp only at h
        rw [if_neg (by simp)] at h
        rcases ih (hcd.micro mm) (show i ∈ d.ackList from hai) (show d.publishers i = _ from hdp) h with e | ⟨e1, e0, e2⟩
        · exact .inl e
        · exact .inr ⟨e1, e0, e2⟩

theorem timeoutLoop_code : ∀ (l : List Nat) {c c' : SubCtx} {now : Int} {r : Nat}, Core c → c.ackList = l →
    timeoutLoop c now l = .ok (r, c') →
    r = 0 ∨ (r = ENOMEM ∧ ∃ i, Up c' i ∧ available (c'.cv.conns i).writeBuf < 17) := by
  intro l
  induction l with
  | nil => intro c c' now r hc hl h; exact .inl (congrArg Prod.fst (Except.ok.inj h)).symm
  | cons i is ih =>
    intro c c' now r hc hl h
    unfold timeoutLoop at h
    obtain ⟨s, hs, h⟩ := bind_ok h
    rw [getPub_ok] at hs
    split at h
    · exact .inl (congrArg Prod.fst (Except.ok.inj h)).symm
    · obtain ⟨⟨r1, c1⟩, h1, h⟩ := bind_ok h
      obtain ⟨g1, g2, g3⟩ := ackAll_steps s.intervals hc (by rw [hl]; simp) hs h1
      have hcode := ackAll_code s.intervals hc (by rw [hl]; simp) hs h1
      dsimp only at h
      by_cases hr : r1 ≠ 0
      · rw [if_pos hr] at h
        have e := Except.ok.inj h
        have e1 : r1 = r := congrArg Prod.fst e
        have e2 : c1 = c' := congrArg Prod.snd e
        subst e1 e2
        rcases hcode with h0 | ⟨h0, hu, hav⟩
        · exact .inl h0
        · exact .inr ⟨h0, i, hu, hav⟩
      · rw [if_neg hr] at h
        have hr : r1 = 0 := by omega
        have hm : Micro 1 c1 { c1 with ackList := is } := .dropAck (g2.trans hl) (g3 hr) rfl
        exact ih (hc.steps (g1.snoc hm)) rfl h

theorem writeCtlTo_code {c c' : SubCtx} (hc : Core c) {o : Option Nat} (ho : ∀ i, o = some i → i < c.cv.size) {bs : List UInt8}
    {ptr r : Nat} (h : writeCtlTo c o bs ptr = .ok (r, c')) :
    if bs = [] then r = EINVAL ∧ c' = c else r = 0 ∨ (r = ENOTCONN ∧ c' = c) ∨ (r = ENOMEM ∧ c' = c) := by
  unfold writeCtlTo at h
  by_cases hn : bs = []
  · rw [if_pos hn] at h ⊢
    have e := Except.ok.inj h
    exact ⟨(congrArg Prod.fst e).symm, (congrArg Prod.snd e).symm⟩
  · rw [if_neg hn] at h ⊢
    cases o with
    | none =>
      have e := Except.ok.inj h
      exact .inr (.inl ⟨(congrArg Prod.fst e).symm, (congrArg Prod.snd e).symm⟩)
    | some i =>
      dsimp only at h
      by_cases hm : (c.cv.conns i).mode ≠ .connected
      · rw [if_pos hm] at h
        have e := Except.ok.inj h
        exact .inr (.inl ⟨(congrArg Prod.fst e).symm, (congrArg Prod.snd e).symm⟩)
      · rw [if_neg hm] at h
        have hu : Up c i := ⟨ho i rfl, by simpa using hm⟩
        have hctl : CTL_LEN = 2 := rfl
        by_cases hav : available (c.cv.conns i).writeBuf < 1 + CTL_LEN + bs.length + 1
        · unfold writeCtl at h
          dsimp only at h
          rw [if_neg hn, if_neg hm, if_pos hav] at h
          have e := Except.ok.inj h
          exact .inr (.inr ⟨(congrArg Prod.fst e).symm, (congrArg Prod.snd e).symm⟩)
        · left
          have hx := writeCtl_exact (ptr := ptr) hc hu hn (by omega)
          dsimp only at hx
          split at hx
          · rw [hx] at h; cases h
          · split at hx
            · obtain ⟨b, hb, _⟩ := hx
              rw [hb] at h; exact (congrArg Prod.fst (Except.ok.inj h)).symm
            · split at hx
              · obtain ⟨_, b, _, hb, _⟩ := hx
                rw [hb] at h; exact (congrArg Prod.fst (Except.ok.inj h)).symm
              · rw [hx] at h; cases h

/-- C62 for the subscriber: after any history, every call returns what `Code` says, and a call that is refused changes nothing.
(A system call that fails sets errno.) -/
theorem C62_subscriber {ops : List Op} {c c' : SubCtx} (h : Reaches ops c) {op : Op} {r : Nat}
    (hz : ∀ i so nd wv, op = .write i so nd wv → so ≠ .error 0 ∧ nd ≠ some 0)
    (hs : step c op = .ok (r, c')) : Code c op r c' := by
  have hc := h.inv.core
  obtain ⟨L, hL⟩ := hc.v
  cases op with
  | readMcast rs =>
    have hs' : readMcast c rs = .ok (r, c') := hs
    unfold readMcast at hs'
    unfold Code
    dsimp only
    by_cases hm : c.mcast = none
    · rw [if_pos hm] at hs' ⊢
      have e := Except.ok.inj hs'
      exact ⟨(congrArg Prod.fst e).symm, (congrArg Prod.snd e).symm⟩
    · rw [if_neg hm] at hs' ⊢
      obtain ⟨⟨r1, c1⟩, h1, hs'⟩ := bind_ok hs'
      rw [← mcastLoop_code rs h1]
      exact (congrArg Prod.fst (Except.ok.inj hs')).symm
  | read i rv ts => exact readConn_code hc hs
  | write i so nd wv => exact writeConn_code hc (hz i so nd wv rfl).1 (hz i so nd wv rfl).2 hs
  | timeout now => exact timeoutLoop_code _ hc rfl hs
  | dispatched a =>
    unfold Code
    dsimp only
    by_cases hp : ∃ p ∈ c.ready, p.addr = a
    · rw [if_pos hp]
      obtain ⟨p, hp, rfl⟩ := hp
      rw [(C42_dispatched h hp).1] at hs
      exact (congrArg Prod.fst (Except.ok.inj hs)).symm
    · rw [if_neg hp]
      rw [(C42_unknown c (a := a) (fun p hm e => hp ⟨p, hm, e⟩)).1] at hs
      have e := Except.ok.inj hs
      exact ⟨(congrArg Prod.fst e).symm, (congrArg Prod.snd e).symm⟩
  | keep a =>
    unfold Code
    dsimp only
    by_cases hp : ∃ p ∈ c.ready, p.addr = a
    · rw [if_pos hp]
      obtain ⟨p, hp, rfl⟩ := hp
      rw [(C42_dispatched h hp).2.1] at hs
      exact (congrArg Prod.fst (Except.ok.inj hs)).symm
    · rw [if_neg hp]
      rw [(C42_unknown c (a := a) (fun p hm e => hp ⟨p, hm, e⟩)).2] at hs
      have e := Except.ok.inj hs
      exact ⟨(congrArg Prod.fst e).symm, (congrArg Prod.snd e).symm⟩
  | close i => exact closeConnection_code hs
  | ctlAddr a p bs ptr => exact writeCtlTo_code hc (fun i hi => hL.lt i (findByAddress_mem hL hi).1) hs
  | ctlNode n bs ptr => exact writeCtlTo_code hc (fun i hi => hL.lt i (findByNodeId_mem hL hi).1) hs
  | setReadyCb f => exact (congrArg Prod.fst (Except.ok.inj hs)).symm
  | activate x =>
    have e := Except.ok.inj (show Except.ok (activate c x) = Except.ok (r, c') from hs)
    unfold activate at e
    unfold Code
    dsimp only
    by_cases hm : c.mcast ≠ none
    · rw [if_pos hm] at e ⊢
      exact ⟨(congrArg Prod.fst e).symm, (congrArg Prod.snd e).symm⟩
    · rw [if_neg hm] at e ⊢
      have hm : c.mcast = none := by simpa using hm
      have e1 := congrArg Prod.fst e
      have e2 := congrArg Prod.snd e
      cases x with
      | ok d => exact ⟨e1.symm, by rw [← show _ = c' from e2]⟩
      | bindFailed d x => exact e1.symm
      | failed x => exact ⟨e1.symm, e2.symm⟩
      | setupFailed d x => exact ⟨e1.symm, by rw [← show _ = c' from e2]; exact hm⟩
  | deactivate =>
    obtain ⟨h1, h2⟩ := deactivate_closed hc h.inv.mem hs
    have hs' : deactivate c = .ok (r, c') := hs
    refine ⟨?_, h2, ?_⟩
    · unfold deactivate at hs'
      dsimp only at hs'
      obtain ⟨x, _, hs'⟩ := bind_ok hs'
      exact (congrArg Prod.fst (Except.ok.inj hs')).symm
    · obtain ⟨L', hL'⟩ := (h.snoc hs).inv.core.v
      rintro i ⟨u1, u2⟩
      have h3 := h1 i
      rw [findByIndex_spec hL'] at h3
      have h4 : i ∈ L' := (hL'.mode i u1).1 u2
      rw [if_pos h4] at h3; cases h3

/-- The hypotheses are met with many different codes: activation, a second activation (EEXIST), an announcement, a read before the
connection is set up (ENOTCONN), a failing and, after a new announcement, a successful completion, nothing to write (ENODATA),
a truncated datagram behind a good one (EPROTO), dispatching an unknown packet (ENOENT) and the one received, a byte that is no
command (EPROTO, which closes the connection), a read afterwards (ENOTCONN). -/
example : ∃ (ops : List Op) (c : SubCtx) (rs : List Nat), Reaches ops c ∧ run exS0 ops = .ok (rs, c) ∧
    decide (rs = [0, EEXIST, 0, ENOTCONN, 111, 0, 0, ENODATA, EPROTO, ENOENT, 0, EPROTO, ENOTCONN] ∧ ¬ Live c 0) = true :=
  let ops : List Op := [.activate (.ok 3), .activate (.ok 8), .readMcast [exDg 4 0 [] 1], .read 0 (some [1]) 0,
    .write 0 (.ok 111) none (.ok 0), .readMcast [exDg 4 0 [] 1], .write 0 (.ok 0) none (.ok 0), .write 0 (.ok 0) none (.ok 0),
    .readMcast [exDg 4 1 [50] 1000, .dgram 77 [1, 2, 3] 5 none (.ok 1) .inProgress, exDg 4 2 [50] 1000],
    .dispatched 77, .dispatched 1, .read 0 (some [99]) 0, .read 0 (some [1]) 0]
  ⟨ops, reaches_of (P := fun rs c => decide _) (by decide +kernel)⟩

end SubCtx
end Rmc
