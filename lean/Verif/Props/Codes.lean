import Verif.Props.PubCtxPoll
import Verif.Props.PubCtxMisc

/-!
# C63 and C62 for the publisher: what a multicast write sends, and the return codes of all calls
-/

set_option linter.unusedVariables false
set_option linter.unusedSimpArgs false

namespace Rmc

/-! ## Codes of a TCP read -/

namespace Proto
open CircBuf

theorem readOffset_zero {b : CircBuf} {n r : Nat} {xs : List UInt8} (h : readOffset b 0 n = .ok (r, xs)) : r = 0 := by
  unfold readOffset at h
  dsimp only at h
  rw [if_neg (by omega)] at h
  split at h
  · obtain ⟨ys, _, h⟩ := PubCtx.bind_ok h
    exact (congrArg Prod.fst (Except.ok.inj h)).symm
  · obtain ⟨ys, _, h⟩ := PubCtx.bind_ok h
    split at h
    · exact (congrArg Prod.fst (Except.ok.inj h)).symm
    · obtain ⟨zs, _, h⟩ := PubCtx.bind_ok h
      exact (congrArg Prod.fst (Except.ok.inj h)).symm

theorem processLoop_code {σ : Type} {t : Table σ}
    (ht : ∀ c h, lookup t c = some h → ∀ s b r s' b', h s b = .ok (r, s', b') → r = 0 ∨ r = EAGAIN) :
    ∀ (fuel : Nat) {s s' : σ} {b b' : CircBuf} {cmd : UInt8} {r : Nat}, processLoop t fuel s b cmd = .ok (r, s', b') →
      r = 0 ∨ r = EAGAIN ∨ r = EPROTO := by
  intro fuel
  induction fuel with
  | zero => intro s s' b b' cmd r h; cases h
  | succ n ih =>
    intro s s' b b' cmd r h
    unfold processLoop at h
    cases hl : lookup t cmd with
    | none =>
      rw [hl] at h
      exact .inr (.inr (congrArg Prod.fst (Except.ok.inj h)).symm)
    | some f =>
      rw [hl] at h
      dsimp only at h
      obtain ⟨⟨r1, s1, b1⟩, h1, h⟩ := PubCtx.bind_ok h
      dsimp only at h
      have hc := ht cmd f hl _ _ _ _ _ h1
      by_cases h0 : r1 ≠ 0
      · rw [if_pos h0] at h
        have : r1 = r := congrArg Prod.fst (Except.ok.inj h)
        subst this
        rcases hc with hc | hc
        · exact .inl hc
        · exact .inr (.inl hc)
      · rw [if_neg h0] at h
        by_cases hu : inUse b1 = 0
        · rw [if_pos hu] at h
          exact .inl (congrArg Prod.fst (Except.ok.inj h)).symm
        · rw [if_neg hu] at h
          obtain ⟨⟨r2, xs⟩, h2, h⟩ := PubCtx.bind_ok h
          dsimp only at h
          have : r2 = 0 := readOffset_zero h2
          rw [if_neg (by simp [this])] at h
          exact ih h

/-- Only these codes come from reading a connection. -/
theorem tcpRead_code {σ : Type} {t : Table σ}
    (ht : ∀ c h, lookup t c = some h → ∀ s b r s' b', h s b = .ok (r, s', b') → r = 0 ∨ r = EAGAIN)
    {fuel : Nat} {s s' : σ} {b b' : CircBuf} {rv : Option (List UInt8)} {r : Nat}
    (h : tcpRead t fuel s b rv = .ok (r, s', b')) :
    (available b = 0 ∧ r = ENOMEM ∧ s' = s ∧ b' = b) ∨
    (available b ≠ 0 ∧ rv.getD [] = [] ∧ r = EPIPE ∧ s' = s) ∨
    (available b ≠ 0 ∧ rv.getD [] ≠ [] ∧ (r = 0 ∨ r = EAGAIN ∨ r = EPROTO)) := by
  unfold tcpRead at h
  dsimp only at h
  by_cases ha : available b = 0
  · rw [if_pos ha] at h
    have e := Except.ok.inj h
    exact .inl ⟨ha, (congrArg Prod.fst e).symm, (congrArg (·.2.1) e).symm, (congrArg (·.2.2) e).symm⟩
  · rw [if_neg ha] at h
    have hal : (alloc b (available b)).1 = 0 := by
      unfold alloc
      rw [if_neg (by omega)]
      split <;> rfl
    rw [if_neg (by simp [hal])] at h
    by_cases hx : (rv.getD []).take (available b) = []
    · rw [if_pos hx] at h
      have e := Except.ok.inj h
      refine .inr (.inl ⟨ha, ?_, (congrArg Prod.fst e).symm, (congrArg (·.2.1) e).symm⟩)
      rcases List.take_eq_nil_iff.1 hx with h1 | h1
      · exact absurd h1 ha
      · exact h1
    · rw [if_neg hx] at h
      refine .inr (.inr ⟨ha, fun e => hx (by rw [e]; exact List.take_nil), ?_⟩)
      obtain ⟨c1, _, h⟩ := PubCtx.bind_ok h
      unfold processTcpRead at h
      obtain ⟨⟨r2, xs⟩, h2, h⟩ := PubCtx.bind_ok h
      dsimp only at h
      have : r2 = 0 := readOffset_zero h2
      rw [if_neg (by simp [this])] at h
      exact processLoop_code ht fuel h

end Proto

namespace PubCtx
open CircBuf ConnVec

/-! ## C63: multicast writes -/

/-- Specification: how many of the sendmsg() calls succeed before one fails. -/
def okBefore : List SendRes → Nat
  | [] => 0
  | r :: rs => match r.res with
    | .ok _ => okBefore rs + 1
    | .error _ => 0

/-- Specification: the error of the first sendmsg() call that fails; EAGAIN when the results are used up. -/
def firstErr : List SendRes → Nat
  | [] => EAGAIN
  | r :: rs => match r.res with
    | .ok _ => firstErr rs
    | .error e => e

theorem queueSize_spec {c : PubCtx} {pops : List POp} {L : List Nat} (g : Good c pops L) :
    Pub.queueSize c.pub = (spec pops).que.length + (spec pops).ann.length := by
  obtain ⟨Q, N, I, r1, r2, r3, r4, _⟩ := g.p.reached.rel
  unfold Pub.queueSize; rw [r4]
  have e1 : (spec pops).que = _ := r1
  have e2 : (spec pops).ann = _ := r2
  rw [e1, e2]; simp

theorem sendSingle_err {c : PubCtx} {pops : List POp} {L : List Nat} (h : Good c pops L) {a : Nat}
    (ha : Pub.nextQueued c.pub = some a) (hm : c.mcast ≠ none) (r : SendRes) {e : Nat} (he : r.res = .error e) :
    ∃ c', sendSingle c a r = .ok (e, c') ∧ c'.pub = c.pub ∧ c'.log = c.log ∧ c'.cv.conns = c.cv.conns := by
  unfold sendSingle
  rw [if_neg hm]
  rcases h.p.next with ⟨e, _⟩ | ⟨a', pkt, e1, e2, e3, e4, e5, _⟩
  · rw [ha] at e; cases e
  · rw [ha] at e1; cases e1
    rw [e2, Pub.ok_bind, if_neg (by
      have : HDR_LEN = 20 := rfl
      have : RMC_MAX_PACKET = 65400 := rfl
      have : RMC_MAX_PAYLOAD = 65312 := rfl
      omega), he]
    dsimp only
    by_cases h0 : e ≠ EAGAIN
    · rw [if_pos h0]; exact ⟨_, rfl, rfl, rfl, rfl⟩
    · rw [if_neg h0]
      have : e = EAGAIN := by omega
      subst this
      exact ⟨_, rfl, rfl, rfl, rfl⟩

theorem Sends.count {c : Cfg} {ys : List POp} {es : List PEv} {ds : List CEv} (h : Sends c ys es ds) :
    (dgrams ds).length = ys.length := by
  induction h with
  | nil => rfl
  | snoc h pid p ts stack hp hl ih => rw [dgrams_append, List.length_append, ih, List.length_append]; rfl

theorem multicastWrite_exact : ∀ (rs : List SendRes) {c c' : PubCtx} {pops : List POp} {L : List Nat} {r : Nat}, Good c pops L →
    c.mcast ≠ none → (∀ s ∈ rs, s.res ≠ .error 0) → multicastWrite c rs = .ok (r, c') →
    (dgrams c'.log).length = (dgrams c.log).length + min (Pub.queueSize c.pub) (okBefore rs) ∧
    Pub.queueSize c'.pub = Pub.queueSize c.pub - okBefore rs ∧
    r = (if Pub.queueSize c.pub ≤ okBefore rs then 0 else firstErr rs) := by
  intro rs
  induction rs with
  | nil =>
    intro c c' pops L r g hm hz h
    unfold multicastWrite at h
    rcases g.p.next with ⟨e, e0⟩ | ⟨a, pkt, e1, _, _, _, _, e0⟩
    · rw [e] at h
      have e := Except.ok.inj h
      have h1 : 0 = r := congrArg Prod.fst e
      have h2 : c = c' := congrArg Prod.snd e
      subst h1 h2
      rw [e0]; simp [okBefore]
    · rw [e1] at h
      obtain ⟨c2, k1, k2, k3, _⟩ := sendSingle_err g e1 hm ⟨.error EAGAIN, []⟩ rfl
      dsimp only at h
      rw [k1] at h
      have e := Except.ok.inj h
      have h1 : EAGAIN = r := congrArg Prod.fst e
      have h2 : c2 = c' := congrArg Prod.snd e
      subst h1 h2
      rw [k2, k3]
      simp only [okBefore, firstErr, Nat.min_zero, Nat.sub_zero, Nat.le_zero]
      exact ⟨by omega, trivial, by rw [if_neg e0]⟩
  | cons s rs ih =>
    intro c c' pops L r g hm hz h
    unfold multicastWrite at h
    rcases g.p.next with ⟨e, e0⟩ | ⟨a, pkt, e1, _, _, _, _, e0⟩
    · rw [e] at h
      have e := Except.ok.inj h
      have h1 : 0 = r := congrArg Prod.fst e
      have h2 : c = c' := congrArg Prod.snd e
      subst h1 h2
      rw [e0]; simp
    · rw [e1] at h
      dsimp only at h
      obtain ⟨x, hx, h⟩ := bind_ok h
      cases hres : s.res with
      | error e =>
        obtain ⟨c2, k1, k2, k3, _⟩ := sendSingle_err g e1 hm s hres
        rw [k1] at hx
        have := (Except.ok.inj hx).symm
        subst this
        have hr : firstErr (s :: rs) = e := by simp [firstErr, hres]
        have hk : okBefore (s :: rs) = 0 := by simp [okBefore, hres]
        rw [hk, hr, Nat.min_zero, Nat.sub_zero, if_neg (by omega)]
        by_cases he : e ≠ 0
        · dsimp only at h
          rw [if_pos he] at h
          have e := Except.ok.inj h
          have h1 : _ = r := congrArg Prod.fst e
          have h2 : c2 = c' := congrArg Prod.snd e
          subst h1 h2
          rw [k2, k3]; exact ⟨by omega, rfl, rfl⟩
        · exact absurd (by rw [hres]; congr; omega) (hz s (by simp))
      | ok ts =>
        obtain ⟨code, c2, ys, es, ds, k1, k2, k3, k4, k5, k6, k7, k8, _⟩ := sendSingle_spec g e1 s
        obtain ⟨k8, k9⟩ := k8 ts hres hm
        subst k8 k9
        rw [k1] at hx
        have := (Except.ok.inj hx).symm
        subst this
        dsimp only at h
        rw [if_neg (by simp)] at h
        have hm2 : c2.mcast ≠ none := by
          have : c2.mcast = c.mcast := congrArg Cfg.mcast k3
          rw [this]; exact hm
        obtain ⟨j1, j2, j3⟩ := ih k2 hm2 (fun x hx => hz x (by simp [hx])) h
        have hq : Pub.queueSize c.pub = Pub.queueSize c2.pub + 1 := by
          rw [queueSize_spec g, queueSize_spec k2]
          rw [queueSize_spec g] at e0
          have : spec (pops ++ [.send ts]) = (spec pops).step (.send ts) := by unfold spec; rw [PSpec.run_snoc]
          rw [this]
          generalize spec pops = A at e0
          cases ha : A.ann with
          | cons p ann => simp [PSpec.step, ha]; omega
          | nil =>
            cases hq : A.que with
            | cons p que => simp [PSpec.step, ha, hq]
            | nil => rw [ha, hq] at e0; exact absurd rfl e0
        have hk : okBefore (s :: rs) = okBefore rs + 1 := by simp [okBefore, hres]
        have hr : firstErr (s :: rs) = firstErr rs := by simp [firstErr, hres]
        have hd : (dgrams c2.log).length = (dgrams c.log).length + 1 := by
          rw [k7, dgrams_append, List.length_append, k5.count]; rfl
        rw [hk, hr, hq]
        refine ⟨by omega, by omega, ?_⟩
        rw [j3]
        by_cases hle : Pub.queueSize c2.pub ≤ okBefore rs
        · rw [if_pos hle, if_pos (by omega)]
        · rw [if_neg hle, if_neg (by omega)]

/-- C63: a call that writes the multicast socket of an active publisher hands waiting packets to the socket until none is left or
the socket refuses one: the number of datagrams sent, the number of packets left waiting and the return code are exactly these.
(A system call that fails sets errno.) -/
theorem C63_write {ops : List Op} {c c' : PubCtx} (h : Reaches ops c) {rs : List SendRes} {r : Nat} (hm : c.mcast ≠ none)
    (hz : ∀ s ∈ rs, s.res ≠ .error 0) (hs : step c (.writeMcast rs) = .ok (r, c')) :
    (dgrams c'.log).length = (dgrams c.log).length + min (getPending c).2.1 (okBefore rs) ∧
    (getPending c').2.1 = (getPending c).2.1 - okBefore rs ∧
    r = (if (getPending c).2.1 ≤ okBefore rs then 0 else firstErr rs) := by
  obtain ⟨pops, L, g, _⟩ := h.good
  have e : ∀ x : PubCtx, (getPending x).2.1 = Pub.queueSize x.pub := by
    intro x; unfold getPending; dsimp only; split <;> rfl
  rw [e, e]
  exact multicastWrite_exact rs g hm hz hs

/-- C63: progress. If the socket takes everything, one call sends everything that is waiting. -/
theorem C63_drains {ops : List Op} {c : PubCtx} (h : Reaches ops c) {rs : List SendRes} (hm : c.mcast ≠ none)
    (hz : ∀ s ∈ rs, ∃ ts, s.res = .ok ts) (hl : (getPending c).2.1 ≤ rs.length) :
    ∃ c', step c (.writeMcast rs) = .ok (0, c') ∧ (getPending c').2.1 = 0 ∧
      (dgrams c'.log).length = (dgrams c.log).length + (getPending c).2.1 := by
  obtain ⟨pops, L, g, _⟩ := h.good
  obtain ⟨r, c', ys, es, ds, k1, _⟩ := multicastWrite_spec rs g
  have k : ∀ l : List SendRes, (∀ s ∈ l, ∃ ts, s.res = .ok ts) → okBefore l = l.length := by
    intro l
    induction l with
    | nil => intro _; rfl
    | cons s l ih =>
      intro h
      obtain ⟨ts, hts⟩ := h s (by simp)
      simp [okBefore, hts, ih (fun x hx => h x (by simp [hx]))]
  have hs : step c (.writeMcast rs) = .ok (r, c') := k1
  obtain ⟨a1, a2, a3⟩ := C63_write h hm (fun s hs' => by obtain ⟨ts, e⟩ := hz s hs'; rw [e]; simp) hs
  rw [k rs hz] at a1 a2 a3
  rw [if_pos hl] at a3
  subst a3
  exact ⟨c', hs, by omega, by omega⟩

/-- The hypotheses are met: three packets and an announcement wait; the socket takes three datagrams and then would block, and takes
the last one in the next call. -/
example : ∃ (ops : List Op) (c : PubCtx), Reaches ops c ∧ c.mcast ≠ none ∧ (getPending c).2.1 = 4 ∧
    ∃ c1, step c (.writeMcast [⟨.ok 10, []⟩, ⟨.ok 11, []⟩, ⟨.ok 12, []⟩, ⟨.error EAGAIN, []⟩]) = .ok (EAGAIN, c1) ∧
      (getPending c1).2.1 = 1 ∧ (dgrams c1.log).length = 3 := by
  obtain ⟨c, _, h1, _, h2⟩ := reaches_of (ops := [.activate (.ok (3, 4, 4711)), .queue ⟨1, [7], false⟩ false,
      .queue ⟨2, [8], false⟩ false, .queue ⟨3, [], false⟩ true, .queue ⟨4, [9, 9], false⟩ false])
    (P := fun _ c => decide (c.mcast = some 3) && ((getPending c).2.1 == 4) && (dgrams c.log).isEmpty)
    (by intro op hop; simp at hop; rcases hop with rfl | rfl | rfl | rfl | rfl <;> trivial)
    (by decide +kernel) (by decide +kernel)
  simp only [Bool.and_eq_true, beq_iff_eq, decide_eq_true_eq, List.isEmpty_iff] at h2
  obtain ⟨⟨h2, h3⟩, h4⟩ := h2
  obtain ⟨pops, L, g, _⟩ := h1.good
  obtain ⟨rs, hrs⟩ : ∃ rs : List SendRes, rs = [⟨.ok 10, []⟩, ⟨.ok 11, []⟩, ⟨.ok 12, []⟩, ⟨.error EAGAIN, []⟩] := ⟨_, rfl⟩
  rw [← hrs]
  obtain ⟨r, c', ys, es, ds, k1, _⟩ := multicastWrite_spec rs g
  have hs : step c (.writeMcast rs) = .ok (r, c') := k1
  obtain ⟨a1, a2, a3⟩ := C63_write h1 (by rw [h2]; simp)
    (by rw [hrs]; intro s hs; simp at hs; rcases hs with rfl | rfl | rfl | rfl <;> simp [EAGAIN]) hs
  have e1 : okBefore rs = 3 := by rw [hrs]; rfl
  have e2 : firstErr rs = EAGAIN := by rw [hrs]; rfl
  rw [h3, e1] at a1 a2 a3
  rw [h4] at a1
  rw [e2] at a3
  rw [if_neg (by omega)] at a3
  subst a3
  exact ⟨_, c, h1, by rw [h2]; simp, h3, c', hs, a2, a1⟩

/-! ## C62: return codes -/

/-- All slots for subscribers are taken. -/
def Full (c : PubCtx) : Prop := ∀ i, i < c.cv.size → Connected c i

/-- Specification: what each call returns in state `c`, and when it changes nothing. `c'` is the state after it. -/
def Code (c : PubCtx) (op : Op) (r : Nat) (c' : PubCtx) : Prop :=
  match op with
  | .queue p _ =>                        -- too long; traffic suspended; queued
    if p.data.length > RMC_MAX_PAYLOAD then r = EMSGSIZE ∧ c' = c
    else if trafficSuspended c ≠ 0 then r = EBUSY ∧ c' = c
    else r = 0
  | .readListen ar _ =>                  -- no free slot; accept() fails; accepted (or refused by the callback)
    (Full c ∧ r = ENOMEM ∧ c' = c) ∨
    (¬ Full c ∧ match ar with
      | .failed e => r = e ∧ c'.cv.conns = c.cv.conns ∧ c'.cv.fds = c.cv.fds ∧ c'.cv.polls = c.cv.polls ∧ c'.pub = c.pub ∧ c'.log = c.log
      | _ => r = 0)
  | .readMcast err =>                    -- not active; recvfrom() fails; dropped
    match c.mcast, err with
    | none, _ => r = ENOTCONN ∧ c' = c
    | some _, some e => r = e ∧ c' = c
    | some _, none => r = 0
  | .read i rv =>                        -- not connected; buffer full; end of stream or error; bytes
    (¬ Connected c i ∧ r = ENOTCONN ∧ c' = c) ∨
    (Connected c i ∧
      if available (c.cv.conns i).readBuf = 0 then r = ENOMEM ∧ Connected c' i
      else if rv.getD [] = [] then r = 0 ∧ ¬ Connected c' i
      else (r = 0 ∨ r = EAGAIN ∨ r = EPROTO) ∧ Connected c' i)
  | .writeMcast rs =>                    -- nothing waiting; not active; as `C63_write`
    if (getPending c).2.1 = 0 then r = 0 ∧ c' = c
    else if c.mcast = none then r = ENOTCONN ∧ c' = c
    else r = if (getPending c).2.1 ≤ okBefore rs then 0 else firstErr rs
  | .write i wv =>                       -- no such slot; not connected; nothing to write; writev() fails; written
    if c.cv.size ≤ i then r = EINVAL ∧ c' = c
    else (¬ Connected c i ∧ r = ENOTCONN ∧ c' = c) ∨
      (Connected c i ∧ if bytes (c.cv.conns i).writeBuf = [] then r = ENODATA ∧ c' = c
        else r = match wv with | .error e => e | .ok _ => 0)
  | .timeout now _ _ => r = 0 ∨ (r = EAGAIN ∧ ¬ annDue c now)
  | .close i => (¬ Connected c i ∧ r = EINVAL ∧ c' = c) ∨ (Connected c i ∧ r = 0 ∧ ¬ Connected c' i)
  | .setAnnounce _ _ => r = 0
  | .throttling s u => if s < u then r = EINVAL ∧ c' = c else r = 0 ∧ c' = { c with suspendThr := s, resumeThr := u }
  | .setCtlCb _ => r = 0
  | .activate (.error e _) => r = e ∧ c'.mcast = none ∧ c'.listen = none
  | .activate (.ok (md, ld, _)) => r = 0 ∧ c'.mcast = some md ∧ c'.listen = some ld
  | .deactivate => r = 0 ∧ c'.mcast = none ∧ c'.listen = none ∧ ∀ i, ¬ Connected c' i

theorem handler_code {i : Nat} : ∀ c h, Proto.lookup (table i) c = some h → ∀ s b r s' b',
    h s b = .ok (r, s', b') → r = 0 ∨ r = EAGAIN := by
  intro c h hl s b r s' b' hx
  have hh : h = processAck i ∨ h = processCtl i := by
    unfold table Proto.lookup at hl
    repeat' (first | split at hl | unfold Proto.lookup at hl)
    all_goals first | exact .inl (Option.some.inj hl).symm | exact .inr (Option.some.inj hl).symm | cases hl
  rcases hh with rfl | rfl
  · unfold processAck at hx
    split at hx
    · cases hx; exact .inr rfl
    · obtain ⟨x, _, hx⟩ := bind_ok hx
      obtain ⟨c2, h2, hx⟩ := bind_ok hx
      cases hx
      exact .inl rfl
  · unfold processCtl at hx
    split at hx
    · cases hx; exact .inr rfl
    · obtain ⟨x, _, hx⟩ := bind_ok hx
      dsimp only at hx
      split at hx
      · cases hx; exact .inr rfl
      · obtain ⟨c2, h2, hx⟩ := bind_ok hx
        cases hx
        exact .inl rfl

theorem full_iff {c : PubCtx} {pops : List POp} {L : List Nat} (g : Good c pops L) : Full c ↔ L.length = c.cv.size := by
  rw [g.v.full]
  unfold Full
  constructor
  · intro h i hi; exact g.connected.1 (h i hi)
  · intro h i hi; exact g.connected.2 (h i hi)

theorem readListen_code {c c' : PubCtx} {pops : List POp} {L : List Nat} (g : Good c pops L) {ar : AccRes} (ha : saneAcc ar)
    {cb : Option Bool} {r : Nat} (hs : readListen c ar cb = .ok (r, c')) : Code c (.readListen ar cb) r c' := by
  unfold Code
  dsimp only
  rw [full_iff g]
  have hg := ConnVec.getFreeSlot_spec g.v
  by_cases hf : L.length = c.cv.size
  · refine .inl ⟨hf, ?_⟩
    have ha : ConnVec.accept c.cv c.listen ar = (ENOMEM, none, c.cv) := by
      unfold ConnVec.accept
      generalize getFreeSlot c.cv = w at hg
      obtain ⟨_ | i, w⟩ := w
      · obtain ⟨rfl, _⟩ := hg; rfl
      · obtain ⟨_, _, _, _, _, _, _, _, _, _, h⟩ := hg; omega
    unfold readListen at hs
    rw [ha] at hs
    have e := Except.ok.inj hs
    exact ⟨(congrArg Prod.fst e).symm, (congrArg Prod.snd e).symm⟩
  · refine .inr ⟨hf, ?_⟩
    cases ar with
    | noDelayFailed d e => exact ha.elim
    | failed e =>
      dsimp only
      have ha : ∃ m, ConnVec.accept c.cv c.listen (.failed e) = (e, none, { c.cv with maxInd := m }) := by
        unfold ConnVec.accept getFreeSlot at *
        split at hg
        · rename_i w hw
          split at hw
          · cases hw
          · have e : c.cv = _ := congrArg Prod.snd hw
            exact absurd hg.2 hf
        · rename_i i w hw
          split at hw
          · cases hw
            dsimp only
            split
            · exact ⟨_, rfl⟩
            · exact ⟨c.cv.maxInd, rfl⟩
          · cases hw
      obtain ⟨m, hm⟩ := ha
      unfold readListen at hs
      rw [hm] at hs
      dsimp only at hs
      have he : e ≠ 0 := ha
      rw [if_pos he] at hs
      have e := Except.ok.inj hs
      have e1 := congrArg Prod.fst e
      have e2 := congrArg Prod.snd e
      dsimp only at e1 e2
      subst e1 e2
      exact ⟨rfl, rfl, rfl, rfl, rfl, rfl⟩
    | ok d a =>
      dsimp only
      rcases ConnVec.accept_ok g.v c.listen d a with ⟨h, _⟩ | ⟨_, i, v', h1, _⟩
      · exact absurd h hf
      · obtain ⟨r2, c2, ys, L', ds, k1, _, _, _, _, _, k⟩ := readListen_spec g (ar := .ok d a) trivial cb
        rw [k1] at hs
        have e := congrArg Prod.fst (Except.ok.inj hs)
        dsimp only at e
        rw [← e]
        rcases k with ⟨_, _, _, k, _⟩ | ⟨k, _⟩
        · exfalso
          apply k
          unfold readListen at k1
          rw [h1] at k1
          dsimp only at k1
          rw [if_neg (by simp)] at k1
          split at k1
          · cases k1
          · split at k1
            · exact (congrArg Prod.fst (Except.ok.inj k1)).symm
            · split at k1
              · exact (congrArg Prod.fst (Except.ok.inj k1)).symm
              · obtain ⟨x, _, k1⟩ := bind_ok k1
                exact (congrArg Prod.fst (Except.ok.inj k1)).symm
        · exact k

theorem readConn_code {c c' : PubCtx} {pops : List POp} {L : List Nat} (g : Good c pops L) {i r : Nat}
    {rv : Option (List UInt8)} (hs : readConn c i rv = .ok (r, c')) : Code c (.read i rv) r c' := by
  unfold Code
  dsimp only
  rw [g.connected]
  by_cases hi : i ∈ L
  · refine .inr ⟨hi, ?_⟩
    have hlt := g.v.lt i hi
    unfold readConn at hs
    rw [ConnVec.findByIndex_spec g.v, if_pos hi, if_neg (by simp [g.conn i hi])] at hs
    obtain ⟨⟨r1, c1, b1⟩, h1, hs⟩ := bind_ok hs
    have hcv : c1.cv = c.cv := Proto.tcpRead_pres (P := fun s => PubCtx.cv s = c.cv) (handler_cv c.cv) rfl h1
    have hc := Proto.tcpRead_code handler_code h1
    dsimp only at hs
    have hmo : (c1.cv.conns i).mode = .connected := by rw [hcv]; exact g.conn i hi
    have stay : r1 ≠ EPIPE → r = r1 ∧ Connected c' i := by
      intro hne
      rw [if_neg hne] at hs
      have e := Except.ok.inj hs
      have e1 := congrArg Prod.fst e
      have e2 := congrArg Prod.snd e
      dsimp only at e1 e2
      refine ⟨e1.symm, ?_⟩
      rw [← e2]
      refine ⟨by show i < c1.cv.size; rw [hcv]; exact hlt, ?_⟩
      simp [setConn, pollModify, ConnVec.poll, ConnVec.set, hmo]
    rcases hc with ⟨h2, h3, _⟩ | ⟨h2, h3, h4, _⟩ | ⟨h2, h3, h4⟩
    · rw [if_pos h2]
      obtain ⟨s1, s2⟩ := stay (by rw [h3]; decide)
      exact ⟨s1.trans h3, s2⟩
    · rw [if_neg h2, if_pos h3]
      rw [if_pos h4] at hs
      obtain ⟨⟨r2, c2⟩, h5, hs⟩ := bind_ok hs
      have e := Except.ok.inj hs
      have e1 := congrArg Prod.fst e
      have e2 := congrArg Prod.snd e
      dsimp only at e1 e2
      refine ⟨e1.symm, ?_⟩
      rw [← e2]
      have hv : VInv (setConn c1 i { c1.cv.conns i with readBuf := b1 }).cv L := by
        have := ConnVec.VInv_set (v := c1.cv) (by rw [hcv]; exact g.v) hi { c1.cv.conns i with readBuf := b1 }
          (by show (c1.cv.conns i).desc ≠ none; rw [hcv]; exact (g.v.desc i hlt).2 hi)
          (by show (c1.cv.conns i).mode ≠ _; rw [hmo]; simp)
          (by show (c1.cv.conns i).index = i; rw [hcv]; exact g.v.idx i) c1.cv.polls
        exact this
      unfold closeConnection at h5
      rw [ConnVec.findByIndex_spec hv, if_pos hi, if_neg (by simp)] at h5
      dsimp only at h5
      obtain ⟨s, _, h5⟩ := bind_ok h5
      have e := congrArg Prod.snd (Except.ok.inj h5)
      dsimp only at e
      rw [← e]
      intro hcon
      have := ((ConnVec.close_spec hv i).1 hi).2.2.2.2.2.1
      have h6 := hcon.2
      dsimp only [ev] at h6
      rw [this] at h6
      simp [resetConn] at h6
    · rw [if_neg h2, if_neg h3]
      obtain ⟨s1, s2⟩ := stay (by rcases h4 with h4 | h4 | h4 <;> rw [h4] <;> decide)
      rw [s1]
      exact ⟨h4, s2⟩
  · refine .inl ⟨hi, ?_⟩
    rcases readConn_spec g hs with ⟨_, h1, h2⟩ | ⟨h, _⟩
    · exact ⟨h1, h2⟩
    · exact absurd h hi

/-- C62 for the publisher: after any history, every call returns what `Code` says, and a call that is refused changes nothing. -/
theorem C62_publisher {ops : List Op} {c c' : PubCtx} (h : Reaches ops c) (hl : ops.length + 2 < U64) {op : Op} (hop : op.sane)
    (hz : ∀ rs, op = .writeMcast rs → ∀ s ∈ rs, s.res ≠ .error 0) {r : Nat} (hs : step c op = .ok (r, c')) : Code c op r c' := by
  obtain ⟨pops, L, g, hq, _⟩ := h.good
  cases op with
  | queue p ann =>
    have hs' : queuePacket c p ann = .ok (r, c') := hs
    unfold Code
    dsimp only
    have hts : trafficSuspended c ≠ 0 ↔ c.suspended = true := by
      unfold trafficSuspended; cases c.suspended <;> simp [EBUSY]
    rcases queue_cases g p ann (by omega) with ⟨h1, h2⟩ | ⟨h1, h3, h2⟩ | ⟨h1, h3, s', _, _, _, h2⟩
    · rw [if_pos h1]
      have e := Except.ok.inj (hs'.symm.trans h2)
      exact ⟨congrArg Prod.fst e, congrArg Prod.snd e⟩
    · rw [if_neg (by omega), if_pos (hts.2 h3)]
      have e := Except.ok.inj (hs'.symm.trans h2)
      exact ⟨congrArg Prod.fst e, congrArg Prod.snd e⟩
    · rw [if_neg (by omega), if_neg (by rw [hts, h3]; simp)]
      have e := Except.ok.inj (hs'.symm.trans h2)
      exact congrArg Prod.fst e
  | readListen ar cb => exact readListen_code g hop hs
  | readMcast err =>
    have e := Except.ok.inj (show Except.ok (readMcast c err) = Except.ok (r, c') from hs)
    unfold readMcast at e
    unfold Code
    dsimp only
    cases hm : c.mcast with
    | none => rw [if_pos hm] at e; exact ⟨(congrArg Prod.fst e).symm, (congrArg Prod.snd e).symm⟩
    | some d =>
      rw [if_neg (by rw [hm]; simp)] at e
      cases err with
      | none => exact (congrArg Prod.fst e).symm
      | some x => exact ⟨(congrArg Prod.fst e).symm, (congrArg Prod.snd e).symm⟩
  | read i rv => exact readConn_code g hs
  | writeMcast rs =>
    have hsz : (getPending c).2.1 = Pub.queueSize c.pub := by unfold getPending; dsimp only; split <;> rfl
    unfold Code
    dsimp only
    by_cases h0 : (getPending c).2.1 = 0
    · rw [if_pos h0]
      have hs' : multicastWrite c rs = .ok (r, c') := hs
      rcases g.p.next with ⟨e, _⟩ | ⟨_, _, _, _, _, _, _, e⟩
      · unfold multicastWrite at hs'
        rw [e] at hs'
        cases rs with
        | nil => have e := Except.ok.inj hs'; exact ⟨(congrArg Prod.fst e).symm, (congrArg Prod.snd e).symm⟩
        | cons s rs => have e := Except.ok.inj hs'; exact ⟨(congrArg Prod.fst e).symm, (congrArg Prod.snd e).symm⟩
      · omega
    · rw [if_neg h0]
      by_cases hm : c.mcast = none
      · rw [if_pos hm]
        have hs' : multicastWrite c rs = .ok (r, c') := hs
        rcases g.p.next with ⟨_, e⟩ | ⟨a, _, e, _⟩
        · omega
        · have hn : ∀ x, sendSingle c a x = .ok (ENOTCONN, c) := by intro x; unfold sendSingle; rw [if_pos hm]
          unfold multicastWrite at hs'
          rw [e] at hs'
          cases rs with
          | nil =>
            dsimp only at hs'
            rw [hn] at hs'
            have e := Except.ok.inj hs'; exact ⟨(congrArg Prod.fst e).symm, (congrArg Prod.snd e).symm⟩
          | cons s rs =>
            dsimp only at hs'
            rw [hn, Pub.ok_bind, if_pos (by show ENOTCONN ≠ 0; decide)] at hs'
            have e := Except.ok.inj hs'; exact ⟨(congrArg Prod.fst e).symm, (congrArg Prod.snd e).symm⟩
      · rw [if_neg hm]
        exact (C63_write h hm (hz rs rfl) hs).2.2
  | write i wv =>
    have hs' : writeConn c i wv = .ok (r, c') := hs
    unfold Code
    dsimp only
    rw [g.connected]
    by_cases hi : c.cv.size ≤ i
    · rw [if_pos hi]
      unfold writeConn at hs'
      rw [if_pos hi] at hs'
      have e := Except.ok.inj hs'; exact ⟨(congrArg Prod.fst e).symm, (congrArg Prod.snd e).symm⟩
    · rw [if_neg hi]
      by_cases hL : i ∈ L
      · refine .inr ⟨hL, ?_⟩
        rcases writeConn_spec g i wv with ⟨h1, _⟩ | ⟨_, h1, h2⟩ | ⟨_, h1, r2, c2, out, h2, _, _, _, _, _, _, _, _, h3, _⟩
        · exact absurd hL h1
        · rw [if_pos h1]
          have e := Except.ok.inj (hs'.symm.trans h2)
          exact ⟨congrArg Prod.fst e, congrArg Prod.snd e⟩
        · rw [if_neg h1]
          have e := congrArg Prod.fst (Except.ok.inj (hs'.symm.trans h2))
          exact e.trans h3
      · refine .inl ⟨hL, ?_⟩
        unfold writeConn at hs'
        rw [if_neg hi, ConnVec.findByIndex_spec g.v, if_neg hL, if_pos (.inl rfl)] at hs'
        have e := Except.ok.inj hs'; exact ⟨(congrArg Prod.fst e).symm, (congrArg Prod.snd e).symm⟩
  | timeout now cb sp =>
    have hs' : timeoutProcess c now cb sp = .ok (r, c') := hs
    unfold Code
    dsimp only
    by_cases hd : annDue c now
    · obtain ⟨c2, h1, _⟩ := timeout_announce g hd cb sp (by omega)
      exact .inl (congrArg Prod.fst (Except.ok.inj (hs'.symm.trans h1)))
    · have h1 := timeout_resend g hd hs'
      have hsub : ∀ k ∈ c.pub.subs.filter (fun k => late c.pub k now c.resendTimeout), k ∈ L :=
        fun k hk => (g.slots k).2 (List.mem_filter.1 hk).1
      obtain ⟨_, _, _, _, _, _, _, _, _, h2⟩ := subscribersTimeout_spec _ ((subs_nodup g).filter _) hsub g h1
      rcases h2 with h2 | ⟨h2, _⟩
      · exact .inl h2
      · exact .inr ⟨h2, hd⟩
  | close i =>
    have hs' : closeConnection c i = .ok (r, c') := hs
    unfold Code
    dsimp only
    by_cases hi : i ∈ L
    · obtain ⟨c2, h1, h2, _⟩ := close_spec g hi
      have e := Except.ok.inj (hs'.symm.trans h1)
      refine .inr ⟨g.connected.2 hi, congrArg Prod.fst e, ?_⟩
      have e2 : c' = c2 := congrArg Prod.snd e
      rw [e2, h2.connected, g.v.nodup.mem_erase_iff]
      simp
    · have e := Except.ok.inj (hs'.symm.trans (close_none g hi))
      exact .inl ⟨fun hc => hi (g.connected.1 hc), congrArg Prod.fst e, congrArg Prod.snd e⟩
  | setAnnounce n now => exact (congrArg Prod.fst (Except.ok.inj hs)).symm
  | throttling s u =>
    have e := Except.ok.inj (show Except.ok (throttling c s u) = Except.ok (r, c') from hs)
    unfold throttling at e
    unfold Code
    dsimp only
    by_cases h0 : s < u
    · rw [if_pos h0] at e ⊢; exact ⟨(congrArg Prod.fst e).symm, (congrArg Prod.snd e).symm⟩
    · rw [if_neg h0] at e ⊢; exact ⟨(congrArg Prod.fst e).symm, (congrArg Prod.snd e).symm⟩
  | setCtlCb b => exact (congrArg Prod.fst (Except.ok.inj hs)).symm
  | activate x =>
    have e := Except.ok.inj (show Except.ok (activate c x) = Except.ok (r, c') from hs)
    have e1 := congrArg Prod.fst e
    have e2 : (activate c x).2 = c' := congrArg Prod.snd e
    cases x with
    | error y w => exact ⟨e1.symm, by rw [← e2]; exact ⟨rfl, rfl⟩⟩
    | ok t => obtain ⟨md, ld, port⟩ := t; exact ⟨e1.symm, by rw [← e2]; exact ⟨rfl, rfl⟩⟩
  | deactivate =>
    obtain ⟨c2, ys, ds, e, g', _, _, _, _, hc, _⟩ := deactivate_spec g
    have e' := Except.ok.inj (hs.symm.trans e)
    have e2 : c' = c2 := congrArg Prod.snd e'
    refine ⟨congrArg Prod.fst e', ?_⟩
    rw [e2]
    refine ⟨congrArg Cfg.mcast hc, congrArg Cfg.listen hc, fun i hi => ?_⟩
    have := g'.connected.1 hi
    cases this

/-- C62: the question whether bytes are pending for a subscriber is answered from what is pending. -/
theorem C62_pending {ops : List Op} {c : PubCtx} (h : Reaches ops c) (i : Nat) :
    (¬ Connected c i → hasPendingSend c i = ENOTCONN) ∧
    (Connected c i → hasPendingSend c i = if bytes (c.cv.conns i).writeBuf = [] then 0 else EBUSY) := by
  obtain ⟨pops, L, g, _⟩ := h.good
  rw [g.connected]
  unfold hasPendingSend
  rw [ConnVec.findByIndex_spec g.v]
  constructor
  · intro hi; rw [if_neg hi, if_pos rfl]
  · intro hi
    rw [if_pos hi, if_neg (by simp)]
    have hw := g.wb i hi
    have hlt := inUse_lt hw.1
    have hb := g.buf
    have : pendingLen c.cv i = (bytes (c.cv.conns i).writeBuf).length := by
      unfold pendingLen
      rw [length_bytes, Nat.mod_eq_of_lt]
      rw [hw.2, hb] at hlt
      have : RMC_MAX_PACKET = 65400 := rfl
      omega
    rw [this]
    by_cases h0 : bytes (c.cv.conns i).writeBuf = []
    · rw [if_pos h0, h0]; rfl
    · rw [if_neg h0, if_pos (List.length_pos_iff.2 h0)]

/-- The hypotheses are met with many different codes: a read of the multicast socket before activation (ENOTCONN), activation, an
accepted subscriber, thresholds set, a packet multicast, one queued that suspends the traffic and one refused for that (EBUSY), thresholds in
the wrong order (EINVAL), the socket full (EAGAIN), an empty write buffer (ENODATA), a write to a slot without
subscriber (ENOTCONN) and to one that does not exist (EINVAL), half an acknowledgement (EAGAIN), a byte that is no command (EPROTO),
closing (0) and closing again (EINVAL). -/
example : ∃ (ops : List Op) (c : PubCtx) (rs : List Nat), Reaches ops c ∧ run exC0 ops = .ok (rs, c) ∧
    decide (rs = [ENOTCONN, 0, 0, 0, 0, 0, 0, EBUSY, EINVAL, EAGAIN, ENODATA, ENOTCONN, EINVAL, EAGAIN, EPROTO, 0, EINVAL] ∧
      ¬ Connected c 0) = true := by
  obtain ⟨c, rs, h1, h2, h3⟩ := reaches_of (ops := [.readMcast none, .activate (.ok (3, 4, 4711)), .readListen (.ok 5 1) none,
      .throttling 1 0, .queue ⟨1, [7], false⟩ false, .writeMcast [⟨.ok 10, []⟩], .queue ⟨2, [8], false⟩ false,
      .queue ⟨3, [8], false⟩ false, .throttling 1 2, .writeMcast [], .write 0 (.ok 1), .write 1 (.ok 1), .write 77 (.ok 1),
      .read 0 (some [2, 1]), .read 0 (some (List.replicate 15 0 ++ [99])), .close 0, .close 0])
    (P := fun rs c => decide (rs = [ENOTCONN, 0, 0, 0, 0, 0, 0, EBUSY, EINVAL, EAGAIN, ENODATA, ENOTCONN, EINVAL, EAGAIN, EPROTO, 0, EINVAL] ∧
      ¬ Connected c 0))
    (by simp [Op.sane, saneAcc])
    (by decide +kernel) (by decide +kernel)
  exact ⟨_, c, rs, h1, h2, h3⟩

/-- ... and a packet refused for its length. -/
example : queuePacket exC0 ⟨1, List.replicate 65313 0, false⟩ false = .ok (EMSGSIZE, exC0) :=
  queuePacket_long (by rw [List.length_replicate]; decide)

end PubCtx
end Rmc
