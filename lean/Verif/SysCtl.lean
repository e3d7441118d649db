import Verif.SysInv

/-! # Control messages on the connection: what the publisher takes in is what the subscriber put on -/

set_option linter.unusedSimpArgs false
set_option linter.unusedVariables false

namespace Rmc
namespace PubCtx
open PLog CircBuf ConnVec Proto

/-- The control callback is called for a subscriber only by a read from its connection. -/
theorem step_ctl {c c' : PubCtx} {pops : List POp} {L : List Nat} {op : Op} {r : Nat} (h : Good c pops L) (hs : op.sane)
    (hb : (queueArgs pops).length + 2 < U64) (hx : step c op = .ok (r, c')) :
    ∃ ds, c'.log = c.log ++ ds ∧ ∀ j bs, CEv.ctl j bs ∈ ds → ∃ rv, op = .read j rv := by
  have quiet : c'.log = c.log → ∃ ds, c'.log = c.log ++ ds ∧ ∀ j bs, CEv.ctl j bs ∈ ds → ∃ rv, op = .read j rv := by
    intro e; exact ⟨[], by rw [e]; simp, by simp⟩
  cases op with
  | queue p ann =>
    have hx' : queuePacket c p ann = .ok (r, c') := hx
    rcases queue_cases h p ann hb with ⟨_, e⟩ | ⟨_, _, e⟩ | ⟨_, _, s', g1, g2, g3, e⟩ <;> rw [e] at hx' <;> cases hx' <;> exact quiet rfl
  | readListen ar cb =>
    obtain ⟨r', c'', ys, L', ds, g1, g2, _, _, g4, g5, g3⟩ := readListen_spec h hs cb
    have : step c (.readListen ar cb) = .ok (r', c'') := g1
    rw [this] at hx; cases hx
    refine ⟨ds, g4, ?_⟩
    intro j bs hm
    obtain ⟨i, e2 | e2 | e2⟩ := g5 _ hm <;> cases e2
  | readMcast err =>
    have hx' : readMcast c err = (r, c') := Except.ok.inj hx
    unfold readMcast at hx'
    split at hx'
    · cases hx'; exact quiet rfl
    · split at hx'
      · cases hx'; exact quiet rfl
      · cases hx'; exact quiet rfl
  | read i rv =>
    rcases readConn_spec h hx with ⟨_, _, e⟩ | ⟨_, c1, ys, zs, ds, L', _, hy, g, _, _, _, hds, hds2, hcj, hz⟩
    · subst e; exact quiet rfl
    · refine ⟨ds, hds, ?_⟩
      intro j bs hm
      rcases hds2 _ hm with ⟨_, e2⟩ | e2
      · cases e2; exact ⟨rv, rfl⟩
      · cases e2
  | writeMcast rs =>
    obtain ⟨r', c'', ys, es, ds, g1, g2, _, _, g3, g4, g5, g6, _⟩ := multicastWrite_spec rs h
    have : step c (.writeMcast rs) = .ok (r', c'') := g1
    rw [this] at hx; cases hx
    refine ⟨ds, g5, ?_⟩
    intro j bs hm
    obtain ⟨_, e2⟩ := sends_no_ann g3 _ hm
    cases e2
  | write i wv =>
    have hx' : writeConn c i wv = .ok (r, c') := hx
    rcases writeConn_spec h i wv with ⟨_, e | e⟩ | ⟨_, _, e⟩ | ⟨_, _, r', c'', out, e, g, _, _, gp, g2, g3, _, g4, _, g5⟩
    · rw [e] at hx'; cases hx'; exact quiet rfl
    · rw [e] at hx'; cases hx'; exact quiet rfl
    · rw [e] at hx'; cases hx'; exact quiet rfl
    · rw [e] at hx'; cases hx'
      refine ⟨_, g2, ?_⟩
      intro j bs hm
      simp at hm
  | timeout now cb sp =>
    have hx' : timeoutProcess c now cb sp = .ok (r, c') := hx
    by_cases hd : annDue c now
    · obtain ⟨c'', e, g0, _⟩ := timeout_announce h hd cb sp hb
      rw [e] at hx'; cases hx'
      refine ⟨_, g0, ?_⟩
      intro j bs hm
      simp at hm
    · have ht := timeout_resend h hd hx'
      obtain ⟨done, ys, g1, g2, g3, _⟩ := subscribersTimeout_spec _ ((subs_nodup h).filter _)
        (fun k hk => (h.slots k).2 (List.mem_filter.mp hk).1) h ht
      exact quiet g3
  | close i =>
    have hx' : closeConnection c i = .ok (r, c') := hx
    by_cases hi : i ∈ L
    · obtain ⟨c'', e, g, _, _, g2, gc, _⟩ := close_spec h hi
      rw [e] at hx'; cases hx'
      refine ⟨_, g2, ?_⟩
      intro j bs hm
      simp at hm
    · rw [close_none h hi] at hx'; cases hx'; exact quiet rfl
  | setAnnounce n now =>
    cases hx
    refine ⟨[.setAnnounce now n], rfl, ?_⟩
    intro j bs hm
    simp at hm
  | throttling a b =>
    have hx' : throttling c a b = (r, c') := Except.ok.inj hx
    unfold throttling at hx'
    split at hx' <;> cases hx' <;> exact quiet rfl
  | setCtlCb b => cases hx; exact quiet rfl
  | activate x =>
    have hx' : activate c x = (r, c') := Except.ok.inj hx
    unfold activate at hx'
    split at hx' <;> cases hx' <;> exact quiet rfl
  | deactivate =>
    obtain ⟨c'', ys, ds, e, _, _, g2, g3, _⟩ := deactivate_spec h
    have : step c .deactivate = .ok (0, c'') := e
    rw [this] at hx; cases hx
    refine ⟨ds, g2, ?_⟩
    intro j bs hm
    obtain ⟨_, e2⟩ := g3 _ hm
    cases e2

/-- Specification: the control messages handed to the application as coming from connection `k`. -/
def ctlHeard (k : Nat) (log : List CEv) : List (List UInt8) :=
  log.filterMap fun e => match e with
    | .ctl j bs => if j = k then some bs else none
    | _ => none

/-- Specification: the bytes a message carries if it is a control message: what follows the command and the length. -/
def ctlOf (m : List UInt8) : Option (List UInt8) :=
  if m.head? = some CMD_CONTROL_MESSAGE then some (m.drop 3) else none

theorem ctlHeard_none {k : Nat} {ds : List CEv} (h : ∀ bs, CEv.ctl k bs ∉ ds) : ctlHeard k ds = [] := by
  unfold ctlHeard
  rw [List.filterMap_eq_nil_iff]
  intro e he
  cases e with
  | ctl j bs =>
    have hj : j ≠ k := by rintro rfl; exact h bs he
    simp [hj]
  | _ => rfl

theorem ctlHeard_append (k : Nat) (xs ys : List CEv) : ctlHeard k (xs ++ ys) = ctlHeard k xs ++ ctlHeard k ys :=
  List.filterMap_append ..

theorem ctlHeard_map (k : Nat) : ∀ (xs : List (List UInt8)), ctlHeard k (xs.map (CEv.ctl k)) = xs := by
  intro xs
  induction xs with
  | nil => rfl
  | cons x xs ih =>
    unfold ctlHeard at ih ⊢
    rw [List.map_cons, List.filterMap_cons]
    dsimp only
    rw [if_pos rfl]
    dsimp only
    rw [ih]

/-- A control message whose bytes have been read is handed over as it is. -/
theorem effects_ctl {i : Nat} : ∀ (cs : List (List UInt8)) {c d : PubCtx} {pops : List POp} {L : List Nat},
    Good c pops L → c.ctlCb = some true → (∀ m ∈ cs, IsMsg m) → effects (pubLang i) c cs = .ok d →
    d.log = c.log ++ (cs.filterMap ctlOf).map (CEv.ctl i) := by
  intro cs
  induction cs with
  | nil => intro c d pops L h _ _ hx; cases hx; simp
  | cons m cs ih =>
    intro c d pops L h hcb hm hx
    rw [effects_cons] at hx
    obtain ⟨c1, h1, h2⟩ := bind_ok hx
    have h1' : pubEff i c m = .ok c1 := h1
    have step : ∃ ys, Good c1 (pops ++ ys) L ∧ c1.ctlCb = some true ∧ c1.log = c.log ++ ([m].filterMap ctlOf).map (CEv.ctl i) := by
      rcases hm m (by simp) with ⟨f, l, hf, hl, rfl⟩ | ⟨ds, hd, rfl⟩
      · unfold SubCtx.ackFrame pubEff at h1'
        dsimp only at h1'
        rw [if_pos rfl] at h1'
        have he : AckInterval.dec (AckInterval.enc ⟨f, l⟩) = ⟨f, l⟩ := by
          have := AckInterval.dec_enc (a := ⟨f, l⟩) ⟨hf, hl⟩ []
          rwa [List.append_nil] at this
        rw [he] at h1'
        by_cases hb : l = U64 - 1
        · unfold ackInterval at h1'; rw [if_pos hb] at h1'; cases h1'
        · obtain ⟨c', g1, g2, g3, g4, g5⟩ := ackInterval_spec h i ⟨f, l⟩ hb
          rw [g1] at h1'; cases h1'
          refine ⟨_, g2, (congrArg Cfg.ctlCb g3.cfg).trans hcb, ?_⟩
          rw [g5]
          have : ctlOf (SubCtx.ackFrame f l) = none := by
            unfold ctlOf SubCtx.ackFrame
            rw [List.head?_cons, if_neg (by decide)]
          rw [List.filterMap_cons, this]
          simp
      · have hof : ctlOf (SubCtx.ctlFrame ds.length ds) = some ds := by
          unfold ctlOf SubCtx.ctlFrame
          rw [List.head?_cons, if_pos rfl]
          rfl
        rw [List.filterMap_cons, hof]
        unfold SubCtx.ctlFrame pubEff at h1'
        dsimp only at h1'
        rw [if_neg (by decide), hcb] at h1'
        dsimp only at h1'
        have e := Except.ok.inj h1'
        rw [← e]
        exact ⟨[], by rw [List.append_nil]; exact h.congr rfl rfl, hcb, rfl⟩
    obtain ⟨ys, g1, g2, g3⟩ := step
    have := ih g1 g2 (fun m' hm' => hm m' (by simp [hm'])) h2
    rw [this, g3, List.append_assoc, ← List.map_append, ← List.filterMap_append]
    rfl

/-- Bytes that do not come near the end of the ring buffer can be read as they are. -/
theorem safe_low {i size : Nat} : ∀ (f pos : Nat) (xs : List UInt8), pos + xs.length + 5 ≤ size →
    (pubLang i).safeFrom size f pos xs := by
  intro f
  induction f with
  | zero => intro pos xs _; trivial
  | succ f ih =>
    intro pos xs hp
    unfold Lang.safeFrom
    by_cases hx : xs = []
    · rw [if_pos hx]; trivial
    rw [if_neg hx]
    have hlen : 0 < xs.length := List.length_pos_iff.2 hx
    refine ⟨?_, ?_⟩
    · show pubSafe size pos xs
      cases xs with
      | nil => exact absurd rfl hx
      | cons c cs =>
        intro _ ⟨_, _, h3⟩
        omega
    · cases hf : (pubLang i).frame xs with
      | more => trivial
      | bad => trivial
      | cmd n =>
        dsimp only
        have hb := (pubLang_ok i).pos xs n hf
        rw [Nat.mod_eq_of_lt (by omega)]
        exact ih _ _ (by rw [List.length_drop]; omega)

/-- Reading from connection `k`, when the bytes do not come near the end of the ring: the control messages among those taken in
are handed to the application. -/
theorem read_ctl {c c' : PubCtx} {pops : List POp} {L : List Nat} {r k : Nat} (h : Good c pops L) (hk : Connected c k)
    (hw : WF (c.cv.conns k).readBuf) (hsz : (c.cv.conns k).readBuf.size = RMC_MAX_PACKET) {xs : List UInt8}
    (hx : xs ≠ []) (hlen : xs.length ≤ available (c.cv.conns k).readBuf) (hr : r ≠ EPROTO)
    (hcb : c.ctlCb = some true) (hlow : (c.cv.conns k).readBuf.start + inUse (c.cv.conns k).readBuf + xs.length + 5 ≤ RMC_MAX_PACKET)
    {ms : List (List UInt8)} (hm : ∀ m ∈ ms, IsMsg m) {ys : List UInt8}
    (he : bytes (c.cv.conns k).readBuf ++ xs ++ ys = ms.flatten)
    (hs : step c (.read k (some xs)) = .ok (r, c')) :
    ∃ ms1 ms2, ms = ms1 ++ ms2 ∧ bytes (c'.cv.conns k).readBuf ++ ys = ms2.flatten ∧
      c'.log = c.log ++ (ms1.filterMap ctlOf).map (CEv.ctl k) := by
  have hkL : k ∈ L := h.connected.1 hk
  obtain ⟨ms1, ms2, e1, e2, e3, e4⟩ := Lang.prefix_split (pubLang_ok k) ms (bytes (c.cv.conns k).readBuf ++ xs) ys
    (fun m hm' more => pubFrame_msg (hm m hm') more) he
  have hs' : readConn c k (some xs) = .ok (r, c') := hs
  have hsz' : (c.cv.conns k).readBuf.size ≤ 65536 := by rw [hsz]; decide
  have hlow' : (c.cv.conns k).readBuf.start + (bytes (c.cv.conns k).readBuf ++ xs).length + 5 ≤ (c.cv.conns k).readBuf.size := by
    rw [List.length_append, length_bytes, hsz]; omega
  have key := readConn_lang h hkL hw (by rw [hsz]; decide) hx hlen (read_safe h hkL hw hsz' hx hlen hs' hr) (safe_low _ _ _ hlow')
  rw [e2] at key
  cases hd : effects (pubLang k) c ms1 with
  | error f => rw [hd] at key; dsimp only at key; rw [key] at hs'; cases hs'
  | ok d =>
    rw [hd] at key
    dsimp only at key
    obtain ⟨b', k1, k2, k3, k4, k5⟩ := key
    rw [k1] at hs'
    have ec : d.withCv (afterRead c k b') = c' := congrArg Prod.snd (Except.ok.inj hs')
    have hrb : (c'.cv.conns k).readBuf = b' := by rw [← ec]; exact afterRead_self c k b'
    refine ⟨ms1, ms2, e1, by rw [hrb, k4]; exact e3, ?_⟩
    rw [← ec]
    show d.log = _
    exact effects_ctl ms1 h hcb (fun m hm' => hm m (by rw [e1]; exact List.mem_append_left _ hm')) hd

end PubCtx

namespace Sys
open PLog CircBuf ConnVec Proto
open PubCtx (ctlHeard ctlOf ctlHeard_none ctlHeard_append ctlHeard_map)

theorem sub_messages {E : Env} {n : Nat} {s t : Sys} (h : Inv E n s) {op : SubCtx.Op} (ht : next E s (.sub op) = some t) :
    t.pub = s.pub ∧ t.acc = s.acc ∧ t.err = s.err ∧ (SubCtx.Up t.sub E.slot → s.err = false →
      (SubCtx.Up s.sub E.slot ∧ ∃ ms, SubCtx.messagesAt E.slot t.sub.log = SubCtx.messagesAt E.slot s.sub.log ++ ms ∧
        toPub E t = toPub E s ++ ms.flatten) ∨
      (¬ SubCtx.Up s.sub E.slot ∧ toPub E t = (SubCtx.messagesAt E.slot t.sub.log).flatten)) ∧
    (SubCtx.Up s.sub E.slot → SubCtx.Up t.sub E.slot) := by
  unfold next at ht
  dsimp only at ht
  split at ht
  case isFalse => cases ht
  rename_i hok
  cases hx : SubCtx.step s.sub op with
  | error f => rw [hx] at ht; cases ht
  | ok x =>
    obtain ⟨r, c⟩ := x
    rw [hx] at ht
    dsimp only at ht
    split at ht
    case isFalse => cases ht
    rename_i hlive
    cases ht
    obtain ⟨sops, hsr⟩ := h.sub
    have hsr' := hsr.snoc hx
    have hl := hok.1
    obtain ⟨es, kept, harr⟩ := SubCtx.step_link hsr.inv hx
      (by rintro rv ts rfl; simp [leavesSub] at hl) (by rintro rfl; simp [leavesSub] at hl) h.live hlive
    have hdrop : c.log.drop s.sub.log.length = es := by rw [kept.log, List.drop_left]
    refine ⟨rfl, rfl, rfl, ?_, ?_⟩
    · intro hu' her
      have st' := SubCtx.C38_stream hsr' hu'
      have tp : toPub E { s with sub := c, up := s.up ++ SubCtx.outs E.slot (c.log.drop s.sub.log.length) } =
        rbytes s ++ (s.up ++ SubCtx.outs E.slot es) ++ bytes (c.cv.conns E.slot).writeBuf := by
        rw [hdrop]; rfl
      rw [tp]
      cases kept.ph with
      | up hu _ hn =>
        refine .inl ⟨hu, ?_⟩
        have st := SubCtx.C38_stream hsr hu
        obtain ⟨ms, q1⟩ := SubCtx.messages_up (log := s.sub.log) hn
        have q2 := SubCtx.bytesOut_up (log := s.sub.log) hn
        rw [← kept.log] at q1 q2
        rw [q1, q2, List.flatten_append, ← st, List.append_assoc, List.append_assoc] at st'
        have st2 := List.append_cancel_left st'
        refine ⟨ms, q1, ?_⟩
        unfold toPub
        simp only [List.append_assoc]
        rw [st2]
      | waiting _ hu _ => exact absurd hu' hu
      | done hu _ e1 e2 he g1 g2 =>
        refine .inr ⟨hu, ?_⟩
        have q2 := SubCtx.bytesOut_done (log := s.sub.log) g1 g2
        rw [← he, ← kept.log] at q2
        rw [(h.idle her hu).1, (h.idle her hu).2]
        show [] ++ ([] ++ SubCtx.outs E.slot es) ++ bytes (c.cv.conns E.slot).writeBuf = (SubCtx.messagesAt E.slot c.log).flatten
        rw [← st', q2]
        rfl
    · intro hu
      cases kept.ph with
      | up _ hu _ => exact hu
      | waiting h' _ _ => exact absurd hu h'
      | done _ hu _ _ _ _ _ => exact hu

theorem subRead_messages {E : Env} {n : Nat} {s t : Sys} (h : Inv E n s) {m : Nat} {ts : Int} (ht : next E s (.subRead m ts) = some t) :
    t.pub = s.pub ∧ t.acc = s.acc ∧ t.err = s.err ∧ SubCtx.Up s.sub E.slot ∧
    SubCtx.messagesAt E.slot t.sub.log = SubCtx.messagesAt E.slot s.sub.log ∧ toPub E t = toPub E s := by
  unfold next at ht
  dsimp only at ht
  split at ht
  case isFalse => cases ht
  rename_i hok
  cases hx : SubCtx.step s.sub (.read E.slot (some (s.down.take m)) ts) with
  | error f => rw [hx] at ht; cases ht
  | ok x =>
    obtain ⟨r, c⟩ := x
    rw [hx] at ht
    dsimp only at ht
    by_cases hup' : SubCtx.Up c E.slot
    case neg => rw [if_neg hup'] at ht; cases ht
    rw [if_pos hup'] at ht
    cases ht
    obtain ⟨hu, hm0, hm1, hm2⟩ := hok
    obtain ⟨ops, h1, h2, h3⟩ := h.pub
    obtain ⟨sops, hsr⟩ := h.sub
    obtain ⟨ps, d1, d2, d3⟩ := h.down
    have hlen : (s.down.take m).length = m := by rw [List.length_take]; omega
    obtain ⟨hdr, hhdr⟩ : ∃ f : Nat × Payload → PacketHeader × List UInt8,
      f = fun x => (⟨x.1, s.pub.nodeId, x.2.data.length, s.pub.listenIp, s.pub.listenPort⟩, x.2.data) := ⟨_, rfl⟩
    have hwf : SubCtx.WellFormed (ps.map hdr) := by
      intro y hy
      obtain ⟨x, hx', rfl⟩ := List.mem_map.1 hy
      have := PubCtx.queued_ok h1 h2 (PubCtx.sent_queued h1 (d1 x hx').1)
      have e : RMC_MAX_PAYLOAD = 65312 := rfl
      rw [hhdr]
      exact ⟨⟨by show x.1 < U64; omega, h.ids.1, by show x.2.data.length < 65536; omega, h.ids.2.1, h.ids.2.2.1⟩, rfl⟩
    have hfr : ∀ qs : List (Nat × Payload), (qs.map hdr).map (fun p => SubCtx.frameOf p.1 p.2) = qs.map (frame s.pub) := by
      intro qs; rw [List.map_map]; rw [hhdr]; rfl
    obtain ⟨f1, f2, es, l1, l2, l3, l4, l5, l6, l7, l8, l9, l10, l11⟩ := SubCtx.read_link hsr.inv hu h.srb.1 h.srb.2 (xs := s.down.take m)
      (by intro e; rw [e] at hlen; simp at hlen; omega) (by rw [hlen]; exact hm2) hup' hwf
      (ys := s.down.drop m ++ wbytes s) (by
        rw [hfr, ← d2]; unfold toSub
        rw [List.append_assoc, ← List.append_assoc (s.down.take m), List.take_append_drop, List.append_assoc]) hx
    refine ⟨rfl, rfl, rfl, hu, ?_, ?_⟩
    · show SubCtx.messagesAt E.slot c.log = _
      rw [l9, SubCtx.quietEv_messages l10]
    · show rbytes s ++ s.up ++ bytes (c.cv.conns E.slot).writeBuf = _
      rw [l6]; rfl

/-- At a read of the publisher: its control callback is set, and the bytes do not come near the end of its ring buffer. -/
def calmAt (s : Sys) : SysOp → Prop
  | .pubRead m => s.pub.ctlCb = some true ∧
      ∀ k, s.acc = some k → (s.pub.cv.conns k).readBuf.start + inUse (s.pub.cv.conns k).readBuf + m + 5 ≤ RMC_MAX_PACKET
  | _ => True

/-- What has been handed over (since the publisher's log had `n0` events) and what is on its way are, together, what was put on
the connection. -/
structure Told (E : Env) (n0 : Nat) (s : Sys) : Prop where
  le : s.acc ≠ none → n0 ≤ s.pub.log.length
  up : s.err = false → SubCtx.Up s.sub E.slot → ∃ m1 m2, SubCtx.messagesAt E.slot s.sub.log = m1 ++ m2 ∧ toPub E s = m2.flatten ∧
    (s.acc = none → m1 = []) ∧ ∀ k, s.acc = some k → ctlHeard k (s.pub.log.drop n0) = m1.filterMap ctlOf
  idle : s.err = false → ¬ SubCtx.Up s.sub E.slot → ∀ k, s.acc = some k → ctlHeard k (s.pub.log.drop n0) = []

theorem Told.start {E : Env} {n : Nat} {s : Sys} (h : Start E n s) : Told E 0 s := by
  have hup : ¬ SubCtx.Up s.sub E.slot := by
    rintro ⟨_, h2⟩; rw [h.slot.2] at h2; cases h2
  refine ⟨fun _ => Nat.zero_le _, fun _ hu => absurd hu hup, fun _ _ k hk => ?_⟩
  rw [h.acc] at hk; cases hk

theorem Told.subStep {E : Env} {n n0 : Nat} {s t : Sys} (h : Inv E n s) (hj : Told E n0 s) {op : SubCtx.Op}
    (ht : next E s (.sub op) = some t) : Told E n0 t := by
  obtain ⟨e1, e2, e3, e4, e5⟩ := sub_messages h ht
  refine ⟨by rw [e1, e2]; exact hj.le, ?_, ?_⟩
  · intro her hu
    rw [e3] at her
    rcases e4 hu her with ⟨hu', ms, q1, q2⟩ | ⟨hu', q1⟩
    · obtain ⟨m1, m2, a1, a2, a3, a4⟩ := hj.up her hu'
      refine ⟨m1, m2 ++ ms, by rw [q1, a1, List.append_assoc], by rw [q2, a2, List.flatten_append], ?_, ?_⟩
      · rw [e2]; exact a3
      · rw [e1, e2]; exact a4
    · refine ⟨[], _, rfl, q1, fun _ => rfl, ?_⟩
      rw [e1, e2]
      exact hj.idle her hu'
  · intro her hu k hk
    rw [e3] at her
    rw [e2] at hk
    rw [e1]
    exact hj.idle her (fun hu' => hu (e5 hu')) k hk

theorem Told.subReadStep {E : Env} {n n0 : Nat} {s t : Sys} (h : Inv E n s) (hj : Told E n0 s) {m : Nat} {ts : Int}
    (ht : next E s (.subRead m ts) = some t) (hu : SubCtx.Up t.sub E.slot) : Told E n0 t := by
  obtain ⟨e1, e2, e3, e4, e5, e6⟩ := subRead_messages h ht
  refine ⟨by rw [e1, e2]; exact hj.le, ?_, fun _ hn => absurd hu hn⟩
  intro her _
  rw [e3] at her
  rw [e1, e2, e5, e6]
  exact hj.up her e4

theorem Told.pubStep {E : Env} {n n0 : Nat} {s t : Sys} (h : Inv E n s) (hj : Told E n0 s) (hb : n + 2 < U64) {op : PubCtx.Op}
    (ht : next E s (.pub op) = some t) : Told E n0 t := by
  unfold next at ht
  dsimp only at ht
  split at ht
  case isFalse => cases ht
  rename_i hok
  cases hx : PubCtx.step s.pub op with
  | error f => rw [hx] at ht; cases ht
  | ok x =>
    obtain ⟨r, p⟩ := x
    rw [hx] at ht
    dsimp only at ht
    cases ht
    obtain ⟨ops, h1, h2, h3⟩ := h.pub
    obtain ⟨pops, L, g, hq, hb', _⟩ := h1.good
    have hs := PubCtx.callOk_sane hok.1
    obtain ⟨ds, l1, l2⟩ := PubCtx.step_ctl g hs (by omega) hx
    have hrb : rbytes { s with pub := p, down := s.down ++ sentDown s p } = rbytes s := by
      unfold rbytes
      dsimp only
      cases he : s.acc with
      | none => rfl
      | some k =>
        have hl := hok.2
        rw [he] at hl
        obtain ⟨ds', qs, kept⟩ := PubCtx.step_link g hs (by omega) hx (h.acc k he).1
          (by rintro rv rfl; simp [leaves] at hl) (by rintro rfl; simp [leaves] at hl) (by rintro rfl; simp [leaves] at hl)
        dsimp only
        rw [kept.rb]
    have hear : ∀ k, s.acc = some k → ctlHeard k (p.log.drop n0) = ctlHeard k (s.pub.log.drop n0) := by
      intro k hk
      have := hj.le (by rw [hk]; simp)
      rw [l1, List.drop_append_of_le_length this, ctlHeard_append, ctlHeard_none (ds := ds), List.append_nil]
      intro bs hm
      obtain ⟨rv, rfl⟩ := l2 k bs hm
      have hl := hok.2
      rw [hk] at hl
      simp [leaves] at hl
    refine ⟨?_, ?_, ?_⟩
    · intro hn
      have := hj.le hn
      show n0 ≤ p.log.length
      rw [l1, List.length_append]; omega
    · intro her hu
      obtain ⟨m1, m2, a1, a2, a3, a4⟩ := hj.up her hu
      refine ⟨m1, m2, a1, ?_, a3, ?_⟩
      · unfold toPub at a2 ⊢; rw [hrb]; exact a2
      · intro k hk
        show ctlHeard k (p.log.drop n0) = _
        rw [hear k hk]; exact a4 k hk
    · intro her hu k hk
      show ctlHeard k (p.log.drop n0) = _
      rw [hear k hk]; exact hj.idle her hu k hk

theorem Told.acceptStep {E : Env} {n n0 : Nat} {s t : Sys} (h : Inv E n s) (hj : Told E n0 s) {k : Nat} {ar : ConnVec.AccRes}
    {cb : Option Bool} (ht : next E s (.accept k ar cb) = some t) : t.acc = some k ∧ Told E t.pub.log.length t := by
  unfold next at ht
  dsimp only at ht
  split at ht
  case isFalse => cases ht
  rename_i hok
  cases hx : PubCtx.step s.pub (.readListen ar cb) with
  | error f => rw [hx] at ht; cases ht
  | ok x =>
    obtain ⟨r, p⟩ := x
    rw [hx] at ht
    dsimp only at ht
    split at ht
    case isFalse => cases ht
    rename_i hcon
    cases ht
    obtain ⟨ops, h1, h2, h3⟩ := h.pub
    obtain ⟨pops, L, g, hq, hb', _⟩ := h1.good
    obtain ⟨fr, _, _⟩ := PubCtx.accept_link g (PubCtx.callOk_sane hok.2.1) hx hok.2.2 hcon
    have hrb : rbytes { s with pub := p, acc := some k } = rbytes s := by
      unfold rbytes
      rw [hok.1]
      exact fr.rb
    refine ⟨rfl, fun _ => Nat.le_refl _, ?_, ?_⟩
    · intro her hu
      obtain ⟨m1, m2, a1, a2, a3, a4⟩ := hj.up her hu
      refine ⟨m1, m2, a1, ?_, fun _ => a3 hok.1, ?_⟩
      · unfold toPub at a2 ⊢; rw [hrb]; exact a2
      · intro j hj'
        rw [List.drop_length, a3 hok.1]; rfl
    · intro her hu j hj'
      rw [List.drop_length]; rfl

theorem Told.pubReadStep {E : Env} {n n0 : Nat} {s t : Sys} (h : Inv E n s) (hj : Told E n0 s) (hb : n + 2 < U64) {m : Nat}
    (hc : calmAt s (.pubRead m)) (ht : next E s (.pubRead m) = some t) : Told E n0 t := by
  unfold next at ht
  dsimp only at ht
  split at ht
  · cases ht
  rename_i k hacc
  split at ht
  case isFalse => cases ht
  rename_i hok
  cases hx : PubCtx.step s.pub (.read k (some (s.up.take m))) with
  | error f => rw [hx] at ht; cases ht
  | ok x =>
    obtain ⟨r, p⟩ := x
    rw [hx] at ht
    dsimp only at ht
    by_cases hcon : PubCtx.Connected p k
    case neg => rw [if_neg hcon] at ht; cases ht
    rw [if_pos hcon] at ht
    have ht' := Option.some.inj ht
    clear ht
    obtain ⟨ops, h1, h2, h3⟩ := h.pub
    obtain ⟨pops, L, g, hq, hb', _⟩ := h1.good
    obtain ⟨sops, hsr⟩ := h.sub
    obtain ⟨a1, a2⟩ := h.acc k hacc
    obtain ⟨ds, l1, _⟩ := PubCtx.step_ctl g (op := .read k (some (s.up.take m))) trivial (by omega) hx
    have e1 : t.pub = p := by rw [← ht']
    have e2 : t.sub = s.sub := by rw [← ht']
    have e3 : t.acc = s.acc := by rw [← ht']
    have hle := hj.le (by rw [hacc]; simp)
    have hcases : t.err = false → s.err = false ∧ r ≠ EPROTO := by
      rw [← ht']
      show (s.err || decide (r = EPROTO)) = false → _
      cases s.err <;> by_cases hr : r = EPROTO <;> simp [hr]
    have hup : s.err = false → SubCtx.Up s.sub E.slot := by
      intro her
      apply Decidable.byContradiction
      intro hn
      have := (h.idle her hn).2
      rw [this] at hok
      simp at hok
      omega
    refine ⟨?_, ?_, ?_⟩
    · intro _; rw [e1, l1, List.length_append]; omega
    · intro te hu
      obtain ⟨her, hr⟩ := hcases te
      rw [e2] at hu
      obtain ⟨a2, a3⟩ := a2 her
      obtain ⟨m1, m2, b1, b2, b3, b4⟩ := hj.up her hu
      have hmsg := SubCtx.messages_ok hsr hu (h.valid hu)
      have hlen : (s.up.take m).length = m := by rw [List.length_take]; omega
      obtain ⟨ms1, ms2, c1, c2, c3⟩ := PubCtx.read_ctl g a1 a2 a3 (xs := s.up.take m)
        (by intro e; rw [e] at hlen; simp at hlen; omega) (by rw [hlen]; exact hok.2.2) hr hc.1 (by rw [hlen]; exact hc.2 k hacc)
        (ms := m2) (fun x hx => (hmsg x (by rw [b1]; exact List.mem_append_right _ hx)).1)
        (ys := s.up.drop m ++ bytes (s.sub.cv.conns E.slot).writeBuf)
        (by
          rw [← b2]; unfold toPub rbytes; rw [hacc]; dsimp only
          rw [List.append_assoc, ← List.append_assoc (s.up.take m), List.take_append_drop, List.append_assoc]) hx
      refine ⟨m1 ++ ms1, ms2, by rw [e2, List.append_assoc, ← c1]; exact b1, ?_, ?_, ?_⟩
      · rw [← c2, ← ht']
        unfold toPub rbytes
        dsimp only
        rw [hacc]
        dsimp only
        rw [List.append_assoc]
      · rw [e3, hacc]; intro hn; cases hn
      · intro j hj'
        rw [e3, hacc] at hj'
        cases hj'
        rw [e1, c3, List.drop_append_of_le_length hle, ctlHeard_append, ctlHeard_map, b4 k hacc, List.filterMap_append]
    · intro te hu
      obtain ⟨her, hr⟩ := hcases te
      rw [e2] at hu
      exact absurd (hup her) hu

/-- The invariant along a calm history in which the connection is not accepted. -/
theorem Told.step {E : Env} {n n0 : Nat} {s t : Sys} (h : Inv E n s) (hj : Told E n0 s) {op : SysOp} (hb : n + calls [op] + 1 < U64)
    (hc : calmAt s op) (ht : next E s op = some t) : Told E n0 t ∨ (s.acc = none ∧ Told E t.pub.log.length t) := by
  cases op with
  | pub op => exact .inl (hj.pubStep h hb ht)
  | accept k ar cb =>
    refine .inr ⟨?_, (hj.acceptStep h ht).2⟩
    unfold next at ht
    dsimp only at ht
    split at ht
    · rename_i hok; exact hok.1
    · cases ht
  | pubRead m => exact .inl (hj.pubReadStep h hb hc ht)
  | sub op => exact .inl (hj.subStep h ht)
  | subRead m ts =>
    refine .inl (hj.subReadStep h ht ?_)
    unfold next at ht
    dsimp only at ht
    split at ht
    · split at ht
      · split at ht
        · rename_i hu; cases ht; exact hu
        · cases ht
      · cases ht
    · cases ht

end Sys
end Rmc
