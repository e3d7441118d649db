import Verif.PubCtxFaults

/-! # What the history says about send times, announcements and datagrams of a publisher context -/

set_option linter.unusedSimpArgs false
set_option linter.unusedVariables false

namespace Rmc
namespace PubCtx
open CircBuf Proto

/-! ## Send times -/

theorem relax_ts {k : Nat} {p : Nat → Bool} {r s : Sent} (h : PSpec.relax k p r = some s) : s.ts = r.ts := by
  unfold PSpec.relax at h
  split at h
  · split at h
    · cases h
    · cases h; rfl
  · cases h; rfl

theorem filterMap_relax_ts (k : Nat) (p : Nat → Bool) (l : List Sent) :
    ((l.filterMap (PSpec.relax k p)).map (·.ts)).Sublist (l.map (·.ts)) := by
  induction l with
  | nil => exact List.nil_sublist _
  | cons r l ih =>
    rw [List.filterMap_cons, List.map_cons]
    cases h : PSpec.relax k p r with
    | none => exact ih.trans (List.sublist_cons_self _ _)
    | some s =>
      dsimp only
      rw [List.map_cons, relax_ts h]
      exact ih.cons_cons _

/-- The send times of the packets in flight, oldest first, are among the times of the history, in order. -/
theorem infl_ts_sublist : ∀ (n : Nat) (pops : List POp), pops.length = n →
    ((spec pops).infl.map (·.ts)).Sublist (sendTs pops) := by
  intro n
  induction n with
  | zero =>
    intro pops h
    have : pops = [] := List.length_eq_zero_iff.mp h
    subst this; exact List.nil_sublist _
  | succ n ih =>
    intro pops h
    obtain ⟨ys, y, rfl⟩ : ∃ ys y, pops = ys ++ [y] := by
      rcases List.eq_nil_or_concat pops with e | ⟨ys, y, e⟩
      · subst e; cases h
      · exact ⟨ys, y, by simpa using e⟩
    have hys := ih ys (by simpa using h)
    rw [sendTs_append]
    unfold spec at hys ⊢
    rw [PSpec.run_snoc]
    have base : ((PSpec.init.run ys).infl.map (·.ts)).Sublist (sendTs ys ++ sendTs [y]) :=
      hys.trans (List.sublist_append_left _ _)
    cases y with
    | connect k => exact base
    | queue p => exact base
    | announce p => exact base
    | ack k pid => exact (filterMap_relax_ts _ _ _).trans base
    | close k => exact (filterMap_relax_ts _ _ _).trans base
    | send ts =>
      unfold PSpec.step
      dsimp only
      split
      · exact base
      · rw [List.map_append]
        exact hys.append (List.Sublist.refl _)
      · exact base

/-- The times of the packets subscriber `k` owes. -/
theorem owed_ts {s : Pub} {pops : List POp} (h : PGood s pops) (k : Nat) :
    ((s.owedPkts k).map (·.2.2)).Sublist (sendTs pops) := by
  rw [owedPkts_eq h.reached.rel, List.map_map]
  exact (List.filter_sublist.map _).trans (infl_ts_sublist _ pops rfl)

/-- Specification: the clock never runs backwards between successful sends of the history. -/
def Monotone (ops : List Op) : Prop := (ops.flatMap opTimes).Pairwise (· ≤ ·)

theorem owed_sorted {ops : List Op} {c : PubCtx} (h : Reaches ops c) (hm : Monotone ops) (k : Nat) :
    ((c.pub.owedPkts k).map (·.2.2)).Pairwise (· ≤ ·) := by
  obtain ⟨pops, L, g, _, _, hs⟩ := h.good
  exact hm.sublist ((owed_ts g.p k).trans hs)

/-! ## Announcements -/

/-- One event's effect on the announce interval and the next deadline. -/
def annStep (st : Nat × Option Int) (e : CEv) : Nat × Option Int :=
  match e with
  | .setAnnounce now n => if n = 0 then (0, none) else (n, some (st.2.getD (now + n)))
  | .announce now _ => (st.1, some (now + st.1))
  | _ => st

/-- Specification: the announce interval (0: no announcements) and the time the next announcement is due, from the calls
of rmc_pub_set_announce_interval and the announcements made so far. -/
def annSpec (log : List CEv) : Nat × Option Int := log.foldl annStep (0, none)

theorem annSpec_append (l m : List CEv) : annSpec (l ++ m) = m.foldl annStep (annSpec l) := by
  unfold annSpec; rw [List.foldl_append]

theorem annSpec_other {l m : List CEv} (h : ∀ e ∈ m, (∀ a b, e ≠ .setAnnounce a b) ∧ ∀ a b, e ≠ .announce a b) :
    annSpec (l ++ m) = annSpec l := by
  rw [annSpec_append]
  generalize annSpec l = s
  induction m generalizing s with
  | nil => rfl
  | cons e m ih =>
    rw [List.foldl_cons]
    have he := h e (by simp)
    refine Eq.trans ?_ (ih (fun x hx => h x (by simp [hx])) s)
    cases e <;> first | rfl | exact absurd rfl (he.1 _ _) | exact absurd rfl (he.2 _ _)

/-- Specification: the clock values the history shows to the announcement timer are not negative. -/
def clockOk : Op → Prop
  | .setAnnounce _ now => 0 ≤ now
  | .timeout now _ _ => 0 ≤ now
  | _ => True

/-- The timer fields agree with the history of announcements. -/
def AnnInv (c : PubCtx) : Prop :=
  (annSpec c.log).1 = c.annInterval ∧
  (match (annSpec c.log).2 with
   | none => c.annInterval = 0 ∧ c.annNext = 0
   | some d => c.annInterval ≠ 0 ∧ c.annNext = d ∧ 0 < d)

theorem AnnInv.same {c c' : PubCtx} (h : AnnInv c) (e1 : annSpec c'.log = annSpec c.log)
    (e2 : c'.annInterval = c.annInterval) (e3 : c'.annNext = c.annNext) : AnnInv c' := by
  unfold AnnInv at h ⊢; rw [e1, e2, e3]; exact h

theorem AnnInv.cfg {c c' : PubCtx} (h : AnnInv c) (e1 : annSpec c'.log = annSpec c.log) (e2 : cfg c' = cfg c) : AnnInv c' :=
  h.same e1 (congrArg Cfg.annInterval e2) (congrArg Cfg.annNext e2)

theorem AnnInv.due {c : PubCtx} (h : AnnInv c) (now : Int) :
    annDue c now ↔ ∃ d, (annSpec c.log).2 = some d ∧ d ≤ now := by
  unfold AnnInv at h
  unfold annDue
  cases hs : (annSpec c.log).2 with
  | none => rw [hs] at h; simp [h.2.1]
  | some d =>
    rw [hs] at h
    obtain ⟨_, h1, h2, h3⟩ := h
    rw [h2]
    constructor
    · intro ⟨_, _, h⟩; exact ⟨d, rfl, h⟩
    · intro ⟨d', e, h⟩; cases e; exact ⟨h1, by omega, h⟩

theorem sends_no_ann {cf : Cfg} {ys : List POp} {es : List PEv} {ds : List CEv} (h : Sends cf ys es ds) :
    ∀ d ∈ ds, ∃ bs, d = .datagram bs := by
  induction h with
  | nil => simp
  | snoc h pid p ts stack hp hl ih =>
    intro d hd
    rcases List.mem_append.mp hd with hd | hd
    · exact ih d hd
    · exact ⟨_, List.mem_singleton.mp hd⟩

/-- Every call keeps the timer in step with the history. -/
theorem ann_step {c c' : PubCtx} {pops : List POp} {L : List Nat} {op : Op} {r : Nat} (h : Good c pops L) (hs : op.sane)
    (hb : (queueArgs pops).length + 2 < U64) (hk : clockOk op) (ha : AnnInv c) (hx : step c op = .ok (r, c')) : AnnInv c' := by
  cases op with
  | queue p ann =>
    have hx' : queuePacket c p ann = .ok (r, c') := hx
    rcases queue_cases h p ann hb with ⟨_, e⟩ | ⟨_, _, e⟩ | ⟨_, _, s', h1, h2, h3, e⟩ <;> rw [e] at hx' <;> cases hx'
    · exact ha
    · exact ha
    · exact ha.same rfl rfl rfl
  | readListen ar cb =>
    obtain ⟨r', c'', ys, L', ds, g1, g2, g3, _, g4, g5, _⟩ := readListen_spec h hs cb
    have : step c (.readListen ar cb) = .ok (r', c'') := g1
    rw [this] at hx; cases hx
    refine ha.cfg ?_ g3
    rw [g4]
    apply annSpec_other
    intro e he
    obtain ⟨i, e2 | e2 | e2⟩ := g5 e he <;> rw [e2] <;> simp
  | readMcast err =>
    have hx' : readMcast c err = (r, c') := Except.ok.inj hx
    unfold readMcast at hx'
    split at hx'
    · cases hx'; exact ha
    · split at hx' <;> cases hx' <;> exact ha.same rfl rfl rfl
  | read i rv =>
    rcases readConn_spec h hx with ⟨_, _, e⟩ | ⟨_, c1, ys, zs, ds, L', hst, hy, g, hcf, hss, _, hds, hds2, _, hz⟩
    · subst e; exact ha
    · refine ha.cfg ?_ ?_
      · rw [hds]
        apply annSpec_other
        intro e he
        rcases hds2 e he with ⟨bs, e2⟩ | e2 <;> rw [e2] <;> simp
      · first | exact hcf | exact hcf.trans hst.cfg | skip
  | writeMcast rs =>
    obtain ⟨r', c'', ys, es, ds, g1, g2, g3, _, g4, _, g5, _, g6⟩ := multicastWrite_spec rs h
    have : step c (.writeMcast rs) = .ok (r', c'') := g1
    rw [this] at hx; cases hx
    refine ha.cfg ?_ g3
    rw [g5]
    apply annSpec_other
    intro e he
    obtain ⟨bs, e2⟩ := sends_no_ann g4 e he
    rw [e2]; simp
  | write i wv =>
    have hx' : writeConn c i wv = .ok (r, c') := hx
    rcases writeConn_spec h i wv with ⟨_, e | e⟩ | ⟨_, _, e⟩ | ⟨_, _, r', c'', out, e, g, g3, _, _, g2, _⟩ <;> rw [e] at hx' <;>
      cases hx'
    · exact ha
    · exact ha
    · exact ha
    · refine ha.cfg ?_ g3
      rw [g2]
      apply annSpec_other
      intro e he
      rw [List.mem_singleton.mp he]; simp
  | timeout now cb sp =>
    have hx' : timeoutProcess c now cb sp = .ok (r, c') := hx
    by_cases hd : annDue c now
    · obtain ⟨c'', e, g0, g1, g2, _⟩ := timeout_announce h hd cb sp hb
      rw [e] at hx'; cases hx'
      have hk' : 0 ≤ now := hk
      have e2 : annSpec (c.log ++ [.announce now c.annInterval]) = (c.annInterval, some (now + c.annInterval)) := by
        rw [annSpec_append, ← ha.1]; rfl
      have := hd.1
      unfold AnnInv
      rw [g0, e2, g1, g2]
      exact ⟨rfl, hd.1, rfl, by omega⟩
    · have ht := timeout_resend h hd hx'
      obtain ⟨_, ys, g1, g2, g3, _⟩ := subscribersTimeout_spec _ ((subs_nodup h).filter _)
        (fun k hk => (h.slots k).2 (List.mem_filter.mp hk).1) h ht
      exact ha.cfg (by rw [g3]) g2.cfg
  | close i =>
    have hx' : closeConnection c i = .ok (r, c') := hx
    by_cases hi : i ∈ L
    · obtain ⟨c'', e, g, g3, _, g2, _⟩ := close_spec h hi
      rw [e] at hx'; cases hx'
      refine ha.cfg ?_ g3
      rw [g2]
      apply annSpec_other
      intro e he
      rw [List.mem_singleton.mp he]; simp
    · rw [close_none h hi] at hx'; cases hx'
      exact ha
  | setAnnounce n now =>
    cases hx
    have hk' : 0 ≤ now := hk
    unfold AnnInv setAnnounceInterval ev
    dsimp only
    rw [annSpec_append]
    obtain ⟨ha1, ha2⟩ := ha
    by_cases hn : n = 0
    · subst hn; simp [annStep]
    · simp only [List.foldl_cons, List.foldl_nil, annStep, if_neg hn]
      refine ⟨trivial, hn, ?_⟩
      cases hs : (annSpec c.log).2 with
      | none =>
        rw [hs] at ha2
        rw [if_pos ⟨hn, ha2.2⟩]
        exact ⟨rfl, by show 0 < now + (n : Int); omega⟩
      | some d =>
        rw [hs] at ha2
        rw [if_neg (by intro h; have := ha2.2; omega)]
        exact ⟨ha2.2.1, ha2.2.2⟩
  | throttling a b =>
    have hx' : throttling c a b = (r, c') := Except.ok.inj hx
    unfold throttling at hx'
    split at hx' <;> cases hx'
    · exact ha
    · exact ha.same rfl rfl rfl
  | setCtlCb b => cases hx; exact ha.same rfl rfl rfl
  | activate x =>
    have hx' : activate c x = (r, c') := Except.ok.inj hx
    unfold activate at hx'
    split at hx' <;> cases hx' <;> exact ha.same rfl rfl rfl
  | deactivate =>
    obtain ⟨c'', ys, ds, e, g, _, hd, hd2, hy, g2, _⟩ := deactivate_spec h
    have hx' : deactivate c = .ok (r, c') := hx
    rw [e] at hx'; cases hx'
    refine ha.same ?_ (congrArg Cfg.annInterval g2) (congrArg Cfg.annNext g2)
    rw [hd]
    apply annSpec_other
    intro e he
    obtain ⟨i, e2⟩ := hd2 e he
    rw [e2]; simp

/-- Induction over histories. -/
theorem Reaches.induct {P : List Op → PubCtx → Prop}
    (h0 : ∀ mem n nid ip port, n ≤ LISTEN_INDEX → P [] (init mem n nid ip port))
    (hstep : ∀ ops c op r c', Reaches ops c → P ops c → op.sane → ops.length + 2 < U64 → step c op = .ok (r, c') →
      P (ops ++ [op]) c') : ∀ {ops : List Op} {c : PubCtx}, Reaches ops c → P ops c := by
  suffices ∀ (n : Nat) (ops : List Op) (c : PubCtx), ops.length = n → Reaches ops c → P ops c from
    fun {ops c} h => this ops.length ops c rfl h
  intro n
  induction n with
  | zero =>
    intro ops c hl h
    have : ops = [] := List.length_eq_zero_iff.mp hl
    subst this
    obtain ⟨mem, n, nid, ip, port, rs, h1, _, _, h4⟩ := h
    cases h4
    exact h0 mem n nid ip port h1
  | succ n ih =>
    intro ops c hl h
    obtain ⟨ys, y, rfl⟩ : ∃ ys y, ops = ys ++ [y] := by
      rcases List.eq_nil_or_concat ops with e | ⟨ys, y, e⟩
      · subst e; cases hl
      · exact ⟨ys, y, by simpa using e⟩
    obtain ⟨c1, r, h1, h2, h3, h4⟩ := h.snoc
    exact hstep ys c1 y r c h1 (ih ys c1 (by simpa using hl) h1) h3 h4 h2

theorem Reaches.ann {ops : List Op} {c : PubCtx} (h : Reaches ops c) : (∀ op ∈ ops, clockOk op) → AnnInv c := by
  refine Reaches.induct (P := fun ops c => (∀ op ∈ ops, clockOk op) → AnnInv c) ?_ ?_ h
  · intro mem n nid ip port _ _
    exact ⟨rfl, rfl, rfl⟩
  · intro ops c op r c' h ih hs hb hx hk
    obtain ⟨pops, L, g, hq, _⟩ := h.good
    exact ann_step g hs (by omega) (hk op (by simp)) (ih fun o ho => hk o (by simp [ho])) hx

/-! ## Datagrams -/

/-- Specification: a datagram is the 20 byte header of a packet followed by its payload; for a payload that lies on
a dead stack frame, by as many bytes. -/
def IsDatagram (nodeId ip port : Nat) (x : Nat × Payload) (bs : List UInt8) : Prop :=
  ∃ tail, bs = (PacketHeader.mk x.1 nodeId x.2.data.length ip port).enc ++ tail ∧
    tail.length = x.2.data.length ∧ (x.2.onStack = false → tail = x.2.data)

/-- The packets multicast, announcements included. -/
def sentAll (l : List PEv) : List (Nat × Payload) :=
  l.filterMap fun e => match e with | .send pid p _ => some (pid, p) | _ => none

theorem sentAll_append (l m : List PEv) : sentAll (l ++ m) = sentAll l ++ sentAll m := List.filterMap_append ..

theorem sentAll_freed (k : Nat) (p : Nat → Bool) (l : List Sent) : sentAll (PSpec.freed k p l) = [] := by
  unfold sentAll PSpec.freed
  rw [List.filterMap_filterMap, List.filterMap_eq_nil_iff]
  intro r _
  split <;> rfl

theorem spec_sentAll : ∀ (ys : List POp) (A : PSpec), sendTs ys = [] → sentAll (A.run ys).log = sentAll A.log := by
  intro ys
  induction ys with
  | nil => intro A _; rfl
  | cons y ys ih =>
    intro A h
    have h1 : sendTs ys = [] := by
      unfold sendTs at h ⊢
      rw [List.filterMap_cons] at h
      split at h
      · exact h
      · cases h
    have : sentAll (A.step y).log = sentAll A.log := by
      cases y with
      | send ts => unfold sendTs at h; rw [List.filterMap_cons] at h; cases h
      | connect k => show sentAll (A.log ++ _) = _; rw [sentAll_append]; simp [sentAll]
      | queue k => show sentAll (A.log ++ _) = _; rw [sentAll_append]; simp [sentAll]
      | announce k => show sentAll (A.log ++ _) = _; rw [sentAll_append]; simp [sentAll]
      | ack k pid =>
        show sentAll (A.log ++ [_] ++ PSpec.freed _ _ _) = _
        rw [sentAll_append, sentAll_append, sentAll_freed]; simp [sentAll]
      | close k =>
        show sentAll (A.log ++ [_] ++ PSpec.freed _ _ _) = _
        rw [sentAll_append, sentAll_append, sentAll_freed]; simp [sentAll]
    exact (ih _ h1).trans this

/-- Specification: element by element. -/
def Matches {α β : Type} (R : α → β → Prop) (xs : List α) (ys : List β) : Prop :=
  xs.length = ys.length ∧ ∀ (k : Nat) x y, xs[k]? = some x → ys[k]? = some y → R x y

theorem Matches.snoc {α β : Type} {R : α → β → Prop} {xs : List α} {ys : List β} (h : Matches R xs ys) {x : α} {y : β}
    (hr : R x y) : Matches R (xs ++ [x]) (ys ++ [y]) := by
  refine ⟨by simp [h.1], ?_⟩
  intro k a b h1 h2
  by_cases hk : k < xs.length
  · rw [List.getElem?_append_left hk] at h1
    rw [List.getElem?_append_left (h.1 ▸ hk)] at h2
    exact h.2 k a b h1 h2
  · rw [List.getElem?_append_right (by omega)] at h1
    rw [List.getElem?_append_right (by have := h.1; omega)] at h2
    rw [← h.1] at h2
    cases hd : k - xs.length with
    | zero => rw [hd] at h1 h2; simp at h1 h2; subst h1 h2; exact hr
    | succ n => rw [hd] at h1; simp at h1

theorem wirePayload_spec (p : Payload) (stack : List UInt8) :
    (wirePayload p stack).length = p.data.length ∧ (p.onStack = false → wirePayload p stack = p.data) := by
  unfold wirePayload
  cases h : p.onStack with
  | true => simp
  | false => simp

theorem Sends.matches {cf : Cfg} {ys : List POp} {es : List PEv} {ds : List CEv} (h : Sends cf ys es ds)
    {log : List PEv} {clog : List CEv}
    (hm : Matches (IsDatagram cf.nodeId cf.listenIp cf.listenPort) (sentAll log) (dgrams clog)) :
    Matches (IsDatagram cf.nodeId cf.listenIp cf.listenPort) (sentAll (log ++ es)) (dgrams (clog ++ ds)) := by
  induction h with
  | nil => simpa using hm
  | snoc h pid p ts stack hp hl ih =>
    rw [← List.append_assoc, ← List.append_assoc, sentAll_append, dgrams_append]
    exact ih.snoc ⟨wirePayload p stack, rfl, wirePayload_spec p stack⟩

/-- Specification: the port that a listen socket is bound to is not 0. -/
def portOk : Op → Prop
  | .activate (.ok (_, _, port)) => port ≠ 0
  | _ => True

/-- The datagrams sent are those of the packets multicast. -/
structure DgInv (c : PubCtx) : Prop where
  m : Matches (IsDatagram c.nodeId c.listenIp c.listenPort) (sentAll c.pub.log) (dgrams c.log)
  port : c.mcast ≠ none → c.listenPort ≠ 0
  some : dgrams c.log ≠ [] → c.listenPort ≠ 0

/-- What a call can do to the fields a datagram shows. -/
theorem step_ids {c c' : PubCtx} {pops : List POp} {L : List Nat} {op : Op} {r : Nat} (h : Good c pops L) (hs : op.sane)
    (hb : (queueArgs pops).length + 2 < U64) (hx : step c op = .ok (r, c')) :
    c'.nodeId = c.nodeId ∧ c'.listenIp = c.listenIp ∧
    ((c'.listenPort = c.listenPort ∧ (c'.mcast = c.mcast ∨ c'.mcast = none)) ∨
     ∃ md ld port, op = .activate (.ok (md, ld, port)) ∧
       c'.listenPort = if c.listenPort = 0 then port else c.listenPort) := by
  have same : ∀ {d : PubCtx}, cfg d = cfg c → d.nodeId = c.nodeId ∧ d.listenIp = c.listenIp ∧
    ((d.listenPort = c.listenPort ∧ (d.mcast = c.mcast ∨ d.mcast = none)) ∨
     ∃ md ld port, op = .activate (.ok (md, ld, port)) ∧
       d.listenPort = if c.listenPort = 0 then port else c.listenPort) := fun e =>
    ⟨congrArg Cfg.nodeId e, congrArg Cfg.listenIp e, .inl ⟨congrArg Cfg.listenPort e, .inl (congrArg Cfg.mcast e)⟩⟩
  cases op with
  | queue p ann =>
    have hx' : queuePacket c p ann = .ok (r, c') := hx
    rcases queue_cases h p ann hb with ⟨_, e⟩ | ⟨_, _, e⟩ | ⟨_, _, s', h1, h2, h3, e⟩ <;> rw [e] at hx' <;> cases hx' <;>
      exact same rfl
  | readListen ar cb =>
    obtain ⟨r', c'', ys, L', ds, g1, g2, g3, _, g4, g5, _⟩ := readListen_spec h hs cb
    have : step c (.readListen ar cb) = .ok (r', c'') := g1
    rw [this] at hx; cases hx; exact same g3
  | readMcast err =>
    have hx' : readMcast c err = (r, c') := Except.ok.inj hx
    unfold readMcast at hx'
    split at hx'
    · cases hx'; exact same rfl
    · split at hx' <;> cases hx' <;> exact same rfl
  | read i rv =>
    rcases readConn_spec h hx with ⟨_, _, e⟩ | ⟨_, c1, ys, zs, ds, L', hst, hy, g, hcf, _⟩
    · subst e; exact same rfl
    · exact same hcf
  | writeMcast rs =>
    obtain ⟨r', c'', ys, es, ds, g1, g2, g3, _⟩ := multicastWrite_spec rs h
    have : step c (.writeMcast rs) = .ok (r', c'') := g1
    rw [this] at hx; cases hx; exact same g3
  | write i wv =>
    have hx' : writeConn c i wv = .ok (r, c') := hx
    rcases writeConn_spec h i wv with ⟨_, e | e⟩ | ⟨_, _, e⟩ | ⟨_, _, r', c'', out, e, g, g3, _, _, g2, _⟩ <;> rw [e] at hx' <;>
      cases hx'
    · exact same rfl
    · exact same rfl
    · exact same rfl
    · exact same g3
  | timeout now cb sp =>
    have hx' : timeoutProcess c now cb sp = .ok (r, c') := hx
    by_cases hd : annDue c now
    · have key : ∀ x, timeoutProcess c now cb sp = .ok x →
          x.2.nodeId = c.nodeId ∧ x.2.listenIp = c.listenIp ∧ x.2.listenPort = c.listenPort ∧ x.2.mcast = c.mcast := by
        intro x hx
        unfold timeoutProcess at hx
        rw [if_pos ⟨hd.1, hd.2.1, by have := hd.2.2; omega⟩] at hx
        dsimp only at hx
        split at hx
        · have h' : Good (ev c (.announce now c.annInterval)) pops L := h.congr rfl rfl
          rcases queue_cases h' ⟨sp, (annAnswer cb).2, true⟩ true hb with ⟨_, e⟩ | ⟨_, _, e⟩ | ⟨_, _, s', _, _, _, e⟩ <;>
            rw [e, Pub.ok_bind] at hx <;> cases hx <;> exact ⟨rfl, rfl, rfl, rfl⟩
        · rw [Pub.ok_bind] at hx; cases hx; exact ⟨rfl, rfl, rfl, rfl⟩
      obtain ⟨k1, k2, k3, k4⟩ := key _ hx'
      exact ⟨k1, k2, .inl ⟨k3, .inl k4⟩⟩
    · have ht := timeout_resend h hd hx'
      obtain ⟨_, ys, g1, g2, g3, _⟩ := subscribersTimeout_spec _ ((subs_nodup h).filter _)
        (fun k hk => (h.slots k).2 (List.mem_filter.mp hk).1) h ht
      exact same g2.cfg
  | close i =>
    have hx' : closeConnection c i = .ok (r, c') := hx
    by_cases hi : i ∈ L
    · obtain ⟨c'', e, g, g3, _, g2, _⟩ := close_spec h hi
      rw [e] at hx'; cases hx'; exact same g3
    · rw [close_none h hi] at hx'; cases hx'
      exact same rfl
  | setAnnounce n now => cases hx; exact ⟨rfl, rfl, .inl ⟨rfl, .inl rfl⟩⟩
  | throttling a b =>
    have hx' : throttling c a b = (r, c') := Except.ok.inj hx
    unfold throttling at hx'
    split at hx' <;> cases hx' <;> exact ⟨rfl, rfl, .inl ⟨rfl, .inl rfl⟩⟩
  | setCtlCb b => cases hx; exact ⟨rfl, rfl, .inl ⟨rfl, .inl rfl⟩⟩
  | activate x =>
    have hx' : activate c x = (r, c') := Except.ok.inj hx
    unfold activate at hx'
    split at hx' <;> cases hx'
    · exact ⟨rfl, rfl, .inl ⟨rfl, .inr rfl⟩⟩
    · exact ⟨rfl, rfl, .inr ⟨_, _, _, rfl, rfl⟩⟩
  | deactivate =>
    obtain ⟨c'', ys, ds, e, g, _, hd, hd2, hy, g2, _⟩ := deactivate_spec h
    have hx' : deactivate c = .ok (r, c') := hx
    rw [e] at hx'; cases hx'
    exact ⟨congrArg Cfg.nodeId g2, congrArg Cfg.listenIp g2, .inl ⟨congrArg Cfg.listenPort g2, .inr (congrArg Cfg.mcast g2)⟩⟩

theorem dg_step {c c' : PubCtx} {pops : List POp} {L : List Nat} {op : Op} {r : Nat} (h : Good c pops L) (hs : op.sane)
    (hb : (queueArgs pops).length + 2 < U64) (hp : portOk op) (hd : DgInv c) (hx : step c op = .ok (r, c')) : DgInv c' := by
  obtain ⟨i1, i2, i3⟩ := step_ids h hs hb hx
  obtain ⟨ys, L', g, ls⟩ := step_good h hs hb hx
  obtain ⟨ds, hds, hw⟩ := ls.wire
  -- the port a datagram has shown does not change
  have hport : (c'.mcast ≠ none → c'.listenPort ≠ 0) ∧ (dgrams c.log ≠ [] → c'.listenPort = c.listenPort) ∧
      (c.listenPort ≠ 0 → c'.listenPort ≠ 0) := by
    rcases i3 with ⟨e1, e2 | e2⟩ | ⟨md, ld, port, e1, e2⟩
    · rw [e1, e2]; exact ⟨hd.port, fun _ => rfl, fun h => h⟩
    · rw [e1, e2]; exact ⟨fun h => absurd rfl h, fun _ => rfl, fun h => h⟩
    · subst e1
      rw [e2]
      have hp' : port ≠ 0 := hp
      refine ⟨fun _ => ?_, fun hh => if_neg (hd.some hh), fun hh => ?_⟩
      · split <;> assumption
      · rw [if_neg hh]; exact hh
  have hre : Matches (IsDatagram c'.nodeId c'.listenIp c'.listenPort) (sentAll c.pub.log) (dgrams c.log) := by
    rw [i1, i2]
    by_cases hz : dgrams c.log = []
    · have := hd.m.1
      rw [hz] at this ⊢
      refine ⟨this, ?_⟩
      intro k x y _ hy; simp at hy
    · rw [hport.2.1 hz]; exact hd.m
  have hlog : c'.pub.log = (spec (pops ++ ys)).log := g.p.reached.log
  have hlog0 : c.pub.log = (spec pops).log := h.p.reached.log
  rcases hw with ⟨es, hse, hl⟩ | ⟨h0, h1⟩
  · -- sends
    by_cases hz : ds = []
    · subst hz
      have he : es = [] := by
        generalize hq : ([] : List CEv) = q at hse
        cases hse with
        | nil => rfl
        | snoc => simp at hq
      subst he
      refine ⟨by rw [hl, hds]; simpa using hre, hport.1, fun hh => ?_⟩
      rw [hds, List.append_nil] at hh
      rw [hport.2.1 hh]; exact hd.some hh
    · -- only rmc_pub_write on the multicast socket sends
      have hsame : cfg c' = cfg c ∧ c.mcast ≠ none := by
        cases op with
        | writeMcast rs =>
          obtain ⟨r', c'', ys', es', ds', g1, g2, g3, _, g4, _, g5, _⟩ := multicastWrite_spec rs h
          have : step c (.writeMcast rs) = .ok (r', c'') := g1
          rw [this] at hx; cases hx
          refine ⟨g3, ?_⟩
          intro hm
          have hq : multicastWrite c rs = .ok (0, c) ∨ multicastWrite c rs = .ok (ENOTCONN, c) := by
            cases rs with
            | nil =>
              unfold multicastWrite
              cases Pub.nextQueued c.pub with
              | none => exact .inl rfl
              | some a => right; dsimp only; unfold sendSingle; rw [if_pos hm]
            | cons r rs =>
              unfold multicastWrite
              cases Pub.nextQueued c.pub with
              | none => exact .inl rfl
              | some a =>
                right; dsimp only; unfold sendSingle; rw [if_pos hm, Pub.ok_bind, if_pos (by show ENOTCONN ≠ 0; decide)]; rfl
          have hc : c' = c := by
            rcases hq with hq | hq <;> rw [hq] at g1 <;> cases g1 <;> rfl
          rw [hc] at hds
          have := congrArg List.length hds
          simp at this
          exact hz this
        | _ =>
          have : sendTs ys = [] := List.sublist_nil.mp ls.times
          exfalso
          cases hse with
          | nil => exact hz rfl
          | snoc h pid p ts => rw [sendTs_append] at this; simp [sendTs] at this
      have e1 : c'.listenPort = c.listenPort := congrArg Cfg.listenPort hsame.1
      refine ⟨?_, hport.1, fun _ => by rw [e1]; exact hd.port hsame.2⟩
      rw [hl, hds, i1, i2, e1]
      exact hse.matches (cf := cfg c) hd.m
  · have hsa : sentAll c'.pub.log = sentAll c.pub.log := by
      rw [hlog, hlog0]
      have := spec_sentAll ys (spec pops) h0
      unfold spec at this ⊢
      unfold PSpec.run at this ⊢
      rw [List.foldl_append]
      exact this
    refine ⟨?_, hport.1, ?_⟩
    · rw [hsa, hds, dgrams_append, h1, List.append_nil]; exact hre
    · rw [hds, dgrams_append, h1, List.append_nil]
      intro hh; rw [hport.2.1 hh]; exact hd.some hh

theorem Reaches.dg {ops : List Op} {c : PubCtx} (h : Reaches ops c) : (∀ op ∈ ops, portOk op) → DgInv c := by
  refine Reaches.induct (P := fun ops c => (∀ op ∈ ops, portOk op) → DgInv c) ?_ ?_ h
  · intro mem n nid ip port _ _
    exact ⟨⟨rfl, by intro k x y hx; cases hx⟩, fun h => absurd rfl h, fun h => absurd rfl h⟩
  · intro ops c op r c' h ih hs hb hx hk
    obtain ⟨pops, L, g, hq, _⟩ := h.good
    exact dg_step g hs (by omega) (hk op (by simp)) (ih fun o ho => hk o (by simp [ho])) hx

end PubCtx
end Rmc
