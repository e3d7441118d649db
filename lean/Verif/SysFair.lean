import Verif.SysLive
import Verif.Props.PubCtxCb

/-! # Every call uses up some of the work that is left: a measure for the composed system -/

set_option linter.unusedSimpArgs false
set_option linter.unusedVariables false

namespace Rmc

/-- A list without repetitions weighs no more than one it is included in. -/
theorem sum_subset {α : Type} [DecidableEq α] (f : α → Nat) : ∀ (l m : List α), l.Nodup → (∀ x ∈ l, x ∈ m) →
    (l.map f).sum ≤ (m.map f).sum := by
  intro l
  induction l with
  | nil => intro m _ _; simp
  | cons x l ih =>
    intro m hn hm
    rw [List.nodup_cons] at hn
    have h1 := ih (m.erase x) hn.2 (fun y hy => by
      have : y ≠ x := by rintro rfl; exact hn.1 hy
      exact (List.mem_erase_of_ne this).2 (hm y (by simp [hy])))
    have h2 : (m.map f).sum = f x + ((m.erase x).map f).sum := by
      have := (List.perm_cons_erase (hm x (by simp))).map f
      rw [this.sum_nat]; simp
    rw [h2, List.map_cons, List.sum_cons]; omega

theorem nodup_of_map {α β : Type} {f : α → β} {l : List α} (h : (l.map f).Nodup) : l.Nodup := by
  rw [List.nodup_iff_pairwise_ne, List.pairwise_map] at h
  rw [List.nodup_iff_pairwise_ne]
  exact h.imp fun hne e => hne (by rw [e])

/-- A sublist of the same weight is the whole list. -/
theorem sublist_weight {α : Type} {f : α → Nat} (hf : ∀ x, 0 < f x) : ∀ {l m : List α}, l.Sublist m →
    (l.map f).sum ≤ (m.map f).sum ∧ ((m.map f).sum ≤ (l.map f).sum → l = m) := by
  intro l m h
  induction h with
  | slnil => simp
  | cons a h ih =>
    rw [List.map_cons, List.sum_cons]
    have := hf a
    exact ⟨by omega, fun hle => by omega⟩
  | cons_cons a h ih =>
    rw [List.map_cons, List.sum_cons, List.map_cons, List.sum_cons]
    exact ⟨by omega, fun hle => by rw [ih.2 (by omega)]⟩

namespace PSpec
open PLog

/-- What is held for a subscriber, with time stamps. -/
def triples (A : PSpec) (j : Nat) : List (Nat × Payload × Int) := (A.owes j).map fun r => (r.pid, r.payload, r.ts)

theorem triples_relax (k j : Nat) (c : Nat → Bool) : ∀ l : List Sent,
    (((l.filterMap (relax k c)).filter fun r => decide (j ∈ r.owed)).map fun r => (r.pid, r.payload, r.ts)).Sublist
    ((l.filter fun r => decide (j ∈ r.owed)).map fun r => (r.pid, r.payload, r.ts)) := by
  intro l
  induction l with
  | nil => simp
  | cons r l ih =>
    rw [List.filterMap_cons]
    have skip : (((l.filterMap (relax k c)).filter fun r => decide (j ∈ r.owed)).map fun r => (r.pid, r.payload, r.ts)).Sublist
        (((r :: l).filter fun r => decide (j ∈ r.owed)).map fun r => (r.pid, r.payload, r.ts)) := by
      rw [List.filter_cons]
      split
      · rw [List.map_cons]; exact ih.cons _
      · exact ih
    cases hr : relax k c r with
    | none => exact skip
    | some r' =>
      obtain ⟨e1, e2, e3, e4, _⟩ := relax_pid hr
      dsimp only
      rw [List.filter_cons]
      by_cases hj : j ∈ r'.owed
      · rw [if_pos (by simpa using hj), List.filter_cons, if_pos (by simpa using e4 j hj), List.map_cons, List.map_cons, e1, e2, e3]
        exact ih.cons_cons _
      · rw [if_neg (by simpa using hj)]; exact skip

/-- When nothing is multicast, what is held for a subscriber only shrinks. -/
theorem triples_step (A : PSpec) (hq : ∀ x ∈ A.que, x.1 ≠ 0) (hp : 0 < A.nextPid) (y : POp) :
    (∀ x ∈ (A.step y).que, x.1 ≠ 0) ∧ 0 < (A.step y).nextPid ∧
    ∃ es, (A.step y).log = A.log ++ es ∧ (sentPkts es = [] → ∀ j, (triples (A.step y) j).Sublist (triples A j)) := by
  obtain ⟨es, h1, _⟩ := PubCtx.step_events A y
  refine ⟨?_, ?_, es, h1, ?_⟩
  · cases y with
    | queue p =>
      intro x hx
      rcases List.mem_append.1 hx with hx | hx
      · exact hq x hx
      · rw [List.mem_singleton] at hx; subst hx; show A.nextPid ≠ 0; omega
    | send ts =>
      intro x hx
      unfold step at hx
      dsimp only at hx
      split at hx
      · exact hq x hx
      · rename_i e2; exact hq x (by rw [e2]; exact List.mem_cons_of_mem _ hx)
      · exact hq x hx
    | _ => exact hq
  · cases y with
    | queue p => exact Nat.succ_pos _
    | send ts => unfold step; dsimp only; split <;> exact hp
    | _ => exact hp
  · intro hs j
    cases y with
    | send ts =>
      unfold step at h1 ⊢
      dsimp only at h1 ⊢
      split at h1
      · exact List.Sublist.refl _
      · rename_i pid p que e1 e2
        exfalso
        have := List.append_cancel_left h1
        rw [← this] at hs
        have hne := hq (pid, p) (by rw [e2]; simp)
        simp [sentPkts] at hs
        exact hne hs
      · exact List.Sublist.refl _
    | ack k pid => exact triples_relax k j _ A.infl
    | close k => exact triples_relax k j _ A.infl
    | _ => exact List.Sublist.refl _

theorem triples_run : ∀ (ys : List POp) (A : PSpec), (∀ x ∈ A.que, x.1 ≠ 0) → 0 < A.nextPid →
    ∃ es, (A.run ys).log = A.log ++ es ∧ (sentPkts es = [] → ∀ j, (triples (A.run ys) j).Sublist (triples A j)) := by
  intro ys
  induction ys with
  | nil => intro A _ _; exact ⟨[], by simp [run], fun _ j => .refl _⟩
  | cons y ys ih =>
    intro A hq hp
    obtain ⟨h1, h2, es, h3, h4⟩ := triples_step A hq hp y
    obtain ⟨fs, h5, h6⟩ := ih (A.step y) h1 h2
    refine ⟨es ++ fs, ?_, ?_⟩
    · show ((A.step y).run ys).log = _
      rw [h5, h3, List.append_assoc]
    · intro hs j
      rw [sentPkts_append, List.append_eq_nil_iff] at hs
      exact (h6 hs.2 j).trans (h4 hs.1 j)

end PSpec

namespace PubCtx
open PLog CircBuf

theorem owed_shrinks {c c' : PubCtx} {pops ys : List POp} {L L' : List Nat} (h : Good c pops L) (h' : Good c' (pops ++ ys) L')
    (hs : sentPkts c'.pub.log = sentPkts c.pub.log) (j : Nat) : (c'.pub.owedPkts j).Sublist (c.pub.owedPkts j) := by
  have hr := h.p.reached
  have hr' := h'.p.reached
  rw [owedPkts_eq hr.rel, owedPkts_eq hr'.rel]
  obtain ⟨es, h1, h2⟩ := PSpec.triples_run ys (spec pops)
    (fun x hx => by
      have := (hr.inv.range x.1 (List.mem_append_right _ (List.mem_map.2 ⟨x, hx, rfl⟩))).1
      omega) hr.inv.pos
  have e : spec (pops ++ ys) = (spec pops).run ys := by unfold spec PSpec.run; rw [List.foldl_append]
  rw [e]
  refine h2 ?_ j
  have e1 := hr.log
  have e2 := hr'.log
  rw [e, h1, ← e1] at e2
  rw [e2, sentPkts_append] at hs
  exact List.append_cancel_left (hs.trans (List.append_nil _).symm)

/-- Only an accepted connection is new. -/
theorem step_new {c c' : PubCtx} {pops : List POp} {L : List Nat} {op : Op} {r j : Nat} (h : Good c pops L) (hs : op.sane)
    (hb : (queueArgs pops).length + 2 < U64) (hx : step c op = .ok (r, c')) (hj : ¬ Connected c j) (hj' : Connected c' j) :
    ∃ ar cb, op = .readListen ar cb := by
  have hjL : j ∉ L := fun hm => hj (h.connected.2 hm)
  have same : ∀ {pops' : List POp}, Good c' pops' L → False := fun g => hjL (g.connected.1 hj')
  cases op with
  | queue p ann => exact (same (good_queue h hb hx)).elim
  | readListen ar cb => exact ⟨ar, cb, rfl⟩
  | readMcast err =>
    have hx' : readMcast c err = (r, c') := Except.ok.inj hx
    unfold readMcast at hx'
    split at hx'
    · cases hx'; exact (same h).elim
    · split at hx'
      · cases hx'; exact (same h).elim
      · cases hx'
        exact (same (h.pollOther (e := .modify MULTICAST_INDEX c.mcast .R .R) (by show LISTEN_INDEX ≤ MULTICAST_INDEX; decide))).elim
  | read i rv =>
    rcases readConn_spec h hx with ⟨_, _, e⟩ | ⟨_, c1, ys, zs, ds, L', _, hy, g, _, _, _, hds, hds2, hcj, hz⟩
    · subst e; exact (same h).elim
    · rcases hz with ⟨_, e, _⟩ | ⟨_, e, _⟩
      · rw [e] at g; exact (same g).elim
      · have := g.connected.1 hj'
        rw [e] at this
        exact (hjL (List.mem_of_mem_erase this)).elim
  | writeMcast rs =>
    obtain ⟨r', c'', ys, es, ds, g1, g2, _⟩ := multicastWrite_spec rs h
    have : step c (.writeMcast rs) = .ok (r', c'') := g1
    rw [this] at hx; cases hx
    exact (same g2).elim
  | write i wv =>
    have hx' : writeConn c i wv = .ok (r, c') := hx
    rcases writeConn_spec h i wv with ⟨_, e | e⟩ | ⟨_, _, e⟩ | ⟨_, _, r', c'', out, e, g, _, _, gp, g2, g3, _, g4, _, g5⟩ <;>
      rw [e] at hx' <;> cases hx'
    · exact (same h).elim
    · exact (same h).elim
    · exact (same h).elim
    · exact (same g).elim
  | timeout now cb sp =>
    have hx' : timeoutProcess c now cb sp = .ok (r, c') := hx
    by_cases hd : annDue c now
    · obtain ⟨c'', e, g0, _, _, _, _, gc, _, g⟩ := timeout_announce h hd cb sp hb
      rw [e] at hx'; cases hx'
      rcases g with ⟨_, _, g, _⟩ | ⟨_, g, _⟩
      · exact (same g).elim
      · exact (same g).elim
    · have ht := timeout_resend h hd hx'
      obtain ⟨_, ys, g1, _⟩ := subscribersTimeout_spec _ ((subs_nodup h).filter _)
        (fun k hk => (h.slots k).2 (List.mem_filter.mp hk).1) h ht
      exact (same g1).elim
  | close i =>
    have hx' : closeConnection c i = .ok (r, c') := hx
    by_cases hi : i ∈ L
    · obtain ⟨c'', e, g, _⟩ := close_spec h hi
      rw [e] at hx'; cases hx'
      exact (hjL (List.mem_of_mem_erase (g.connected.1 hj'))).elim
    · rw [close_none h hi] at hx'; cases hx'
      exact (same h).elim
  | setAnnounce n now => cases hx; exact (hj hj').elim
  | throttling a b =>
    have hx' : throttling c a b = (r, c') := Except.ok.inj hx
    unfold throttling at hx'
    split at hx' <;> cases hx' <;> exact (hj hj').elim
  | setCtlCb b => cases hx; exact (hj hj').elim
  | activate x =>
    have hx' : activate c x = (r, c') := Except.ok.inj hx
    unfold activate at hx'
    split at hx' <;> cases hx' <;> exact (hj hj').elim
  | deactivate =>
    obtain ⟨c'', ys, ds, e, g, _⟩ := deactivate_spec h
    have hx' : deactivate c = .ok (r, c') := hx
    rw [e] at hx'; cases hx'
    exact absurd (g.connected.1 hj') (by simp)

/-- The packets held for a connected subscriber. -/
def owing (c : PubCtx) (j : Nat) : List (Nat × Payload × Int) := if Connected c j then c.pub.owedPkts j else []
/-- The bytes waiting in its write buffer. -/
def buffered (c : PubCtx) (j : Nat) : List UInt8 := if Connected c j then bytes (c.cv.conns j).writeBuf else []

/-- The length of a packet on a connection. -/
def weight (x : Nat × Payload × Int) : Nat := 21 + x.2.1.data.length

/-- A measure of what is still to be done for a subscriber: a byte of a held packet counts three times, a buffered byte twice. -/
def load (c : PubCtx) (j : Nat) : Nat := 3 * ((owing c j).map weight).sum + 2 * (buffered c j).length

theorem weight_pos (x : Nat × Payload × Int) : 0 < weight x := by unfold weight; omega

theorem frames_len (cf : Cfg) (ps : List (Nat × Payload × Int)) : ((ps.map (frameOf cf)).flatten).length = (ps.map weight).sum := by
  induction ps with
  | nil => rfl
  | cons x ps ih =>
    rw [List.map_cons, List.flatten_cons, List.length_append, ih, List.map_cons, List.sum_cons]
    congr 1
    exact frame_length cf x.1 x.2.1

theorem load_none {c c' : PubCtx} {j : Nat} (h1 : owing c' j = []) (h2 : buffered c' j = []) :
    load c' j ≤ load c j ∧ (load c j ≤ load c' j → owing c' j = owing c j ∧ buffered c' j = buffered c j) := by
  have e : load c' j = 0 := by unfold load; rw [h1, h2]; rfl
  rw [e]
  refine ⟨Nat.zero_le _, fun h => ?_⟩
  unfold load at h
  have a1 : (owing c j) = [] := by
    cases ho : owing c j with
    | nil => rfl
    | cons x l => rw [ho, List.map_cons, List.sum_cons] at h; have := weight_pos x; omega
  have a2 : buffered c j = [] := List.length_eq_zero_iff.1 (by omega)
  rw [h1, h2, a1, a2]; exact ⟨rfl, rfl⟩

/-- Nothing is multicast: then no call increases the measure for any subscriber, and what is sent counts less than what was waiting. -/
theorem step_load {c c' : PubCtx} {pops : List POp} {L : List Nat} {op : Op} {r : Nat} (h : Good c pops L) (hs : op.sane)
    (hb : (queueArgs pops).length + 2 < U64) (hx : step c op = .ok (r, c')) (hsent : sentPkts c'.pub.log = sentPkts c.pub.log) (j : Nat) :
    (load c' j ≤ load c j ∧ (load c j ≤ load c' j → owing c' j = owing c j ∧ buffered c' j = buffered c j)) ∧
    (Connected c j → (∀ rv, op ≠ .read j rv) → op ≠ .close j → op ≠ .deactivate →
      load c' j + 2 * (outs j (c'.log.drop c.log.length)).length ≤ load c j) := by
  obtain ⟨ys, L', hg, _⟩ := step_good h hs hb hx
  have hsub := owed_shrinks h hg hsent j
  have link : Connected c j → (∀ rv, op ≠ .read j rv) → op ≠ .close j → op ≠ .deactivate →
      (load c' j + 2 * (outs j (c'.log.drop c.log.length)).length ≤ load c j ∧ (load c j ≤ load c' j → owing c' j = owing c j ∧ buffered c' j = buffered c j)) := by
    intro hc h1 h2 h3
    obtain ⟨ds, ps, k⟩ := step_link h hs hb hx hc h1 h2 h3
    have e1 : c'.log.drop c.log.length = ds := by rw [k.log, List.drop_left]
    rw [e1]
    have o1 : owing c j = c.pub.owedPkts j := if_pos hc
    have o2 : owing c' j = c'.pub.owedPkts j := if_pos k.conn
    have b1 : buffered c j = bytes (c.cv.conns j).writeBuf := if_pos hc
    have b2 : buffered c' j = bytes (c'.cv.conns j).writeBuf := if_pos k.conn
    have hlen := congrArg List.length k.out
    rw [List.length_append, List.length_append, frames_len, ← b1, ← b2] at hlen
    have hnd : (c'.pub.owedPkts j ++ ps).Nodup := by
      have n1 : (c'.pub.owedPkts j).Nodup := by
        have := PSpec.owes_asc hg.p.reached.inv j
        have e := outstanding_owed hg.p.reached.rel j
        rw [outstanding_eq hg.p.reached.rel] at e
        rw [e] at this
        exact nodup_of_map (this.imp (fun hlt => Nat.ne_of_lt hlt))
      rw [List.nodup_append]
      refine ⟨n1, nodup_of_map k.once.1, ?_⟩
      intro x hx y hy e
      subst e
      apply k.once.2 x hy
      rw [outstanding_owed hg.p.reached.rel]
      exact List.mem_map.2 ⟨x, hx, rfl⟩
    have hw := sum_subset weight _ (c.pub.owedPkts j) hnd (by
      intro x hx
      rcases List.mem_append.1 hx with hx | hx
      · exact hsub.subset hx
      · exact k.owed x hx)
    rw [List.map_append, List.sum_append, ← o1, ← o2] at hw
    unfold load
    refine ⟨by omega, fun hle => ?_⟩
    have z1 : (ps.map weight).sum = 0 := by omega
    have z2 : ps = [] := by
      cases ps with
      | nil => rfl
      | cons x l => rw [List.map_cons, List.sum_cons] at z1; have := weight_pos x; omega
    have z3 : outs j ds = [] := List.length_eq_zero_iff.1 (by omega)
    constructor
    · rw [o1, o2] at *
      exact (sublist_weight weight_pos hsub).2 (by omega)
    · have := k.out
      rw [z2, z3, ← b1, ← b2] at this
      simpa using this
  refine ⟨?_, fun a b c d => (link a b c d).1⟩
  by_cases hc' : Connected c' j
  · by_cases hc : Connected c j
    · by_cases hother : (∀ rv, op ≠ .read j rv) ∧ op ≠ .close j ∧ op ≠ .deactivate
      · have := link hc hother.1 hother.2.1 hother.2.2
        exact ⟨by omega, this.2⟩
      · have hread : ∃ rv, op = .read j rv := by
          apply Classical.byContradiction
          intro hno
          apply hother
          refine ⟨fun rv e => hno ⟨rv, e⟩, ?_, ?_⟩
          · rintro rfl
            have hjL := h.connected.1 hc
            obtain ⟨c'', e, g, _⟩ := close_spec h hjL
            have hx' : closeConnection c j = .ok (r, c') := hx
            rw [e] at hx'; cases hx'
            have := g.connected.1 hc'
            exact (List.Nodup.not_mem_erase h.v.nodup) this
          · rintro rfl
            obtain ⟨c'', ys, ds, e, g, _⟩ := deactivate_spec h
            have hx' : deactivate c = .ok (r, c') := hx
            rw [e] at hx'; cases hx'
            exact absurd (g.connected.1 hc') (by simp)
        obtain ⟨rv, rfl⟩ := hread
        have hwb : (c'.cv.conns j).writeBuf = (c.cv.conns j).writeBuf := by
          rcases readConn_spec h hx with ⟨_, _, e⟩ | ⟨_, c1, ys, zs, ds, L', _, hy, g, _, _, _, hds, hds2, hcj, hz⟩
          · subst e; rfl
          · rcases hz with ⟨_, _, _, e⟩ | ⟨_, e, _⟩
            · exact e
            · have := g.connected.1 hc'
              rw [e] at this
              exact ((List.Nodup.not_mem_erase h.v.nodup) this).elim
        have o1 : owing c j = c.pub.owedPkts j := if_pos hc
        have o2 : owing c' j = c'.pub.owedPkts j := if_pos hc'
        have b : buffered c' j = buffered c j := by unfold buffered; rw [if_pos hc, if_pos hc', hwb]
        have hw := sublist_weight weight_pos hsub
        unfold load
        rw [b, o1, o2]
        exact ⟨by omega, fun hle => ⟨hw.2 (by omega), rfl⟩⟩
    · obtain ⟨ar, cb, rfl⟩ := step_new h hs hb hx hc hc'
      obtain ⟨f, _⟩ := accept_link h hs hx hc hc'
      apply load_none
      · unfold owing
        rw [if_pos hc']
        cases ho : c'.pub.owedPkts j with
        | nil => rfl
        | cons x l =>
          have := owed_sentTo hg (k := j) (x := x) (by rw [ho]; simp)
          rw [f.sent] at this; cases this
      · unfold buffered
        rw [if_pos hc', f.wb]
  · exact load_none (if_neg hc') (if_neg hc')

end PubCtx
namespace Sys
open PLog CircBuf

/-- A measure of what is still to be done for a subscriber, with what is on its way to it. -/
def todo (s : Sys) (j : Nat) : Nat := PubCtx.load s.pub j + if s.acc = some j then s.down.length else 0

/-- A measure of what is still to be done. -/
def work (s : Sys) : Nat := ((List.range s.pub.cv.size).map s.todo).sum

/-- Nothing has been done. -/
structure Still (s t : Sys) : Prop where
  owing : ∀ j, PubCtx.owing t.pub j = PubCtx.owing s.pub j
  buffered : ∀ j, PubCtx.buffered t.pub j = PubCtx.buffered s.pub j
  down : t.down = s.down

theorem Still.refl (s : Sys) : Still s s := ⟨fun _ => rfl, fun _ => rfl, rfl⟩
theorem Still.trans {a b c : Sys} (h : Still a b) (h' : Still b c) : Still a c :=
  ⟨fun j => (h'.owing j).trans (h.owing j), fun j => (h'.buffered j).trans (h.buffered j), h'.down.trans h.down⟩

theorem down_none {E : Env} {n : Nat} {s : Sys} (h : Inv E n s) (ha : s.acc = none) : s.down = [] := by
  obtain ⟨ps, d1, d2, _⟩ := h.down
  have : ps = [] := by
    cases ps with
    | nil => rfl
    | cons x l =>
      obtain ⟨_, k, hk, _⟩ := d1 x (by simp)
      rw [ha] at hk; cases hk
  rw [this] at d2
  unfold toSub at d2
  have d2 : _ = [] := d2
  rw [List.append_eq_nil_iff, List.append_eq_nil_iff] at d2
  exact d2.1.2

theorem work_of {E : Env} {n m : Nat} {s t : Sys} (hi : Inv E n s) (hi' : Inv E m t) (hsz : t.pub.cv.size = s.pub.cv.size)
    (hacc : ∀ k, s.acc = some k → t.acc = some k)
    (h : ∀ j, t.todo j ≤ s.todo j ∧ (s.todo j ≤ t.todo j → PubCtx.owing t.pub j = PubCtx.owing s.pub j ∧
      PubCtx.buffered t.pub j = PubCtx.buffered s.pub j ∧ (t.acc = some j → t.down = s.down))) :
    t.work ≤ s.work ∧ (s.work ≤ t.work → Still s t) := by
  unfold work
  rw [hsz]
  refine ⟨sum_range_le _ fun j => (h j).1, fun hle => ?_⟩
  have heq : ∀ j, j < s.pub.cv.size → s.todo j ≤ t.todo j := by
    intro j hj
    apply Classical.byContradiction
    intro hlt
    have := sum_range_lt (f := t.todo) (g := s.todo) s.pub.cv.size (fun j => (h j).1) ⟨j, hj, by omega⟩
    omega
  have hno : ∀ {c : PubCtx} {j : Nat}, c.cv.size = s.pub.cv.size → ¬ j < s.pub.cv.size → ¬ PubCtx.Connected c j := by
    intro c j e hj hc
    exact hj (e ▸ hc.1)
  refine ⟨fun j => ?_, fun j => ?_, ?_⟩
  · by_cases hj : j < s.pub.cv.size
    · exact ((h j).2 (heq j hj)).1
    · unfold PubCtx.owing; rw [if_neg (hno hsz hj), if_neg (hno rfl hj)]
  · by_cases hj : j < s.pub.cv.size
    · exact ((h j).2 (heq j hj)).2.1
    · unfold PubCtx.buffered; rw [if_neg (hno hsz hj), if_neg (hno rfl hj)]
  · cases ha : t.acc with
    | none =>
      have hs : s.acc = none := by
        cases hs : s.acc with
        | none => rfl
        | some k => rw [hacc k hs] at ha; cases ha
      rw [down_none hi hs, down_none hi' ha]
    | some k =>
      have hk : k < s.pub.cv.size := by rw [← hsz]; exact (hi'.acc k ha).1.1
      exact ((h k).2 (heq k hk)).2.2 ha

/-- Nothing is multicast: then no event increases the work that is left; if it does not decrease it nothing has been done. -/
theorem step_work {E : Env} {n : Nat} {s t : Sys} {op : SysOp} (hi : Inv E n s) (hb : n + calls [op] + 1 < U64) (hn : next E s op = some t)
    (hsent : sentPkts t.pub.pub.log = sentPkts s.pub.pub.log) :
    t.pub.cv.size = s.pub.cv.size ∧ t.work ≤ s.work ∧ (s.work ≤ t.work → Still s t) := by
  have hi' := hi.step hb hn
  obtain ⟨pp, h1, h2, h3⟩ := hi.pub
  obtain ⟨pops, L, g, hq, hb', _⟩ := h1.good
  -- a step of the publisher
  have pubstep : ∀ {op : PubCtx.Op} {r : Nat} {p : PubCtx}, callOk op = true → PubCtx.step s.pub op = .ok (r, p) →
      sentPkts p.pub.log = sentPkts s.pub.pub.log → n + 2 < U64 → p.cv.size = s.pub.cv.size ∧ ∀ j,
        (PubCtx.load p j ≤ PubCtx.load s.pub j ∧ (PubCtx.load s.pub j ≤ PubCtx.load p j →
          PubCtx.owing p j = PubCtx.owing s.pub j ∧ PubCtx.buffered p j = PubCtx.buffered s.pub j)) ∧
        (PubCtx.Connected s.pub j → (∀ rv, op ≠ .read j rv) → op ≠ .close j → op ≠ .deactivate →
          PubCtx.load p j + 2 * (PubCtx.outs j (p.log.drop s.pub.log.length)).length ≤ PubCtx.load s.pub j) := by
    intro op r p hc hx he hb2
    obtain ⟨_, _, _, _, hsz, _⟩ := PubCtx.step_bal (q := false) (PubCtx.callOk_sane hc) (fun h => by cases h) hx
    exact ⟨hsz, PubCtx.step_load g (PubCtx.callOk_sane hc) (by omega) hx he⟩
  cases op with
  | pub op =>
    have hb2 : n + 1 + 1 < U64 := hb
    unfold next at hn
    dsimp only at hn
    split at hn
    case isFalse => cases hn
    rename_i hok
    split at hn
    case h_2 => cases hn
    rename_i x hx
    obtain ⟨r, p⟩ := x
    cases hn
    obtain ⟨e1, e2⟩ := pubstep hok.1 hx hsent (by omega)
    refine ⟨e1, work_of hi hi' e1 (fun _ h => h) fun j => ?_⟩
    obtain ⟨a1, a2⟩ := e2 j
    unfold todo
    dsimp only
    by_cases ha : s.acc = some j
    · rw [if_pos ha, if_pos ha]
      have hc := (hi.acc j ha).1
      have hl := hok.2
      rw [ha] at hl
      have hd : sentDown s p = PubCtx.outs j (p.log.drop s.pub.log.length) := by unfold sentDown; rw [ha]
      have := a2 hc (by rintro rv rfl; simp [leaves] at hl) (by rintro rfl; simp [leaves] at hl) (by rintro rfl; simp [leaves] at hl)
      rw [List.length_append, hd]
      refine ⟨by omega, fun hle => ?_⟩
      obtain ⟨b1, b2⟩ := a1.2 (by omega)
      refine ⟨b1, b2, fun _ => ?_⟩
      rw [List.length_eq_zero_iff.1 (show (PubCtx.outs j (p.log.drop s.pub.log.length)).length = 0 by omega), List.append_nil]
    · rw [if_neg ha, if_neg ha]
      exact ⟨by omega, fun hle => ⟨(a1.2 (by omega)).1, (a1.2 (by omega)).2, fun h => absurd h ha⟩⟩
  | accept k ar cb =>
    have hb2 : n + 1 + 1 < U64 := hb
    unfold next at hn
    dsimp only at hn
    split at hn
    case isFalse => cases hn
    rename_i hok
    split at hn
    case h_2 => cases hn
    rename_i x hx
    obtain ⟨r, p⟩ := x
    split at hn
    case isFalse => cases hn
    cases hn
    obtain ⟨e1, e2⟩ := pubstep hok.2.1 hx hsent (by omega)
    refine ⟨e1, work_of hi hi' e1 (fun _ h => by rw [hok.1] at h; cases h) fun j => ?_⟩
    obtain ⟨a1, a2⟩ := e2 j
    have hd := down_none hi hok.1
    unfold todo
    dsimp only
    rw [hd]
    have z : ∀ (p : Prop) [Decidable p], (if p then ([] : List UInt8).length else 0) = 0 := by intro p _; split <;> rfl
    rw [z, z]
    exact ⟨by omega, fun hle => ⟨(a1.2 (by omega)).1, (a1.2 (by omega)).2, fun _ => rfl⟩⟩
  | pubRead m =>
    have hb2 : n + 1 + 1 < U64 := hb
    unfold next at hn
    dsimp only at hn
    split at hn
    · cases hn
    rename_i k hk
    split at hn
    case isFalse => cases hn
    rename_i hok
    split at hn
    case h_2 => cases hn
    rename_i x hx
    obtain ⟨r, p⟩ := x
    split at hn
    case isFalse => cases hn
    cases hn
    obtain ⟨e1, e2⟩ := pubstep rfl hx hsent (by omega)
    refine ⟨e1, work_of hi hi' e1 (fun _ h => h) fun j => ?_⟩
    obtain ⟨a1, a2⟩ := e2 j
    unfold todo
    dsimp only
    exact ⟨by omega, fun hle => ⟨(a1.2 (by omega)).1, (a1.2 (by omega)).2, fun _ => rfl⟩⟩
  | sub op =>
    unfold next at hn
    dsimp only at hn
    split at hn
    case isFalse => cases hn
    split at hn
    case h_2 => cases hn
    split at hn
    case isFalse => cases hn
    cases hn
    exact ⟨rfl, work_of hi hi' rfl (fun _ h => h) fun j => ⟨Nat.le_refl _, fun _ => ⟨rfl, rfl, fun _ => rfl⟩⟩⟩
  | subRead m ts =>
    unfold next at hn
    dsimp only at hn
    split at hn
    case isFalse => cases hn
    rename_i hok
    split at hn
    case h_2 => cases hn
    split at hn
    case isFalse => cases hn
    cases hn
    refine ⟨rfl, work_of hi hi' rfl (fun _ h => h) fun j => ?_⟩
    unfold todo
    dsimp only
    rw [List.length_drop]
    by_cases ha : s.acc = some j
    · rw [if_pos ha, if_pos ha]
      exact ⟨by omega, fun _ => by omega⟩
    · rw [if_neg ha, if_neg ha]
      exact ⟨by omega, fun _ => ⟨rfl, rfl, fun h => absurd h ha⟩⟩

theorem next_log {E : Env} {n : Nat} {s t : Sys} {op : SysOp} (hi : Inv E n s) (hb : n + calls [op] + 1 < U64) (hn : next E s op = some t) :
    ∃ es, t.pub.pub.log = s.pub.pub.log ++ es ∧
      (sentPkts es = [] → ∀ j, (t.pub.pub.owedPkts j).Sublist (s.pub.pub.owedPkts j)) := by
  obtain ⟨pp, h1, h2, h3⟩ := hi.pub
  obtain ⟨pops, L, g, hq, hb', _⟩ := h1.good
  have pubstep : ∀ {op : PubCtx.Op} {r : Nat} {p : PubCtx}, callOk op = true → PubCtx.step s.pub op = .ok (r, p) → n + 2 < U64 →
      ∃ es, p.pub.log = s.pub.pub.log ++ es ∧ (sentPkts es = [] → ∀ j, (p.pub.owedPkts j).Sublist (s.pub.pub.owedPkts j)) := by
    intro op r p hc hx hb2
    obtain ⟨ys, L', g', _⟩ := PubCtx.step_good g (PubCtx.callOk_sane hc) (by omega) hx
    obtain ⟨es, e, _⟩ := PubCtx.good_events g g'
    exact ⟨es, e, fun h j => PubCtx.owed_shrinks g g' (by rw [e, sentPkts_append, h, List.append_nil]) j⟩
  cases op with
  | pub op =>
    have hb2 : n + 1 + 1 < U64 := hb
    unfold next at hn
    dsimp only at hn
    split at hn
    case isFalse => cases hn
    rename_i hok
    split at hn
    case h_2 => cases hn
    rename_i x hx
    obtain ⟨r, p⟩ := x
    cases hn
    exact pubstep hok.1 hx (by omega)
  | accept k ar cb =>
    have hb2 : n + 1 + 1 < U64 := hb
    unfold next at hn
    dsimp only at hn
    split at hn
    case isFalse => cases hn
    rename_i hok
    split at hn
    case h_2 => cases hn
    rename_i x hx
    obtain ⟨r, p⟩ := x
    split at hn
    case isFalse => cases hn
    cases hn
    exact pubstep hok.2.1 hx (by omega)
  | pubRead m =>
    have hb2 : n + 1 + 1 < U64 := hb
    unfold next at hn
    dsimp only at hn
    split at hn
    · cases hn
    rename_i k hk
    split at hn
    case isFalse => cases hn
    rename_i hok
    split at hn
    case h_2 => cases hn
    rename_i x hx
    obtain ⟨r, p⟩ := x
    split at hn
    case isFalse => cases hn
    cases hn
    exact pubstep rfl hx (by omega)
  | sub op =>
    unfold next at hn
    dsimp only at hn
    split at hn
    case isFalse => cases hn
    split at hn
    case h_2 => cases hn
    split at hn
    case isFalse => cases hn
    cases hn
    exact ⟨[], by simp, fun _ j => .refl _⟩
  | subRead m ts =>
    unfold next at hn
    dsimp only at hn
    split at hn
    case isFalse => cases hn
    split at hn
    case h_2 => cases hn
    split at hn
    case isFalse => cases hn
    cases hn
    exact ⟨[], by simp, fun _ j => .refl _⟩

theorem run_log {E : Env} : ∀ (ops : List SysOp) {n : Nat} {s t : Sys}, Inv E n s → n + calls ops + 1 < U64 → run E s ops = some t →
    ∃ es, t.pub.pub.log = s.pub.pub.log ++ es := by
  intro ops
  induction ops with
  | nil => intro n s t _ _ h; cases h; exact ⟨[], by simp⟩
  | cons op ops ih =>
    intro n s t hi hb h
    have hc : calls (op :: ops) = calls [op] + calls ops := by rw [← calls_append]; rfl
    rw [run] at h
    obtain ⟨u, h1, h2⟩ := Option.bind_eq_some_iff.1 h
    obtain ⟨es, e, _⟩ := next_log hi (by omega) h1
    obtain ⟨fs, f⟩ := ih (hi.step (by omega) h1) (by omega) h2
    exact ⟨es ++ fs, by rw [f, e, List.append_assoc]⟩

/-- The same for a history. -/
theorem run_work {E : Env} : ∀ (ops : List SysOp) {n : Nat} {s t : Sys}, Inv E n s → n + calls ops + 1 < U64 → run E s ops = some t →
    sentPkts t.pub.pub.log = sentPkts s.pub.pub.log →
    t.work ≤ s.work ∧ (s.work ≤ t.work → Still s t) ∧ ∀ j, (t.pub.pub.owedPkts j).Sublist (s.pub.pub.owedPkts j) := by
  intro ops
  induction ops with
  | nil => intro n s t _ _ h _; cases h; exact ⟨Nat.le_refl _, fun _ => .refl s, fun j => .refl _⟩
  | cons op ops ih =>
    intro n s t hi hb h hsent
    have hc : calls (op :: ops) = calls [op] + calls ops := by rw [← calls_append]; rfl
    rw [run] at h
    obtain ⟨u, h1, h2⟩ := Option.bind_eq_some_iff.1 h
    obtain ⟨es, e, he⟩ := next_log hi (by omega) h1
    have hi' := hi.step (by omega) h1
    obtain ⟨fs, f⟩ := run_log ops hi' (by omega) h2
    rw [f, e, sentPkts_append, sentPkts_append, List.append_assoc] at hsent
    have hz := List.append_cancel_left (hsent.trans (List.append_nil _).symm)
    rw [List.append_eq_nil_iff] at hz
    obtain ⟨_, a1, a2⟩ := step_work hi (by omega) h1 (by rw [e, sentPkts_append, hz.1, List.append_nil])
    obtain ⟨b1, b2, b3⟩ := ih hi' (by omega) h2 (by rw [f, sentPkts_append, hz.2, List.append_nil])
    exact ⟨by omega, fun hle => (a2 (by omega)).trans (b2 (by omega)), fun j => (b3 j).trans (he hz.1 j)⟩

/-- A history that does nothing: none of its events does anything. -/
theorem run_still {E : Env} {n : Nat} {s t : Sys} {pre post : List SysOp} {op : SysOp} (hi : Inv E n s)
    (hb : n + calls (pre ++ op :: post) + 1 < U64) (hr : run E s (pre ++ op :: post) = some t)
    (hsent : sentPkts t.pub.pub.log = sentPkts s.pub.pub.log) (hw : s.work ≤ t.work) :
    ∃ u v, run E s pre = some u ∧ next E u op = some v ∧ Inv E (n + calls pre) u ∧ Still s u ∧ Still u v ∧
      ∀ j, (u.pub.pub.owedPkts j).Sublist (s.pub.pub.owedPkts j) := by
  rw [run_append] at hr
  obtain ⟨u, h1, h2⟩ := Option.bind_eq_some_iff.1 hr
  rw [run] at h2
  obtain ⟨v, h2, h3⟩ := Option.bind_eq_some_iff.1 h2
  have hc : calls (op :: post) = calls [op] + calls post := by rw [← calls_append]; rfl
  rw [calls_append, hc] at hb
  have hiu := hi.run pre (by omega) h1
  have hiv := hiu.step (by omega) h2
  obtain ⟨es, e⟩ := run_log pre hi (by omega) h1
  obtain ⟨fs, f, _⟩ := next_log hiu (by omega) h2
  obtain ⟨gs, g⟩ := run_log post hiv (by omega) h3
  have hz := hsent
  rw [g, f, e, sentPkts_append, sentPkts_append, sentPkts_append, List.append_assoc, List.append_assoc] at hz
  have hz := List.append_cancel_left (hz.trans (List.append_nil _).symm)
  rw [List.append_eq_nil_iff, List.append_eq_nil_iff] at hz
  obtain ⟨a1, a2, a3⟩ := run_work pre hi (by omega) h1 (by rw [e, sentPkts_append, hz.1, List.append_nil])
  obtain ⟨_, b1, b2⟩ := step_work hiu (by omega) h2 (by rw [f, sentPkts_append, hz.2.1, List.append_nil])
  obtain ⟨c1, c2, _⟩ := run_work post hiv (by omega) h3 (by rw [g, sentPkts_append, hz.2.2, List.append_nil])
  exact ⟨u, v, h1, h2, hiu, a2 (by omega), b2 (by omega), a3⟩

theorem owing_eq {c : PubCtx} {pops : List POp} {L : List Nat} (h : PubCtx.Good c pops L) (j : Nat) : PubCtx.owing c j = c.pub.owedPkts j := by
  unfold PubCtx.owing
  by_cases hj : PubCtx.Connected c j
  · rw [if_pos hj]
  · rw [if_neg hj]
    cases ho : c.pub.owedPkts j with
    | nil => rfl
    | cons x l =>
      have hr := h.p.reached
      have hx : x ∈ c.pub.owedPkts j := by rw [ho]; simp
      rw [owedPkts_eq hr.rel] at hx
      obtain ⟨y, hy, _⟩ := List.mem_map.1 hx
      unfold PSpec.owes at hy
      obtain ⟨y1, y2⟩ := List.mem_filter.1 hy
      have := hr.inv.owedSub y y1 j (by simpa using y2)
      rw [← h.p.subs] at this
      exact absurd (h.connected.2 ((h.slots j).2 this)) hj

/-- Specification: a round of the event loops. The publisher processes its timeouts at a time `T` or later, with no announcement due, unless it holds no packet
for any subscriber at the end of the round; it writes to every connection that is open at the start of the round, and the kernel takes something each time, unless
the write buffer is empty at the end of the round; the subscriber reads from the connection, unless nothing is on its way at the end of the round. Anything else
may happen in between. -/
structure Turn (E : Env) (T : Int) (s : Sys) (seg : List SysOp) (t : Sys) : Prop where
  run : run E s seg = some t
  timeout : (∃ pre now cb sp post u, seg = pre ++ .pub (.timeout now cb sp) :: post ∧ T ≤ now ∧ Sys.run E s pre = some u ∧
    ¬ PubCtx.annDue u.pub now) ∨ ∀ j, PubCtx.Connected t.pub j → t.pub.pub.outstanding j = []
  writes : ∀ j, PubCtx.Connected s.pub j → (∃ n, 0 < n ∧ .pub (.write j (.ok n)) ∈ seg) ∨ bytes (t.pub.cv.conns j).writeBuf = []
  reads : (∃ n ts, .subRead n ts ∈ seg) ∨ t.down = []

theorem turn_work {E : Env} {n : Nat} {s t : Sys} {seg : List SysOp} {T : Int} (hi : Inv E n s) (hb : n + calls seg + 1 < U64)
    (ht : Turn E T s seg t) (hsent : sentPkts t.pub.pub.log = sentPkts s.pub.pub.log)
    (hall : ∀ j, ∀ x ∈ s.pub.pub.owedPkts j, x.2.2 + 100000 ≤ T) (hw : s.work ≤ t.work) : s.work = 0 := by
  -- nothing is buffered
  have h1 : ∀ j, PubCtx.buffered s.pub j = [] := by
    intro j
    apply Classical.byContradiction
    intro hne
    have hc : PubCtx.Connected s.pub j := by
      apply Classical.byContradiction
      intro hc
      exact hne (if_neg hc)
    rcases ht.writes j hc with ⟨m, hm, hmem⟩ | hemp
    rotate_left
    · have he := ((run_work seg hi hb ht.run hsent).2.1 hw).buffered j
      unfold PubCtx.buffered at he hne
      rw [if_pos hc] at he hne
      split at he
      · exact hne (he.symm.trans hemp)
      · exact hne he.symm
    obtain ⟨pre, post, rfl⟩ := List.append_of_mem hmem
    obtain ⟨u, v, r1, r2, r3, r4, r5, _⟩ := run_still hi hb ht.run hsent hw
    have hbu : PubCtx.buffered u.pub j ≠ [] := by rw [r4.buffered j]; exact hne
    have hcu : PubCtx.Connected u.pub j := by
      apply Classical.byContradiction
      intro hc
      exact hbu (if_neg hc)
    obtain ⟨pp, p1, p2, p3⟩ := r3.pub
    obtain ⟨pops, L, g, hq, hb', _⟩ := p1.good
    have ebu : PubCtx.buffered u.pub j = bytes (u.pub.cv.conns j).writeBuf := if_pos hcu
    rw [ebu] at hbu
    rcases PubCtx.writeConn_spec g j (.ok m) with ⟨e, _⟩ | ⟨_, e, _⟩ | ⟨_, _, r, c', out, w2, w3, w4, w5, w6, w7, w8, w9, w10, w11, w12⟩
    · exact e (g.connected.1 hcu)
    · exact hbu e
    · have hx : PubCtx.step u.pub (.write j (.ok m)) = .ok (r, c') := w2
      have hv : v.pub = c' := by
        rw [next_pub rfl rfl hx] at r2; cases r2; rfl
      have hcv : PubCtx.Connected v.pub j := by rw [hv]; exact w3.connected.2 (g.connected.1 hcu)
      have ebv : PubCtx.buffered v.pub j = bytes (v.pub.cv.conns j).writeBuf := if_pos hcv
      have he := r5.buffered j
      rw [ebu, ebv, hv] at he
      rw [he] at w8
      have hl := congrArg List.length w8
      rw [List.length_append] at hl
      dsimp only at w9
      rw [w9, List.length_take] at hl
      have := List.length_pos_iff.2 hbu
      omega
  -- nothing is held
  have h2 : ∀ j, PubCtx.owing s.pub j = [] := by
    rcases ht.timeout with ⟨pre, now, cb, sp, post, u', rfl, q2, q3, q4⟩ | hno
    rotate_left
    · intro j
      obtain ⟨pp, p1, p2, p3⟩ := (hi.run seg hb ht.run).pub
      obtain ⟨pops, L, g, _⟩ := p1.good
      rw [← ((run_work seg hi hb ht.run hsent).2.1 hw).owing j]
      unfold PubCtx.owing
      split
      next hc =>
        have := hno j hc
        rw [Rmc.outstanding_owed g.p.reached.rel] at this
        exact List.map_eq_nil_iff.1 this
      · rfl
    obtain ⟨u, v, r1, r2, r3, r4, r5, r6⟩ := run_still hi hb ht.run hsent hw
    rw [r1] at q3
    rw [← Option.some.inj q3] at q4
    obtain ⟨pp, p1, p2, p3⟩ := r3.pub
    obtain ⟨pops, L, g, hq, hb', _⟩ := p1.good
    have hdr : PubCtx.Drained u.pub := by
      intro k hk
      have := r4.buffered k
      rw [h1 k] at this
      unfold PubCtx.buffered at this
      rwa [if_pos hk] at this
    have hto := PubCtx.resendTimeout_const p1
    obtain ⟨r, p, ys, b1, b2, b3, b4, b5, b5', b6⟩ := PubCtx.timeout_progress g q4 hdr
      (fun k hk x hx => by rw [hto]; have := hall k x ((r6 k).subset hx); omega) (fun k hk x hx => owed_len r3 hx) cb sp
    have hv : v.pub = p := by
      rw [next_pub rfl rfl b1] at r2; cases r2; rfl
    have hheld : PubCtx.held p = PubCtx.held u.pub := by
      unfold PubCtx.held
      rw [b4]
      congr 1
      apply List.map_congr_left
      intro j _
      have := r5.owing j
      rw [hv, owing_eq b2, owing_eq g] at this
      rw [this]
    have h0 : PubCtx.held u.pub = 0 := by
      apply Classical.byContradiction
      intro h0
      have := b6 h0
      omega
    intro j
    rw [← r4.owing j]
    by_cases hc : PubCtx.Connected u.pub j
    · unfold PubCtx.owing
      rw [if_pos hc]
      unfold PubCtx.held at h0
      have := sum_range_zero (f := fun k => (u.pub.pub.owedPkts k).length) u.pub.cv.size h0 j hc.1
      exact List.length_eq_zero_iff.1 this
    · exact if_neg hc
  -- nothing is on its way
  have h3 : s.down = [] := by
    rcases ht.reads with ⟨m, ts, hmem⟩ | hd
    · exfalso
      obtain ⟨pre, post, rfl⟩ := List.append_of_mem hmem
      obtain ⟨u, v, r1, r2, r3, r4, r5, _⟩ := run_still hi hb ht.run hsent hw
      have he := r5.down
      unfold next at r2
      dsimp only at r2
      split at r2
      case isFalse => cases r2
      rename_i hok
      split at r2
      case h_2 => cases r2
      split at r2
      case isFalse => cases r2
      cases r2
      dsimp only at he
      have := congrArg List.length he
      rw [List.length_drop] at this
      omega
    · have := (run_work seg hi hb ht.run hsent).2.1 hw
      rw [← this.down]; exact hd
  have hz : ∀ (l : List Nat), (l.map s.todo).sum = 0 := by
    intro l
    induction l with
    | nil => rfl
    | cons j l ih =>
      rw [List.map_cons, List.sum_cons, ih]
      unfold todo PubCtx.load
      rw [h1 j, h2 j, h3]
      simp
  exact hz _

/-- Specification: a history of rounds. -/
def Turns (E : Env) (T : Int) : Sys → List (List SysOp) → Sys → Prop
  | s, [], t => t = s
  | s, seg :: segs, t => ∃ u, Turn E T s seg u ∧ Turns E T u segs t

theorem Turns.run {E : Env} {T : Int} : ∀ (segs : List (List SysOp)) {s t : Sys}, Turns E T s segs t → run E s segs.flatten = some t := by
  intro segs
  induction segs with
  | nil => intro s t h; cases h; rfl
  | cons seg segs ih =>
    rintro s t ⟨u, h1, h2⟩
    rw [List.flatten_cons, run_append, h1.run]
    exact ih h2

theorem turns_work {E : Env} {T : Int} : ∀ (segs : List (List SysOp)) {n : Nat} {s t : Sys}, Inv E n s → n + calls segs.flatten + 1 < U64 →
    Turns E T s segs t → sentPkts t.pub.pub.log = sentPkts s.pub.pub.log →
    (∀ j, ∀ x ∈ s.pub.pub.owedPkts j, x.2.2 + 100000 ≤ T) → t.work + segs.length ≤ s.work ∨ t.work = 0 := by
  intro segs
  induction segs with
  | nil => intro n s t _ _ h _ _; cases h; exact .inl (Nat.le_refl _)
  | cons seg segs ih =>
    rintro n s t hi hb ⟨u, h1, h2⟩ hsent hall
    rw [List.flatten_cons, calls_append] at hb
    have hiu := hi.run seg (by omega) h1.run
    obtain ⟨es, e⟩ := run_log seg hi (by omega) h1.run
    obtain ⟨fs, f⟩ := run_log segs.flatten hiu (by omega) (Turns.run segs h2)
    have hz := hsent
    rw [f, e, sentPkts_append, sentPkts_append, List.append_assoc] at hz
    have hz := List.append_cancel_left (hz.trans (List.append_nil _).symm)
    rw [List.append_eq_nil_iff] at hz
    have hsu : sentPkts u.pub.pub.log = sentPkts s.pub.pub.log := by rw [e, sentPkts_append, hz.1, List.append_nil]
    have hst : sentPkts t.pub.pub.log = sentPkts u.pub.pub.log := by rw [f, sentPkts_append, hz.2, List.append_nil]
    obtain ⟨a1, a2, a3⟩ := run_work seg hi (by omega) h1.run hsu
    have hb' := (run_work segs.flatten hiu (by omega) (Turns.run segs h2) hst).1
    rcases ih hiu (by omega) h2 hst (fun j x hx => hall j x ((a3 j).subset hx)) with h | h
    · by_cases hlt : u.work < s.work
      · left; rw [List.length_cons]; omega
      · right
        have := turn_work hi (by omega) h1 hsu hall (by omega)
        omega
    · exact .inr h

end Sys
end Rmc
