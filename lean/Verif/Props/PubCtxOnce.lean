import Verif.SysFair
import Verif.Props.PubCtxRead

/-! # A packet goes over a connection at most once (C83) -/

set_option linter.unusedVariables false

namespace Rmc
namespace PSpec
open PLog

theorem triples_mem (A : PSpec) (y : POp) : ∃ es, (A.step y).log = A.log ++ es ∧
    ∀ j, ∀ x ∈ triples (A.step y) j, x ∈ triples A j ∨ x.1 = 0 ∨ x.1 ∈ (sentPkts es).map (·.1) := by
  obtain ⟨es, h1, _⟩ := PubCtx.step_events A y
  refine ⟨es, h1, ?_⟩
  intro j x hx
  cases y with
  | send ts =>
    cases ha : A.ann with
    | cons p ann =>
      have e : A.step (.send ts) = { A with ann := ann, log := A.log ++ [.send 0 p ts] } := by unfold step; rw [ha]
      rw [e] at hx; exact .inl hx
    | nil =>
      cases hq : A.que with
      | nil =>
        have e : A.step (.send ts) = A := by unfold step; rw [ha, hq]
        rw [e] at hx; exact .inl hx
      | cons y que =>
        obtain ⟨pid, p⟩ := y
        have e : A.step (.send ts) = { A with que := que, infl := A.infl ++ [⟨pid, p, ts, A.subs⟩], log := A.log ++ [.send pid p ts] } := by
          unfold step; rw [ha, hq]
        rw [e] at hx h1
        have he := List.append_cancel_left h1
        unfold triples owes at hx ⊢
        rw [List.filter_append, List.map_append] at hx
        rcases List.mem_append.1 hx with hx | hx
        · exact .inl hx
        · obtain ⟨z, hz, rfl⟩ := List.mem_map.1 hx
          have := (List.mem_filter.1 hz).1
          rw [List.mem_singleton] at this
          subst this
          by_cases hp : pid = 0
          · exact .inr (.inl hp)
          · refine .inr (.inr ?_)
            rw [← he]
            simp [sentPkts, hp]
  | ack k pid => exact .inl ((triples_relax k j _ A.infl).subset hx)
  | close k => exact .inl ((triples_relax k j _ A.infl).subset hx)
  | _ => exact .inl hx

theorem triples_run_mem : ∀ (ys : List POp) (A : PSpec), ∃ es, (A.run ys).log = A.log ++ es ∧
    ∀ j, ∀ x ∈ triples (A.run ys) j, x ∈ triples A j ∨ x.1 = 0 ∨ x.1 ∈ (sentPkts es).map (·.1) := by
  intro ys
  induction ys with
  | nil => intro A; exact ⟨[], by simp [run], fun _ x hx => .inl hx⟩
  | cons y ys ih =>
    intro A
    obtain ⟨es, h3, h4⟩ := triples_mem A y
    obtain ⟨fs, h5, h6⟩ := ih (A.step y)
    refine ⟨es ++ fs, ?_, ?_⟩
    · show ((A.step y).run ys).log = _
      rw [h5, h3, List.append_assoc]
    · intro j x hx
      rw [sentPkts_append, List.map_append]
      rcases h6 j x hx with h | h | h
      · rcases h4 j x h with h | h | h
        · exact .inl h
        · exact .inr (.inl h)
        · exact .inr (.inr (List.mem_append_left _ h))
      · exact .inr (.inl h)
      · exact .inr (.inr (List.mem_append_right _ h))

end PSpec

namespace PubCtx
open PLog CircBuf

theorem owed_new {c c' : PubCtx} {pops ys : List POp} {L L' : List Nat} (h : Good c pops L) (h' : Good c' (pops ++ ys) L')
    {es : List PEv} (hl : c'.pub.log = c.pub.log ++ es) {j pid : Nat} (hp : pid ∈ c'.pub.outstanding j) :
    pid ∈ c.pub.outstanding j ∨ pid ∈ (sentPkts es).map (·.1) := by
  have hr := h.p.reached
  have hr' := h'.p.reached
  rw [outstanding_owed hr'.rel] at hp
  obtain ⟨x, hx, rfl⟩ := List.mem_map.1 hp
  have hpos : x.1 ≠ 0 := by
    have hx' := hx
    rw [owedPkts_eq hr'.rel] at hx'
    obtain ⟨z, hz, e⟩ := List.mem_map.1 hx'
    have := (hr'.inv.range z.pid (List.mem_append_left _ (List.mem_map.2 ⟨z, (List.mem_filter.1 hz).1, rfl⟩))).1
    rw [← e]; show z.pid ≠ 0; omega
  rw [owedPkts_eq hr'.rel] at hx
  obtain ⟨fs, h1, h2⟩ := PSpec.triples_run_mem ys (spec pops)
  have e : spec (pops ++ ys) = (spec pops).run ys := by unfold spec PSpec.run; rw [List.foldl_append]
  rw [e] at hx
  have e2 := hr'.log
  rw [e, h1, ← hr.log, hl] at e2
  have e3 := List.append_cancel_left e2
  rw [e3]
  rcases h2 j x hx with h | h | h
  · refine .inl ?_
    rw [outstanding_owed hr.rel, owedPkts_eq hr.rel]
    exact List.mem_map.2 ⟨x, h, rfl⟩
  · exact absurd h hpos
  · exact .inr h

/-- Specification: the subscriber stays connected throughout the calls. -/
def staysOpen (k : Nat) : PubCtx → List Op → Bool
  | c, [] => decide (Connected c k)
  | c, op :: ops => decide (Connected c k) && match step c op with | .ok x => staysOpen k x.2 ops | .error _ => true

/-- The same of every state on the way. -/
def StaysOpen (k : Nat) (c : PubCtx) (ops : List Op) : Prop :=
  ∀ pre post, ops = pre ++ post → ∀ rs d, run c pre = .ok (rs, d) → Connected d k

theorem staysOpen_all {k : Nat} : ∀ (ops : List Op) {c : PubCtx}, staysOpen k c ops = true → StaysOpen k c ops := by
  intro ops
  induction ops with
  | nil =>
    intro c h pre post e rs d hr
    obtain ⟨rfl, rfl⟩ := List.append_eq_nil_iff.1 e.symm
    cases hr
    exact of_decide_eq_true h
  | cons op ops ih =>
    intro c h pre post e rs d hr
    unfold staysOpen at h
    rw [Bool.and_eq_true] at h
    cases pre with
    | nil => cases hr; exact of_decide_eq_true h.1
    | cons o pre =>
      rw [List.cons_append, List.cons.injEq] at e
      obtain ⟨rfl, e⟩ := e
      cases hx : step c op with
      | error f => rw [run, hx] at hr; cases hr
      | ok x =>
        rw [hx] at h
        rw [run, hx] at hr
        cases hy : run x.2 pre with
        | error f => rw [Pub.ok_bind, hy] at hr; cases hr
        | ok y =>
          rw [Pub.ok_bind, hy, Pub.ok_bind] at hr
          cases hr
          exact ih h.2 pre post e y.1 y.2 hy

theorem step_once {c c' : PubCtx} {pops : List POp} {L : List Nat} {op : Op} {r k : Nat} (h : Good c pops L) (hs : op.sane)
    (hb : (queueArgs pops).length + 2 < U64) (hx : step c op = .ok (r, c')) (hk : Connected c k) (hk' : Connected c' k) :
    ∃ (ds : List CEv) (ps : List (Nat × Payload × Int)), c'.log = c.log ++ ds ∧ outs k ds ++ bytes (c'.cv.conns k).writeBuf = bytes (c.cv.conns k).writeBuf ++ (ps.map (frameOf (cfg c))).flatten ∧
      (∀ x ∈ ps, x ∈ c.pub.owedPkts k) ∧ (ps.map (·.1)).Nodup ∧ (∀ x ∈ ps, x.1 ∉ c'.pub.outstanding k) ∧
      ∃ es, c'.pub.log = c.pub.log ++ es ∧ PEv.connect k ∉ es := by
  by_cases hother : (∀ rv, op ≠ .read k rv) ∧ op ≠ .close k ∧ op ≠ .deactivate
  · obtain ⟨ds, ps, q⟩ := step_link h hs hb hx hk hother.1 hother.2.1 hother.2.2
    exact ⟨ds, ps, q.log, q.out, q.owed, q.once.1, q.once.2, q.plog⟩
  · have hread : ∃ rv, op = .read k rv := by
      apply Classical.byContradiction
      intro hno
      apply hother
      refine ⟨fun rv e => hno ⟨rv, e⟩, ?_, ?_⟩
      · rintro rfl
        have hjL := h.connected.1 hk
        obtain ⟨c'', e, g, _⟩ := close_spec h hjL
        have hx' : closeConnection c k = .ok (r, c') := hx
        rw [e] at hx'; cases hx'
        have := g.connected.1 hk'
        exact (List.Nodup.not_mem_erase h.v.nodup) this
      · rintro rfl
        obtain ⟨c'', ys, ds, e, g, _⟩ := deactivate_spec h
        have hx' : deactivate c = .ok (r, c') := hx
        rw [e] at hx'; cases hx'
        exact absurd (g.connected.1 hk') (by simp)
    obtain ⟨rv, rfl⟩ := hread
    rcases readConn_spec h hx with ⟨_, _, e⟩ | ⟨_, c1, ys, zs, ds, L', _, hy, g, _, _, _, hds, hds2, hcj, hz⟩
    · subst e; exact ⟨[], [], by simp, by simp [outs], by simp, by simp, by simp, [], by simp, by simp⟩
    · rcases hz with ⟨_, _, _, e⟩ | ⟨_, e, _⟩
      · obtain ⟨es, f1, f2⟩ := good_events (ys := ys ++ zs) h (by rw [← List.append_assoc]; exact g)
        refine ⟨ds, [], hds, ?_, by simp, by simp, by simp, es, f1, ?_⟩
        · rw [e, outs_none]
          · simp
          · intro d hd bs e
            rcases hds2 d hd with ⟨_, e2⟩ | e2 <;> rw [e] at e2 <;> cases e2
        · intro hm
          have := f2.connect k hm
          rename_i e0 _ _
          rw [e0, List.append_nil] at this
          obtain ⟨_, e2⟩ := hy _ this
          cases e2
      · have := g.connected.1 hk'
        rw [e] at this
        exact ((List.Nodup.not_mem_erase h.v.nodup) this).elim

/-- C83: whatever happens while a subscriber stays connected, what is put on its connection (and sent, or still in the write buffer) are complete
frames of packets multicast to it, each packet at most once; and a packet that is put on the connection is no longer held for the
subscriber. -/
theorem C83_once {ops0 : List Op} {c : PubCtx} {k : Nat} (h0 : Reaches ops0 c) (hp : c.listenPort ≠ 0) : ∀ (ops : List Op) {c' : PubCtx} {rs : List Nat},
    (∀ op ∈ ops, op.sane) → ops0.length + ops.length + 1 < U64 → run c ops = .ok (rs, c') → staysOpen k c ops = true →
    ∃ (ds : List CEv) (ps : List (Nat × Payload × Int)), c'.log = c.log ++ ds ∧
      outs k ds ++ bytes (c'.cv.conns k).writeBuf = bytes (c.cv.conns k).writeBuf ++ (ps.map (frameOf (cfg c))).flatten ∧
      (ps.map (·.1)).Nodup ∧ ∀ x ∈ ps, x.1 ∈ sentTo k c'.pub.log ∧ (x.1, x.2.1) ∈ sentPkts c'.pub.log ∧ x.1 ∉ c'.pub.outstanding k := by
  suffices ∀ (m : Nat) (ops : List Op), ops.length = m → ∀ {c' : PubCtx} {rs : List Nat},
      (∀ op ∈ ops, op.sane) → ops0.length + ops.length + 1 < U64 → run c ops = .ok (rs, c') → StaysOpen k c ops →
      Reaches (ops0 ++ ops) c' ∧ (c'.nodeId = c.nodeId ∧ c'.listenIp = c.listenIp ∧ c'.listenPort = c.listenPort) ∧
      ∃ (ds : List CEv) (ps : List (Nat × Payload × Int)), c'.log = c.log ++ ds ∧
        outs k ds ++ bytes (c'.cv.conns k).writeBuf = bytes (c.cv.conns k).writeBuf ++ (ps.map (frameOf (cfg c))).flatten ∧
        (ps.map (·.1)).Nodup ∧ ∀ x ∈ ps, x.1 ∈ sentTo k c'.pub.log ∧ (x.1, x.2.1) ∈ sentPkts c'.pub.log ∧ x.1 ∉ c'.pub.outstanding k from
    fun ops _ _ h1 h2 h3 h4 => (this _ ops rfl h1 h2 h3 (staysOpen_all ops h4)).2.2
  intro m
  induction m with
  | zero =>
    intro ops hl c' rs _ _ hr _
    have : ops = [] := List.length_eq_zero_iff.1 hl
    subst this
    cases hr
    exact ⟨by simpa using h0, ⟨rfl, rfl, rfl⟩, [], [], by simp, by simp [outs], by simp, by simp⟩
  | succ m ih =>
    intro ops hl c' rs hs hb hr ho
    rcases List.eq_nil_or_concat ops with rfl | ⟨os, op, rfl⟩
    · cases hl
    rw [List.concat_eq_append] at *
    rw [List.length_append] at hb hl
    obtain ⟨rs1, r, d, e1, e2, e3⟩ := run_snoc_inv os hr
    obtain ⟨i1, i2, ds, ps, i3, i4, i5, i6⟩ := ih os (by simpa using hl) (fun o h => hs o (List.mem_append_left _ h)) (by omega) e1
      (fun pre post h rs d hd => ho pre (post ++ [op]) (by rw [h, List.append_assoc]) rs d hd)
    have hkd : Connected d k := ho os [op] rfl _ d e1
    have hk' : Connected c' k := ho (os ++ [op]) [] (by simp) _ c' hr
    obtain ⟨pops, L, g, hq, hb', _⟩ := i1.good
    have hsane := hs op (by simp)
    have hlen : (ops0 ++ os).length + 2 < U64 := by rw [List.length_append]; simp at hb; omega
    have hbq : (queueArgs pops).length + 2 < U64 := by omega
    have hre := i1.snoc' hsane hlen e2
    obtain ⟨ds', ps', j1, j2, j3, j4, j5, es, f1, hnc⟩ := step_once g hsane hbq e2 hkd hk'
    obtain ⟨ys, L', g', _⟩ := step_good g hsane hbq e2
    have hcf : frameOf (cfg d) = frameOf (cfg c) := by
      funext x
      unfold frameOf frame
      rw [show (cfg d).nodeId = (cfg c).nodeId from i2.1, show (cfg d).listenIp = (cfg c).listenIp from i2.2.1,
        show (cfg d).listenPort = (cfg c).listenPort from i2.2.2]
    obtain ⟨n1, n2, n3⟩ := step_ids g hsane hbq e2
    have n3' : c'.listenPort = d.listenPort := by
      rcases n3 with ⟨e, _⟩ | ⟨_, _, _, _, e⟩
      · exact e
      · rw [e, if_neg (by rw [i2.2.2]; exact hp)]
    have hsub : ∀ p, p ∈ sentTo k d.pub.log → p ∈ sentTo k c'.pub.log := by
      intro p hp
      rw [f1, sentTo_append_of hnc]; exact List.mem_append_left _ hp
    refine ⟨by rw [← List.append_assoc]; exact hre, ⟨n1.trans i2.1, n2.trans i2.2.1, n3'.trans i2.2.2⟩, ds ++ ds', ps ++ ps',
      by rw [j1, i3, List.append_assoc], ?_, ?_, ?_⟩
    · rw [outs_append, List.append_assoc, j2, ← List.append_assoc, i4, hcf]; simp
    · rw [List.map_append, List.nodup_append]
      refine ⟨i5, j4, ?_⟩
      intro a ha b hb e
      subst e
      obtain ⟨x, hx, rfl⟩ := List.mem_map.1 ha
      obtain ⟨y, hy, e⟩ := List.mem_map.1 hb
      apply (i6 x hx).2.2
      rw [outstanding_owed g.p.reached.rel, ← e]
      exact List.mem_map.2 ⟨y, j3 y hy, rfl⟩
    · intro x hx
      rcases List.mem_append.1 hx with hx | hx
      · obtain ⟨q1, q2, q3⟩ := i6 x hx
        refine ⟨hsub _ q1, by rw [f1, sentPkts_append]; exact List.mem_append_left _ q2, ?_⟩
        intro hm
        rcases owed_new g g' f1 hm with h | h
        · exact q3 h
        · have hnd : ((sentPkts c'.pub.log).map (·.1)).Nodup := by rw [sent_ids hre]; exact List.nodup_range'
          rw [f1, sentPkts_append, List.map_append, List.nodup_append] at hnd
          exact hnd.2.2 _ (List.mem_map.2 ⟨_, q2, rfl⟩) _ h rfl
      · have q := j3 x hx
        refine ⟨hsub _ (owed_sentTo g q), by rw [f1, sentPkts_append]; exact List.mem_append_left _ (owed_sent g q), j5 x hx⟩

/-- The calls of the example. -/
def exAgain : List Op := [.timeout 200000 none 0, .write 0 (.ok 30), .timeout 400000 none 0]

/-- Non-vacuity: three packets have been multicast to two subscribers; subscriber 0 stays connected while the packets become overdue, are
sent again, and the timeouts are processed once more. Its connection carries the three packets, each once. -/
example : ∃ c c' : PubCtx, ∃ rs0 rs : List Nat, Reaches exPre c ∧ run exC0 exPre = .ok (rs0, c) ∧ run c exAgain = .ok (rs, c') ∧
    decide (c.listenPort ≠ 0 ∧ staysOpen 0 c exAgain = true ∧ (sentTo 0 c.pub.log) = [1, 2, 3] ∧ (outs 0 (c'.log.drop c.log.length)).length = 30 ∧
      (bytes (c'.cv.conns 0).writeBuf).length = 39) = true := by
  obtain ⟨c, rs0, h1, h2, h3⟩ := reaches_of (ops := exPre) (P := fun _ c => match run c exAgain with
    | .ok x => decide (c.listenPort ≠ 0 ∧ staysOpen 0 c exAgain = true ∧ (sentTo 0 c.pub.log) = [1, 2, 3] ∧ (outs 0 (x.2.log.drop c.log.length)).length = 30 ∧
      (bytes (x.2.cv.conns 0).writeBuf).length = 39)
    | .error _ => false) exPre_sane (by decide) (by decide +kernel)
  cases hx : run c exAgain with
  | error f => rw [hx] at h3; cases h3
  | ok x => rw [hx] at h3; exact ⟨c, x.2, rs0, x.1, h1, h2, hx, h3⟩

end PubCtx
end Rmc
