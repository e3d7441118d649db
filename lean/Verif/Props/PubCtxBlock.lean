import Verif.Props.PubCtxTime

/-!
# C81: a subscriber that does not read
-/

set_option linter.unusedSimpArgs false
set_option linter.unusedVariables false

namespace Rmc
namespace PubCtx
open CircBuf ConnVec

theorem subscribersTimeout_split {now : Int} : ∀ (ks : List Nat) {c c' : PubCtx} {r : Nat}, r ≠ 0 → subscribersTimeout c now ks = .ok (r, c') →
    ∃ pre k post c1, ks = pre ++ k :: post ∧ subscribersTimeout c now pre = .ok (0, c1) ∧ subscribersTimeout c1 now [k] = .ok (r, c') := by
  intro ks
  induction ks with
  | nil => intro c c' r hr hx; cases hx; exact absurd rfl hr
  | cons k ks ih =>
    intro c c' r hr hx
    rw [subscribersTimeout_cons] at hx
    cases hT : subscriberTimeout c k now with
    | error f => rw [hT] at hx; cases hx
    | ok x =>
      obtain ⟨r1, c1⟩ := x
      rw [hT, Pub.ok_bind] at hx
      by_cases e : r1 = 0
      · rw [if_neg (by simp [e])] at hx
        obtain ⟨pre, j, post, c2, e1, e2, e3⟩ := ih hr hx
        refine ⟨k :: pre, j, post, c2, by rw [e1]; rfl, ?_, e3⟩
        rw [subscribersTimeout_cons, hT, Pub.ok_bind, if_neg (by simp [e])]
        exact e2
      · rw [if_pos e] at hx
        cases hx
        refine ⟨[], k, ks, c, rfl, rfl, ?_⟩
        rw [subscribersTimeout_cons, hT, Pub.ok_bind, if_pos e]

/-- C81, exactly what happens: when timeout processing returns an error, the subscribers that owe overdue packets are in some order (that of their
connection) `pre`, `k`, `post`, where a packet for `k` did not fit in the buffer of its connection; those before got all that was due, those after nothing,
even if there is plenty of room in their buffers. -/
theorem C81_order {ops : List Op} {c c' : PubCtx} (h : Reaches ops c) {now : Int} {cb : Option (Bool × List UInt8)} {sp r : Nat}
    (hd : ¬ annDue c now) (hr : r ≠ 0) (hx : timeoutProcess c now cb sp = .ok (r, c')) :
    ∃ pre k post, (pre ++ k :: post).Sublist c.pub.subs ∧ (∀ j, j ∈ pre ++ k :: post ↔ Connected c j ∧ late c.pub j now c.resendTimeout = true) ∧
      (∀ j ∈ pre, bytes (c'.cv.conns j).writeBuf =
          bytes (c.cv.conns j).writeBuf ++ ((due c.pub j now c.resendTimeout).map (frameOf (cfg c))).flatten ∧
        c'.pub.owedPkts j = (c.pub.owedPkts j).filter (fun x => decide (x.1 ∉ (due c.pub j now c.resendTimeout).map (·.1)))) ∧
      (∀ j ∈ post, c'.cv.conns j = c.cv.conns j ∧ c'.pub.owedPkts j = c.pub.owedPkts j) ∧
      ∃ x ∈ due c.pub k now c.resendTimeout, x ∈ c'.pub.owedPkts k ∧ available (c'.cv.conns k).writeBuf < 21 + x.2.1.data.length := by
  obtain ⟨pops, L, g, _⟩ := h.good
  have ht := timeout_resend g hd hx
  obtain ⟨pre, k, post, c1, e1, e2, e3⟩ := subscribersTimeout_split _ hr ht
  have hnd : (pre ++ k :: post).Nodup := by rw [← e1]; exact (subs_nodup g).filter _
  have hmem : ∀ j ∈ pre ++ k :: post, j ∈ L := fun j hj => (g.slots j).2 (List.mem_filter.mp (e1 ▸ hj)).1
  rw [List.nodup_append] at hnd
  obtain ⟨n1, n2, n3⟩ := hnd
  rw [List.nodup_cons] at n2
  obtain ⟨d1, ys1, a1, a2, a3, a4, a5, a6, a7, a8⟩ := subscribersTimeout_spec pre n1 (fun j hj => hmem j (by simp [hj])) g e2
  obtain ⟨d2, ys2, b1, b2, b3, b4, b5, b6, b7, b8⟩ := subscribersTimeout_spec [k] (by simp) (fun j hj => hmem j (by simp at hj; simp [hj])) a1 e3
  have hkpre : k ∉ pre := fun hk => n3 k hk k (by simp) rfl
  have hcfg : cfg c1 = cfg c := a2.cfg
  have hto : c1.resendTimeout = c.resendTimeout := congrArg Cfg.resendTimeout hcfg
  have owed0 : ∀ j, j ∉ pre → c1.pub.owedPkts j = c.pub.owedPkts j := by
    intro j hj
    rw [a7 j, (a5 j hj).1]
    exact List.filter_eq_self.mpr (by simp)
  have owed1 : ∀ j, j ≠ k → c'.pub.owedPkts j = c1.pub.owedPkts j := by
    intro j hj
    rw [b7 j, (b5 j (by simp [hj])).1]
    exact List.filter_eq_self.mpr (by simp)
  refine ⟨pre, k, post, ?_, ?_, ?_, ?_, ?_⟩
  · rw [← e1]; exact List.filter_sublist
  · intro j
    rw [← e1, List.mem_filter, g.connected, g.slots j]
  · intro j hj
    have hjk : j ≠ k := fun e => hkpre (e ▸ hj)
    obtain ⟨rest, f1, f2⟩ := a4 j hj
    have f2 := f2 rfl
    rw [f2, List.append_nil] at f1
    rw [(b5 j (by simp [hjk])).2, owed1 j hjk, a6 j, a7 j, f1]
    exact ⟨rfl, rfl⟩
  · intro j hj
    have hjk : j ≠ k := fun e => n2.1 (e ▸ hj)
    have hjp : j ∉ pre := fun hp => n3 j hp j (by simp [hj]) rfl
    rw [(b5 j (by simp [hjk])).2, owed1 j hjk, (a5 j hjp).2, owed0 j hjp]
    exact ⟨rfl, rfl⟩
  · rcases b8 with b8 | ⟨_, j, hj, x, xs, q1, q2⟩
    · exact absurd b8 hr
    · have hj : j = k := by simpa using hj
      subst hj
      have hdue : due c1.pub j now c1.resendTimeout = due c.pub j now c.resendTimeout := by
        unfold due; rw [owed0 j hkpre, hto]
      rw [hdue] at q1
      have hxd : x ∈ due c.pub j now c.resendTimeout := by rw [q1]; simp
      refine ⟨x, hxd, ?_, q2⟩
      rw [b7 j, List.mem_filter]
      refine ⟨?_, ?_⟩
      · rw [owed0 j hkpre]
        unfold due at hxd
        exact List.mem_reverse.1 ((List.takeWhile_sublist _).subset hxd)
      · have hnd : ((due c.pub j now c.resendTimeout).map (·.1)).Nodup := by
          have h1 : ((c.pub.owedPkts j).map (·.1)).Nodup := by
            rw [owedPkts_eq g.p.reached.rel, List.map_map]
            exact (PSpec.owes_asc g.p.reached.inv j).imp (fun h => Nat.ne_of_lt h)
          unfold due
          refine List.Nodup.sublist ((List.takeWhile_sublist _).map _) ?_
          rw [List.map_reverse]
          exact nodup_rev.2 h1
        rw [q1, List.map_append, List.map_cons, List.nodup_append] at hnd
        rw [decide_eq_true_eq]
        intro hin
        exact hnd.2.2 _ hin _ (by simp) rfl

/-- A packet of the greatest size. -/
def exHuge : Payload := ⟨1, List.replicate 65312 1, false⟩

/-- Packet 1, of the greatest size, is multicast to a first subscriber, packet 2 to both; neither is acknowledged. -/
def exBlock : List Op :=
  [.activate (.ok (7, 8, 9)), .readListen (.ok 5 1) none, .queue exHuge false, .writeMcast [⟨.ok 10, []⟩], .readListen (.ok 6 1) none,
   .queue ⟨2, List.replicate 100 2, false⟩ false, .writeMcast [⟨.ok 20, []⟩]]

/-- C81 is not true: the first subscriber's connection has no room for packet 1, so timeout processing, called twice, does not resend
packet 2 to the second subscriber, whose connection's buffer is empty. Non-vacuity of `C81_order`. -/
theorem C81_false : ∃ c rs, Reaches (exBlock ++ [.timeout 200000 none 0, .timeout 300000 none 0]) c ∧
    run exC0 (exBlock ++ [.timeout 200000 none 0, .timeout 300000 none 0]) = .ok (rs, c) ∧
    decide (rs.drop 7 = [EAGAIN, EAGAIN] ∧ c.resendTimeout = 100000 ∧ c.cv.size = 2 ∧ (c.cv.conns 1).mode = .connected ∧ c.pub.outstanding 0 = [1] ∧ c.pub.outstanding 1 = [2] ∧
      (c.pub.owedPkts 1).map (·.2.2) = [20] ∧ inUse (c.cv.conns 0).writeBuf = 121 ∧ inUse (c.cv.conns 1).writeBuf = 0 ∧ c.annInterval = 0) = true :=
  reaches_of (P := fun rs c => decide _) (by simp [exBlock, Op.sane, saneAcc]) (by decide) (by decide +kernel)

end PubCtx
end Rmc
