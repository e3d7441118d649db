import Verif.SysFair
import Verif.Props.SysLive

/-! # Every fair schedule delivers (C82)

`Sys.work s` measures what is left to be done, in bytes: three times those of the packets held for connected subscribers (as sent over
TCP, with header), twice those in the publisher's write buffers, and those on their way to the subscriber. -/

set_option linter.unusedVariables false

namespace Rmc
namespace Sys
open PLog CircBuf

/-- C82: nothing more is multicast, and the event loops make `work s` rounds (`Turn`: they do what there is to do) or more, in which anything else may happen: application
calls, datagrams received, lost or repeated, other subscribers connecting and closing, reads of any number of bytes, writes of
which the kernel takes any number of bytes. Then nothing is held for any subscriber, no write buffer has anything in it, nothing is on its way, and
every packet multicast since the connection was accepted has arrived at the subscriber; those from the first that arrived on have been
delivered. `T` is a time at which everything held at the start is overdue. -/
theorem C82_fair {E : Env} {n : Nat} {s0 s t : Sys} {pre : List SysOp} {k : Nat} {T : Int} {segs : List (List SysOp)} (hs : Start E n s0)
    (hr : run E s0 pre = some s) (ht : Turns E T s segs t) (hn : n + calls pre + calls segs.flatten + 1 < U64)
    (hlen : s.work ≤ segs.length) (hT : ∀ j, ∀ x ∈ s.pub.pub.owedPkts j, x.2.2 + 100000 ≤ T)
    (hq : sentPkts t.pub.pub.log = sentPkts s.pub.pub.log)
    (hk : t.acc = some k) (he : t.err = false) (hu : SubCtx.Up t.sub E.slot) :
    (∀ j, PubCtx.Connected t.pub j → t.pub.pub.outstanding j = [] ∧ bytes (t.pub.cv.conns j).writeBuf = []) ∧ t.down = [] ∧
    bytes (t.sub.cv.conns E.slot).readBuf = [] ∧
    (∀ pid ∈ PubCtx.sentTo k t.pub.pub.log, pid ∈ (SubCtx.arrivedAt E.slot t.sub.log).map (·.1.pid)) ∧
    ∀ b, ((SubCtx.arrivedAt E.slot t.sub.log).map (·.1.pid)).head? = some b → b ∈ PubCtx.sentTo k t.pub.pub.log →
      ∀ pid ∈ PubCtx.sentTo k t.pub.pub.log, b ≤ pid → pid ∈ (SubCtx.deliveredAt E.slot t.sub.log).map (·.pid) := by
  have hi : Inv E (n + calls pre) s := (Inv.start hs).run pre (by omega) hr
  have hrun := Turns.run segs ht
  have hit := hi.run segs.flatten (by omega) hrun
  have hw : t.work = 0 := by
    rcases turns_work segs hi (by omega) ht hq hT with h | h
    · omega
    · exact h
  have hreach : Reached E t := by
    refine ⟨n, s0, pre ++ segs.flatten, hs, by rw [calls_append]; omega, ?_⟩
    rw [run_append, hr]; exact hrun
  obtain ⟨pp, p1, p2, p3⟩ := hit.pub
  obtain ⟨pops, L, g, _⟩ := p1.good
  have hz : ∀ j, j < t.pub.cv.size → t.todo j = 0 := sum_range_zero _ hw
  have hj : ∀ j, PubCtx.Connected t.pub j → t.pub.pub.outstanding j = [] ∧ bytes (t.pub.cv.conns j).writeBuf = [] := by
    intro j hc
    have := hz j hc.1
    unfold todo PubCtx.load at this
    have e1 : PubCtx.owing t.pub j = t.pub.pub.owedPkts j := if_pos hc
    have e2 : PubCtx.buffered t.pub j = bytes (t.pub.cv.conns j).writeBuf := if_pos hc
    constructor
    · rw [Rmc.outstanding_owed g.p.reached.rel]
      cases ho : t.pub.pub.owedPkts j with
      | nil => rfl
      | cons x l =>
        rw [e1, ho, List.map_cons, List.sum_cons] at this
        have := PubCtx.weight_pos x
        omega
    · rw [← e2]; exact List.length_eq_zero_iff.1 (by omega)
  have hck := (hit.acc k hk).1
  have hd : t.down = [] := by
    have := hz k hck.1
    unfold todo at this
    rw [if_pos hk] at this
    exact List.length_eq_zero_iff.1 (by omega)
  have hwb : t.wbytes = [] := by unfold wbytes; rw [hk]; exact (hj k hck).2
  have hrb := read_none hit hu hwb hd
  obtain ⟨c1, c2⟩ := C51_rest_partial hreach hk he hu (hj k hck).1 (by rw [hrb, hd, (hj k hck).2]; rfl)
  refine ⟨hj, hd, hrb, c1, ?_⟩
  intro b hb hbs pid hp hle
  refine c2 b pid hb hle fun q q1 q2 => .inl ?_
  exact PubCtx.sentTo_between p1 hbs hp q1 q2

/-- The first round of the example: packet 2, lost in multicast, is sent again and read in two pieces. -/
def exRound : List SysOp := [.pub (.timeout 200000 none 0), .pub (.write 0 (.ok 23)), .subRead 7 200100, .subRead 16 200200]
/-- The further rounds: nothing is left to do. -/
def exIdle : List SysOp := [.pub (.timeout 200000 none 0), .pub (.write 0 (.ok 1))]

theorem exIdle_turn {E : Env} {n : Nat} {t : Sys} (hi : Inv E n t) (hd : ¬ PubCtx.annDue t.pub 200000)
    (ho : ∀ j, PubCtx.Connected t.pub j → t.pub.pub.owedPkts j = []) (hc : ∀ j, PubCtx.Connected t.pub j → j = 0) (h0 : PubCtx.Connected t.pub 0)
    (hw : bytes (t.pub.cv.conns 0).writeBuf = []) (hdn : t.down = []) : Turn E 200000 t exIdle t := by
  obtain ⟨pp, p1, p2, p3⟩ := hi.pub
  obtain ⟨pops, L, g, _⟩ := p1.good
  have hsame : ∀ {op : PubCtx.Op} {r : Nat}, callOk op = true → leaves t.acc op = true → PubCtx.step t.pub op = .ok (r, t.pub) →
      next E t (.pub op) = some t := by
    intro op r h1 h2 h3
    rw [next_pub h1 h2 h3]
    have : sentDown t t.pub = [] := by
      unfold sentDown
      split
      · rfl
      · rw [List.drop_length]; rfl
    rw [this, List.append_nil]
  have s1 : next E t (.pub (.timeout 200000 none 0)) = some t := by
    refine hsame (r := 0) rfl rfl ?_
    rw [show PubCtx.step t.pub (.timeout 200000 none 0) = _ from PubCtx.timeout_resend_eq g hd none 0]
    have : (t.pub.pub.subs.filter fun k => PubCtx.late t.pub.pub k 200000 t.pub.resendTimeout) = [] := by
      rw [List.filter_eq_nil_iff]
      intro k hk
      unfold PubCtx.late
      rw [ho k (g.connected.2 ((g.slots k).2 hk))]
      simp
    rw [this]; rfl
  have s2 : next E t (.pub (.write 0 (.ok 1))) = some t := by
    rcases PubCtx.writeConn_spec g 0 (.ok 1) with ⟨e, _⟩ | ⟨_, _, e⟩ | ⟨_, e, _⟩
    · exact absurd (g.connected.1 h0) e
    · exact hsame rfl rfl e
    · exact absurd hw e
  refine ⟨?_, .inl ⟨[], 200000, none, 0, [.pub (.write 0 (.ok 1))], t, rfl, Int.le_refl _, rfl, hd⟩, ?_, .inr hdn⟩
  · show (next E t _).bind _ = _
    rw [s1]
    show (next E t _).bind _ = _
    rw [s2]; rfl
  · intro j hj
    rw [hc j hj]
    exact .inl ⟨1, by decide, by simp [exIdle]⟩

theorem exIdle_turns {E : Env} {t : Sys} (h : Turn E 200000 t exIdle t) : ∀ m, Turns E 200000 t (List.replicate m exIdle) t
  | 0 => rfl
  | m + 1 => ⟨t, h, exIdle_turns h m⟩

/-- The state after the first round, if there is one. -/
def exAfter (s : Sys) (P : Sys → Bool) : Bool := match run exE s exRound with | some t => P t | none => false

/-- The hypotheses are met after the history in which packet 2 of three is lost, by 69 rounds. -/
example : ∃ s0 s t segs, Start exE 2 s0 ∧ run exE s0 exLost = some s ∧ Turns exE 200000 s segs t ∧
    2 + calls exLost + calls segs.flatten + 1 < U64 ∧ s.work ≤ segs.length ∧ s.work = 69 ∧
    (∀ j, ∀ x ∈ s.pub.pub.owedPkts j, x.2.2 + 100000 ≤ 200000) ∧ sentPkts t.pub.pub.log = sentPkts s.pub.pub.log ∧
    t.acc = some 0 ∧ t.err = false ∧ SubCtx.Up t.sub 0 ∧ PubCtx.sentTo 0 t.pub.pub.log = [1, 2, 3] := by
  obtain ⟨s0, s, h1, h2, h3⟩ := started_of (ops := exLost) (P := fun s => exAfter s fun t => decide (s.work = 69 ∧ s.pub.cv.size = 2 ∧
    (∀ j ∈ List.range 2, ∀ x ∈ s.pub.pub.owedPkts j, x.2.2 + 100000 ≤ 200000) ∧ sentPkts t.pub.pub.log = sentPkts s.pub.pub.log ∧
    t.acc = some 0 ∧ t.err = false ∧ SubCtx.Up t.sub 0 ∧ PubCtx.sentTo 0 t.pub.pub.log = [1, 2, 3] ∧ s.pub.annInterval = 0 ∧ t.pub.annInterval = 0 ∧
    t.pub.cv.size = 2 ∧ PubCtx.Connected s.pub 0 ∧ ¬ PubCtx.Connected s.pub 1 ∧ PubCtx.Connected t.pub 0 ∧ ¬ PubCtx.Connected t.pub 1 ∧
    t.pub.pub.owedPkts 0 = [] ∧ bytes (t.pub.cv.conns 0).writeBuf = [] ∧ t.down = [])) (by decide +kernel)
  unfold exAfter at h3
  split at h3
  case h_2 => cases h3
  rename_i t hrun
  obtain ⟨a1, a2, a3, a4, a5, a6, a7, a8, a9, a9', a10, a11, a12, a13, a14, a15, a16, a17⟩ := of_decide_eq_true h3
  have hi : Inv exE _ s := (Inv.start h1).run exLost (by decide) h2
  have hit : Inv exE _ t := hi.run exRound (by decide) hrun
  have one : ∀ {c : PubCtx}, c.cv.size = 2 → ¬ PubCtx.Connected c 1 → ∀ j, PubCtx.Connected c j → j = 0 := by
    intro c e hn j hj
    have : j < 2 := e ▸ hj.1
    by_cases h : j = 1
    · subst h; exact absurd hj hn
    · omega
  have hidle := exIdle_turn hit (fun h => h.1 a9') (fun j hj => by rw [one a10 a14 j hj]; exact a15) (one a10 a14) a13 a16 a17
  have hfirst : Turn exE 200000 s exRound t := by
    refine ⟨hrun, .inl ⟨[], 200000, none, 0, _, s, rfl, Int.le_refl _, rfl, fun h => h.1 a9⟩, ?_, .inr a17⟩
    intro j hj
    rw [one a2 a12 j hj]
    exact .inl ⟨23, by decide, by simp [exRound]⟩
  refine ⟨s0, s, t, exRound :: List.replicate 68 exIdle, h1, h2, ⟨t, hfirst, exIdle_turns hidle 68⟩, by decide +kernel, ?_, a1, ?_, a4, a5, a6, a7, a8⟩
  · rw [a1]; decide
  · intro j x hx
    by_cases hj : j < 2
    · exact a3 j (List.mem_range.2 hj) x hx
    · exfalso
      obtain ⟨pp, p1, p2, p3⟩ := hi.pub
      obtain ⟨pops, L, g, _⟩ := p1.good
      rw [← owing_eq g j] at hx
      unfold PubCtx.owing at hx
      rw [if_neg (fun hc : PubCtx.Connected s.pub j => hj (a2 ▸ hc.1))] at hx
      cases hx

end Sys
end Rmc
