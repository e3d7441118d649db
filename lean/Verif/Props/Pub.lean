import Verif.PubLemmas
import Verif.PubLog

/-!
# Properties C16–C21, C23, C24: the publisher core (pub.c)

The theorems quantify over every history of operations (`List POp`): subscribers coming and going, packets and
announcements queued, the multicast socket becoming ready, acknowledgements for arbitrary packet ids arriving
from arbitrary slots. What happened is read off the log of calls and callbacks with the definitions at the top of
`Verif.PubLog` (`queuedPkts`, `sentPkts`, `frees`, `subsOf`, `settled`, `owed`), which do not mention the
publisher's data structures.

The only restriction on a history is `legal`: a slot is connected only when free and closed only when connected
(the caller, rmc_pub_read.c, does exactly that, see C45) and fewer than 2^64 - 1 packets are queued.
-/

set_option linter.unusedSimpArgs false
set_option linter.unusedVariables false

namespace Rmc
open PLog

/-- Slots are connected when free and closed when connected; `S` are the slots in use at the start. -/
def legal : List Nat → List POp → Prop
  | _, [] => True
  | S, .connect k :: ops => k ∉ S ∧ legal (S ++ [k]) ops
  | S, .close k :: ops => k ∈ S ∧ legal (S.erase k) ops
  | S, .queue _ :: ops => legal S ops
  | S, .announce _ :: ops => legal S ops
  | S, .send _ :: ops => legal S ops
  | S, .ack _ _ :: ops => legal S ops

instance decLegal : (S : List Nat) → (ops : List POp) → Decidable (legal S ops)
  | _, [] => isTrue trivial
  | S, .connect k :: ops => by have := decLegal (S ++ [k]) ops; unfold legal; infer_instance
  | S, .close k :: ops => by have := decLegal (S.erase k) ops; unfold legal; infer_instance
  | S, .queue _ :: ops => by have := decLegal S ops; unfold legal; infer_instance
  | S, .announce _ :: ops => by have := decLegal S ops; unfold legal; infer_instance
  | S, .send _ :: ops => by have := decLegal S ops; unfold legal; infer_instance
  | S, .ack _ _ :: ops => by have := decLegal S ops; unfold legal; infer_instance

/-- The payloads a history queues as announcements. -/
def announceArgs (ops : List POp) : List Payload :=
  ops.filterMap fun op => match op with | .announce p => some p | _ => none

/-- The packet ids on a subscriber's in-flight list, oldest first. -/
def Pub.outstanding (s : Pub) (k : Nat) : List Nat :=
  (s.sinfl k).reverse.filterMap fun a => (s.pk a).map (·.pid)

theorem legal_allowed : ∀ (ops : List POp) (A : PSpec), legal A.subs ops → A.allowedAll ops := by
  intro ops
  induction ops with
  | nil => intro A _; trivial
  | cons op ops ih =>
    intro A h
    cases op with
    | connect k => exact ⟨h.1, ih _ h.2⟩
    | close k => exact ⟨h.1, ih _ h.2⟩
    | queue p => exact ⟨trivial, ih _ h⟩
    | announce p => exact ⟨trivial, ih _ h⟩
    | ack k pid => exact ⟨trivial, ih _ h⟩
    | send ts =>
      refine ⟨trivial, ih _ ?_⟩
      have : (A.step (.send ts)).subs = A.subs := by simp only [PSpec.step]; split <;> rfl
      rw [this]; exact h

/-- What every history of the code leads to. -/
structure Reached (s : Pub) (A : PSpec) : Prop where
  rel : Pub.Rel s A
  inv : A.Inv
  linv : A.LInv
  log : s.log = A.log

theorem reach {ops : List POp} (hl : legal [] ops) (hn : (queueArgs ops).length + 1 < U64) :
    ∃ s, Pub.run Pub.init ops = .ok s ∧ Reached s (PSpec.init.run ops) := by
  have ha := legal_allowed ops PSpec.init hl
  obtain ⟨s, h1, h2⟩ := Pub.sim_run ops Pub.Rel_init PSpec.Inv_init ha (by
    show 1 + (queueArgs ops).length < U64; omega)
  have hlog : s.log = (PSpec.init.run ops).log := by
    obtain ⟨_, _, _, _, _, _, _, _, _, _, _, _, _, _, _, _, r14⟩ := h2; exact r14
  exact ⟨s, h1, h2, PSpec.Inv_run ops PSpec.Inv_init ha,
    PSpec.LInv_run ops PSpec.LInv_init PSpec.Inv_init ha, hlog⟩

theorem reached {ops : List POp} (hl : legal [] ops) (hn : (queueArgs ops).length + 1 < U64) {s : Pub}
    (h : Pub.run Pub.init ops = .ok s) : Reached s (PSpec.init.run ops) := by
  obtain ⟨s', h1, h2⟩ := reach hl hn
  rw [h] at h1; cases h1; exact h2

theorem outstanding_eq {s : Pub} {A : PSpec} (h : Pub.Rel s A) (k : Nat) :
    s.outstanding k = (A.owes k).map (·.pid) := by
  obtain ⟨l, l1, l2, l3⟩ := Pub.Rel_sinfl h k
  unfold Pub.outstanding
  rw [l1, l2, List.reverse_reverse, List.map_map]
  clear l1 l2
  induction l with
  | nil => rfl
  | cons e l ih =>
    rw [List.map_cons, List.filterMap_cons, l3 e (by simp)]
    simp only [Option.map_some, List.map_cons, Function.comp_apply]
    rw [ih (fun e he => l3 e (by simp [he]))]

/-! ## C16 -/


theorem freed_queued (k : Nat) (c : Nat → Bool) (l : List Sent) :
    queuedPkts (PSpec.freed k c l) = [] ∧ queuedAnn (PSpec.freed k c l) = [] ∧
    sentPkts (PSpec.freed k c l) = [] ∧ sentAnn (PSpec.freed k c l) = [] := by
  have h : ∀ e ∈ PSpec.freed k c l, ∃ pid p, e = .free pid p := by
    intro e he
    obtain ⟨r, _, h, _⟩ := PSpec.freed_free he
    exact ⟨_, _, h⟩
  refine ⟨?_, ?_, ?_, ?_⟩ <;>
  · simp only [queuedPkts, queuedAnn, sentPkts, sentAnn]
    rw [List.filterMap_eq_nil_iff]
    intro e he
    obtain ⟨pid, p, rfl⟩ := h e he
    rfl

theorem step_queued {A : PSpec} (h : A.Inv) (op : POp) :
    (queuedPkts (A.step op).log).map (·.2) = (queuedPkts A.log).map (·.2) ++ queueArgs [op] ∧
    queuedAnn (A.step op).log = queuedAnn A.log ++ announceArgs [op] := by
  have h0 : A.nextPid ≠ 0 := by have := h.pos; omega
  cases op with
  | connect k => simp [PSpec.step, queueArgs, announceArgs, queuedPkts, queuedAnn]
  | close k =>
    obtain ⟨f1, f2, _⟩ := freed_queued k (fun _ => true) A.infl
    simp only [PSpec.step, PSpec.release, queuedPkts_append, queuedAnn_append, f1, f2]
    simp [queueArgs, announceArgs, queuedPkts, queuedAnn]
  | queue p => simp [PSpec.step, queueArgs, announceArgs, queuedPkts, queuedAnn, h0]
  | announce p => simp [PSpec.step, queueArgs, announceArgs, queuedPkts, queuedAnn]
  | ack k pid =>
    obtain ⟨f1, f2, _⟩ := freed_queued k (fun q => q == pid) A.infl
    simp only [PSpec.step, PSpec.release, queuedPkts_append, queuedAnn_append, f1, f2]
    simp [queueArgs, announceArgs, queuedPkts, queuedAnn]
  | send ts =>
    simp only [PSpec.step]
    split <;> simp [queueArgs, announceArgs, queuedPkts, queuedAnn]

theorem run_queued : ∀ (ops : List POp) {A : PSpec}, A.Inv → A.allowedAll ops →
    (queuedPkts (A.run ops).log).map (·.2) = (queuedPkts A.log).map (·.2) ++ queueArgs ops ∧
    queuedAnn (A.run ops).log = queuedAnn A.log ++ announceArgs ops := by
  intro ops
  induction ops with
  | nil => intro A _ _; simp [queueArgs, announceArgs, PSpec.run]
  | cons op ops ih =>
    intro A h ha
    obtain ⟨e1, e2⟩ := ih (PSpec.Inv_step h ha.1) ha.2
    obtain ⟨g1, g2⟩ := step_queued h op
    show (queuedPkts ((A.step op).run ops).log).map (·.2) = _ ∧ queuedAnn ((A.step op).run ops).log = _
    rw [e1, e2, g1, g2, List.append_assoc, List.append_assoc]
    constructor
    · congr 1; unfold queueArgs; rw [← List.filterMap_append]; rfl
    · congr 1; unfold announceArgs; rw [← List.filterMap_append]; rfl

/-- C16: the i-th payload queued is packet i (counting from 1), with that payload; announcements are id 0 (they are
not in `queuedPkts`), in the order queued. -/
theorem C16_ids {ops : List POp} (hl : legal [] ops) (hn : (queueArgs ops).length + 1 < U64) {s : Pub}
    (h : Pub.run Pub.init ops = .ok s) :
    queuedPkts s.log = (queueArgs ops).mapIdx (fun i p => (i + 1, p)) ∧
    queuedAnn s.log = announceArgs ops := by
  have hr := reached hl hn h
  obtain ⟨e1, e2⟩ := run_queued ops PSpec.Inv_init (legal_allowed ops PSpec.init hl)
  have e3 := hr.linv.pids
  rw [hr.log]
  constructor
  · have e1' : (queuedPkts (PSpec.init.run ops).log).map (·.2) = queueArgs ops := e1
    have hlen : (queueArgs ops).length = (queuedPkts (PSpec.init.run ops).log).length := by
      rw [← e1']; simp
    apply List.ext_getElem
    · simp [hlen]
    · intro i h1 h2
      have f1 : (queuedPkts (PSpec.init.run ops).log)[i].1 = i + 1 := by
        have : ((queuedPkts (PSpec.init.run ops).log).map (·.1))[i]'(by simpa using h1) = i + 1 := by
          simp only [e3, List.getElem_range']; omega
        simpa using this
      have f2 : (queuedPkts (PSpec.init.run ops).log)[i].2 = (queueArgs ops)[i]'(by rw [hlen]; exact h1) := by
        simp only [← e1', List.getElem_map]
      rw [List.getElem_mapIdx, ← f2, ← f1]
  · exact e2

/-- C16: the id returned by the call that queues a packet is the number of packets queued so far plus one; so no id
is ever given twice. -/
theorem C16_returned {ops : List POp} (hl : legal [] ops) (hn : (queueArgs ops).length + 2 < U64) {s : Pub}
    (h : Pub.run Pub.init ops = .ok s) (p : Payload) :
    ∃ s', Pub.queuePacket s p = .ok ((queueArgs ops).length + 1, s') ∧
      s'.log = s.log ++ [.queue ((queueArgs ops).length + 1) p] := by
  have hr := reached hl (by omega) h
  have hid := (C16_ids hl (by omega) h).1
  have hlen : (queuedPkts s.log).length = (queueArgs ops).length := by rw [hid]; simp
  have e3 := congrArg List.length hr.linv.pids
  rw [List.length_map, List.length_range', ← hr.log, hlen] at e3
  have hpos := hr.inv.pos
  have hnp : (PSpec.init.run ops).nextPid = (queueArgs ops).length + 1 := by omega
  obtain ⟨s', h1, h2⟩ := Pub.sim_queue hr.rel hr.inv (by omega) p
  refine ⟨s', by rw [← hnp]; exact h1, ?_⟩
  obtain ⟨_, _, _, _, _, _, _, _, _, _, _, _, _, _, _, _, r14⟩ := h2
  rw [r14, hr.log, ← hnp]; rfl

/-! ## C17 -/

/-- C17: what has been multicast is a prefix of what was queued, so packets leave in increasing id, each once, with
the payload given; the rest is still queued, and nothing else is. The same for announcements. -/
theorem C17_order {ops : List POp} (hl : legal [] ops) (hn : (queueArgs ops).length + 1 < U64) {s : Pub}
    (h : Pub.run Pub.init ops = .ok s) :
    ∃ waiting waitingAnn, queuedPkts s.log = sentPkts s.log ++ waiting ∧
      queuedAnn s.log = sentAnn s.log ++ waitingAnn ∧ s.queueSize = waiting.length + waitingAnn.length := by
  have hr := reached hl hn h
  refine ⟨(PSpec.init.run ops).que, (PSpec.init.run ops).ann, ?_, ?_, ?_⟩
  · rw [hr.log]; exact hr.linv.qp
  · rw [hr.log]; exact hr.linv.qa
  · obtain ⟨Q, N, I, r1, r2, r3, r4, _⟩ := hr.rel
    unfold Pub.queueSize
    rw [r1, r2, r4]; simp

/-- C17: a packet is multicast only when no announcement is waiting, and after it was queued. -/
theorem C17_announcements_first {ops : List POp} (hl : legal [] ops) (hn : (queueArgs ops).length + 1 < U64) {s : Pub}
    (h : Pub.run Pub.init ops = .ok s) {l0 l1 : List PEv} {pid : Nat} {p : Payload} {ts : Int}
    (he : s.log = l0 ++ .send pid p ts :: l1) :
    .queue pid p ∈ l0 ∧ (pid ≠ 0 → queuedAnn l0 = sentAnn l0) := by
  have hr := reached hl hn h
  exact hr.linv.send l0 pid p ts l1 (by rw [← hr.log]; exact he)

/-- C17: when the socket is ready and something is waiting, exactly one packet goes out. -/
theorem C17_progress {ops : List POp} (hl : legal [] ops) (hn : (queueArgs ops).length + 1 < U64) {s : Pub}
    (h : Pub.run Pub.init ops = .ok s) (hq : s.queueSize ≠ 0) (ts : Int) :
    ∃ s' pid p, Pub.step s (.send ts) = .ok s' ∧ s'.log = s.log ++ [.send pid p ts] ∧
      s'.queueSize + 1 = s.queueSize := by
  have hr := reached hl hn h
  obtain ⟨s', h1, h2⟩ := Pub.sim_send hr.rel hr.inv ts
  have hlog : s'.log = ((PSpec.init.run ops).step (.send ts)).log := by
    obtain ⟨_, _, _, _, _, _, _, _, _, _, _, _, _, _, _, _, r14⟩ := h2; exact r14
  have hsz : ∀ {s : Pub} {A : PSpec}, Pub.Rel s A → s.queueSize = A.que.length + A.ann.length := by
    intro s A hR
    obtain ⟨Q, N, I, r1, r2, r3, r4, _⟩ := hR
    unfold Pub.queueSize; rw [r1, r2, r4]; simp
  have z1 := hsz hr.rel
  have z2 := hsz h2
  generalize PSpec.init.run ops = A at *
  cases hann : A.ann with
  | cons p ann =>
    refine ⟨s', 0, p, h1, ?_, ?_⟩
    · rw [hlog, hr.log]; simp only [PSpec.step, hann]
    · simp only [PSpec.step, hann] at z2; rw [hann] at z1; simp at z1 z2; omega
  | nil =>
    cases hque : A.que with
    | nil => rw [hann, hque] at z1; simp at z1; omega
    | cons x que =>
      obtain ⟨pid, p⟩ := x
      refine ⟨s', pid, p, h1, ?_, ?_⟩
      · rw [hlog, hr.log]; simp only [PSpec.step, hann, hque]
      · simp only [PSpec.step, hann, hque] at z2; rw [hann, hque] at z1; simp at z1 z2; omega

/-! ## C18 -/

/-- C18: whenever a payload is handed back, it is the payload of a packet that was multicast before, every subscriber
connected when it was multicast has since acknowledged it or been closed, and it had not been handed back. -/
theorem C18_free_safe {ops : List POp} (hl : legal [] ops) (hn : (queueArgs ops).length + 1 < U64) {s : Pub}
    (h : Pub.run Pub.init ops = .ok s) {m0 m1 : List PEv} {pid : Nat} {p : Payload}
    (he : s.log = m0 ++ .free pid p :: m1) :
    ∃ l0 l1 ts, m0 = l0 ++ .send pid p ts :: l1 ∧ .queue pid p ∈ l0 ∧
      (∀ k ∈ subsOf l0, settled l1 k pid) ∧ pid ∉ (frees m0).map (·.1) := by
  have hr := reached hl hn h
  rw [hr.log] at he
  obtain ⟨l0, l1, ts, e1, _, _, e2, e3⟩ := hr.linv.free m0 pid p m1 he
  refine ⟨l0, l1, ts, e1, ?_, e2, e3⟩
  exact (hr.linv.send l0 pid p ts (l1 ++ .free pid p :: m1) (by rw [he, e1]; simp)).1

/-- C18: no packet is handed back twice. -/
theorem C18_free_once {ops : List POp} (hl : legal [] ops) (hn : (queueArgs ops).length + 1 < U64) {s : Pub}
    (h : Pub.run Pub.init ops = .ok s) : ((frees s.log).map (·.1)).Nodup := by
  have key : ∀ l : List PEv, (∀ m0 pid p m1, l = m0 ++ .free pid p :: m1 → pid ∉ (frees m0).map (·.1)) →
      ((frees l).map (·.1)).Nodup := by
    intro l
    suffices H : ∀ r : List PEv, (∀ m0 pid p m1, r.reverse = m0 ++ .free pid p :: m1 → pid ∉ (frees m0).map (·.1)) →
        ((frees r.reverse).map (·.1)).Nodup by
      have := H l.reverse
      rwa [List.reverse_reverse] at this
    intro r
    induction r with
    | nil => intro _; simp [frees]
    | cons e r ih =>
      rw [List.reverse_cons]
      generalize r.reverse = l at ih ⊢
      intro hx
      have := ih (fun m0 pid p m1 hm => hx m0 pid p (m1 ++ [e]) (by rw [hm]; simp))
      rw [frees_append, List.map_append]
      cases e with
      | free pid p =>
        have h2 := hx l pid p [] (by simp)
        rw [List.nodup_append]
        refine ⟨this, by simp [frees], ?_⟩
        intro a ha b hb
        simp [frees] at hb; subst hb
        intro hab; subst hab; exact h2 ha
      | _ => simpa [frees] using this
  apply key
  intro m0 pid p m1 hm
  obtain ⟨_, _, _, _, _, _, h4⟩ := C18_free_safe hl hn h hm
  exact h4

/-! ## C19 -/

/-- C19: at every moment, a packet that was multicast to at least one subscriber and that every such subscriber has
acknowledged (or been closed since) has been handed back.
Missing for the full property: packets multicast while no subscriber was connected, see `C19_false`. -/
theorem C19_released_partial {ops : List POp} (hl : legal [] ops) (hn : (queueArgs ops).length + 1 < U64) {s : Pub}
    (h : Pub.run Pub.init ops = .ok s) {l0 l1 : List PEv} {pid : Nat} {p : Payload} {ts : Int}
    (he : s.log = l0 ++ .send pid p ts :: l1) (h0 : pid ≠ 0) (hs : subsOf l0 ≠ [])
    (hset : ∀ k ∈ subsOf l0, settled l1 k pid) : .free pid p ∈ l1 := by
  have hr := reached hl hn h
  rw [hr.log] at he
  have hnd := PSpec.sent_nodup hr.linv
  by_cases hf : pid ∈ (frees (PSpec.init.run ops).log).map (·.1)
  · obtain ⟨⟨q, p'⟩, hx, rfl⟩ := List.mem_map.mp hf
    rw [mem_frees] at hx
    obtain ⟨m0, m1, hm⟩ := List.append_of_mem hx
    obtain ⟨k0, k1, us, e1, e2, e3, e4, e5⟩ := hr.linv.free m0 _ p' m1 hm
    rw [hm, e1] at he hnd
    have hu := send_unique (l1 := k1 ++ .free q p' :: m1) h0 (by simpa using he) (by simpa using hnd)
    obtain ⟨_, rfl, _, rfl⟩ := hu
    simp
  · exfalso
    have hm : (pid, p) ∈ (PSpec.init.run ops).infl.map (fun r => (r.pid, r.payload)) := by
      rw [hr.linv.inflEq, List.mem_filter]
      refine ⟨mem_sentPkts.mpr ⟨h0, ts, by rw [he]; simp⟩, by simpa using hf⟩
    obtain ⟨r, hrm, hre⟩ := List.mem_map.mp hm
    obtain ⟨rfl, rfl⟩ := Prod.mk.inj hre
    obtain ⟨k0, k1, e1, e2, e3⟩ := hr.linv.infl r hrm
    rw [e1] at he hnd
    obtain ⟨rfl, _, _, rfl⟩ := send_unique h0 he hnd
    rcases e3 with e3 | e3
    · exact hs e3
    · apply e3
      rw [e2, List.filter_eq_nil_iff]
      intro k hk
      simp [hset k hk]

/-- C19: the count of unacknowledged packets is the number of packets multicast and not handed back. -/
theorem C19_count {ops : List POp} (hl : legal [] ops) (hn : (queueArgs ops).length + 1 < U64) {s : Pub}
    (h : Pub.run Pub.init ops = .ok s) :
    s.unackedCount = ((sentPkts s.log).filter (fun x => decide (x.1 ∉ (frees s.log).map (·.1)))).length := by
  have hr := reached hl hn h
  rw [hr.log, ← hr.linv.inflEq]
  obtain ⟨Q, N, I, r1, r2, r3, r4, r5, _⟩ := hr.rel
  unfold Pub.unackedCount; rw [r3, r5]; simp

/-- C19 fails: a packet multicast while no subscriber is connected is never handed back, whatever happens
afterwards, and is counted as unacknowledged for ever. -/
theorem C19_false {ops : List POp} (hl : legal [] ops) (hn : (queueArgs ops).length + 1 < U64) {s : Pub}
    (h : Pub.run Pub.init ops = .ok s) {l0 l1 : List PEv} {pid : Nat} {p : Payload} {ts : Int}
    (he : s.log = l0 ++ .send pid p ts :: l1) (h0 : pid ≠ 0) (hs : subsOf l0 = []) :
    (∀ q, .free pid q ∉ s.log) ∧ s.unackedCount ≠ 0 := by
  have hr := reached hl hn h
  have hc := C19_count hl hn h
  have hf : ∀ q, .free pid q ∉ s.log := by
    intro q hx
    have hnd := PSpec.sent_nodup hr.linv
    rw [← hr.log] at hnd
    obtain ⟨m0, m1, hm⟩ := List.append_of_mem hx
    have hm' := hm
    rw [hr.log] at hm'
    obtain ⟨k0, k1, us, e1, e2, e3, e4, e5⟩ := hr.linv.free m0 _ q m1 hm'
    rw [hm, e1] at he hnd
    have hu := send_unique (l1 := k1 ++ .free pid q :: m1) h0 (by simpa using he) (by simpa using hnd)
    obtain ⟨rfl, _⟩ := hu
    exact e3 hs
  refine ⟨hf, ?_⟩
  rw [hc]
  intro hz
  have := List.length_eq_zero_iff.mp hz
  rw [List.filter_eq_nil_iff] at this
  refine this (pid, p) (mem_sentPkts.mpr ⟨h0, ts, by rw [he]; simp⟩) ?_
  simp only [decide_eq_true_eq]
  intro hx
  obtain ⟨⟨q, p'⟩, hx', rfl⟩ := List.mem_map.mp hx
  exact hf p' (mem_frees.mp hx')

/-! ## C20 -/

/-- C20: no history makes the publisher use or free a freed packet, fail the assertion or loop; and every address on
its lists is that of a live packet. -/
theorem C20_safe {ops : List POp} (hl : legal [] ops) (hn : (queueArgs ops).length + 1 < U64) :
    ∃ s, Pub.run Pub.init ops = .ok s ∧ (∀ a ∈ s.queued ++ s.inflight, s.pk a ≠ none) ∧
      (∀ k, ∀ a ∈ s.sinfl k, s.pk a ≠ none ∧ a ∈ s.inflight) := by
  obtain ⟨s, h1, hr⟩ := reach hl hn
  refine ⟨s, h1, ?_, ?_⟩
  · obtain ⟨Q, N, I, r1, r2, r3, r4, r5, r6, r7, r8, r9, _⟩ := hr.rel
    intro a ha
    rw [r4, r5] at ha
    simp only [List.mem_append, List.mem_reverse, List.mem_map] at ha
    rcases ha with (⟨e, he, rfl⟩ | ⟨e, he, rfl⟩) | ⟨e, he, rfl⟩
    · rw [r7 e he]; simp
    · rw [r8 e he]; simp
    · rw [r9 e he]; simp
  · obtain ⟨Q, N, I, r1, r2, r3, r4, r5, r6, r7, r8, r9, _⟩ := hr.rel
    intro k a ha
    rw [r6 k] at ha
    simp only [List.mem_reverse, List.mem_map, List.mem_filter] at ha
    obtain ⟨e, ⟨he, _⟩, rfl⟩ := ha
    refine ⟨by rw [r9 e he]; simp, ?_⟩
    rw [r5]; simp only [List.mem_reverse, List.mem_map]; exact ⟨e, he, rfl⟩

/-! ## C23, C21 -/

/-- C23: the packets on a subscriber's in-flight list are, in order, exactly those multicast since it connected and
not acknowledged by it. -/
theorem C23_outstanding {ops : List POp} (hl : legal [] ops) (hn : (queueArgs ops).length + 1 < U64) {s : Pub}
    (h : Pub.run Pub.init ops = .ok s) (k : Nat) : s.outstanding k = (owed k s.log).2 := by
  have hr := reached hl hn h
  rw [outstanding_eq hr.rel, hr.log, hr.linv.owed]

/-- C23, reading of `owed`: connecting starts with nothing owed; each packet multicast is owed by exactly the
connected subscribers; an acknowledgement removes that packet for that subscriber; closing ends it. -/
theorem C23_owed_rules (k : Nat) (l : List PEv) :
    owed k [] = (false, []) ∧
    owed k (l ++ [.connect k]) = (true, []) ∧
    (∀ j, j ≠ k → owed k (l ++ [.connect j]) = owed k l) ∧
    owed k (l ++ [.close k]) = (false, []) ∧
    (∀ j, j ≠ k → owed k (l ++ [.close j]) = owed k l) ∧
    (∀ pid p ts, pid ≠ 0 → (owed k l).1 = true → owed k (l ++ [.send pid p ts]) = (true, (owed k l).2 ++ [pid])) ∧
    (∀ pid p ts, (owed k l).1 = false → owed k (l ++ [.send pid p ts]) = owed k l) ∧
    (∀ p ts, owed k (l ++ [.send 0 p ts]) = owed k l) ∧
    (∀ pid, (owed k (l ++ [.ack k pid])).2 = (owed k l).2.filter (· ≠ pid)) ∧
    (∀ j pid, j ≠ k → owed k (l ++ [.ack j pid]) = owed k l) ∧
    (∀ pid p, owed k (l ++ [.queue pid p]) = owed k l ∧ owed k (l ++ [.free pid p]) = owed k l) := by
  refine ⟨rfl, ?_, ?_, ?_, ?_, ?_, ?_, ?_, ?_, ?_, ?_⟩
  · rw [owed_append]; simp
  · intro j hj; rw [owed_append]; simp [hj]
  · rw [owed_append]; simp
  · intro j hj; rw [owed_append]; simp [hj]
  · intro pid p ts h0 hc; rw [owed_append]; simp [h0, hc]
  · intro pid p ts hc; rw [owed_append]; simp [hc]
  · intro p ts; rw [owed_append]; simp
  · intro pid; rw [owed_append]; simp
  · intro j pid hj; rw [owed_append]; simp [hj]
  · intro pid p; exact ⟨by rw [owed_append]; rfl, by rw [owed_append]; rfl⟩

/-- C21: acknowledging a packet the subscriber does not owe (never sent to it, not sent yet, already acknowledged,
announcement, or no such subscriber) changes nothing (the ghost log records that the call was made) and calls
nothing. -/
theorem C21_no_effect {ops : List POp} (hl : legal [] ops) (hn : (queueArgs ops).length + 1 < U64) {s : Pub}
    (h : Pub.run Pub.init ops = .ok s) {k pid : Nat} (hp : pid ∉ (owed k s.log).2) :
    Pub.packetAck s k pid = .ok { s with log := s.log ++ [.ack k pid] } := by
  have hr := reached hl hn h
  rw [← C23_outstanding hl hn h, outstanding_eq hr.rel] at hp
  obtain ⟨l, l1, l2, l3⟩ := Pub.Rel_sinfl hr.rel k
  rw [l2] at hp
  have hfind := Pub.findPid_spec (pk := s.pk) (pid := pid) Sent.pid l (fun e he => ⟨_, l3 e he, rfl⟩)
  have hnone : l.find? (fun e => decide (e.2.pid = pid)) = none := by
    rw [List.find?_eq_none]
    intro e he hc
    apply hp
    simp only [decide_eq_true_eq] at hc
    exact List.mem_map.mpr ⟨e.2, List.mem_map.mpr ⟨e, he, rfl⟩, hc⟩
  unfold Pub.packetAck Pub.ackCore
  show (Pub.findPid s.pk pid (s.sinfl k).reverse >>= _) = _
  rw [l1, List.reverse_reverse, hfind, hnone]
  rfl

/-- C22 for a single packet id: an acknowledgement removes that packet from what that subscriber owes, and changes
nothing for any other subscriber. -/
theorem C22_single {ops : List POp} (hl : legal [] ops) (hn : (queueArgs ops).length + 1 < U64) {s : Pub}
    (h : Pub.run Pub.init ops = .ok s) (k pid : Nat) :
    ∃ s', Pub.packetAck s k pid = .ok s' ∧ s'.outstanding k = (s.outstanding k).filter (· ≠ pid) ∧
      (∀ j, j ≠ k → s'.outstanding j = s.outstanding j) := by
  have hr := reached hl hn h
  have h0 := Pub.sim_log hr.rel (.ack k pid)
  have hi0 := PSpec.Inv_log hr.inv ((PSpec.init.run ops).log ++ [.ack k pid])
  obtain ⟨s', h1, h2⟩ := Pub.sim_ackCore h0 hi0 k pid
  refine ⟨s', h1, ?_, ?_⟩
  · rw [outstanding_eq h2, outstanding_eq hr.rel]
    unfold PSpec.owes PSpec.release
    simp only
    rw [PSpec.owes_filterMap k _ _ hi0.owedND, List.filter_map]
    congr 1
    apply List.filter_congr
    intro x _
    by_cases hx : x.pid = pid <;> simp [hx]
  · intro j hj
    rw [outstanding_eq h2, outstanding_eq hr.rel]
    have := congrArg (List.map (·.1)) (PSpec.owes_other hj (fun q => q == pid) (PSpec.init.run ops).infl)
    unfold PSpec.owes PSpec.release
    simp only [List.map_map] at this ⊢
    exact this

/-! ## C24 -/

theorem inj_of_nodup_map {α β : Type} {f : α → β} : ∀ {l : List α}, (l.map f).Nodup → ∀ {x y : α}, x ∈ l → y ∈ l →
    f x = f y → x = y := by
  intro l
  induction l with
  | nil => intro _ x y hx; simp at hx
  | cons a l ih =>
    intro hn x y hx hy he
    rw [List.map_cons, List.nodup_cons] at hn
    rcases List.mem_cons.mp hx with rfl | hx <;> rcases List.mem_cons.mp hy with rfl | hy
    · rfl
    · exact absurd (List.mem_map.mpr ⟨y, hy, he.symm⟩) hn.1
    · exact absurd (show f y ∈ l.map f from List.mem_map.mpr ⟨x, by assumption, he⟩) hn.1
    · exact ih hn.2 hx hy he

/-- C24: closing a subscriber leaves what every other subscriber owes as it was, releases what it owed itself, and
hands back exactly the payloads of the packets that nobody else owes. -/
theorem C24_close {ops : List POp} (hl : legal [] ops) (hn : (queueArgs ops).length + 1 < U64) {s : Pub}
    (h : Pub.run Pub.init ops = .ok s) {k : Nat} (hk : k ∈ subsOf s.log) :
    ∃ s' new, Pub.resetSubscriber s k = .ok s' ∧ s'.log = s.log ++ .close k :: new ∧
      s'.outstanding k = [] ∧ (∀ j, j ≠ k → s'.outstanding j = s.outstanding j) ∧
      (∀ pid p, .free pid p ∈ new ↔
        (pid, p) ∈ sentPkts s.log ∧ pid ∈ s.outstanding k ∧ ∀ j, j ≠ k → pid ∉ s.outstanding j) ∧
      (∀ e ∈ new, ∃ pid p, e = .free pid p) := by
  have hr := reached hl hn h
  rw [hr.log, ← hr.linv.subs] at hk
  obtain ⟨s', h1, h2⟩ := Pub.sim_close hr.rel hr.inv hk
  have hlog : s'.log = s.log ++ .close k :: PSpec.freed k (fun _ => true) (PSpec.init.run ops).infl := by
    obtain ⟨_, _, _, _, _, _, _, _, _, _, _, _, _, _, _, _, r14⟩ := h2
    rw [r14, hr.log]
    simp [PSpec.step, PSpec.release]
  refine ⟨s', _, h1, hlog, ?_, ?_, ?_, ?_⟩
  · rw [outstanding_eq h2]
    have := PSpec.owes_release_all hr.inv k
    have e : PSpec.owes ((PSpec.init.run ops).step (.close k)) k = PSpec.owes ((PSpec.init.run ops).release k fun _ => true) k := rfl
    rw [e, this]; rfl
  · intro j hj
    rw [outstanding_eq h2, outstanding_eq hr.rel]
    have := congrArg (List.map (·.1)) (PSpec.owes_other hj (fun _ => true) (PSpec.init.run ops).infl)
    unfold PSpec.owes
    simp only [PSpec.step, PSpec.release, List.map_map] at this ⊢
    exact this
  · have hasc := PSpec.infl_pids_asc hr.inv
    have hnd : ((PSpec.init.run ops).infl.map (·.pid)).Nodup := hasc.imp (fun h => Nat.ne_of_lt h)
    have hsent := hr.linv.inflEq
    have hown := hr.inv.owedND
    rw [hr.log]
    intro pid p
    simp only [outstanding_eq hr.rel]
    generalize PSpec.init.run ops = A at *
    have hinj : ∀ r ∈ A.infl, ∀ q ∈ A.infl, r.pid = q.pid → r = q := by
      intro r hr' q hq he
      exact inj_of_nodup_map hnd hr' hq he
    constructor
    · intro hf
      obtain ⟨r, hrm, he, hrel⟩ := PSpec.freed_free hf
      injection he with e1 e2
      subst e1; subst e2
      unfold PSpec.relax at hrel
      split at hrel
      · rename_i hc
        split at hrel
        · rename_i hemp
          refine ⟨?_, ?_, ?_⟩
          · have : (r.pid, r.payload) ∈ A.infl.map (fun r => (r.pid, r.payload)) := List.mem_map.mpr ⟨r, hrm, rfl⟩
            rw [hsent] at this
            exact (List.mem_filter.mp this).1
          · exact List.mem_map.mpr ⟨r, List.mem_filter.mpr ⟨hrm, by simpa using hc.2⟩, rfl⟩
          · intro j hj hx
            obtain ⟨q, hq, hqe⟩ := List.mem_map.mp hx
            obtain ⟨hq1, hq2⟩ := List.mem_filter.mp hq
            have := hinj q hq1 r hrm hqe
            subst this
            have : j ∈ q.owed.erase k := (List.mem_erase_of_ne hj).mpr (by simpa using hq2)
            rw [hemp] at this; simp at this
        · cases hrel
      · cases hrel
    · rintro ⟨hs, ho, hoth⟩
      obtain ⟨r, hr1, rfl⟩ := List.mem_map.mp ho
      obtain ⟨hrm, hrk⟩ := List.mem_filter.mp hr1
      have hmem : (r.pid, r.payload) ∈ A.infl.map (fun r => (r.pid, r.payload)) := List.mem_map.mpr ⟨r, hrm, rfl⟩
      have hpay : r.payload = p := by
        rw [hsent] at hmem
        have hm := (List.mem_filter.mp hmem).1
        have hnds := PSpec.sent_nodup hr.linv
        have := inj_of_nodup_map hnds hm hs rfl
        exact (Prod.mk.inj this).2
      subst hpay
      unfold PSpec.freed
      rw [List.mem_filterMap]
      refine ⟨r, hrm, ?_⟩
      have hemp : r.owed.erase k = [] := by
        rw [List.eq_nil_iff_forall_not_mem]
        intro j hj
        have hjk : j ≠ k := by
          intro hjk; subst hjk
          exact (hown r hrm).not_mem_erase hj
        exact hoth j hjk (List.mem_map.mpr ⟨r, List.mem_filter.mpr ⟨hrm, by simpa using List.mem_of_mem_erase hj⟩, rfl⟩)
      have : PSpec.relax k (fun _ => true) r = none := by
        unfold PSpec.relax
        rw [if_pos ⟨rfl, by simpa using hrk⟩, if_pos hemp]
      rw [if_pos this]
  · intro e he
    obtain ⟨r, _, h, _⟩ := PSpec.freed_free he
    exact ⟨_, _, h⟩

/-! ## Non-vacuity: a history with two subscribers, losses and a closure -/

/-- Payloads for the example. -/
def exP (n : Nat) : Payload := ⟨n, [UInt8.ofNat n], false⟩

/-- Subscriber 0 connects; packets 1, 2 are queued, 1 is sent; subscriber 1 connects; an announcement and packet 3 are
queued and everything is sent; 0 acknowledges 1 and 3, 1 acknowledges 3; 0 is closed. -/
def exOps : List POp :=
  [.connect 0, .queue (exP 11), .queue (exP 12), .send 5, .connect 1, .announce (exP 99), .queue (exP 13), .send 6,
   .send 7, .send 8, .ack 0 1, .ack 0 3, .ack 1 3, .ack 1 1, .close 0]

/-- The hypotheses of C16–C24 hold of this history, and what they say is not trivial: announcement before packets,
packet 1 handed back at its acknowledgement by 0 (1 connected later), 3 after both, and 2 still owed by 1. -/
example : legal [] exOps ∧ (queueArgs exOps).length + 1 < U64 ∧ ∃ s, Pub.run Pub.init exOps = .ok s ∧
    s.log = [.connect 0, .queue 1 (exP 11), .queue 2 (exP 12), .send 1 (exP 11) 5, .connect 1, .queue 0 (exP 99),
      .queue 3 (exP 13), .send 0 (exP 99) 6, .send 2 (exP 12) 7, .send 3 (exP 13) 8, .ack 0 1, .free 1 (exP 11),
      .ack 0 3, .ack 1 3, .free 3 (exP 13), .ack 1 1, .close 0] ∧
    s.outstanding 1 = [2] ∧ s.unackedCount = 1 := by
  refine ⟨by decide, by decide, ?_⟩
  have h := reach (ops := exOps) (by decide) (by decide)
  obtain ⟨s, h1, h2⟩ := h
  refine ⟨s, h1, by rw [h2.log]; decide +kernel, ?_, ?_⟩
  · rw [outstanding_eq h2.rel]; decide +kernel
  · obtain ⟨Q, N, I, r1, r2, r3, r4, r5, _⟩ := h2.rel
    unfold Pub.unackedCount
    have : (PSpec.init.run exOps).infl.length = 1 := by decide +kernel
    rw [r3] at this
    rw [r5]; simpa using this

/-- C19: the hypotheses of the partial theorem hold of packet 1 of that history. -/
example : ∃ l0 l1, (PSpec.init.run exOps).log = l0 ++ .send 1 (exP 11) 5 :: l1 ∧ subsOf l0 ≠ [] ∧
    ∀ k ∈ subsOf l0, settled l1 k 1 :=
  ⟨[.connect 0, .queue 1 (exP 11), .queue 2 (exP 12)], (PSpec.init.run exOps).log.drop 4, by decide +kernel, by decide,
    by decide +kernel⟩

/-- C19_false: the hypotheses hold of a packet multicast before anyone connects. -/
example : legal [] [.queue (exP 1), .send 5, .connect 0, .ack 0 1] ∧
    (PSpec.init.run [.queue (exP 1), .send 5, .connect 0, .ack 0 1]).log =
      [.queue 1 (exP 1)] ++ .send 1 (exP 1) 5 :: [.connect 0, .ack 0 1] ∧ subsOf [.queue 1 (exP 1)] = [] := by
  decide +kernel

/-- C24: closing subscriber 0 of a two-subscriber history hands back packet 1 (owed by 0 only), not packet 2. -/
example : (PSpec.init.run [.connect 0, .queue (exP 1), .send 5, .connect 1, .queue (exP 2), .send 6, .close 0]).log =
    [.connect 0, .queue 1 (exP 1), .send 1 (exP 1) 5, .connect 1, .queue 2 (exP 2), .send 2 (exP 2) 6, .close 0,
     .free 1 (exP 1)] := by decide +kernel

end Rmc
