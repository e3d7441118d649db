import Verif.SubCtxAck
import Verif.Props.SubCtxDeliver

/-!
# Properties C39, C40, C54: acknowledgement timeouts and control messages of the subscriber
-/

set_option linter.unusedVariables false

namespace Rmc
namespace SubCtx
open SubPub CircBuf ConnVec

/-- The acknowledgement timeout is the default: there is no call that changes it. -/
theorem Micro.ackTimeout {tm : Nat} {c c' : SubCtx} (m : Micro tm c c') : c'.ackTimeout = c.ackTimeout := by cases m <;> rfl

theorem Reaches.ackTimeout {ops : List Op} {c : SubCtx} (h : Reaches ops c) : c.ackTimeout = 50000 := by
  refine Reaches.induct (P := fun _ c => c.ackTimeout = 50000) ?_ ?_ h
  · intro mem n nid hn; rfl
  · intro ops c op r c' hr ih hs
    have go : ∀ {a b : SubCtx} {tm : Nat}, Steps tm a b → b.ackTimeout = a.ackTimeout := by
      intro a b tm st
      induction st with
      | nil => rfl
      | cons m _ ih => exact ih.trans m.ackTimeout
    rcases step_cases hr.inv.core hr.inv.mem hs with st | ⟨-, st⟩
    · exact (go st).trans ih
    · exact (go st).trans ih

/-! ## C39 -/

/-- C39: all timeouts so far returned 0, and so does this one. Publisher `i` is on the list of publishers to acknowledge, and the
first interval recorded for it and for those before it on the list is at least `ack_timeout` old. Then every packet of the
subscription in slot `i` whose first copy came by multicast (and that is not older than the first packet that came in) is covered by
an acknowledgement put on the connection.
Missing for the full property: C39_late_false (the first interval is not the oldest), C39_lost (full write buffer). -/
theorem C39_partial {ops : List Op} {rs : List Nat} {c c' : SubCtx} (h : ReachesR ops rs c) (ht : TimeoutsOk ops rs) {now : Int}
    (hs : step c (.timeout now) = .ok (0, c')) (hT : c.ackTimeout ≤ now) {pre post : List Nat} {i : Nat}
    (hl : c.ackList = pre ++ i :: post)
    (hd : ∀ j ∈ pre ++ [i], ∀ s iv rest, c.publishers j = some s → s.intervals = iv :: rest → iv.ts + c.ackTimeout ≤ now)
    (hu : Up c' i) (hv : ValidPids i c'.log) {b q : Nat} (hb : ((arrivedAt i c'.log).map (·.1.pid)).head? = some b) (hq : b ≤ q)
    {x : SPkt} {ts : Int} (hf : (arrivedAt i c'.log).find? (fun a => a.1.pid == q) = some (x, true, ts)) :
    ∃ a ∈ ackedAt i c'.log, a.1 ≤ q ∧ q ≤ a.2 := by
  have hr : Reaches ops c := ⟨rs, h⟩
  have hr' := hr.snoc hs
  obtain ⟨a1, -, a3⟩ := timeoutLoop_acked _ hr.inv.core rfl (h.allAcked ht) hs
  obtain ⟨s, hs1, hs2⟩ := a3 pre i post hl hT (by
    intro j hj s hsj
    cases hiv : s.intervals with
    | nil => exact .inl rfl
    | cons iv rest =>
      right
      have := hd j hj s iv rest hsj hiv
      unfold oldest; rw [hiv]; exact this)
  obtain ⟨s', g1, g2, g3, g4, g5⟩ := C37_api hr' hu hv hb
  rw [hs1] at g1; cases g1
  obtain ⟨iv, k1, k2, k3⟩ := ((g4 q).2 ⟨hq, x, ts, hf⟩).resolve_left (by rintro ⟨iv, k, -⟩; rw [hs2] at k; cases k)
  refine ⟨(iv.first, iv.last), ?_, k2, k3⟩
  rw [← (sess_spec i c'.log).2.2.2.1]
  exact a1 i iv (by rw [(sess_spec i c'.log).2.2.1]; exact k1)

/-- C39: the same in terms of what came in: all timeouts so far returned 0 and so does this one, and everything that came in did so
at least `ack_timeout` ago. Then on every connection everything first received by multicast is acknowledged. -/
theorem C39_quiet_partial {ops : List Op} {rs : List Nat} {c c' : SubCtx} (h : ReachesR ops rs c) (ht : TimeoutsOk ops rs) {now : Int}
    (hs : step c (.timeout now) = .ok (0, c')) (hT : c.ackTimeout ≤ now)
    (hd : ∀ j, Up c j → ∀ a ∈ arrivedAt j c.log, a.2.2 + c.ackTimeout ≤ now) {i : Nat}
    (hu : Up c' i) (hv : ValidPids i c'.log) {b q : Nat} (hb : ((arrivedAt i c'.log).map (·.1.pid)).head? = some b) (hq : b ≤ q)
    {x : SPkt} {ts : Int} (hf : (arrivedAt i c'.log).find? (fun a => a.1.pid == q) = some (x, true, ts)) :
    ∃ a ∈ ackedAt i c'.log, a.1 ≤ q ∧ q ≤ a.2 := by
  have hr : Reaches ops c := ⟨rs, h⟩
  have hr' := hr.snoc hs
  have late : ∀ j s iv rest, c.publishers j = some s → s.intervals = iv :: rest → iv.ts + c.ackTimeout ≤ now := by
    intro j s iv rest hsj hiv
    by_cases huj : Up c j
    · have e := (hr.rec huj).1
      rw [hsj] at e
      have e := Option.some.inj e
      obtain ⟨a, ha, e2⟩ := iv_ts (sess j c.log).ops iv (by rw [← e, hiv]; simp)
      rw [sess_arrivals] at ha
      have := hd j huj a ha
      omega
    · rw [(hr.inv.core.idle j s hsj huj).2] at hiv; cases hiv
  obtain ⟨a1, a2, a3⟩ := timeoutLoop_acked _ hr.inv.core rfl (h.allAcked ht) hs
  obtain ⟨s', g1, g2, g3, g4, g5⟩ := C37_api hr' hu hv hb
  have hnil : s'.intervals = [] := by
    by_cases hi : i ∈ c.ackList
    · obtain ⟨pre, post, hl⟩ := List.append_of_mem hi
      obtain ⟨s, hs1, hs2⟩ := a3 pre i post hl hT (by
        intro j hj s hsj
        cases hiv : s.intervals with
        | nil => exact .inl rfl
        | cons iv rest =>
          right
          have := late j s iv rest hsj hiv
          unfold oldest; rw [hiv]; exact this)
      rw [hs1] at g1; cases g1; exact hs2
    · have hi' := hr'.ackCov i s' g1
      refine Decidable.byContradiction fun hne => ?_
      have := hi' hne
      have hsub : ∀ (l : List Nat) (c c' : SubCtx) (r : Nat), Core c → c.ackList = l → timeoutLoop c now l = .ok (r, c') →
          ∀ j ∈ c'.ackList, j ∈ l := by
        intro l
        induction l with
        | nil => intro c c' r _ hl h j hj; cases h; rw [hl] at hj; exact hj
        | cons k ks ih =>
          intro c c' r hc hl h j hj
          unfold timeoutLoop at h
          obtain ⟨s, hs, h⟩ := bind_ok h
          rw [getPub_ok] at hs
          split at h
          · cases h; rw [hl] at hj; exact hj
          · obtain ⟨⟨r1, c1⟩, h1, h⟩ := bind_ok h
            obtain ⟨g1, g2, g3⟩ := ackAll_steps s.intervals hc (by rw [hl]; simp) hs h1
            dsimp only at h
            split at h
            · cases h; rw [g2, hl] at hj; exact hj
            · rename_i hr
              have hr : r1 = 0 := by simpa using hr
              have hm : Micro 1 c1 { c1 with ackList := ks } := .dropAck (g2.trans hl) (g3 hr) rfl
              exact List.mem_cons_of_mem _ (ih _ _ _ (hc.steps (g1.snoc hm)) rfl h j hj)
      exact hi (hsub _ _ _ _ hr.inv.core rfl hs i this)
  obtain ⟨iv, k1, k2, k3⟩ := ((g4 q).2 ⟨hq, x, ts, hf⟩).resolve_left (by rintro ⟨iv, k, -⟩; rw [hnil] at k; cases k)
  refine ⟨(iv.first, iv.last), ?_, k2, k3⟩
  rw [← (sess_spec i c'.log).2.2.2.1]
  exact a1 i iv (by rw [(sess_spec i c'.log).2.2.1]; exact k1)

/-- The hypotheses of C39_quiet_partial hold of a concrete history: three packets from two publishers. -/
def exTwo : List Op :=
  exUp ++ [.readMcast [exDg 6 0 [] 2], .write 1 (.ok 0) none (.ok 0),
    .readMcast [exDg 4 5 [50] 1000, exDg 6 9 [90] 2000, exDg 4 7 [70] 3000]]

example : ∃ c rs, Reaches exTwo c ∧ run exS0 exTwo = .ok (rs, c) ∧ decide (rs = [0, 0, 0, 0, 0, 0] ∧ c.ackTimeout ≤ 60000 ∧
    Up c 0 ∧ Up c 1 ∧ c.ackList = [1, 0] ∧ (arrivedAt 0 c.log).map (·.2.2) = [1000, 3000] ∧ (arrivedAt 1 c.log).map (·.2.2) = [2000] ∧
    afterStep c (.timeout 60000) (fun r c' => decide (r = 0 ∧ ackedAt 0 c'.log = [(5, 5), (7, 7)] ∧
      ackedAt 1 c'.log = [(9, 9)] ∧ Up c' 0)) = true) = true :=
  reaches_of (P := fun rs c => decide _) (by decide +kernel)

example : TimeoutsOk exTwo [0, 0, 0, 0, 0, 0] := by
  intro x hx ht
  simp [exTwo, exUp] at hx
  rcases hx with rfl | rfl | rfl | rfl | rfl | rfl <;> rfl

/-- C39, what is missing: packet 8 comes in at 60000 and packet 6 at 100000. At 110000 the timeout is processed without error, and
8 is not acknowledged, though it came in `ack_timeout` (50000) before: only the age of the first interval, which is
the younger one, is looked at. -/
theorem C39_late_false : ∃ ops c, Reaches ops c ∧ ∃ c', step c (.timeout 110000) = .ok (0, c') ∧ Up c' 0 ∧ c.ackTimeout = 50000 ∧
    (∃ a ∈ arrivedAt 0 c.log, a.1.pid = 8 ∧ a.2.1 = true ∧ a.2.2 + 50000 ≤ 110000) ∧ ∀ a ∈ ackedAt 0 c'.log, ¬ (a.1 ≤ 8 ∧ 8 ≤ a.2) := by
  obtain ⟨c, rs, h1, h2, h3⟩ := reaches_of (ops := exUp ++ [.readMcast [exDg 4 5 [50] 0], .timeout 55000,
      .readMcast [exDg 4 8 [80] 60000, exDg 4 6 [60] 100000]])
    (P := fun rs c => decide (c.ackTimeout = 50000 ∧
      (∃ a ∈ arrivedAt 0 c.log, a.1.pid = 8 ∧ a.2.1 = true ∧ a.2.2 + 50000 ≤ 110000) ∧
      afterStep c (.timeout 110000) (fun r c' => decide (r = 0 ∧ Up c' 0 ∧ ∀ a ∈ ackedAt 0 c'.log, ¬ (a.1 ≤ 8 ∧ 8 ≤ a.2))) = true))
    (by decide +kernel)
  have h3 := of_decide_eq_true h3
  obtain ⟨g1, g2, g3⟩ := h3
  obtain ⟨r, c', g4, g5⟩ := afterStep_ok g3
  obtain ⟨rfl, k2, k3⟩ := of_decide_eq_true g5
  exact ⟨_, c, h1, c', g4, k2, g1, g2, k3⟩

/-- C39, what is missing: if the write buffer of the first publisher to acknowledge has no room for 17 bytes, the timeout returns
ENOMEM, and the interval is gone: it is not recorded any more and no acknowledgement was put on the connection. -/
theorem C39_lost {ops : List Op} {c : SubCtx} (h : Reaches ops c) {i : Nat} (hu : Up c i) {is : List Nat} (hl : c.ackList = i :: is)
    {s : SubPub} {iv : Intv} {rest : List Intv} (hs : c.publishers i = some s) (hiv : s.intervals = iv :: rest) {now : Int}
    (hd : iv.ts + c.ackTimeout ≤ now) (hf : available (c.cv.conns i).writeBuf < 17) :
    ∃ c', step c (.timeout now) = .ok (ENOMEM, c') ∧ c'.publishers i = some { s with intervals := rest } ∧
      c'.log = c.log ++ [.taken i iv] := by
  have hlen : 1 + ACK_LEN = 17 := rfl
  refine ⟨ev (setPub c i { s with intervals := rest }) (.taken i iv), ?_, ?_, rfl⟩
  · show timeoutLoop c now c.ackList = _
    rw [hl]
    unfold timeoutLoop
    have hg : getPub c i = .ok s := by unfold getPub; rw [hs]
    have ho : oldest s = iv.ts := by unfold oldest; rw [hiv]
    rw [hg, Proto.ok_bind, ho, if_neg (by omega), hiv]
    have hw : writeAck (ev (setPub c i { s with intervals := rest }) (.taken i iv)) i iv =
        .ok (ENOMEM, ev (setPub c i { s with intervals := rest }) (.taken i iv)) := by
      unfold writeAck
      dsimp only
      have e1 : (ev (setPub c i { s with intervals := rest }) (.taken i iv)).cv = c.cv := rfl
      rw [e1, if_neg (by rw [hu.2]; simp), if_pos (by omega)]
    have ha : ackAll c i s (iv :: rest) = .ok (ENOMEM, ev (setPub c i { s with intervals := rest }) (.taken i iv)) := by
      unfold ackAll
      dsimp only
      rw [hw]; rfl
    rw [ha, Proto.ok_bind]
    rfl
  · show (if i = i then _ else _) = _
    rw [if_pos rfl]

/-! ## C54: control messages -/

/-- C54 (see C54_false for what is missing): a control message is put on the connection, right behind what is pending, with the
bytes given, if its end does not pass the end of the write buffer. -/
theorem C54_partial {ops : List Op} {c : SubCtx} (h : Reaches ops c) {i : Nat} (hu : Up c i) {bs : List UInt8} (hn : bs ≠ []) (ptr : Nat)
    (ha : bs.length + 4 ≤ available (c.cv.conns i).writeBuf) (hs : (c.cv.conns i).writeBuf.stop + 3 + bs.length ≤ (c.cv.conns i).writeBuf.size) :
    ∃ c', writeCtl c i bs ptr = .ok (0, c') ∧ c'.log = c.log ++ [.ctl i bs bs] ∧
      bytes (c'.cv.conns i).writeBuf = bytes (c.cv.conns i).writeBuf ++ ctlFrame bs.length bs ∧
      (c'.cv.conns i).writeBuf.stop = (c.cv.conns i).writeBuf.stop + 3 + bs.length ∧ Up c' i := by
  have hctl : CTL_LEN = 2 := rfl
  have := writeCtl_exact (ptr := ptr) h.inv.core hu hn (by omega)
  dsimp only at this
  have hpos : 0 < bs.length := List.length_pos_iff.2 hn
  have hst : ctlStop (c.cv.conns i).writeBuf = (c.cv.conns i).writeBuf.stop + 3 := by
    unfold ctlStop; rw [if_pos (by omega)]
  rw [if_neg (by omega), hst, if_pos (by omega)] at this
  obtain ⟨b, h1, h2, h3, h4, h5, h6⟩ := this
  have e1 : (armWrite (ev c (.ctl i bs bs)) i b).cv.conns i =
      { c.cv.conns i with writeBuf := b, action := (c.cv.conns i).action.setW } := by
    show (if i = i then _ else _) = _
    rw [if_pos rfl]; rfl
  refine ⟨_, h1, rfl, ?_, ?_, ?_⟩
  · rw [e1]; exact h6
  · rw [e1]; exact h5
  · refine ⟨hu.1, ?_⟩
    rw [e1]; exact hu.2

/-- C54: what happens to a control message in every case in which there is room for it. -/
theorem C54_cases {ops : List Op} {c : SubCtx} (h : Reaches ops c) {i : Nat} (hu : Up c i) {bs : List UInt8} (hn : bs ≠ []) (ptr : Nat)
    (ha : bs.length + 4 ≤ available (c.cv.conns i).writeBuf) :
    let B := (c.cv.conns i).writeBuf
    if B.stop = B.size then writeCtl c i bs ptr = .error .oob
    else if bs.length ≤ B.size - ctlStop B then ∃ c', writeCtl c i bs ptr = .ok (0, c') ∧ c'.log = c.log ++ [.ctl i bs bs]
    else if bs.length ≤ 8 then ∃ c', writeCtl c i bs ptr = .ok (0, c') ∧ c'.log = c.log ++ [.ctl i bs
      (bs.take (B.size - ctlStop B) ++ ((ptrBytes ptr).drop (B.size - ctlStop B)).take (bs.length - (B.size - ctlStop B)))]
    else writeCtl c i bs ptr = .error .oob := by
  have hctl : CTL_LEN = 2 := rfl
  have := writeCtl_exact (ptr := ptr) h.inv.core hu hn (by omega)
  dsimp only at this ⊢
  split
  · rename_i h1; rw [if_pos h1] at this; exact this
  · rename_i h1
    rw [if_neg h1] at this
    split
    · rename_i h2
      rw [if_pos h2] at this
      obtain ⟨b, g1, -⟩ := this
      exact ⟨_, g1, rfl⟩
    · rename_i h2
      rw [if_neg h2] at this
      split
      · rename_i h3
        rw [if_pos h3] at this
        obtain ⟨b, ds, rfl, g1, -⟩ := this
        exact ⟨_, g1, rfl⟩
      · rename_i h3
        rw [if_neg h3] at this
        exact this

/-! ### Reachable states in which these things happen -/

/-- The subscription of `exUp` with packet 5 waiting to be acknowledged. -/
def exFive : List Op := exUp ++ [.readMcast [exDg 4 5 [50] 1000]]

theorem exFive_ok : ∃ c, Reaches exFive c ∧ Up c 0 ∧ (c.cv.conns 0).writeBuf.start = 0 ∧ (c.cv.conns 0).writeBuf.stop = 0 ∧
    (c.cv.conns 0).writeBuf.size = 65400 ∧ c.ackList = [0] ∧ (∃ s, c.publishers 0 = some s ∧ s.intervals = [⟨5, 5, 1000⟩]) ∧
    findByAddress c.cv 77 4 = some 0 ∧ c.ackTimeout = 50000 := by
  obtain ⟨c, rs, h1, h2, h3⟩ := reaches_of (ops := exFive) (P := fun rs c => decide (Up c 0 ∧ (c.cv.conns 0).writeBuf.start = 0 ∧
    (c.cv.conns 0).writeBuf.stop = 0 ∧ (c.cv.conns 0).writeBuf.size = 65400 ∧ c.ackList = [0] ∧
    (c.publishers 0).map (·.intervals) = some [⟨5, 5, 1000⟩] ∧ findByAddress c.cv 77 4 = some 0 ∧ c.ackTimeout = 50000)) (by decide +kernel)
  obtain ⟨g1, g2, g3, g4, g5, g6, g7, g8⟩ := of_decide_eq_true h3
  exact ⟨c, h1, g1, g2, g3, g4, g5, Option.map_eq_some_iff.1 g6, g7, g8⟩

theorem step_ctlAddr {c : SubCtx} {a p i ptr : Nat} {bs : List UInt8} (hn : bs ≠ []) (hf : findByAddress c.cv a p = some i)
    (hu : Up c i) : step c (.ctlAddr a p bs ptr) = writeCtl c i bs ptr := by
  show writeCtlTo c _ bs ptr = _
  unfold writeCtlTo
  rw [if_neg hn, hf]
  dsimp only
  rw [if_neg (by rw [hu.2]; simp)]

/-- A control message of 65390 bytes. -/
def exBig : List UInt8 := List.replicate 65390 1

theorem exBig_len : exBig.length = 65390 := List.length_replicate
theorem exBig_ne : exBig ≠ [] := by intro e; have := exBig_len; rw [e] at this; simp at this

/-- A control message of 65390 bytes can be sent: 65393 bytes are pending then. -/
theorem exFull_ok : ∃ c, Reaches (exFive ++ [.ctlAddr 77 4 exBig 0]) c ∧ Up c 0 ∧ (c.cv.conns 0).writeBuf.start = 0 ∧
    (c.cv.conns 0).writeBuf.stop = 65393 ∧ (c.cv.conns 0).writeBuf.size = 65400 ∧ c.ackList = [0] ∧
    (∃ s, c.publishers 0 = some s ∧ s.intervals = [⟨5, 5, 1000⟩]) ∧ c.ackTimeout = 50000 ∧ findByAddress c.cv 77 4 = some 0 := by
  obtain ⟨c, h1, hu, g1, g2, g3, g4, g5, g6, g7⟩ := exFive_ok
  have hw := (h1.inv.core.wb 0 hu.1).1
  have hav : available (c.cv.conns 0).writeBuf = 65399 := by
    rw [available_eq hw, inUse_eq hw, g1, g2, g3]; rfl
  have hctl : CTL_LEN = 2 := rfl
  have hst : ctlStop (c.cv.conns 0).writeBuf = 3 := by unfold ctlStop; rw [g2, g3]; rfl
  have := writeCtl_exact (ptr := 0) h1.inv.core hu exBig_ne (by rw [exBig_len]; omega)
  dsimp only at this
  rw [if_neg (by omega), hst, if_pos (by rw [exBig_len]; omega)] at this
  obtain ⟨b, k1, k2, k3, k4, k5, k6⟩ := this
  have hs : step c (.ctlAddr 77 4 exBig 0) = .ok (0, armWrite (ev c (.ctl 0 exBig exBig)) 0 b) := by
    rw [step_ctlAddr exBig_ne g6 hu, k1]
  have e1 := armWrite_conn (ev c (.ctl 0 exBig exBig)) 0 b
  rw [exBig_len] at k5
  refine ⟨_, h1.snoc hs, ⟨hu.1, by rw [e1]; exact hu.2⟩, ?_, ?_, ?_, g4, g5, g7, (findByAddress_set (v := c.cv) (i := 0)
    (x := { c.cv.conns 0 with writeBuf := b, action := (c.cv.conns 0).action.setW }) rfl rfl rfl).trans g6⟩
  · rw [e1]; exact k4.trans g1
  · rw [e1]; exact k5
  · rw [e1]; exact k3.trans g3

/-- C39_lost happens: packet 5 came in at 1000, the timeout is processed at 60000, the packet is not acknowledged and will not be
recorded for acknowledgement any more. -/
theorem C39_lost_false : ∃ ops c c', Reaches ops c ∧ step c (.timeout 60000) = .ok (ENOMEM, c') ∧ Up c' 0 ∧
    (∃ s, c.publishers 0 = some s ∧ s.intervals = [⟨5, 5, 1000⟩]) ∧
    (∃ s, c'.publishers 0 = some s ∧ s.intervals = []) ∧ c'.log = c.log ++ [.taken 0 ⟨5, 5, 1000⟩] := by
  obtain ⟨c, h1, hu, g1, g2, g3, g4, ⟨s, g5, g6⟩, g7, -⟩ := exFull_ok
  have hw := (h1.inv.core.wb 0 hu.1).1
  have hav : available (c.cv.conns 0).writeBuf < 17 := by
    rw [available_eq hw, inUse_eq hw, g1, g2, g3]; decide
  obtain ⟨c', k1, k2, k3⟩ := C39_lost h1 hu g4 g5 g6 (now := 60000) (by rw [g7]; decide) hav
  have hu' : Up c' 0 := by
    have hs := k1
    have hst : step c (.timeout 60000) = timeoutLoop c 60000 c.ackList := rfl
    rw [hst, g4] at hs
    unfold timeoutLoop at hs
    obtain ⟨s', q1, q2⟩ := bind_ok hs
    rw [getPub_ok, g5] at q1; cases q1
    have ho : oldest s = 1000 := by unfold oldest; rw [g6]
    rw [ho, g7, if_neg (by decide), g6] at q2
    obtain ⟨⟨r1, c1⟩, q3, q4⟩ := bind_ok q2
    unfold ackAll at q3
    dsimp only at q3
    obtain ⟨⟨r2, c2⟩, q5, q6⟩ := bind_ok q3
    unfold writeAck at q5
    dsimp only at q5
    have e1 : (ev (setPub c 0 { s with intervals := [] }) (.taken 0 ⟨5, 5, 1000⟩)).cv = c.cv := rfl
    rw [e1, if_neg (by rw [hu.2]; simp), if_pos (show available (c.cv.conns 0).writeBuf < 1 + ACK_LEN from hav)] at q5
    cases q5
    dsimp only at q6
    rw [if_pos (by decide)] at q6
    cases q6
    dsimp only at q4
    rw [if_pos (by decide)] at q4
    cases q4
    exact hu
  exact ⟨_, c, c', h1, k1, hu', ⟨s, g5, g6⟩, ⟨_, k2, rfl⟩, k3⟩

/-- Then 65000 bytes leave: 393 bytes are pending, seven bytes before the end of the buffer are left. -/
theorem exWrap_ok : ∃ ops c, Reaches ops c ∧ Up c 0 ∧ (c.cv.conns 0).writeBuf.start = 65000 ∧ (c.cv.conns 0).writeBuf.stop = 65393 ∧
    (c.cv.conns 0).writeBuf.size = 65400 ∧ findByAddress c.cv 77 4 = some 0 ∧ c.ackList = [0] ∧
    (∃ s, c.publishers 0 = some s ∧ s.intervals = [⟨5, 5, 1000⟩]) ∧ c.ackTimeout = 50000 := by
  obtain ⟨c, h1, hu, g1, g2, g3, g4, ⟨s, q1, q2⟩, g7, g8⟩ := exFull_ok
  have hw := (h1.inv.core.wb 0 hu.1).1
  have hlen : (bytes (c.cv.conns 0).writeBuf).length = 65393 := by
    rw [length_bytes, inUse_eq hw, g1, g2]; rfl
  obtain ⟨c', k1, k2, k3, k4, k5, k6, k7, k8, k9, k10⟩ := writeConn_some h1.inv.core hu (.ok 0) none (n := 65000) (by decide) (by omega)
  exact ⟨_, c', h1.snoc (op := .write 0 (.ok 0) none (.ok 65000)) k1, k2, by rw [k7, g1, g3], by rw [k8, g2], by rw [k6, g3],
    (k4 77 4).trans g8, k9.trans g4, ⟨s, by rw [k3]; exact q1, q2⟩, k10.trans g7⟩

theorem exWrap_av {c : SubCtx} (hw : WF (c.cv.conns 0).writeBuf) (g1 : (c.cv.conns 0).writeBuf.start = 65000)
    (g2 : (c.cv.conns 0).writeBuf.stop = 65393) (g3 : (c.cv.conns 0).writeBuf.size = 65400) :
    available (c.cv.conns 0).writeBuf = 65006 ∧ ctlStop (c.cv.conns 0).writeBuf = 65396 := by
  refine ⟨?_, ?_⟩
  · rw [available_eq hw, inUse_eq hw, g1, g2, g3]; rfl
  · unfold ctlStop; rw [g2, g3]; rfl

/-- C54, what is missing: the eight bytes given do not get on the wire. After the control message of 65390 bytes, 65000 bytes leave;
the next control message passes the end of the write buffer after four bytes, and the last four bytes that are put on the connection
are bytes of the address of the payload (here all zero) instead of the payload. -/
theorem C54_false : ∃ ops c c', Reaches ops c ∧ step c (.ctlAddr 77 4 [1, 2, 3, 4, 5, 6, 7, 8] 0) = .ok (0, c') ∧
    c'.log = c.log ++ [.ctl 0 [1, 2, 3, 4, 5, 6, 7, 8] [1, 2, 3, 4, 0, 0, 0, 0]] := by
  obtain ⟨ops, c, h1, hu, g1, g2, g3, g4, -⟩ := exWrap_ok
  obtain ⟨e1, e2⟩ := exWrap_av (h1.inv.core.wb 0 hu.1).1 g1 g2 g3
  have := C54_cases h1 hu (bs := [1, 2, 3, 4, 5, 6, 7, 8]) (by simp) 0 (by rw [e1]; decide)
  dsimp only at this
  rw [g2, g3, if_neg (by decide), e2, if_neg (by decide), if_pos (by decide)] at this
  obtain ⟨c', k1, k2⟩ := this
  refine ⟨ops, c, c', h1, ?_, ?_⟩
  · rw [step_ctlAddr (by simp) g4 hu]; exact k1
  · rw [k2]; rfl

/-- C54, what is missing: a longer control message makes the library read past the pointer variable. -/
theorem C54_oob_false : ∃ ops c, Reaches ops c ∧ step c (.ctlAddr 77 4 [1, 2, 3, 4, 5, 6, 7, 8, 9] 0) = .error .oob := by
  obtain ⟨ops, c, h1, hu, g1, g2, g3, g4, -⟩ := exWrap_ok
  obtain ⟨e1, e2⟩ := exWrap_av (h1.inv.core.wb 0 hu.1).1 g1 g2 g3
  have := C54_cases h1 hu (bs := [1, 2, 3, 4, 5, 6, 7, 8, 9]) (by simp) 0 (by rw [e1]; decide)
  dsimp only at this
  rw [g2, g3, if_neg (by decide), e2, if_neg (by decide), if_neg (by decide)] at this
  refine ⟨ops, c, h1, ?_⟩
  rw [step_ctlAddr (by simp) g4 hu]; exact this

/-! ## C40 -/

/-- C40: what the call returns: -1 if no publisher is on the list, else when the first interval of the first publisher on the list
becomes due. -/
theorem C40_returns {ops : List Op} {c : SubCtx} (h : Reaches ops c) :
    (c.ackList = [] ∧ timeoutGetNext c = .ok (-1)) ∨
    ∃ i is s, c.ackList = i :: is ∧ c.publishers i = some s ∧
      timeoutGetNext c = .ok ((match s.intervals with | [] => 0 | iv :: _ => iv.ts) + c.ackTimeout) := by
  unfold timeoutGetNext
  cases hl : c.ackList with
  | nil => exact .inl ⟨rfl, rfl⟩
  | cons i is =>
    obtain ⟨s, hs⟩ := h.inv.core.ackInit i (by rw [hl]; simp)
    refine .inr ⟨i, is, s, rfl, hs, ?_⟩
    dsimp only
    unfold oldestAt getPub
    rw [hs]
    rfl

/-- C40 (see C40_false for what is missing): if the call returns -1 no packet is waiting to be acknowledged, provided that the clock
does not run in negative numbers. -/
theorem C40_none_partial {ops : List Op} {c : SubCtx} (h : Reaches ops c) (hc : timeoutGetNext c = .ok (-1))
    (hp : ∀ i, Up c i → ∀ a ∈ arrivedAt i c.log, 0 ≤ a.2.2) :
    ∀ i s, c.publishers i = some s → s.intervals = [] := by
  have hT : 0 ≤ c.ackTimeout := by rw [h.ackTimeout]; decide
  intro i s hs
  refine Decidable.byContradiction fun hne => ?_
  have hi := h.ackCov i s hs hne
  rcases C40_returns h with ⟨e, -⟩ | ⟨j, is, t, h1, h2, h3⟩
  · rw [e] at hi; cases hi
  · rw [hc] at h3
    have h3 := Except.ok.inj h3
    split at h3
    · omega
    · rename_i iv rest hiv
      by_cases hu : Up c j
      · have e := (h.rec hu).1
        rw [h2] at e
        have e := Option.some.inj e
        obtain ⟨a, ha, e2⟩ := iv_ts (sess j c.log).ops iv (by rw [← e, hiv]; simp)
        rw [sess_arrivals] at ha
        have := hp j hu a ha
        omega
      · rw [(h.inv.core.idle j t h2 hu).2] at hiv; cases hiv

/-- Specification: packet `q` of the subscription in slot `i` has come in by multicast and is not acknowledged: its first copy came by
multicast, and it is in none of the intervals taken off for acknowledgement. -/
def Unacked (c : SubCtx) (i q : Nat) : Prop :=
  (∃ x ts, (arrivedAt i c.log).find? (fun a => a.1.pid == q) = some (x, true, ts)) ∧
  ∀ iv ∈ takenAt i c.log, ¬ (iv.first ≤ q ∧ q ≤ iv.last)

/-- Specification: when the first copy of packet `q` came in. -/
def cameIn (c : SubCtx) (i q : Nat) : Int := (((arrivedAt i c.log).find? (fun a => a.1.pid == q)).map (·.2.2)).getD 0

/-- C40 (see C40_false for what is missing): with one publisher on the list, whose packets come in in ascending order (each id
greater than those before) under a clock that does not run backwards, the time returned is exactly the earliest time at which
a packet must be acknowledged. -/
theorem C40_single_partial {ops : List Op} {c : SubCtx} (h : Reaches ops c) {i : Nat} (hl : c.ackList = [i]) (hu : Up c i)
    (hv : ValidPids i c.log) (hasc : ((arrivedAt i c.log).map (·.1.pid)).Pairwise (· < ·))
    (hmono : ((arrivedAt i c.log).map (·.2.2)).Pairwise (· ≤ ·)) (hne : ∃ q, Unacked c i q) :
    ∃ t, timeoutGetNext c = .ok t ∧ (∃ q, Unacked c i q ∧ t = cameIn c i q + c.ackTimeout) ∧
      ∀ q, Unacked c i q → t ≤ cameIn c i q + c.ackTimeout := by
  obtain ⟨q0, ⟨x0, ts0, hf0⟩, hn0⟩ := hne
  have hb : ∃ b, ((arrivedAt i c.log).map (·.1.pid)).head? = some b := by
    cases ha : arrivedAt i c.log with
    | nil => rw [ha] at hf0; cases hf0
    | cons a as => exact ⟨_, rfl⟩
  obtain ⟨b, hb⟩ := hb
  have low : ∀ a ∈ arrivedAt i c.log, b ≤ a.1.pid := by
    cases ha : arrivedAt i c.log with
    | nil => rw [ha] at hf0; cases hf0
    | cons a as =>
      rw [ha] at hb hasc
      have hb : a.1.pid = b := by simpa using hb
      rw [List.map_cons, List.pairwise_cons] at hasc
      intro a' ha'
      rcases List.mem_cons.1 ha' with e | e
      · rw [e, hb]; exact Nat.le_refl _
      · have := hasc.1 _ (List.mem_map.2 ⟨a', e, rfl⟩); omega
  obtain ⟨s, hs, k1, k2, k3, k4⟩ := C37_api h hu hv hb
  have hsub : s = (Hist.init.run (sess i c.log).ops).s := by
    have := (h.rec hu).1; rw [hs] at this; exact Option.some.inj this
  have hts : ∀ iv ∈ s.intervals, (∀ q, iv.first ≤ q → q ≤ iv.last → iv.ts ≤ cameIn c i q) ∧
      ∃ q, iv.first ≤ q ∧ q ≤ iv.last ∧ cameIn c i q = iv.ts := by
    rw [hsub]
    have := C37_timestamps hv.ops (by rw [sess_arrivals]; exact hmono)
    rw [sess_arrivals] at this
    exact this
  have un : ∀ q, Unacked c i q ↔ ∃ iv ∈ s.intervals, iv.first ≤ q ∧ q ≤ iv.last := by
    intro q
    constructor
    · rintro ⟨⟨x, ts, h1⟩, h2⟩
      refine ((k3 q).2 ⟨?_, x, ts, h1⟩).resolve_right (by rintro ⟨iv, e1, e2⟩; exact h2 iv e1 e2)
      have hm := List.mem_of_find?_eq_some h1
      have he : x.pid = q := by have := List.find?_some h1; simpa using this
      have := low _ hm
      show b ≤ q
      rw [← he]; exact this
    · rintro ⟨iv, h1, h2⟩
      refine ⟨((k3 q).1 (.inl ⟨iv, h1, h2⟩)).2, fun iv' h3 h4 => k4 q ⟨⟨iv, h1, h2⟩, ⟨iv', h3, h4⟩⟩⟩
  -- the clock readings are in the order of the packet ids
  have mono : ∀ q q', q ≤ q' → Unacked c i q → Unacked c i q' → cameIn c i q ≤ cameIn c i q' := by
    rintro q q' hqq ⟨⟨x, ts, h1⟩, -⟩ ⟨⟨x', ts', h1'⟩, -⟩
    unfold cameIn
    rw [h1, h1']
    show ts ≤ ts'
    have hm := List.mem_of_find?_eq_some h1
    have hm' := List.mem_of_find?_eq_some h1'
    have he : x.pid = q := by have := List.find?_some h1; simpa using this
    have he' : x'.pid = q' := by have := List.find?_some h1'; simpa using this
    have key : ∀ l : List (SPkt × Bool × Int), (l.map (·.1.pid)).Pairwise (· < ·) → (l.map (·.2.2)).Pairwise (· ≤ ·) →
        ∀ a ∈ l, ∀ a' ∈ l, a.1.pid ≤ a'.1.pid → a.2.2 ≤ a'.2.2 := by
      intro l
      induction l with
      | nil => intro _ _ a ha; cases ha
      | cons y l ih =>
        intro p1 p2 a ha a' ha' hle
        rw [List.map_cons, List.pairwise_cons] at p1 p2
        rcases List.mem_cons.1 ha with e | e <;> rcases List.mem_cons.1 ha' with e' | e'
        · rw [e, e']; exact Int.le_refl _
        · rw [e]; exact p2.1 _ (List.mem_map.2 ⟨a', e', rfl⟩)
        · have := p1.1 _ (List.mem_map.2 ⟨a, e, rfl⟩)
          rw [e'] at hle; omega
        · exact ih p1.2 p2.2 a e a' e' hle
    exact key _ hasc hmono _ hm _ hm' (by simp only; omega)
  obtain ⟨iv0, hiv0, -⟩ := (un q0).1 ⟨⟨x0, ts0, hf0⟩, hn0⟩
  cases hiv : s.intervals with
  | nil => rw [hiv] at hiv0; cases hiv0
  | cons iv rest =>
    have hget : timeoutGetNext c = .ok (iv.ts + c.ackTimeout) := by
      rcases C40_returns h with ⟨e, -⟩ | ⟨j, is, t, h1, h2, h3⟩
      · rw [e] at hl; cases hl
      · rw [hl] at h1; cases h1
        rw [hs] at h2; cases h2
        rw [h3, hiv]
    have hmem : iv ∈ s.intervals := by rw [hiv]; simp
    obtain ⟨t1, qm, t2, t3, t4⟩ := hts iv hmem
    have hqm : Unacked c i qm := (un qm).2 ⟨iv, hmem, t2, t3⟩
    refine ⟨_, hget, ⟨qm, hqm, by rw [t4]⟩, ?_⟩
    intro q hq
    obtain ⟨iv', h1, h2, h3⟩ := (un q).1 hq
    rw [hiv] at h1
    rcases List.mem_cons.1 h1 with e | e
    · subst e
      have := t1 q h2 h3; omega
    · rw [hiv, List.pairwise_cons] at k1
      have := k1.1 iv' e
      have := mono qm q (by omega) hqm hq
      omega

/-- The time returned by the call, as a number (for the concrete histories). -/
def nextOf (c : SubCtx) : Int := match timeoutGetNext c with | .ok t => t | .error _ => 0

/-- C40_single_partial applies to a concrete history: packets 5, 7, 8 by multicast; 5 must be acknowledged by 51000. -/
example : ∃ c rs, Reaches (exUp ++ [.readMcast [exDg 4 5 [50] 1000, exDg 4 7 [70] 1100, exDg 4 8 [80] 1200]]) c ∧
    run exS0 (exUp ++ [.readMcast [exDg 4 5 [50] 1000, exDg 4 7 [70] 1100, exDg 4 8 [80] 1200]]) = .ok (rs, c) ∧
    decide (c.ackList = [0] ∧ Up c 0 ∧ ValidPids 0 c.log ∧ ((arrivedAt 0 c.log).map (·.1.pid)).Pairwise (· < ·) ∧
      ((arrivedAt 0 c.log).map (·.2.2)).Pairwise (· ≤ ·) ∧ takenAt 0 c.log = [] ∧ cameIn c 0 5 = 1000 ∧
      nextOf c = 51000) = true :=
  reaches_of (P := fun rs c => decide _) (by decide +kernel)

/-- C40, what is missing: packet 5 of one publisher came in at 1000, packet 9 of another at 2000; the call returns the deadline of
the second (52000), not that of the first (51000). -/
theorem C40_false : ∃ ops c, Reaches ops c ∧ Up c 0 ∧ cameIn c 0 5 = 1000 ∧ Unacked c 0 5 ∧ c.ackTimeout = 50000 ∧
    timeoutGetNext c = .ok 52000 := by
  obtain ⟨c, rs, h1, h2, h3⟩ := reaches_of (ops := exTwo) (P := fun rs c => decide (Up c 0 ∧ cameIn c 0 5 = 1000 ∧ takenAt 0 c.log = [] ∧
      ((arrivedAt 0 c.log).find? (fun a => a.1.pid == 5)).map (·.2.1) = some true ∧ c.ackTimeout = 50000 ∧
      nextOf c = 52000)) (by decide +kernel)
  obtain ⟨g1, g2, g3, g4, g5, g6⟩ := of_decide_eq_true h3
  refine ⟨_, c, h1, g1, g2, ⟨?_, by rw [g3]; simp⟩, g5, ?_⟩
  · obtain ⟨⟨x, m, ts⟩, e1, e2⟩ := Option.map_eq_some_iff.1 g4
    dsimp only at e2; subst e2
    exact ⟨x, ts, e1⟩
  · cases hx : timeoutGetNext c with
    | ok t => unfold nextOf at g6; rw [hx] at g6; dsimp only at g6; rw [g6]
    | error f => unfold nextOf at g6; rw [hx] at g6; cases g6

/-- C40, what is missing: nothing is waiting to be acknowledged, and the call does not return -1 (a closed connection stays on the
list). -/
theorem C40_stale_false : ∃ ops c, Reaches ops c ∧ (∀ i s, c.publishers i = some s → s.intervals = []) ∧
    timeoutGetNext c = .ok 50000 := by
  obtain ⟨c, rs, h1, h2, h3⟩ := reaches_of (ops := exFive ++ [Op.close 0]) (P := fun rs c => decide (c.cv.size = 2 ∧
      ((c.publishers 0).map (·.intervals)).getD [] = [] ∧ ((c.publishers 1).map (·.intervals)).getD [] = [] ∧
      nextOf c = 50000)) (by decide +kernel)
  obtain ⟨g1, g2, g3, g4⟩ := of_decide_eq_true h3
  refine ⟨_, c, h1, ?_, ?_⟩
  · intro i s hs
    have hi := h1.inv.core.recLt i s hs
    rw [g1] at hi
    have : i = 0 ∨ i = 1 := by omega
    rcases this with rfl | rfl
    · rw [hs] at g2; exact g2
    · rw [hs] at g3; exact g3
  · cases hx : timeoutGetNext c with
    | ok t => unfold nextOf at g4; rw [hx] at g4; dsimp only at g4; rw [g4]
    | error f => unfold nextOf at g4; rw [hx] at g4; cases g4

end SubCtx
end Rmc
