import Verif.PubCtxReads

/-! # Reached publisher contexts; which API calls can fault -/

set_option linter.unusedSimpArgs false
set_option linter.unusedVariables false

namespace Rmc
namespace PubCtx
open CircBuf Proto

/-- Specification: `c` is the publisher context after the API calls `ops` on a newly initialised context with at most
`LISTEN_INDEX` connection slots; fewer than 2^64 calls, accept() and setsockopt() behave (`Op.sane`). -/
def Reaches (ops : List Op) (c : PubCtx) : Prop :=
  ∃ mem n nid ip port rs, n ≤ LISTEN_INDEX ∧ (∀ op ∈ ops, op.sane) ∧ ops.length + 1 < U64 ∧
    run (init mem n nid ip port) ops = .ok (rs, c)

/-- Specification: slot `i` holds a connected subscriber. -/
def Connected (c : PubCtx) (i : Nat) : Prop := i < c.cv.size ∧ (c.cv.conns i).mode = .connected

theorem Reaches.good {ops : List Op} {c : PubCtx} (h : Reaches ops c) :
    ∃ pops L, Good c pops L ∧ (queueArgs pops).length ≤ ops.length ∧ ops.length + 1 < U64 ∧
      (sendTs pops).Sublist (ops.flatMap opTimes) := by
  obtain ⟨mem, n, nid, ip, port, rs, h1, h2, h3, h4⟩ := h
  obtain ⟨ys, L', g1, g2, g3⟩ := run_good ops (Good.init mem h1 nid ip port) h2 (by simpa [queueArgs] using h3) h4
  exact ⟨ys, L', g1, g2, h3, g3⟩

theorem Reaches.snoc {ops : List Op} {op : Op} {c' : PubCtx} (h : Reaches (ops ++ [op]) c') :
    ∃ c r, Reaches ops c ∧ step c op = .ok (r, c') ∧ op.sane ∧ ops.length + 2 < U64 := by
  obtain ⟨mem, n, nid, ip, port, rs, h1, h2, h3, h4⟩ := h
  obtain ⟨rs1, r, c1, k1, k2, _⟩ := run_snoc_inv ops h4
  rw [List.length_append, List.length_singleton] at h3
  exact ⟨c1, r, ⟨mem, n, nid, ip, port, rs1, h1, fun o ho => h2 o (by simp [ho]), by omega, k1⟩, k2, h2 op (by simp), h3⟩

theorem Good.connected {c : PubCtx} {pops : List POp} {L : List Nat} (h : Good c pops L) {i : Nat} :
    Connected c i ↔ i ∈ L := by
  constructor
  · intro ⟨h1, h2⟩
    exact (h.v.mode i h1).1 (by rw [h2]; simp)
  · intro hi; exact ⟨h.v.lt i hi, h.conn i hi⟩

/-! ## Faults -/

theorem resendLoop_fault {i : Nat} {L : List Nat} (hi : i ∈ L) : ∀ (l : List (Nat × (Nat × Payload × Int))) {c : PubCtx}
    {pops : List POp} {f : Fault}, Good c pops L → Holds c.pub i l → resendLoop c i (l.map (·.1)) = .error f →
    f = .oob ∧ (c.cv.conns i).writeBuf.start ≠ 0 := by
  intro l
  induction l with
  | nil => intro c pops f _ _ hx; cases hx
  | cons e l ih =>
    intro c pops f h hl hx
    rw [List.map_cons, resendLoop_cons] at hx
    rcases sentPacketTimeout_spec h hi hl with ⟨h1, c1, k1, _⟩ | ⟨h1, h2, c1, k1, k2, k3, k4, k5, k6, k7, k8⟩ | ⟨h1, k1⟩
    · rw [k1, Pub.ok_bind, if_pos (by show EAGAIN ≠ 0; decide)] at hx; cases hx
    · rw [k1, Pub.ok_bind, if_neg (by simp)] at hx
      rw [← k8]; exact ih k2 k7 hx
    · rw [k1] at hx; cases hx
      have := (h.wb i hi).1.stop_eq h1
      exact ⟨rfl, by omega⟩

theorem subscriberTimeout_fault {i : Nat} {L : List Nat} (hi : i ∈ L) {c : PubCtx} {pops : List POp} {now : Int} {f : Fault}
    (h : Good c pops L) (hx : subscriberTimeout c i now = .error f) : f = .oob ∧ (c.cv.conns i).writeBuf.start ≠ 0 := by
  obtain ⟨l, h1, h2, h3⟩ := takeWhile_reverse_holds h.p i now c.resendTimeout
  unfold subscriberTimeout at hx
  rw [h1, Pub.ok_bind] at hx
  exact resendLoop_fault hi l h h3 hx

theorem subscribersTimeout_fault {L : List Nat} {now : Int} {f : Fault} : ∀ (ks : List Nat), ks.Nodup → (∀ k ∈ ks, k ∈ L) →
    ∀ {c : PubCtx} {pops : List POp}, Good c pops L → subscribersTimeout c now ks = .error f →
    f = .oob ∧ ∃ k ∈ ks, (c.cv.conns k).writeBuf.start ≠ 0 := by
  intro ks
  induction ks with
  | nil => intro _ _ c pops _ hx; cases hx
  | cons k ks ih =>
    intro hnd hL c pops h hx
    rw [List.nodup_cons] at hnd
    rw [subscribersTimeout_cons] at hx
    cases hT : subscriberTimeout c k now with
    | error g =>
      rw [hT] at hx
      have : g = f := Except.error.inj hx
      rw [← this]
      obtain ⟨a1, a2⟩ := subscriberTimeout_fault (hL k (by simp)) h hT
      exact ⟨a1, k, by simp, a2⟩
    | ok x =>
      obtain ⟨r1, c1⟩ := x
      rw [hT, Pub.ok_bind] at hx
      by_cases h0 : r1 ≠ 0
      · rw [if_pos h0] at hx; cases hx
      · rw [if_neg h0] at hx
        obtain ⟨done, rest, g1, g2, _, _, _, g6, _⟩ := subscriberTimeout_spec (hL k (by simp)) h hT
        obtain ⟨a1, j, a2, a3⟩ := ih hnd.2 (fun j hj => hL j (by simp [hj])) g2 hx
        rw [g6 j (fun e => hnd.1 (e ▸ a2))] at a3
        exact ⟨a1, j, by simp [a2], a3⟩

theorem timeout_resend_eq {c : PubCtx} {pops : List POp} {L : List Nat} (h : Good c pops L) {now : Int}
    (hd : ¬ annDue c now) (cb : Option (Bool × List UInt8)) (sp : Nat) :
    timeoutProcess c now cb sp =
      subscribersTimeout c now (c.pub.subs.filter fun k => late c.pub k now c.resendTimeout) := by
  unfold timeoutProcess
  rw [if_neg (fun e => hd ⟨e.1, e.2.1, by omega⟩), timedOutSubscribers_spec h.p, Pub.ok_bind]

/-- Reading end of stream or an error from a connection closes it (or reports a full buffer). -/
theorem readConn_eof {c : PubCtx} {pops : List POp} {L : List Nat} (h : Good c pops L) {i : Nat} (hi : i ∈ L)
    {rv : Option (List UInt8)} (hrv : rv.getD [] = []) :
    ∃ r c', readConn c i rv = .ok (r, c') ∧ (r = 0 ∨ r = ENOMEM) := by
  rw [readConn_eq h hi]
  obtain ⟨t, ht⟩ : ∃ t, t = tcpRead (table i) U32 c (c.cv.conns i).readBuf rv := ⟨_, rfl⟩
  rw [← ht]
  unfold tcpRead at ht
  dsimp only at ht
  rw [hrv, List.take_nil] at ht
  have hEN : ∀ n, (CircBuf.alloc (c.cv.conns i).readBuf n).1 = 0 ∨ (CircBuf.alloc (c.cv.conns i).readBuf n).1 = ENOMEM := by
    intro n
    unfold CircBuf.alloc
    dsimp only
    repeat' split
    all_goals first | exact .inr rfl | exact .inl rfl
  split at ht
  · rw [ht]
    exact ⟨ENOMEM, _, rfl, .inr rfl⟩
  · split at ht
    · rename_i h0
      have hE := (hEN (available (c.cv.conns i).readBuf)).resolve_left h0
      rw [hE] at ht
      rw [ht]
      exact ⟨ENOMEM, _, rfl, .inr rfl⟩
    · rw [if_pos rfl] at ht
      rw [ht, Pub.ok_bind]
      dsimp only
      rw [if_pos rfl]
      have hg : Good (setConn c i { c.cv.conns i with
          readBuf := (CircBuf.alloc (c.cv.conns i).readBuf (available (c.cv.conns i).readBuf)).2.2.2.trim
            (available (c.cv.conns i).readBuf) }) pops L := by
        obtain ⟨b, hb⟩ : ∃ b, b = (CircBuf.alloc (c.cv.conns i).readBuf (available (c.cv.conns i).readBuf)).2.2.2.trim
            (available (c.cv.conns i).readBuf) := ⟨_, rfl⟩
        rw [← hb]
        refine (h.setConn hi (x := { c.cv.conns i with readBuf := b }) (es := []) rfl rfl (h.v.idx i) (h.wb i hi).1
          (h.wb i hi).2 (h.arm i hi) (h.zero i hi) (.inl ⟨rfl, rfl⟩)).congr rfl ?_
        show c.cv.set i _ = { c.cv.set i _ with polls := c.cv.polls ++ [] }
        rw [List.append_nil]; rfl
      obtain ⟨c', e, _⟩ := close_spec hg hi
      rw [e]
      exact ⟨0, c', rfl, .inl rfl⟩

end PubCtx
end Rmc
