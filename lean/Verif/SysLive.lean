import Verif.SysDrain
import Verif.SubReadInv
import Verif.Props.PubCtxPoll
import Verif.Props.SubCtxTcp

/-! # The composed system is never stuck: a schedule that empties it -/

set_option linter.unusedSimpArgs false
set_option linter.unusedVariables false

namespace Rmc

theorem sum_range_le {f g : Nat → Nat} : ∀ (n : Nat), (∀ k, f k ≤ g k) → ((List.range n).map f).sum ≤ ((List.range n).map g).sum := by
  intro n h
  induction n with
  | zero => simp
  | succ n ih => rw [List.range_succ, List.map_append, List.map_append, List.sum_append, List.sum_append]; have := h n; simp; omega

theorem sum_range_lt {f g : Nat → Nat} : ∀ (n : Nat), (∀ k, f k ≤ g k) → (∃ k, k < n ∧ f k < g k) →
    ((List.range n).map f).sum < ((List.range n).map g).sum := by
  intro n h
  induction n with
  | zero => rintro ⟨k, hk, _⟩; omega
  | succ n ih =>
    rintro ⟨k, hk, hlt⟩
    rw [List.range_succ, List.map_append, List.map_append, List.sum_append, List.sum_append]
    by_cases e : k = n
    · subst e
      have := sum_range_le (f := f) (g := g) k h
      simp; omega
    · have := ih ⟨k, by omega, hlt⟩
      have := h n
      simp; omega

theorem sum_range_zero {f : Nat → Nat} : ∀ (n : Nat), ((List.range n).map f).sum = 0 → ∀ k, k < n → f k = 0 := by
  intro n
  induction n with
  | zero => intro _ k hk; omega
  | succ n ih =>
    intro h k hk
    rw [List.range_succ, List.map_append, List.sum_append] at h
    simp at h
    by_cases e : k = n
    · subst e; exact h.2
    · exact ih (by simpa using h.1) k (by omega)

theorem nodup_lt_length {L : List Nat} : ∀ (n : Nat), L.Nodup → (∀ i ∈ L, i < n) → L.length ≤ n := by
  intro n
  induction n generalizing L with
  | zero =>
    intro _ h
    cases L with
    | nil => simp
    | cons x l => have := h x (by simp); omega
  | succ n ih =>
    intro hn h
    by_cases e : n ∈ L
    · have := ih (L := L.erase n) (hn.erase n) (fun i hi => by
        have h1 := h i (List.mem_of_mem_erase hi)
        have h2 : i ≠ n := by
          rintro rfl
          exact (List.Nodup.not_mem_erase hn) hi
        omega)
      rw [List.length_erase_of_mem e] at this
      omega
    · have := ih hn (fun i hi => by
        have h1 := h i hi
        have h2 : i ≠ n := by rintro rfl; exact e hi
        omega)
      omega

namespace PubCtx
open CircBuf Proto PLog

/-- Specification: the number of packets held for resending, over all subscribers (a packet counts once for each). -/
def held (c : PubCtx) : Nat := ((List.range c.cv.size).map fun k => (c.pub.owedPkts k).length).sum

theorem announce_timeout {c c' : PubCtx} {pops : List POp} {L : List Nat} (h : Good c pops L) {now : Int}
    (hd : annDue c now) {cb : Option (Bool × List UInt8)} {sp r : Nat} (hb : (queueArgs pops).length + 2 < U64)
    (hs : timeoutProcess c now cb sp = .ok (r, c')) : c'.resendTimeout = c.resendTimeout := by
  unfold timeoutProcess at hs
  rw [if_pos ⟨hd.1, hd.2.1, by have := hd.2.2; omega⟩] at hs
  dsimp only at hs
  cases ha : (annAnswer cb).1 with
  | false =>
    rw [ha, if_neg (by simp), Pub.ok_bind] at hs
    have e : _ = c' := congrArg Prod.snd (Except.ok.inj hs)
    rw [← e]; rfl
  | true =>
    rw [ha, if_pos rfl] at hs
    have h' : Good (ev c (.announce now c.annInterval)) pops L := h.congr rfl rfl
    rcases queue_cases h' ⟨sp, (annAnswer cb).2, true⟩ true hb with ⟨e1, _⟩ | ⟨_, e2, e⟩ | ⟨_, e2, s', g1, g2, g3, e⟩
    · have : (annAnswer cb).2.length ≤ RMC_MAX_PAYLOAD := annAnswer_len cb
      exact absurd e1 (Nat.not_lt.mpr this)
    · rw [e, Pub.ok_bind] at hs
      have e : _ = c' := congrArg Prod.snd (Except.ok.inj hs)
      rw [← e]; rfl
    · rw [e, Pub.ok_bind] at hs
      have e : _ = c' := congrArg Prod.snd (Except.ok.inj hs)
      rw [← e]; rfl

/-- The write buffers of all connections are empty. -/
def Drained (c : PubCtx) : Prop := ∀ k, Connected c k → bytes (c.cv.conns k).writeBuf = []

theorem write_drain {c : PubCtx} {pops : List POp} {L : List Nat} (h : Good c pops L) {i : Nat} (hi : i ∈ L) :
    ∃ r c', step c (.write i (.ok (bytes (c.cv.conns i).writeBuf).length)) = .ok (r, c') ∧ Good c' pops L ∧ cfg c' = cfg c ∧
      c'.pub = c.pub ∧ c'.cv.size = c.cv.size ∧ bytes (c'.cv.conns i).writeBuf = [] ∧ ∀ j, j ≠ i → c'.cv.conns j = c.cv.conns j := by
  rcases writeConn_spec h i (.ok (bytes (c.cv.conns i).writeBuf).length) with ⟨e, _⟩ | ⟨_, h1, h2⟩ | ⟨_, h1, r, c', out, h2, h3, h4, h5, h6, h7, h8, h9, h10, h11, h12⟩
  · exact absurd hi e
  · exact ⟨_, c, h2, h, rfl, rfl, rfl, h1, fun _ _ => rfl⟩
  · refine ⟨r, c', h2, h3, h4, h6, (writeConn_fr h.v.sz h2).2, ?_, h12⟩
    dsimp only at h9
    rw [List.take_of_length_le (Nat.le_refl _)] at h9
    rw [h9] at h8
    have := congrArg List.length h8
    rw [List.length_append] at this
    exact List.length_eq_zero_iff.1 (by omega)

/-- Resending when all write buffers are empty and everything held is overdue: it does not fault, and something held is put on a
connection. -/
theorem timeout_progress {c : PubCtx} {pops : List POp} {L : List Nat} (h : Good c pops L) {now : Int} (hd : ¬ annDue c now)
    (hw : Drained c) (hall : ∀ k, Connected c k → ∀ x ∈ c.pub.owedPkts k, x.2.2 + c.resendTimeout ≤ now)
    (hlen : ∀ k, Connected c k → ∀ x ∈ c.pub.owedPkts k, x.2.1.data.length ≤ RMC_MAX_PAYLOAD)
    (cb : Option (Bool × List UInt8)) (sp : Nat) :
    ∃ r c' ys, step c (.timeout now cb sp) = .ok (r, c') ∧ Good c' (pops ++ ys) L ∧ cfg c' = cfg c ∧ c'.cv.size = c.cv.size ∧
      (∀ k, ∀ x ∈ c'.pub.owedPkts k, x ∈ c.pub.owedPkts k) ∧ held c' ≤ held c ∧ (held c ≠ 0 → held c' < held c) := by
  have hsub : ∀ k ∈ c.pub.subs.filter (fun k => late c.pub k now c.resendTimeout), k ∈ L :=
    fun k hk => (h.slots k).2 (List.mem_filter.mp hk).1
  have he : step c (.timeout now cb sp) = subscribersTimeout c now (c.pub.subs.filter fun k => late c.pub k now c.resendTimeout) :=
    timeout_resend_eq h hd cb sp
  cases hx : subscribersTimeout c now (c.pub.subs.filter fun k => late c.pub k now c.resendTimeout) with
  | error f =>
    exfalso
    obtain ⟨_, k, hk, hk2⟩ := subscribersTimeout_fault _ ((subs_nodup h).filter _) hsub h hx
    exact hk2 (h.zero k (hsub k hk) (hw k (h.connected.2 (hsub k hk))))
  | ok x =>
    obtain ⟨r, c'⟩ := x
    obtain ⟨done, ys, g1, g2, g3, g4, g5, g6, g7, g8⟩ := subscribersTimeout_spec _ ((subs_nodup h).filter _) hsub h hx
    have hsz : c'.cv.size = c.cv.size := (subscribers_fr _ (fun k hk => mult_ne (h.v.lt k (hsub k hk)) h.v.sz) hx).2
    refine ⟨r, c', ys, by rw [he, hx], g1, g2.cfg, hsz, ?_, ?_, ?_⟩
    · intro k x hx'
      rw [g7 k] at hx'
      exact (List.mem_filter.1 hx').1
    · unfold held
      rw [hsz]
      exact sum_range_le _ (fun k => by rw [g7 k]; exact List.length_filter_le _ _)
    · intro h0
      -- a subscriber for which something is done
      have hex : ∃ k, k < c.cv.size ∧ ∃ x ∈ c.pub.owedPkts k, x.1 ∈ (done k).map (·.1) := by
        have hdone : ∀ k ∈ c.pub.subs.filter (fun k => late c.pub k now c.resendTimeout), done k ≠ [] →
            k < c.cv.size ∧ ∃ x ∈ c.pub.owedPkts k, x.1 ∈ (done k).map (·.1) := by
          intro k hk hne
          refine ⟨h.v.lt k (hsub k hk), ?_⟩
          obtain ⟨rest, e1, _⟩ := g4 k hk
          cases hdk : done k with
          | nil => exact absurd hdk hne
          | cons x l =>
            refine ⟨x, ?_, by simp⟩
            have : x ∈ due c.pub k now c.resendTimeout := by rw [e1, hdk]; simp
            unfold due at this
            exact List.mem_reverse.1 ((List.takeWhile_prefix _).subset this)
        rcases g8 with g8 | ⟨_, k, hk, x, xs, q1, q2⟩
        · -- all done: a subscriber with something held
          have : ∃ k, k < c.cv.size ∧ c.pub.owedPkts k ≠ [] := by
            apply Classical.byContradiction
            intro hno
            apply h0
            unfold held
            have : ∀ k, k < c.cv.size → c.pub.owedPkts k = [] := fun k hk =>
              Classical.byContradiction fun hne => hno ⟨k, hk, hne⟩
            generalize c.cv.size = m at this
            clear h0 hno
            induction m with
            | zero => rfl
            | succ m ih =>
              rw [List.range_succ, List.map_append, List.sum_append, ih (fun k hk => this k (by omega)), List.map_singleton,
                this m (by omega)]; rfl
          obtain ⟨k, hk1, hk2⟩ := this
          have hks : k ∈ c.pub.subs := by
            obtain ⟨l, e1, e2, e3⟩ := Holds_all h.p k
            apply Classical.byContradiction
            intro hno
            apply hk2
            have hr := h.p.reached
            rw [owedPkts_eq hr.rel]
            have : (spec pops).owes k = [] := by
              apply Classical.byContradiction
              intro hne
              obtain ⟨y, hy⟩ := List.exists_mem_of_ne_nil _ hne
              unfold PSpec.owes at hy
              obtain ⟨y1, y2⟩ := List.mem_filter.1 hy
              have := hr.inv.owedSub y y1 k (by simpa using y2)
              rw [← h.p.subs] at this
              exact hno this
            rw [this]; rfl
          have hkc := h.connected.2 ((h.slots k).2 hks)
          have hlate : late c.pub k now c.resendTimeout = true := by
            unfold late
            cases ho : c.pub.owedPkts k with
            | nil => exact absurd ho hk2
            | cons x l =>
              have := hall k hkc x (by rw [ho]; simp)
              show timedOut now c.resendTimeout x = true
              unfold timedOut; exact decide_eq_true this
          have hkf : k ∈ c.pub.subs.filter (fun k => late c.pub k now c.resendTimeout) := List.mem_filter.2 ⟨hks, hlate⟩
          refine ⟨k, hdone k hkf ?_⟩
          obtain ⟨rest, e1, e2⟩ := g4 k hkf
          rw [e2 g8, List.append_nil] at e1
          rw [← e1]
          unfold due
          intro hnil
          cases ho : (c.pub.owedPkts k).reverse with
          | nil => exact hk2 (List.reverse_eq_nil_iff.1 ho)
          | cons x l =>
            rw [ho] at hnil
            have := hall k hkc x (by rw [← List.mem_reverse, ho]; simp)
            rw [List.takeWhile_cons, if_pos (by unfold timedOut; exact decide_eq_true this)] at hnil
            cases hnil
        · refine ⟨k, hdone k hk ?_⟩
          intro hnil
          have hkc := h.connected.2 (hsub k hk)
          have e1 := g6 k
          rw [hnil, hw k hkc] at e1
          have hz : inUse (c'.cv.conns k).writeBuf = 0 := by
            rw [← length_bytes, e1]; rfl
          have w := g1.wb k (hsub k hk)
          have ha := available_eq w.1
          rw [hz, w.2, g1.buf] at ha
          have hxm : x ∈ c.pub.owedPkts k := by
            have : x ∈ due c.pub k now c.resendTimeout := by rw [q1]; simp
            unfold due at this
            exact List.mem_reverse.1 ((List.takeWhile_prefix _).subset this)
          have := hlen k hkc x hxm
          have e1 : RMC_MAX_PAYLOAD = 65312 := rfl
          have e2 : RMC_MAX_PACKET = 65400 := rfl
          omega
      unfold held
      rw [hsz]
      refine sum_range_lt _ (fun k => ?_) ?_
      · rw [g7 k]; exact List.length_filter_le _ _
      · obtain ⟨k, hk, x, hx1, hx2⟩ := hex
        refine ⟨k, hk, ?_⟩
        rw [g7 k]
        apply Nat.lt_of_le_of_ne (List.length_filter_le _ _)
        intro e
        rw [List.length_filter_eq_length_iff] at e
        have := e x hx1
        simp only [decide_eq_true_eq] at this
        exact this hx2

end PubCtx

namespace Sys
open PLog CircBuf

/-- The calls of the schedule: the publisher writes to connections and processes timeouts at one time, the subscriber reads. -/
def drainOp (now : Int) : SysOp → Bool
  | .pub (.write _ _) => true
  | .pub (.timeout t _ _) => decide (t = now)
  | .subRead _ _ => true
  | _ => false

/-- Those of the publisher. -/
def flushOp (now : Int) : SysOp → Bool
  | .pub (.write _ _) => true
  | .pub (.timeout t _ _) => decide (t = now)
  | _ => false

theorem flush_drain {now : Int} {op : SysOp} (h : flushOp now op = true) : drainOp now op = true := by
  cases op with
  | pub op => cases op <;> first | exact h | cases h
  | _ => cases h

/-- Only the publisher has moved. -/
structure PubOnly (s t : Sys) : Prop where
  sub : t.sub = s.sub
  acc : t.acc = s.acc
  err : t.err = s.err
  up : t.up = s.up

theorem PubOnly.refl (s : Sys) : PubOnly s s := ⟨rfl, rfl, rfl, rfl⟩
theorem PubOnly.trans {a b c : Sys} (h : PubOnly a b) (h' : PubOnly b c) : PubOnly a c :=
  ⟨h'.sub.trans h.sub, h'.acc.trans h.acc, h'.err.trans h.err, h'.up.trans h.up⟩

theorem next_pub {E : Env} {s : Sys} {op : PubCtx.Op} {r : Nat} {p : PubCtx} (h1 : callOk op = true) (h2 : leaves s.acc op = true)
    (hx : PubCtx.step s.pub op = .ok (r, p)) : next E s (.pub op) = some { s with pub := p, down := s.down ++ sentDown s p } := by
  unfold next
  dsimp only
  rw [if_pos ⟨h1, h2⟩, hx]

theorem run_one {E : Env} {s t : Sys} {op : SysOp} (h : next E s op = some t) : run E s [op] = some t := by
  show (next E s op).bind _ = _
  rw [h]; rfl

theorem connected_of {c c' : PubCtx} {pops pops' : List POp} {L : List Nat} (h : PubCtx.Good c pops L) (h' : PubCtx.Good c' pops' L)
    (k : Nat) : PubCtx.Connected c' k ↔ PubCtx.Connected c k := by
  rw [h.connected, h'.connected]

/-- Every write buffer in a list of connections is emptied. -/
theorem drain_list {E : Env} {now : Int} : ∀ (is : List Nat) {n : Nat} {s : Sys} {pops : List POp} {L : List Nat}, Inv E n s →
    PubCtx.Good s.pub pops L → (∀ i ∈ is, i ∈ L) → n + is.length + 1 < U64 →
    ∃ ops t, calls ops = is.length ∧ (∀ op ∈ ops, flushOp now op = true) ∧ run E s ops = some t ∧ PubOnly s t ∧
      PubCtx.Good t.pub pops L ∧ PubCtx.cfg t.pub = PubCtx.cfg s.pub ∧ t.pub.pub = s.pub.pub ∧ t.pub.cv.size = s.pub.cv.size ∧
      (∀ i ∈ is, bytes (t.pub.cv.conns i).writeBuf = []) ∧
      ∀ i, bytes (s.pub.cv.conns i).writeBuf = [] → bytes (t.pub.cv.conns i).writeBuf = [] := by
  intro is
  induction is with
  | nil =>
    intro n s pops L h g _ _
    exact ⟨[], s, rfl, by simp, rfl, .refl s, g, rfl, rfl, rfl, by simp, fun _ x => x⟩
  | cons i is ih =>
    intro n s pops L h g hi hb
    rw [List.length_cons] at hb
    obtain ⟨r, p, w1, w2, w3, w4, w5, w6, w7⟩ := PubCtx.write_drain g (hi i (by simp))
    have hn : next E s (.pub (.write i (.ok (bytes (s.pub.cv.conns i).writeBuf).length))) =
      some { s with pub := p, down := s.down ++ sentDown s p } := next_pub rfl rfl w1
    have hinv := h.step (by show n + 1 + 1 < U64; omega) hn
    have hinv : Inv E (n + 1) _ := hinv
    obtain ⟨ops, t, a1, a2, a3, a4, a5, a6, a7, a8, a9, a10⟩ := ih hinv w2 (fun j hj => hi j (by simp [hj])) (by omega)
    refine ⟨.pub (.write i (.ok (bytes (s.pub.cv.conns i).writeBuf).length)) :: ops, t, by rw [calls_cons, a1, List.length_cons]; show 1 + _ = _; omega, ?_, ?_,
      ⟨a4.sub, a4.acc, a4.err, a4.up⟩, a5, a6.trans w3,
      a7.trans w4, a8.trans w5, ?_, ?_⟩
    · intro op hop
      rcases List.mem_cons.1 hop with rfl | hop
      · rfl
      · exact a2 op hop
    · show (next E s _).bind _ = _
      rw [hn]; exact a3
    · intro j hj
      rcases List.mem_cons.1 hj with rfl | hj
      · exact a10 j w6
      · exact a9 j hj
    · intro j hj
      apply a10 j
      by_cases e : j = i
      · rw [e]; exact w6
      · show bytes (p.cv.conns j).writeBuf = []
        rw [w7 j e]; exact hj

theorem drain_all {E : Env} (now : Int) {n : Nat} {s : Sys} (h : Inv E n s) (hb : n + s.pub.cv.size + 1 < U64) :
    ∃ ops t, calls ops ≤ s.pub.cv.size ∧ (∀ op ∈ ops, flushOp now op = true) ∧ run E s ops = some t ∧ PubOnly s t ∧
      PubCtx.cfg t.pub = PubCtx.cfg s.pub ∧ t.pub.pub = s.pub.pub ∧ t.pub.cv.size = s.pub.cv.size ∧
      (∀ k, PubCtx.Connected t.pub k ↔ PubCtx.Connected s.pub k) ∧ PubCtx.Drained t.pub := by
  obtain ⟨ops, h1, h2, h3⟩ := h.pub
  obtain ⟨pops, L, g, _⟩ := h1.good
  have hl : L.length ≤ s.pub.cv.size := by
    exact nodup_lt_length _ g.v.nodup g.v.lt
  obtain ⟨os, t, a1, a2, a3, a4, a5, a6, a7, a8, a9, a10⟩ := drain_list (E := E) (now := now) L h g (fun _ x => x) (by omega)
  exact ⟨os, t, by omega, a2, a3, a4, a6, a7, a8, connected_of g a5, fun k hk => a9 k (a5.connected.1 hk)⟩

theorem owed_len {E : Env} {n : Nat} {s : Sys} (h : Inv E n s) {k : Nat} {x : Nat × Payload × Int} (hx : x ∈ s.pub.pub.owedPkts k) :
    x.2.1.data.length ≤ RMC_MAX_PAYLOAD := by
  obtain ⟨ops, h1, h2, h3⟩ := h.pub
  obtain ⟨pops, L, g, _⟩ := h1.good
  exact (PubCtx.queued_ok h1 h2 (PubCtx.sent_queued h1 (PubCtx.owed_sent g hx))).2.2.2

/-- The publisher resends everything it holds, and all of it is written to the connections. -/
theorem settle {E : Env} {now : Int} (cb : Option (Bool × List UInt8)) (sp : Nat) : ∀ (m : Nat) {n : Nat} {s : Sys}, Inv E n s →
    PubCtx.held s.pub ≤ m → ¬ PubCtx.annDue s.pub now →
    (∀ k, PubCtx.Connected s.pub k → ∀ x ∈ s.pub.pub.owedPkts k, x.2.2 + s.pub.resendTimeout ≤ now) →
    n + (m + 1) * (s.pub.cv.size + 1) + 1 < U64 →
    ∃ ops t, calls ops ≤ (m + 1) * (s.pub.cv.size + 1) ∧ (∀ op ∈ ops, flushOp now op = true) ∧ run E s ops = some t ∧
      PubOnly s t ∧ PubCtx.Drained t.pub ∧ (∀ k, PubCtx.Connected t.pub k ↔ PubCtx.Connected s.pub k) ∧
      ∀ k, PubCtx.Connected t.pub k → t.pub.pub.owedPkts k = [] := by
  intro m
  induction m with
  | zero =>
    intro n s h hm hd hall hb
    obtain ⟨ops, t, a1, a2, a3, a4, a5, a6, a7, a8, a9⟩ := drain_all now h (by omega)
    refine ⟨ops, t, by omega, a2, a3, a4, a9, a8, ?_⟩
    intro k hk
    rw [a6]
    have h0 : PubCtx.held s.pub = 0 := by omega
    unfold PubCtx.held at h0
    have := sum_range_zero (f := fun k => (s.pub.pub.owedPkts k).length) s.pub.cv.size h0 k (by rw [← a7]; exact hk.1)
    exact List.length_eq_zero_iff.1 this
  | succ m ih =>
    intro n s h hm hd hall hb
    have hmul : (m + 1 + 1) * (s.pub.cv.size + 1) = (m + 1) * (s.pub.cv.size + 1) + (s.pub.cv.size + 1) := Nat.succ_mul _ _
    obtain ⟨ops, t, a1, a2, a3, a4, a5, a6, a7, a8, a9⟩ := drain_all now h (by omega)
    have hit := h.run ops (by omega) a3
    obtain ⟨pp, h1, h2, h3⟩ := hit.pub
    obtain ⟨pops, L, g, _⟩ := h1.good
    have hheld : PubCtx.held t.pub = PubCtx.held s.pub := by unfold PubCtx.held; rw [a6, a7]
    have hto : t.pub.resendTimeout = s.pub.resendTimeout := congrArg PubCtx.Cfg.resendTimeout a5
    have hdue : ¬ PubCtx.annDue t.pub now := by
      have e1 : t.pub.annInterval = s.pub.annInterval := congrArg PubCtx.Cfg.annInterval a5
      have e2 : t.pub.annNext = s.pub.annNext := congrArg PubCtx.Cfg.annNext a5
      unfold PubCtx.annDue; rw [e1, e2]; exact hd
    have hall' : ∀ k, PubCtx.Connected t.pub k → ∀ x ∈ t.pub.pub.owedPkts k, x.2.2 + t.pub.resendTimeout ≤ now := by
      intro k hk x hx
      rw [a6] at hx; rw [hto]
      exact hall k ((a8 k).1 hk) x hx
    obtain ⟨r, p, ys, b1, b2, b3, b4, b5, b5', b6⟩ := PubCtx.timeout_progress g hdue a9 hall' (fun k hk x hx => owed_len hit hx) cb sp
    have hn : next E t (.pub (.timeout now cb sp)) = some { t with pub := p, down := t.down ++ sentDown t p } := next_pub rfl rfl b1
    have hin : Inv E (n + calls ops + 1) _ := hit.step (by show n + calls ops + 1 + 1 < U64; omega) hn
    have hlen : PubCtx.held p ≤ m := by
      by_cases h0 : PubCtx.held t.pub = 0
      · omega
      · have := b6 h0; omega
    have b3' : p.resendTimeout = t.pub.resendTimeout := congrArg PubCtx.Cfg.resendTimeout b3
    obtain ⟨os, u, c1, c2, c3, c4, c5, c6, c7⟩ := ih hin hlen (by
        have e1 : p.annInterval = t.pub.annInterval := congrArg PubCtx.Cfg.annInterval b3
        have e2 : p.annNext = t.pub.annNext := congrArg PubCtx.Cfg.annNext b3
        show ¬ PubCtx.annDue p now
        unfold PubCtx.annDue; rw [e1, e2]; exact hdue)
      (by
        intro k hk x hx
        show x.2.2 + p.resendTimeout ≤ now
        rw [b3']
        exact hall' k ((connected_of g b2 k).1 hk) x (b5 k x hx))
      (by show _ + (m + 1) * (p.cv.size + 1) + 1 < _; rw [b4, a7]; omega)
    refine ⟨ops ++ (.pub (.timeout now cb sp) :: os), u, ?_, ?_, ?_, a4.trans ⟨c4.sub, c4.acc, c4.err, c4.up⟩, c5, ?_, c7⟩
    · have : calls os ≤ (m + 1) * (p.cv.size + 1) := c1
      rw [b4, a7] at this
      have e1 : calls (.pub (.timeout now cb sp) :: os) = 1 + calls os := rfl
      rw [calls_append, e1]; omega
    · intro op hop
      rcases List.mem_append.1 hop with hop | hop
      · exact a2 op hop
      · rcases List.mem_cons.1 hop with rfl | hop
        · exact decide_eq_true rfl
        · exact c2 op hop
    · rw [run_append, a3]
      show (next E t _).bind _ = _
      rw [hn]; exact c3
    · intro k
      rw [c6 k]
      show PubCtx.Connected p k ↔ _
      rw [connected_of g b2 k, a8 k]

/-- A packet at the head of the stream is read by one call, and the read buffer is empty afterwards. -/
theorem read_one {E : Env} {n : Nat} {s : Sys} (h : Inv E n s) (hu : SubCtx.Up s.sub E.slot)
    (h0 : (s.sub.cv.conns E.slot).readBuf.start = 0) (hw : s.wbytes = []) (hd : s.down ≠ []) (ts : Int) :
    ∃ m t, 0 < m ∧ m ≤ s.down.length ∧ next E s (.subRead m ts) = some t ∧ t.pub = s.pub ∧ t.acc = s.acc ∧ t.err = s.err ∧
      t.up = s.up ∧ SubCtx.Up t.sub E.slot ∧ (t.sub.cv.conns E.slot).readBuf.start = 0 ∧
      bytes (t.sub.cv.conns E.slot).readBuf = [] ∧ t.down = s.down.drop m := by
  obtain ⟨ops, h1, h2, h3⟩ := h.pub
  obtain ⟨sops, hsr⟩ := h.sub
  obtain ⟨ps, d1, d2, d3⟩ := h.down
  have hrb := hsr.rb E.slot hu
  unfold toSub at d2
  rw [hw, List.append_nil] at d2
  cases ps with
  | nil =>
    exfalso
    exact hd (List.append_eq_nil_iff.1 d2).2
  | cons x ps =>
    obtain ⟨hdr, hhdr⟩ : ∃ h : PacketHeader, h = ⟨x.1, s.pub.nodeId, x.2.data.length, s.pub.listenIp, s.pub.listenPort⟩ := ⟨_, rfl⟩
    have hq := PubCtx.queued_ok h1 h2 (PubCtx.sent_queued h1 (d1 x (by simp)).1)
    have e65 : RMC_MAX_PAYLOAD = 65312 := rfl
    have hfx : frame s.pub x = SubCtx.frameOf hdr x.2.data := by rw [hhdr]; rfl
    have hval : hdr.Valid := by
      rw [hhdr]
      exact ⟨by show x.1 < U64; omega, h.ids.1, by show x.2.data.length < 65536; omega, h.ids.2.1, h.ids.2.2.1⟩
    have hpl : x.2.data.length = hdr.payloadLen := by rw [hhdr]
    have hfr : ∀ more, (SubCtx.subLang E.slot ts).frame (frame s.pub x ++ more) = .cmd (frame s.pub x).length := by
      intro more; rw [hfx]; exact SubCtx.frameOf_frame hval hpl more
    have hL := SubCtx.subLang_ok E.slot ts
    rw [List.map_cons, List.flatten_cons] at d2
    obtain ⟨m, hm⟩ : ∃ m, m = (frame s.pub x).length - (bytes (s.sub.cv.conns E.slot).readBuf).length := ⟨_, rfl⟩
    have hlt : (bytes (s.sub.cv.conns E.slot).readBuf).length < (frame s.pub x).length := by
      apply Classical.byContradiction
      intro hge
      have hpre : bytes (s.sub.cv.conns E.slot).readBuf =
          frame s.pub x ++ (bytes (s.sub.cv.conns E.slot).readBuf).drop (frame s.pub x).length := by
        have := congrArg (List.take (frame s.pub x).length) d2
        rw [List.take_append_of_le_length (by omega), List.take_left] at this
        rw [← this, List.length_take, Nat.min_eq_left (by omega), List.take_append_drop]
      have hc : (SubCtx.subLang E.slot ts).commands (bytes (s.sub.cv.conns E.slot).readBuf) = [] := hrb.2.2.1.1
      rw [hpre, (Proto.Lang.split_cmd hL (hfr _)).1] at hc
      cases hc
    have hfl : (frame s.pub x).length = 21 + x.2.data.length := by
      unfold frame
      rw [List.length_cons, List.length_append, PacketHeader.length_enc]
      have : HDR_LEN = 20 := rfl
      omega
    have hsum := congrArg List.length d2
    rw [List.length_append, List.length_append] at hsum
    have hml : m ≤ s.down.length := by omega
    have hwhole : bytes (s.sub.cv.conns E.slot).readBuf ++ s.down.take m = frame s.pub x := by
      have := congrArg (List.take (frame s.pub x).length) d2
      rw [List.take_left, List.take_append, List.take_of_length_le (by omega)] at this
      rw [hm]; exact this
    have hav := available_eq hrb.1
    have hlen : (s.down.take m).length = m := by rw [List.length_take]; omega
    have hpk : RMC_MAX_PACKET = 65400 := rfl
    have hm2 : m ≤ available (s.sub.cv.conns E.slot).readBuf := by
      have := length_bytes (s.sub.cv.conns E.slot).readBuf
      rw [hav, hrb.2.1]
      omega
    obtain ⟨d, b', g1, g2, g3, g4, g5, g6, g7, g8, g9, g10⟩ := SubCtx.readConn_lang hsr.inv.core hu hrb.1 (by rw [hrb.2.1]; decide) ts
      (xs := s.down.take m) (by intro e; rw [e] at hlen; simp at hlen; omega) (by rw [hlen]; exact hm2)
      (by unfold Proto.ReadSafe; rw [h0]; omega)
    have hcmd := Proto.Lang.split_cmd hL (by have := hfr []; rw [List.append_nil] at this; exact this)
    rw [List.drop_length] at hcmd
    rw [hwhole] at g7 g9
    have hb : bytes b' = [] := by rw [g7, hcmd.2.2]; rfl
    have hst := g9 (by rw [hcmd.2.1]; show (0 : Nat) ≠ EPROTO; decide)
    have hup' : SubCtx.Up (SubCtx.afterRead d E.slot b') E.slot := hu.afterRead g3 b'
    refine ⟨m, { s with sub := SubCtx.afterRead d E.slot b', down := s.down.drop m }, by omega, hml, ?_, rfl, rfl, rfl, rfl, hup', ?_, ?_,
      rfl⟩
    · unfold next
      dsimp only
      rw [if_pos ⟨hu, by omega, hml, hm2⟩,
        show SubCtx.step s.sub (.read E.slot (some (s.down.take m)) ts) = _ from hst]
      dsimp only
      rw [if_pos hup']
    · show ((SubCtx.afterRead d E.slot b').cv.conns E.slot).readBuf.start = 0
      rw [SubCtx.afterRead_self, g8, if_pos hb]
    · show bytes ((SubCtx.afterRead d E.slot b').cv.conns E.slot).readBuf = []
      rw [SubCtx.afterRead_self, hb]

/-- Nothing can be left in the read buffer when nothing follows it. -/
theorem read_none {E : Env} {n : Nat} {s : Sys} (h : Inv E n s) (hu : SubCtx.Up s.sub E.slot)
    (hw : s.wbytes = []) (hd : s.down = []) : bytes (s.sub.cv.conns E.slot).readBuf = [] := by
  obtain ⟨ops, h1, h2, h3⟩ := h.pub
  obtain ⟨sops, hsr⟩ := h.sub
  obtain ⟨ps, d1, d2, d3⟩ := h.down
  have hrb := hsr.rb E.slot hu
  unfold toSub at d2
  rw [hw, hd, List.append_nil, List.append_nil] at d2
  cases ps with
  | nil => exact d2
  | cons x ps =>
    exfalso
    have hq := PubCtx.queued_ok h1 h2 (PubCtx.sent_queued h1 (d1 x (by simp)).1)
    have e65 : RMC_MAX_PAYLOAD = 65312 := rfl
    have hfr : ∀ more, (SubCtx.subLang E.slot 0).frame (frame s.pub x ++ more) = .cmd (frame s.pub x).length := by
      intro more
      exact SubCtx.frameOf_frame (hd := ⟨x.1, s.pub.nodeId, x.2.data.length, s.pub.listenIp, s.pub.listenPort⟩)
        ⟨by show x.1 < U64; omega, h.ids.1, by show x.2.data.length < 65536; omega, h.ids.2.1, h.ids.2.2.1⟩ rfl more
    have hc : (SubCtx.subLang E.slot 0).commands (bytes (s.sub.cv.conns E.slot).readBuf) = [] := hrb.2.2.1.1
    rw [d2, List.map_cons, List.flatten_cons, (Proto.Lang.split_cmd (SubCtx.subLang_ok E.slot 0) (hfr _)).1] at hc
    cases hc

/-- The subscriber reads everything that is in the stream. -/
theorem read_all {E : Env} (ts : Int) : ∀ (m : Nat) {n : Nat} {s : Sys}, Inv E n s → s.down.length ≤ m → SubCtx.Up s.sub E.slot →
    (s.sub.cv.conns E.slot).readBuf.start = 0 → s.wbytes = [] → n + 1 < U64 →
    ∃ ops t, calls ops = 0 ∧ (∀ op ∈ ops, ∃ m, op = .subRead m ts) ∧ run E s ops = some t ∧ t.pub = s.pub ∧ t.acc = s.acc ∧ t.err = s.err ∧
      SubCtx.Up t.sub E.slot ∧ t.down = [] ∧ bytes (t.sub.cv.conns E.slot).readBuf = [] := by
  intro m
  induction m with
  | zero =>
    intro n s h hm hu h0 hw hb
    have hd : s.down = [] := List.length_eq_zero_iff.1 (by omega)
    exact ⟨[], s, rfl, by simp, rfl, rfl, rfl, rfl, hu, hd, read_none h hu hw hd⟩
  | succ m ih =>
    intro n s h hm hu h0 hw hb
    by_cases hd : s.down = []
    · exact ⟨[], s, rfl, by simp, rfl, rfl, rfl, rfl, hu, hd, read_none h hu hw hd⟩
    · obtain ⟨k, t, a1, a2, a3, a4, a5, a6, a7, a8, a9, a10, a11⟩ := read_one h hu h0 hw hd ts
      have hin : Inv E n t := h.step (by show n + 1 < U64; omega) a3
      obtain ⟨ops, u, b1, b2, b3, b4, b5, b6, b7, b8, b9⟩ := ih hin (by rw [a11, List.length_drop]; omega) a8 a9
        (by unfold wbytes at hw ⊢; rw [a4, a5]; exact hw) (by omega)
      refine ⟨.subRead k ts :: ops, u, b1, ?_, ?_, b4.trans a4, b5.trans a5, b6.trans a6, b7, b8, b9⟩
      · intro op hop
        rcases List.mem_cons.1 hop with rfl | hop
        · exact ⟨k, rfl⟩
        · exact b2 op hop
      · show (next E s _).bind _ = _
        rw [a3]; exact b3

/-- A due announcement is made by one timeout call, after which it is no longer due; what is held stays as it is. -/
theorem announce {E : Env} {n : Nat} {s : Sys} (h : Inv E n s) {now : Int} (hd : PubCtx.annDue s.pub now)
    (cb : Option (Bool × List UInt8)) (sp : Nat) (hb : n + 2 < U64) :
    ∃ t, next E s (.pub (.timeout now cb sp)) = some t ∧ PubOnly s t ∧ ¬ PubCtx.annDue t.pub now ∧
      t.pub.resendTimeout = s.pub.resendTimeout ∧ t.pub.cv.size = s.pub.cv.size ∧
      (∀ k, PubCtx.Connected t.pub k ↔ PubCtx.Connected s.pub k) ∧ ∀ k, t.pub.pub.owedPkts k = s.pub.pub.owedPkts k := by
  obtain ⟨ops, h1, h2, h3⟩ := h.pub
  obtain ⟨pops, L, g, hq, hb', _⟩ := h1.good
  obtain ⟨p, a1, a2, a3, a4, a5, a6, a7, a8, a9⟩ := PubCtx.timeout_announce g hd cb sp (by omega)
  have hx : PubCtx.step s.pub (.timeout now cb sp) = .ok (0, p) := a1
  have hpos : s.pub.annInterval ≠ 0 := hd.1
  refine ⟨_, next_pub rfl rfl hx, ⟨rfl, rfl, rfl, rfl⟩, ?_, ?_, a8, ?_, ?_⟩
  · show ¬ PubCtx.annDue p now
    rintro ⟨_, _, e⟩
    rw [a4] at e
    omega
  · exact PubCtx.announce_timeout g hd (by omega) a1
  · intro k
    show PubCtx.Connected p k ↔ _
    rcases a9 with ⟨_, _, g', _⟩ | ⟨_, g', _⟩
    · exact connected_of g g' k
    · exact connected_of g g' k
  · intro k
    show p.pub.owedPkts k = _
    rcases a9 with ⟨_, _, g', _⟩ | ⟨_, _, _, e⟩
    · rw [Rmc.owedPkts_eq g.p.reached.rel, Rmc.owedPkts_eq g'.p.reached.rel]
      congr 1
      unfold PSpec.owes spec PSpec.run
      rw [List.foldl_append]
      rfl
    · rw [e]

theorem PubOnly.wbytes_nil {s t : Sys} {k : Nat} (hk : t.acc = some k) (hc : PubCtx.Connected t.pub k) (hd : PubCtx.Drained t.pub) :
    t.wbytes = [] := by
  unfold wbytes; rw [hk]; exact hd k hc

/-- The publisher makes a due announcement, resends everything it holds and writes it out. -/
theorem settle_all {E : Env} {n : Nat} {s : Sys} (h : Inv E n s) (now : Int) (cb : Option (Bool × List UInt8)) (sp : Nat)
    (hall : ∀ j, PubCtx.Connected s.pub j → ∀ x ∈ s.pub.pub.owedPkts j, x.2.2 + s.pub.resendTimeout ≤ now)
    (hn : n + (PubCtx.held s.pub + 2) * (s.pub.cv.size + 1) + 1 < U64) :
    ∃ ops t, calls ops ≤ (PubCtx.held s.pub + 2) * (s.pub.cv.size + 1) ∧ (∀ op ∈ ops, flushOp now op = true) ∧ run E s ops = some t ∧
      PubOnly s t ∧ PubCtx.Drained t.pub ∧ ∀ k, PubCtx.Connected t.pub k → t.pub.pub.owedPkts k = [] := by
  -- the announcement
  have step1 : ∃ ops t m, calls ops ≤ 1 ∧ m ≤ n + 1 ∧ (∀ op ∈ ops, flushOp now op = true) ∧ run E s ops = some t ∧ PubOnly s t ∧
      Inv E m t ∧ ¬ PubCtx.annDue t.pub now ∧ t.pub.resendTimeout = s.pub.resendTimeout ∧ t.pub.cv.size = s.pub.cv.size ∧
      (∀ k, PubCtx.Connected t.pub k ↔ PubCtx.Connected s.pub k) ∧ ∀ k, t.pub.pub.owedPkts k = s.pub.pub.owedPkts k := by
    by_cases hd : PubCtx.annDue s.pub now
    · have hb : n + 2 < U64 := by
        have : 2 * 1 ≤ (PubCtx.held s.pub + 2) * (s.pub.cv.size + 1) := Nat.mul_le_mul (by omega) (by omega)
        omega
      obtain ⟨t, a1, a2, a3, a4, a5, a6, a7⟩ := announce h hd cb sp hb
      refine ⟨[.pub (.timeout now cb sp)], t, n + 1, Nat.le_refl _, Nat.le_refl _, ?_, run_one a1, a2, h.step (op := .pub (.timeout now cb sp)) hb a1, a3, a4, a5, a6, a7⟩
      intro op hop
      rw [List.mem_singleton] at hop
      subst hop; exact decide_eq_true rfl
    · exact ⟨[], s, n, by simp [calls], by omega, by simp, rfl, .refl s, h, hd, rfl, rfl, fun _ => Iff.rfl, fun _ => rfl⟩
  obtain ⟨o1, s1, m, a1, a2, a3, a4, a5, a6, a7, a8, a9, a10, a11⟩ := step1
  have hheld : PubCtx.held s1.pub = PubCtx.held s.pub := by
    unfold PubCtx.held; rw [a9]; congr 1; apply List.map_congr_left; intro j _; rw [a11]
  have hmul : (PubCtx.held s.pub + 2) * (s.pub.cv.size + 1) = (PubCtx.held s.pub + 1) * (s.pub.cv.size + 1) + (s.pub.cv.size + 1) :=
    Nat.succ_mul _ _
  obtain ⟨o2, s2, b1, b2, b3, b4, b5, b6, b7⟩ := settle (E := E) (now := now) cb sp (PubCtx.held s.pub) a6 (by omega) a7
    (by intro j hj x hx; rw [a8]; rw [a11] at hx; exact hall j ((a10 j).1 hj) x hx) (by rw [a9]; omega)
  rw [a9] at b1
  refine ⟨o1 ++ o2, s2, by rw [calls_append]; omega, ?_, ?_, a5.trans b4, b5, b7⟩
  · intro op hop
    rcases List.mem_append.1 hop with hop | hop
    · exact a3 op hop
    · exact b2 op hop
  · rw [run_append, a4]
    exact b3

/-- A schedule that empties the system. -/
theorem empty_all {E : Env} {n : Nat} {s : Sys} (h : Inv E n s) {k : Nat} (hk : s.acc = some k)
    (hu : SubCtx.Up s.sub E.slot) (h0 : (s.sub.cv.conns E.slot).readBuf.start = 0) (now ts : Int) (cb : Option (Bool × List UInt8)) (sp : Nat)
    (hall : ∀ j, PubCtx.Connected s.pub j → ∀ x ∈ s.pub.pub.owedPkts j, x.2.2 + s.pub.resendTimeout ≤ now)
    (hn : n + (PubCtx.held s.pub + 2) * (s.pub.cv.size + 1) + 1 < U64) :
    ∃ ops t, calls ops ≤ (PubCtx.held s.pub + 2) * (s.pub.cv.size + 1) ∧ (∀ op ∈ ops, drainOp now op = true) ∧ run E s ops = some t ∧
      t.acc = some k ∧ t.err = s.err ∧ SubCtx.Up t.sub E.slot ∧ t.pub.pub.outstanding k = [] ∧
      bytes (t.sub.cv.conns E.slot).readBuf ++ t.down ++ bytes (t.pub.cv.conns k).writeBuf = [] := by
  obtain ⟨o2, s2, b1, b2, b3, b4, b5, b7⟩ := settle_all h now cb sp hall hn
  have hi2 := h.run o2 (by omega) b3
  have hk2 : s2.acc = some k := by rw [b4.acc, hk]
  have hc2 : PubCtx.Connected s2.pub k := (hi2.acc k hk2).1
  have hsub2 : s2.sub = s.sub := b4.sub
  obtain ⟨o3, s3, c1, c2, c3, c4, c5, c6, c7, c8, c9⟩ := read_all (E := E) ts s2.down.length hi2 (Nat.le_refl _) (by rw [hsub2]; exact hu)
    (by rw [hsub2]; exact h0) (PubOnly.wbytes_nil (s := s2) hk2 hc2 b5) (by omega)
  refine ⟨o2 ++ o3, s3, by rw [calls_append]; omega, ?_, ?_, by rw [c5, hk2], by rw [c6, b4.err], c7, ?_, ?_⟩
  · intro op hop
    rcases List.mem_append.1 hop with hop | hop
    · exact flush_drain (b2 op hop)
    · obtain ⟨m, rfl⟩ := c2 op hop; rfl
  · rw [run_append, b3]
    exact c3
  · rw [c4]
    obtain ⟨pp, p1, p2, p3⟩ := hi2.pub
    obtain ⟨pops, L, g, _⟩ := p1.good
    rw [Rmc.outstanding_owed g.p.reached.rel, b7 k hc2]; rfl
  · rw [c8, c9, c4, b5 k hc2]; rfl

end Sys
end Rmc
