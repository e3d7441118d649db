import Verif.PubSpecLemmas

set_option linter.unusedSimpArgs false
set_option linter.unusedVariables false

namespace Rmc
namespace Pub

theorem ok_bind {α β : Type} (a : α) (f : α → M β) : ((.ok a : M α) >>= f) = f a := rfl

/-- The concrete state represents the abstract one. The existential lists pair each abstract packet with the
heap address it lives at. -/
def Rel (s : Pub) (A : PSpec) : Prop :=
  ∃ (Q : List (Nat × (Nat × Payload))) (N : List (Nat × Payload)) (I : List (Nat × Sent)),
    A.que = Q.map (·.2) ∧ A.ann = N.map (·.2) ∧ A.infl = I.map (·.2) ∧
    s.queued = (Q.map (·.1)).reverse ++ (N.map (·.1)).reverse ∧
    s.inflight = (I.map (·.1)).reverse ∧
    (∀ k, s.sinfl k = ((I.filter fun e => decide (k ∈ e.2.owed)).map (·.1)).reverse) ∧
    (∀ e ∈ Q, s.pk e.1 = some ⟨e.2.1, 0, some .queued, 0, e.2.2⟩) ∧
    (∀ e ∈ N, s.pk e.1 = some ⟨0, 0, some .queued, 0, e.2⟩) ∧
    (∀ e ∈ I, s.pk e.1 = some ⟨e.2.pid, e.2.owed.length, some .inflight, e.2.ts, e.2.payload⟩) ∧
    (Q.map (·.1) ++ N.map (·.1) ++ I.map (·.1)).Nodup ∧
    (∀ a ∈ Q.map (·.1) ++ N.map (·.1) ++ I.map (·.1), a < s.nextAddr) ∧
    s.subs = A.subs ∧ s.nextPid = A.nextPid ∧ s.log = A.log

theorem Rel_init : Rel init PSpec.init :=
  ⟨[], [], [], rfl, rfl, rfl, rfl, rfl, fun _ => rfl, by simp, by simp, by simp, by simp, by simp, rfl, rfl, rfl⟩

/-! ## List helpers -/

theorem insertSorted_head {pk : Nat → Option Pkt} {a pid : Nat} {xs : List Nat}
    (h : ∀ x, xs.head? = some x → ∃ p, pk x = some p ∧ p.pid ≤ pid) :
    insertSorted pk a pid xs = .ok (a :: xs) := by
  cases xs with
  | nil => rfl
  | cons x xs =>
    obtain ⟨p, h1, h2⟩ := h x rfl
    simp only [insertSorted, deref, h1, ok_bind]
    rw [if_pos h2]; rfl

theorem insertSorted_skip {pk : Nat → Option Pkt} {a pid : Nat} (ys : List Nat) : ∀ (xs : List Nat),
    (∀ x ∈ xs, ∃ p, pk x = some p ∧ pid < p.pid) → (∀ r, insertSorted pk a pid ys = .ok r →
    insertSorted pk a pid (xs ++ ys) = .ok (xs ++ r)) := by
  intro xs
  induction xs with
  | nil => intro _ r hr; exact hr
  | cons x xs ih =>
    intro h r hr
    obtain ⟨p, h1, h2⟩ := h x (by simp)
    simp only [List.cons_append, insertSorted, deref, h1, ok_bind]
    rw [if_neg (by omega), ih (fun y hy => h y (by simp [hy])) r hr, ok_bind]; rfl

theorem erase_mid {a : Nat} {l1 l2 : List Nat} (h1 : a ∉ l1) :
    (l1 ++ a :: l2).erase a = l1 ++ l2 := by
  rw [List.erase_append_right _ h1, List.erase_cons_head]

theorem erase_reverse_mid {a : Nat} {l1 l2 : List Nat} (h2 : a ∉ l2) :
    (l1 ++ a :: l2).reverse.erase a = (l1 ++ l2).reverse := by
  rw [List.reverse_append, List.reverse_cons, List.append_assoc, List.singleton_append,
    erase_mid (by simpa using h2), List.reverse_append]

/-- Searching a list of addresses for a pid. -/
theorem findPid_spec {pk : Nat → Option Pkt} {pid : Nat} {β : Type} (f : β → Nat) : ∀ (l : List (Nat × β)),
    (∀ e ∈ l, ∃ p, pk e.1 = some p ∧ p.pid = f e.2) →
    findPid pk pid (l.map (·.1)) = .ok ((l.find? (fun e => decide (f e.2 = pid))).map (·.1)) := by
  intro l
  induction l with
  | nil => intro _; rfl
  | cons e l ih =>
    intro h
    obtain ⟨p, h1, h2⟩ := h e (by simp)
    simp only [List.map_cons, findPid, deref, h1, ok_bind]
    by_cases hp : f e.2 = pid
    · rw [if_pos (by omega), List.find?_cons_of_pos (by simpa using hp)]; rfl
    · rw [if_neg (by omega), List.find?_cons_of_neg (by simpa using hp)]
      exact ih (fun x hx => h x (by simp [hx]))

/-! ## Simulation -/

theorem sim_connect {s : Pub} {A : PSpec} (h : Rel s A) (hi : A.Inv) {k : Nat} (hk : k ∉ A.subs) :
    Rel (initSubscriber s k) (A.step (.connect k)) := by
  obtain ⟨Q, N, I, r1, r2, r3, r4, r5, r6, r7, r8, r9, r10, r11, r12, r13, r14⟩ := h
  refine ⟨Q, N, I, r1, r2, r3, r4, r5, ?_, r7, r8, r9, r10, r11, ?_, r13, ?_⟩
  · intro j
    show (if j = k then [] else s.sinfl j) = _
    split
    · rename_i hj
      subst hj
      rw [List.filter_eq_nil_iff.mpr]
      · rfl
      · intro e he
        simp only [decide_eq_true_eq]
        intro hc
        exact hk (hi.owedSub e.2 (by rw [r3]; exact List.mem_map_of_mem he) j hc)
    · exact r6 j
  · show s.subs ++ [k] = A.subs ++ [k]; rw [r12]
  · show s.log ++ _ = A.log ++ _; rw [r14]

/-- The state after a packet was put in the queue at `q`. -/
def afterQueue (s : Pub) (pid : Nat) (p : Payload) (q : List Nat) : Pub :=
  { s with pk := fun b => if b = s.nextAddr then some ⟨pid, 0, some .queued, 0, p⟩ else s.pk b,
           nextAddr := s.nextAddr + 1, queued := q, log := s.log ++ [.queue pid p] }

theorem queueWithPid_eq {s : Pub} {pid : Nat} {p : Payload} {q : List Nat}
    (h : insertSorted (fun b => if b = s.nextAddr then some ⟨pid, 0, none, 0, p⟩ else s.pk b)
      s.nextAddr pid s.queued = .ok q) : queueWithPid s pid p = .ok (afterQueue s pid p q) := by
  unfold queueWithPid
  simp only [setPk, h, ok_bind]
  show (.ok _ : M Pub) = _
  unfold afterQueue ev
  congr 2
  funext b
  simp only
  split <;> rfl

theorem sim_insert {s : Pub} {A : PSpec} (h : Rel s A) (hi : A.Inv) (pid : Nat) (p : Payload) :
    (A.nextPid ≤ pid → ∃ q, insertSorted (fun b => if b = s.nextAddr then some ⟨pid, 0, none, 0, p⟩ else s.pk b)
        s.nextAddr pid s.queued = .ok q ∧
        Rel (afterQueue s pid p q) { A with que := A.que ++ [(pid, p)], log := A.log ++ [.queue pid p] }) ∧
    (pid = 0 → ∃ q, insertSorted (fun b => if b = s.nextAddr then some ⟨pid, 0, none, 0, p⟩ else s.pk b)
        s.nextAddr pid s.queued = .ok q ∧
        Rel (afterQueue s pid p q) { A with ann := A.ann ++ [p], log := A.log ++ [.queue pid p] }) := by
  obtain ⟨Q, N, I, r1, r2, r3, r4, r5, r6, r7, r8, r9, r10, r11, r12, r13, r14⟩ := h
  have hfresh : ∀ a ∈ Q.map (·.1) ++ N.map (·.1) ++ I.map (·.1), a ≠ s.nextAddr := by
    intro a ha; have := r11 a ha; omega
  have hne : ∀ {β : Type} {l : List (Nat × β)} {e : Nat × β}, e ∈ l →
      (∀ x ∈ l.map (·.1), x ≠ s.nextAddr) → e.1 ≠ s.nextAddr := by
    intro β l e he hx; exact hx _ (List.mem_map_of_mem he)
  have hQ : ∀ a ∈ Q.map (·.1), a ≠ s.nextAddr := fun a ha => hfresh a (by grind)
  have hN : ∀ a ∈ N.map (·.1), a ≠ s.nextAddr := fun a ha => hfresh a (by grind)
  have hI : ∀ a ∈ I.map (·.1), a ≠ s.nextAddr := fun a ha => hfresh a (by grind)
  have hrange : ∀ e ∈ Q, 0 < e.2.1 ∧ e.2.1 < A.nextPid := fun e he => hi.range e.2.1 (by
    rw [r1]; simp only [List.map_map, List.mem_append, List.mem_map]; right; exact ⟨e, he, rfl⟩)
  have hnd : (s.nextAddr :: (Q.map (·.1) ++ N.map (·.1) ++ I.map (·.1))).Nodup :=
    List.nodup_cons.mpr ⟨fun hc => hfresh _ hc rfl, r10⟩
  constructor
  · intro hge
    refine ⟨s.nextAddr :: s.queued, ?_, ?_⟩
    · apply insertSorted_head
      intro x hx
      have hmem : x ∈ s.queued := List.mem_of_mem_head? hx
      rw [r4, List.mem_append, List.mem_reverse, List.mem_reverse] at hmem
      rcases hmem with hm | hm
      · obtain ⟨e, he, rfl⟩ := List.mem_map.mp hm
        refine ⟨_, by rw [if_neg (hQ _ hm)]; exact r7 e he, ?_⟩
        have := hrange e he
        simp only; omega
      · obtain ⟨e, he, rfl⟩ := List.mem_map.mp hm
        exact ⟨_, by rw [if_neg (hN _ hm)]; exact r8 e he, by simp⟩
    · refine ⟨Q ++ [(s.nextAddr, (pid, p))], N, I, ?_, r2, r3, ?_, r5, r6, ?_, ?_, ?_, ?_, ?_, r12, r13, ?_⟩
      · simp [r1]
      · show s.nextAddr :: s.queued = _; rw [r4]; simp
      · intro e he
        simp only [afterQueue]
        rcases List.mem_append.mp he with he | he
        · rw [if_neg (hne he hQ)]; exact r7 e he
        · simp only [List.mem_singleton] at he; subst he; simp
      · intro e he
        simp only [afterQueue]
        rw [if_neg (hne he hN)]; exact r8 e he
      · intro e he
        simp only [afterQueue]
        rw [if_neg (hne he hI)]; exact r9 e he
      · refine hnd.perm ?_
        simp only [List.map_append, List.map_cons, List.map_nil, List.append_assoc]
        exact List.perm_middle.symm
      · intro a ha
        simp only [afterQueue]
        have : a = s.nextAddr ∨ a ∈ Q.map (·.1) ++ N.map (·.1) ++ I.map (·.1) := by
          simp only [List.map_append, List.map_cons, List.map_nil, List.mem_append, List.mem_singleton] at ha ⊢
          grind
        rcases this with rfl | h'
        · omega
        · have := r11 a h'; omega
      · show s.log ++ _ = A.log ++ _; rw [r14]
  · intro h0
    subst h0
    refine ⟨(Q.map (·.1)).reverse ++ (s.nextAddr :: (N.map (·.1)).reverse), ?_, ?_⟩
    · rw [r4]
      refine insertSorted_skip _ _ ?_ _ ?_
      · intro x hx
        rw [List.mem_reverse] at hx
        obtain ⟨e, he, rfl⟩ := List.mem_map.mp hx
        exact ⟨_, by rw [if_neg (hQ _ hx)]; exact r7 e he, (hrange e he).1⟩
      · apply insertSorted_head
        intro x hx
        have hm := List.mem_of_mem_head? hx
        rw [List.mem_reverse] at hm
        obtain ⟨e, he, rfl⟩ := List.mem_map.mp hm
        exact ⟨_, by rw [if_neg (hN _ hm)]; exact r8 e he, by simp⟩
    · refine ⟨Q, N ++ [(s.nextAddr, p)], I, r1, ?_, r3, ?_, r5, r6, ?_, ?_, ?_, ?_, ?_, r12, r13, ?_⟩
      · simp [r2]
      · simp [afterQueue]
      · intro e he
        simp only [afterQueue]
        rw [if_neg (hne he hQ)]; exact r7 e he
      · intro e he
        simp only [afterQueue]
        rcases List.mem_append.mp he with he | he
        · rw [if_neg (hne he hN)]; exact r8 e he
        · simp only [List.mem_singleton] at he; subst he; simp
      · intro e he
        simp only [afterQueue]
        rw [if_neg (hne he hI)]; exact r9 e he
      · refine hnd.perm ?_
        simp only [List.map_append, List.map_cons, List.map_nil, List.append_assoc]
        rw [← List.append_assoc (Q.map _), ← List.append_assoc (Q.map _)]
        exact List.perm_middle.symm
      · intro a ha
        simp only [afterQueue]
        have : a = s.nextAddr ∨ a ∈ Q.map (·.1) ++ N.map (·.1) ++ I.map (·.1) := by
          simp only [List.map_append, List.map_cons, List.map_nil, List.mem_append, List.mem_singleton] at ha ⊢
          grind
        rcases this with rfl | h'
        · omega
        · have := r11 a h'; omega
      · show s.log ++ _ = A.log ++ _; rw [r14]

theorem sim_queue {s : Pub} {A : PSpec} (h : Rel s A) (hi : A.Inv) (hb : A.nextPid + 1 < U64) (p : Payload) :
    ∃ s', queuePacket s p = .ok (A.nextPid, s') ∧ Rel s' (A.step (.queue p)) := by
  obtain ⟨q, h1, h2⟩ := (sim_insert h hi A.nextPid p).1 (Nat.le_refl _)
  have hn : s.nextPid = A.nextPid := by obtain ⟨_, _, _, _, _, _, _, _, _, _, _, _, _, _, _, r13, _⟩ := h; exact r13
  have e := queueWithPid_eq (s := { s with nextPid := (s.nextPid + 1) % U64 }) (pid := A.nextPid) (p := p) (q := q) h1
  refine ⟨afterQueue { s with nextPid := (s.nextPid + 1) % U64 } A.nextPid p q, ?_, ?_⟩
  · unfold queuePacket
    simp only [hn] at e ⊢
    rw [e, ok_bind]; rfl
  · obtain ⟨Q, N, I, r1, r2, r3, r4, r5, r6, r7, r8, r9, r10, r11, r12, r13, r14⟩ := h2
    refine ⟨Q, N, I, r1, r2, r3, r4, r5, r6, r7, r8, r9, r10, r11, r12, ?_, r14⟩
    show (s.nextPid + 1) % U64 = A.nextPid + 1
    rw [hn]; exact Nat.mod_eq_of_lt hb

theorem sim_announce {s : Pub} {A : PSpec} (h : Rel s A) (hi : A.Inv) (p : Payload) :
    ∃ s', queueNoAck s p = .ok s' ∧ Rel s' (A.step (.announce p)) := by
  obtain ⟨q, h1, h2⟩ := (sim_insert h hi 0 p).2 rfl
  exact ⟨_, queueWithPid_eq h1, h2⟩

theorem addToSubs_spec {a pid : Nat} : ∀ (ks : List Nat) (s : Pub) (p0 : Pkt), ks.Nodup → s.pk a = some p0 →
    p0.pid = pid →
    (∀ k ∈ ks, ∀ x, (s.sinfl k).head? = some x → ∃ q, s.pk x = some q ∧ q.pid ≤ pid) →
    addToSubs s a pid ks = .ok { s with
      sinfl := fun j => if j ∈ ks then a :: s.sinfl j else s.sinfl j,
      pk := fun b => if b = a then some { p0 with refCount := p0.refCount + ks.length } else s.pk b } := by
  intro ks
  induction ks with
  | nil =>
    intro s p0 _ h1 _ _
    simp only [addToSubs, List.not_mem_nil, if_false, List.length_nil, Nat.add_zero]
    have : (fun b => if b = a then some p0 else s.pk b) = s.pk := by
      funext b; split
      · rename_i h; rw [h, h1]
      · rfl
    show Except.ok s = Except.ok { s with sinfl := s.sinfl, pk := fun b => if b = a then some p0 else s.pk b }
    rw [this]
  | cons k ks ih =>
    intro s p0 hnd h1 h2 h3
    rw [List.nodup_cons] at hnd
    have hins := insertSorted_head (a := a) (h3 k (by simp))
    simp only [addToSubs, hins, ok_bind, setInfl, deref, h1, setPk]
    rw [ih { s with
        sinfl := fun j => if j = k then a :: s.sinfl k else s.sinfl j,
        pk := fun b => if b = a then some { p0 with refCount := p0.refCount + 1 } else s.pk b }
        { p0 with refCount := p0.refCount + 1 } hnd.2 (by simp) h2 ?_]
    · simp only
      congr 2
      · funext b
        split
        · simp only [List.length_cons]; congr 2; omega
        · rfl
      · funext j
        by_cases hj : j = k
        · subst hj; simp [hnd.1]
        · simp [hj]
    · intro j hj x hx
      have hjk : j ≠ k := by rintro rfl; exact hnd.1 hj
      simp only [hjk, if_false] at hx
      obtain ⟨q, q1, q2⟩ := h3 j (by simp [hj]) x hx
      by_cases hxa : x = a
      · subst hxa
        exact ⟨{ p0 with refCount := p0.refCount + 1 }, by simp, by simp only; omega⟩
      · exact ⟨q, by simp only [hxa, if_false]; exact q1, q2⟩

theorem sim_send {s : Pub} {A : PSpec} (h : Rel s A) (hi : A.Inv) (ts : Int) :
    ∃ s', step s (.send ts) = .ok s' ∧ Rel s' (A.step (.send ts)) := by
  have hrel := h
  obtain ⟨Q, N, I, r1, r2, r3, r4, r5, r6, r7, r8, r9, r10, r11, r12, r13, r14⟩ := h
  cases N with
  | cons e N =>
    have hann : A.ann = e.2 :: N.map (·.2) := r2
    have hlast : nextQueued s = some e.1 := by
      unfold nextQueued; rw [r4]; simp
    have hpk := r8 e (by simp)
    have hnd := r10
    simp only [List.map_cons] at hnd
    have hnotin : e.1 ∉ Q.map (·.1) ∧ e.1 ∉ N.map (·.1) ∧ e.1 ∉ I.map (·.1) := by
      have hp : (e.1 :: (Q.map (·.1) ++ N.map (·.1) ++ I.map (·.1))).Nodup := by
        refine hnd.perm ?_
        rw [List.append_assoc, List.append_assoc]
        exact List.perm_middle
      rw [List.nodup_cons] at hp
      have h1 := hp.1
      simp only [List.mem_append] at h1
      exact ⟨fun hc => h1 (Or.inl (Or.inl hc)), fun hc => h1 (Or.inl (Or.inr hc)), fun hc => h1 (Or.inr hc)⟩
    have herase : s.queued.erase e.1 = (Q.map (·.1)).reverse ++ (N.map (·.1)).reverse := by
      rw [r4, List.map_cons, List.reverse_cons, ← List.append_assoc]
      rw [erase_mid (by simp only [List.mem_append, List.mem_reverse]; rintro (hc | hc)
                        · exact hnotin.1 hc
                        · exact hnotin.2.1 hc)]
      simp
    refine ⟨{ s with
      queued := (Q.map (·.1)).reverse ++ (N.map (·.1)).reverse,
      pk := fun b => if b = e.1 then some ⟨0, 0, none, ts, e.2⟩ else s.pk b,
      log := s.log ++ [.send 0 e.2 ts] }, ?_, ?_⟩
    · simp only [step, hlast, packetSent, deref, hpk, ok_bind, unlinkParent, setPk, ev, herase]
      rw [if_pos trivial]
      show (.ok _ : M Pub) = _
      congr 2
      funext b
      split <;> simp_all
    · have hst : A.step (.send ts) = { A with ann := N.map (·.2), log := A.log ++ [.send 0 e.2 ts] } := by
        simp only [PSpec.step, hann]
      rw [hst]
      have hne : ∀ {β : Type} {l : List (Nat × β)} {x : Nat × β}, x ∈ l → e.1 ∉ l.map (·.1) → x.1 ≠ e.1 := by
        intro β l x hx hn hc; exact hn (hc ▸ List.mem_map_of_mem hx)
      refine ⟨Q, N, I, r1, rfl, r3, rfl, r5, r6, ?_, ?_, ?_, ?_, ?_, r12, r13, ?_⟩
      · intro x hx; simp only; rw [if_neg (hne hx hnotin.1)]; exact r7 x hx
      · intro x hx; simp only; rw [if_neg (hne hx hnotin.2.1)]; exact r8 x (by simp [hx])
      · intro x hx; simp only; rw [if_neg (hne hx hnotin.2.2)]; exact r9 x hx
      · refine r10.sublist ?_
        refine List.Sublist.append_right (List.Sublist.append_left ?_ _) _
        exact List.sublist_cons_self _ _
      · intro a ha; exact r11 a (by simp only [List.map_cons, List.mem_append, List.mem_cons] at ha ⊢; grind)
      · show s.log ++ _ = A.log ++ _; rw [r14]
  | nil =>
    have hann : A.ann = [] := r2
    cases Q with
    | nil =>
      refine ⟨s, ?_, ?_⟩
      · have : nextQueued s = none := by unfold nextQueued; rw [r4]; rfl
        simp only [step, this]
      · have hq : A.que = [] := r1
        have : A.step (.send ts) = A := by simp only [PSpec.step, hann, hq]
        rw [this]; exact hrel
    | cons e Q =>
      obtain ⟨a, pid, p⟩ := e
      have hque : A.que = (pid, p) :: Q.map (·.2) := r1
      have hlast : nextQueued s = some a := by
        unfold nextQueued; rw [r4]; simp
      have hpk : s.pk a = some ⟨pid, 0, some .queued, 0, p⟩ := r7 (a, pid, p) (by simp)
      have hnd := r10
      simp only [List.map_cons, List.map_nil, List.append_nil, List.cons_append] at hnd
      have hnotin : a ∉ Q.map (·.1) ∧ a ∉ I.map (·.1) := by
        rw [List.nodup_cons, List.mem_append] at hnd
        exact ⟨fun hc => hnd.1 (Or.inl hc), fun hc => hnd.1 (Or.inr hc)⟩
      have herase : s.queued.erase a = (Q.map (·.1)).reverse := by
        rw [r4]
        simp only [List.map_cons, List.map_nil, List.reverse_nil, List.append_nil, List.reverse_cons]
        rw [erase_mid (by simpa using hnotin.1)]
        simp
      have hpid : ∀ r ∈ A.infl, r.pid < pid := by
        intro r hr
        have := (List.pairwise_append.mp hi.asc).2.2 r.pid (List.mem_map_of_mem hr) pid (by rw [hque]; simp)
        exact this
      have hpos : pid ≠ 0 := by
        have := hi.range pid (by rw [hque]; simp)
        omega
      have hpidI : ∀ x ∈ I, x.2.pid < pid := fun x hx => hpid x.2 (by rw [r3]; exact List.mem_map_of_mem hx)
      have hneI : ∀ x ∈ I, x.1 ≠ a := by
        intro x hx hc; exact hnotin.2 (hc ▸ List.mem_map_of_mem hx)
      -- heads of any of the in-flight lists are older
      have hhead : ∀ (pk' : Nat → Option Pkt), (∀ x ∈ I, pk' x.1 = s.pk x.1) → ∀ l : List (Nat × Sent), (∀ x ∈ l, x ∈ I) →
          ∀ x, ((l.map (·.1)).reverse).head? = some x → ∃ q, pk' x = some q ∧ q.pid ≤ pid := by
        intro pk' hpk' l hl x hx
        have hm := List.mem_of_mem_head? hx
        rw [List.mem_reverse] at hm
        obtain ⟨y, hy, rfl⟩ := List.mem_map.mp hm
        refine ⟨_, by rw [hpk' y (hl y hy)]; exact r9 y (hl y hy), ?_⟩
        have := hpidI y (hl y hy)
        simp only; omega
      have hins : insertSorted
          (fun b => if b = a then some ⟨pid, 0, none, ts, p⟩ else if b = a then some ⟨pid, 0, some .queued, ts, p⟩ else s.pk b)
          a pid s.inflight = .ok (a :: s.inflight) := by
        apply insertSorted_head
        rw [r5]
        refine hhead _ ?_ I (fun x hx => hx)
        intro x hx
        rw [if_neg (hneI x hx), if_neg (hneI x hx)]
      have hpk2 : ∀ x ∈ I, (fun b => if b = a then some (⟨pid, 0, some .inflight, ts, p⟩ : Pkt) else
          if b = a then some ⟨pid, 0, none, ts, p⟩ else if b = a then some ⟨pid, 0, some .queued, ts, p⟩ else s.pk b)
          x.1 = s.pk x.1 := by
        intro x hx
        simp only [if_neg (hneI x hx)]
      let s1 : Pub := { s with
        pk := fun b => if b = a then some ⟨pid, 0, some .inflight, ts, p⟩ else
          if b = a then some ⟨pid, 0, none, ts, p⟩ else if b = a then some ⟨pid, 0, some .queued, ts, p⟩ else s.pk b,
        queued := (Q.map (·.1)).reverse, inflight := a :: s.inflight, log := s.log ++ [.send pid p ts] }
      have hadd := addToSubs_spec (a := a) (pid := pid) s.subs s1 ⟨pid, 0, some .inflight, ts, p⟩
        (by rw [r12]; exact hi.subsND) (by simp [s1]) rfl (by
          intro k hk x hx
          have hx : (s.sinfl k).head? = some x := hx
          rw [r6 k] at hx
          exact hhead _ hpk2 _ (fun y hy => (List.mem_filter.mp hy).1) x hx)
      refine ⟨{ s1 with
          sinfl := fun j => if j ∈ s.subs then a :: s1.sinfl j else s1.sinfl j,
          pk := fun b => if b = a then some { (⟨pid, 0, some .inflight, ts, p⟩ : Pkt) with refCount := 0 + s.subs.length } else s1.pk b }, ?_, ?_⟩
      · rw [← hadd]
        simp only [step, hlast, packetSent, deref, hpk, ok_bind, unlinkParent, setPk, ev, herase]
        rw [if_neg hpos]
        simp only [hins, ok_bind]
        rfl
      · have hst : A.step (.send ts) = { A with que := Q.map (·.2), infl := A.infl ++ [⟨pid, p, ts, A.subs⟩],
                                                log := A.log ++ [.send pid p ts] } := by
          simp only [PSpec.step, hann, hque]
        rw [hst]
        have hneQ : ∀ x ∈ Q, x.1 ≠ a := by
          intro x hx hc; exact hnotin.1 (hc ▸ List.mem_map_of_mem hx)
        refine ⟨Q, [], I ++ [(a, ⟨pid, p, ts, A.subs⟩)], rfl, hann, ?_, ?_, ?_, ?_, ?_, ?_, ?_, ?_, ?_, r12, r13, ?_⟩
        · simp [r3]
        · simp [s1]
        · simp [s1, r5]
        · intro k
          simp only [s1, r6 k, r12, List.filter_append, List.map_append, List.reverse_append]
          by_cases hk : k ∈ A.subs
          · simp [hk]
          · simp [hk]
        · intro x hx; simp only [s1, if_neg (hneQ x hx)]; exact r7 x (by simp [hx])
        · intro x hx; simp at hx
        · intro x hx
          rcases List.mem_append.mp hx with hx | hx
          · simp only [s1, if_neg (hneI x hx)]; exact r9 x hx
          · simp only [List.mem_singleton] at hx; subst hx; simp [r12]
        · refine hnd.perm ?_
          simp only [List.map_append, List.map_cons, List.map_nil, List.append_nil]
          rw [← List.append_assoc]
          exact (List.perm_append_singleton _ _).symm
        · intro b hb
          simp only [s1]
          refine r11 b ?_
          simp only [List.map_cons, List.map_nil, List.append_nil, List.map_append, List.mem_append, List.mem_cons,
            List.cons_append] at hb ⊢
          grind
        · show s.log ++ _ = A.log ++ _; rw [r14]

theorem sim_ackCore {s : Pub} {A : PSpec} (h : Rel s A) (hi : A.Inv) (k pid : Nat) :
    ∃ s', ackCore s k pid = .ok s' ∧ Rel s' (A.release k (fun q => q == pid)) := by
  have hrel := h
  obtain ⟨Q, N, I, r1, r2, r3, r4, r5, r6, r7, r8, r9, r10, r11, r12, r13, r14⟩ := h
  have hfind := findPid_spec (pk := s.pk) (pid := pid) Sent.pid (I.filter fun e => decide (k ∈ e.2.owed)) (by
    intro e he
    exact ⟨_, r9 e (List.mem_filter.mp he).1, rfl⟩)
  have hrev : (s.sinfl k).reverse = (I.filter fun e => decide (k ∈ e.2.owed)).map (·.1) := by
    rw [r6 k, List.reverse_reverse]
  cases hf : (I.filter fun e => decide (k ∈ e.2.owed)).find? (fun e => decide (e.2.pid = pid)) with
  | none =>
    rw [hf] at hfind
    refine ⟨s, ?_, ?_⟩
    · unfold ackCore
      rw [hrev, hfind]; rfl
    · have hno : ∀ r ∈ A.infl, ¬ ((r.pid == pid) = true ∧ k ∈ r.owed) := by
        intro r hr ⟨h1, h2⟩
        have h1 : r.pid = pid := by simpa using h1
        rw [r3] at hr
        obtain ⟨e, he, rfl⟩ := List.mem_map.mp hr
        have := List.find?_eq_none.mp hf e (List.mem_filter.mpr ⟨he, by simpa using h2⟩)
        simp at this; exact this h1
      rw [PSpec.release_none (c := fun q => q == pid) hno]; exact hrel
  | some e =>
    rw [hf] at hfind
    have hemem := List.mem_of_find?_eq_some hf
    have hepid : e.2.pid = pid := by have := List.find?_some hf; simpa using this
    rw [List.mem_filter] at hemem
    obtain ⟨heI, hek⟩ := hemem
    have hek : k ∈ e.2.owed := by simpa using hek
    obtain ⟨I1, I2, rfl⟩ := List.append_of_mem heI
    have hpk := r9 e heI
    have hndI : ((I1 ++ e :: I2).map (·.1)).Nodup := (List.nodup_append.mp r10).2.1
    rw [List.map_append, List.map_cons] at hndI
    have hn1 : e.1 ∉ I1.map (·.1) := by
      intro hc; exact (List.nodup_append.mp hndI).2.2 _ hc _ (by simp) rfl
    have hn2 : e.1 ∉ I2.map (·.1) := (List.nodup_cons.mp (List.nodup_append.mp hndI).2.1).1
    have hnQN : e.1 ∉ Q.map (·.1) ∧ e.1 ∉ N.map (·.1) := by
      have := (List.nodup_append.mp r10).2.2
      constructor
      · intro hc; exact this e.1 (by simp [-List.mem_map, hc]) e.1 (by simp) rfl
      · intro hc; exact this e.1 (by simp [-List.mem_map, hc]) e.1 (by simp) rfl
    have hasc := PSpec.infl_pids_asc hi
    rw [r3] at hasc
    simp only [List.map_append, List.map_cons, List.map_map] at hasc
    rw [List.pairwise_append, List.pairwise_cons] at hasc
    have ho1 : ∀ r ∈ I1.map (·.2), ¬ ((r.pid == pid) = true ∧ k ∈ r.owed) := by
      intro r hr ⟨hc, _⟩
      have hc : r.pid = pid := by simpa using hc
      obtain ⟨x, hx, rfl⟩ := List.mem_map.mp hr
      have := hasc.2.2 x.2.pid (List.mem_map.mpr ⟨x, hx, rfl⟩) e.2.pid (by simp)
      omega
    have ho2 : ∀ r ∈ I2.map (·.2), ¬ ((r.pid == pid) = true ∧ k ∈ r.owed) := by
      intro r hr ⟨hc, _⟩
      have hc : r.pid = pid := by simpa using hc
      obtain ⟨x, hx, rfl⟩ := List.mem_map.mp hr
      have := hasc.2.1.1 x.2.pid (List.mem_map.mpr ⟨x, hx, rfl⟩)
      omega
    obtain ⟨a1, b1⟩ := PSpec.filterMap_relax_id (c := fun q => q == pid) ho1
    obtain ⟨a2, b2⟩ := PSpec.filterMap_relax_id (c := fun q => q == pid) ho2
    have hlen : e.2.owed.length ≠ 0 := by
      intro hc; rw [List.length_eq_zero_iff] at hc; rw [hc] at hek; simp at hek
    have hlenE : (e.2.owed.erase k).length = e.2.owed.length - 1 := List.length_erase_of_mem hek
    have howedND : e.2.owed.Nodup := hi.owedND e.2 (by rw [r3]; exact List.mem_map_of_mem heI)
    have hsinfl : (s.sinfl k).erase e.1 =
        (((I1 ++ I2).filter fun e => decide (k ∈ e.2.owed)).map (·.1)).reverse := by
      rw [r6 k, List.filter_append, List.filter_cons_of_pos (by simpa using hek), List.map_append, List.map_cons]
      rw [erase_reverse_mid (by
        intro hc
        obtain ⟨x, hx, hxe⟩ := List.mem_map.mp hc
        exact hn2 (hxe ▸ List.mem_map_of_mem (List.mem_filter.mp hx).1))]
      rw [List.filter_append, List.map_append]
    have hne1 : ∀ x ∈ I1, x.1 ≠ e.1 := fun x hx hc => hn1 (hc ▸ List.mem_map_of_mem hx)
    have hne2 : ∀ x ∈ I2, x.1 ≠ e.1 := fun x hx hc => hn2 (hc ▸ List.mem_map_of_mem hx)
    have hneQ : ∀ x ∈ Q, x.1 ≠ e.1 := fun x hx hc => hnQN.1 (hc ▸ List.mem_map_of_mem hx)
    have hneN : ∀ x ∈ N, x.1 ≠ e.1 := fun x hx hc => hnQN.2 (hc ▸ List.mem_map_of_mem hx)
    by_cases hE : e.2.owed.erase k = []
    · have hlen1 : e.2.owed.length = 1 := by rw [hE] at hlenE; simp at hlenE; omega
      have hrx : PSpec.relax k (fun q => q == pid) e.2 = none := by
        unfold PSpec.relax; rw [if_pos ⟨by simpa using hepid, hek⟩, if_pos hE]
      have hA : A.release k (fun q => q == pid) = { A with infl := (I1 ++ I2).map (·.2), log := A.log ++ [.free e.2.pid e.2.payload] } := by
        unfold PSpec.release
        rw [r3]
        unfold PSpec.freed at b1 b2 ⊢
        simp only [List.map_append, List.map_cons, List.filterMap_append]
        rw [List.filterMap_cons_none hrx, a1, a2, List.filterMap_cons_some (by rw [hrx]; rfl), b1, b2]
        rfl
      rw [hA]
      refine ⟨{ s with
        sinfl := fun j => if j = k then (s.sinfl k).erase e.1 else s.sinfl j,
        inflight := s.inflight.erase e.1,
        pk := fun b => if b = e.1 then none else s.pk b,
        log := s.log ++ [.free e.2.pid e.2.payload] }, ?_, ?_⟩
      · unfold ackCore
        rw [hrev, hfind]
        simp only [Option.map_some, ok_bind, deref, hpk]
        rw [hlen1]
        simp only [if_neg (show ¬ ((1:Nat) = 0) by omega), Nat.sub_self, setPk, setInfl, unlinkParent, ok_bind, ev, if_true]
        show (.ok _ : M Pub) = _
        congr 2
        funext b
        split <;> simp_all
      · refine ⟨Q, N, I1 ++ I2, r1, r2, rfl, r4, ?_, ?_, ?_, ?_, ?_, ?_, ?_, r12, r13, ?_⟩
        · show s.inflight.erase e.1 = _
          rw [r5, List.map_append, List.map_cons, erase_reverse_mid hn2, List.map_append]
        · intro j
          simp only
          by_cases hj : j = k
          · subst hj; rw [if_pos rfl, hsinfl]
          · rw [if_neg hj, r6 j]
            have : j ∉ e.2.owed := by
              intro hc
              have : j ∈ e.2.owed.erase k := (List.mem_erase_of_ne hj).mpr hc
              rw [hE] at this; simp at this
            rw [List.filter_append, List.filter_cons_of_neg (by simpa using this), List.filter_append]
        · intro x hx; simp only [if_neg (hneQ x hx)]; exact r7 x hx
        · intro x hx; simp only [if_neg (hneN x hx)]; exact r8 x hx
        · intro x hx
          rcases List.mem_append.mp hx with hx | hx
          · simp only [if_neg (hne1 x hx)]; exact r9 x (by simp [hx])
          · simp only [if_neg (hne2 x hx)]; exact r9 x (by simp [hx])
        · refine r10.sublist (List.Sublist.append_left ?_ _)
          rw [List.map_append, List.map_append, List.map_cons]
          exact List.Sublist.append_left (List.sublist_cons_self _ _) _
        · intro b hb
          refine r11 b ?_
          simp only [List.map_append, List.map_cons, List.mem_append, List.mem_cons] at hb ⊢
          grind
        · show s.log ++ _ = A.log ++ _; rw [r14]
    · have hlen1 : e.2.owed.length - 1 ≠ 0 := by
        intro hc; rw [← hlenE, List.length_eq_zero_iff] at hc; exact hE hc
      have hrx : PSpec.relax k (fun q => q == pid) e.2 = some { e.2 with owed := e.2.owed.erase k } := by
        unfold PSpec.relax; rw [if_pos ⟨by simpa using hepid, hek⟩, if_neg hE]
      have hA : A.release k (fun q => q == pid) = { A with
          infl := (I1 ++ (e.1, { e.2 with owed := e.2.owed.erase k }) :: I2).map (·.2), log := A.log } := by
        unfold PSpec.release
        rw [r3]
        unfold PSpec.freed at b1 b2 ⊢
        simp only [List.map_append, List.map_cons, List.filterMap_append]
        rw [List.filterMap_cons_some hrx, a1, a2, List.filterMap_cons_none (by rw [hrx]; rfl), b1, b2]
        simp
      rw [hA]
      refine ⟨{ s with
        sinfl := fun j => if j = k then (s.sinfl k).erase e.1 else s.sinfl j,
        pk := fun b => if b = e.1 then some ⟨e.2.pid, e.2.owed.length - 1, some .inflight, e.2.ts, e.2.payload⟩ else s.pk b }, ?_, ?_⟩
      · unfold ackCore
        rw [hrev, hfind]
        simp only [Option.map_some, ok_bind, deref, hpk]
        rw [if_neg hlen]
        simp only [setPk, setInfl, unlinkParent, ok_bind, ev]
        rw [if_neg hlen1]
        rfl
      · refine ⟨Q, N, I1 ++ (e.1, { e.2 with owed := e.2.owed.erase k }) :: I2, r1, r2, rfl, r4, ?_, ?_, ?_, ?_, ?_, ?_, ?_, r12, r13, r14⟩
        · show s.inflight = _
          rw [r5]; simp
        · intro j
          simp only
          by_cases hj : j = k
          · subst hj
            rw [if_pos rfl, hsinfl]
            rw [List.filter_append, List.filter_append,
              List.filter_cons_of_neg (by simpa using fun hc => howedND.not_mem_erase hc)]
          · rw [if_neg hj, r6 j]
            by_cases hjo : j ∈ e.2.owed
            · rw [List.filter_append, List.filter_append, List.filter_cons_of_pos (by simpa using hjo),
                List.filter_cons_of_pos (by simpa using (List.mem_erase_of_ne hj).mpr hjo)]
              simp
            · rw [List.filter_append, List.filter_append, List.filter_cons_of_neg (by simpa using hjo),
                List.filter_cons_of_neg (by simpa using fun hc => hjo ((List.mem_erase_of_ne hj).mp hc))]
        · intro x hx; simp only [if_neg (hneQ x hx)]; exact r7 x hx
        · intro x hx; simp only [if_neg (hneN x hx)]; exact r8 x hx
        · intro x hx
          rcases List.mem_append.mp hx with hx | hx
          · simp only [if_neg (hne1 x hx)]; exact r9 x (by simp [hx])
          · rcases List.mem_cons.mp hx with rfl | hx
            · simp [hlenE]
            · simp only [if_neg (hne2 x hx)]; exact r9 x (by simp [hx])
        · simpa using r10
        · simpa using r11

theorem sim_log {s : Pub} {A : PSpec} (h : Rel s A) (e : PEv) : Rel (ev s e) { A with log := A.log ++ [e] } := by
  obtain ⟨Q, N, I, r1, r2, r3, r4, r5, r6, r7, r8, r9, r10, r11, r12, r13, r14⟩ := h
  refine ⟨Q, N, I, r1, r2, r3, r4, r5, r6, r7, r8, r9, r10, r11, r12, r13, ?_⟩
  show s.log ++ _ = A.log ++ _; rw [r14]

/-- The list of what a subscriber owes, in the code and in the specification. -/
theorem Rel_sinfl {s : Pub} {A : PSpec} (h : Rel s A) (k : Nat) :
    ∃ l : List (Nat × Sent), s.sinfl k = (l.map (·.1)).reverse ∧ A.owes k = l.map (·.2) ∧
      (∀ e ∈ l, s.pk e.1 = some ⟨e.2.pid, e.2.owed.length, some .inflight, e.2.ts, e.2.payload⟩) := by
  obtain ⟨Q, N, I, r1, r2, r3, r4, r5, r6, r7, r8, r9, r10, r11, r12, r13, r14⟩ := h
  refine ⟨I.filter fun e => decide (k ∈ e.2.owed), r6 k, ?_, fun e he => r9 e (List.mem_filter.mp he).1⟩
  unfold PSpec.owes
  rw [r3, List.filter_map]; rfl

theorem sim_resetLoop (k : Nat) : ∀ (n : Nat) (s : Pub) (A : PSpec), Rel s A → A.Inv → (A.owes k).length = n →
    ∃ s', resetLoop s k n = .ok s' ∧ Rel s' (A.release k (fun _ => true)) := by
  intro n
  induction n with
  | zero =>
    intro s A h hi hn
    obtain ⟨l, l1, l2, l3⟩ := Rel_sinfl h k
    have ho : A.owes k = [] := List.length_eq_zero_iff.mp hn
    have hl : l = [] := by rw [ho] at l2; exact List.map_eq_nil_iff.mp l2.symm
    subst hl
    refine ⟨s, ?_, ?_⟩
    · simp only [resetLoop, l1]; rfl
    · rw [PSpec.release_none]
      · exact h
      · intro r hr ⟨_, hc⟩
        have : r ∈ A.owes k := List.mem_filter.mpr ⟨hr, by simpa using hc⟩
        rw [ho] at this; simp at this
  | succ n ih =>
    intro s A h hi hn
    obtain ⟨l, l1, l2, l3⟩ := Rel_sinfl h k
    cases l with
    | nil => rw [l2] at hn; simp at hn
    | cons e l =>
      have ho : A.owes k = e.2 :: l.map (·.2) := l2
      obtain ⟨s1, g1, g2⟩ := sim_ackCore h hi k e.2.pid
      have hown := PSpec.owes_ack_head hi ho
      obtain ⟨s2, g3, g4⟩ := ih s1 _ g2 (PSpec.Inv_release hi k _) (by
        rw [hown]; rw [ho] at hn; simpa using hn)
      refine ⟨s2, ?_, ?_⟩
      · have hlast : (s.sinfl k).getLast? = some e.1 := by rw [l1]; simp
        simp only [resetLoop, hlast, deref, l3 e (by simp), ok_bind, g1]
        exact g3
      · rw [PSpec.release_all_head hi ho]
        exact g4

theorem sim_close {s : Pub} {A : PSpec} (h : Rel s A) (hi : A.Inv) {k : Nat} (hk : k ∈ A.subs) :
    ∃ s', resetSubscriber s k = .ok s' ∧ Rel s' (A.step (.close k)) := by
  have h0 := sim_log h (.close k)
  have hi0 := PSpec.Inv_log hi (A.log ++ [.close k])
  have hlen : (A.owes k).length = (s.sinfl k).length := by
    obtain ⟨l, l1, l2, _⟩ := Rel_sinfl h k
    rw [l1, l2]; simp
  obtain ⟨s1, g1, g2⟩ := sim_resetLoop k (s.sinfl k).length _ _ h0 hi0 (by
    rw [PSpec.owes_log]; exact hlen)
  have hsubs : s1.subs = A.subs := by
    obtain ⟨_, _, _, _, _, _, _, _, _, _, _, _, _, _, r12, _, _⟩ := g2; exact r12
  refine ⟨{ s1 with subs := s1.subs.erase k }, ?_, ?_⟩
  · unfold resetSubscriber
    rw [g1, ok_bind]
    rw [if_pos (by rw [hsubs]; exact hk)]; rfl
  · obtain ⟨Q, N, I, r1, r2, r3, r4, r5, r6, r7, r8, r9, r10, r11, r12, r13, r14⟩ := g2
    refine ⟨Q, N, I, r1, r2, r3, r4, r5, r6, r7, r8, r9, r10, r11, ?_, r13, r14⟩
    show s1.subs.erase k = A.subs.erase k
    rw [hsubs]

/-- One step of pub.c is one step of the specification; nothing faults. -/
theorem sim_step {s : Pub} {A : PSpec} (h : Rel s A) (hi : A.Inv) {op : POp} (ha : A.allowed op)
    (hb : A.nextPid + (queueArgs [op]).length < U64) : ∃ s', step s op = .ok s' ∧ Rel s' (A.step op) := by
  cases op with
  | connect k => exact ⟨_, rfl, sim_connect h hi ha⟩
  | close k => exact sim_close h hi ha
  | queue p =>
    obtain ⟨s', h1, h2⟩ := sim_queue h hi hb p
    exact ⟨s', by simp only [step, h1, ok_bind]; rfl, h2⟩
  | announce p => exact sim_announce h hi p
  | send ts => exact sim_send h hi ts
  | ack k pid => exact sim_ackCore (sim_log h (.ack k pid)) (PSpec.Inv_log hi _) k pid

theorem nextPid_step (A : PSpec) (op : POp) : (A.step op).nextPid = A.nextPid + (queueArgs [op]).length := by
  cases op with
  | send ts => simp only [PSpec.step]; split <;> simp [queueArgs]
  | _ => simp [PSpec.step, PSpec.release, queueArgs]

theorem queueArgs_cons (op : POp) (ops : List POp) : queueArgs (op :: ops) = queueArgs [op] ++ queueArgs ops := by
  unfold queueArgs; rw [← List.filterMap_append]; rfl

theorem queueArgs_append (xs ys : List POp) : queueArgs (xs ++ ys) = queueArgs xs ++ queueArgs ys := by
  unfold queueArgs; rw [List.filterMap_append]

theorem sim_run : ∀ (ops : List POp) {s : Pub} {A : PSpec}, Rel s A → A.Inv → A.allowedAll ops →
    A.nextPid + (queueArgs ops).length < U64 → ∃ s', run s ops = .ok s' ∧ Rel s' (A.run ops) := by
  intro ops
  induction ops with
  | nil => intro s A h _ _ _; exact ⟨s, rfl, h⟩
  | cons op ops ih =>
    intro s A h hi ha hb
    rw [queueArgs_cons, List.length_append] at hb
    obtain ⟨s1, g1, g2⟩ := sim_step h hi ha.1 (by omega)
    obtain ⟨s2, g3, g4⟩ := ih g2 (PSpec.Inv_step hi ha.1) ha.2 (by rw [nextPid_step]; omega)
    exact ⟨s2, by simp only [run, g1, ok_bind]; exact g3, g4⟩

end Pub
end Rmc
