import Verif.PubSpec

set_option linter.unusedSimpArgs false
set_option linter.unusedVariables false

namespace Rmc
namespace PSpec

/-- What holds of the abstract publisher on every history. -/
structure Inv (A : PSpec) : Prop where
  subsND : A.subs.Nodup
  owedND : ∀ r ∈ A.infl, r.owed.Nodup
  owedSub : ∀ r ∈ A.infl, ∀ k ∈ r.owed, k ∈ A.subs
  asc : (A.infl.map (·.pid) ++ A.que.map (·.1)).Pairwise (· < ·)
  range : ∀ p ∈ A.infl.map (·.pid) ++ A.que.map (·.1), 0 < p ∧ p < A.nextPid
  pos : 0 < A.nextPid

theorem Inv_init : Inv init :=
  ⟨List.nodup_nil, by simp [init], by simp [init], by simp [init], by simp [init], by decide⟩

theorem relax_pid {k : Nat} {c : Nat → Bool} {r r' : Sent} (h : relax k c r = some r') :
    r'.pid = r.pid ∧ r'.payload = r.payload ∧ r'.ts = r.ts ∧ (∀ j ∈ r'.owed, j ∈ r.owed) ∧
    (r.owed.Nodup → r'.owed.Nodup) := by
  unfold relax at h
  split at h
  · split at h
    · cases h
    · cases h
      exact ⟨rfl, rfl, rfl, fun j hj => List.mem_of_mem_erase hj, fun h => h.erase k⟩
  · cases h; exact ⟨rfl, rfl, rfl, fun j hj => hj, fun h => h⟩

theorem filterMap_relax_sublist (k : Nat) (c : Nat → Bool) : ∀ l : List Sent,
    ((l.filterMap (relax k c)).map (·.pid)).Sublist (l.map (·.pid)) := by
  intro l
  induction l with
  | nil => simp
  | cons r l ih =>
    cases h : relax k c r with
    | none => rw [List.filterMap_cons_none h, List.map_cons]; exact ih.cons _
    | some r' =>
      rw [List.filterMap_cons_some h, List.map_cons, List.map_cons, (relax_pid h).1]
      exact ih.cons_cons _

theorem relax_other {k : Nat} {c : Nat → Bool} {r : Sent} (h : ¬ (c r.pid ∧ k ∈ r.owed)) : relax k c r = some r := by
  unfold relax; rw [if_neg h]

theorem filterMap_relax_id {k : Nat} {c : Nat → Bool} : ∀ {l : List Sent}, (∀ r ∈ l, ¬ (c r.pid ∧ k ∈ r.owed)) →
    l.filterMap (relax k c) = l ∧ freed k c l = [] := by
  intro l
  induction l with
  | nil => intro _; exact ⟨rfl, rfl⟩
  | cons r l ih =>
    intro h
    have h1 := relax_other (h r (by simp))
    obtain ⟨a, b⟩ := ih (fun x hx => h x (by simp [hx]))
    refine ⟨by rw [List.filterMap_cons_some h1, a], ?_⟩
    unfold freed at b ⊢
    rw [List.filterMap_cons_none (by simp [h1]), b]

theorem Inv_release {A : PSpec} (h : Inv A) (k : Nat) (c : Nat → Bool) : Inv (release A k c) := by
  obtain ⟨h1, h2, h3, h4, h5, h6⟩ := h
  refine ⟨h1, ?_, ?_, ?_, ?_, h6⟩
  · intro r hr
    simp only [release, List.mem_filterMap] at hr
    obtain ⟨q, hq, he⟩ := hr
    exact (relax_pid he).2.2.2.2 (h2 q hq)
  · intro r hr j hj
    simp only [release, List.mem_filterMap] at hr
    obtain ⟨q, hq, he⟩ := hr
    exact h3 q hq j ((relax_pid he).2.2.2.1 j hj)
  · exact h4.sublist ((filterMap_relax_sublist k c A.infl).append_right _)
  · intro p hp
    exact h5 p (((filterMap_relax_sublist k c A.infl).append_right _).subset hp)

theorem Inv_log {A : PSpec} (h : Inv A) (l : List PEv) : Inv { A with log := l } :=
  ⟨h.1, h.2, h.3, h.4, h.5, h.6⟩

/-- Acknowledging removes exactly that packet from what `k` owes. -/
theorem owes_filterMap (k : Nat) (c : Nat → Bool) : ∀ l : List Sent, (∀ r ∈ l, r.owed.Nodup) →
    (l.filterMap (relax k c)).filter (fun r => decide (k ∈ r.owed)) =
    (l.filter fun r => decide (k ∈ r.owed)).filter fun r => !c r.pid := by
  intro l
  induction l with
  | nil => intro _; rfl
  | cons r l ih =>
    intro h
    have ih := ih (fun x hx => h x (by simp [hx]))
    by_cases hk : k ∈ r.owed
    · by_cases hp : c r.pid
      · have hr : relax k c r = if r.owed.erase k = [] then none else some { r with owed := r.owed.erase k } := by
          unfold relax; rw [if_pos ⟨hp, hk⟩]
        have hne : k ∉ r.owed.erase k := fun hc => (h r (by simp)).not_mem_erase hc
        by_cases he : r.owed.erase k = []
        · rw [if_pos he] at hr
          rw [List.filterMap_cons_none hr, ih]
          simp [hk, hp]
        · rw [if_neg he] at hr
          rw [List.filterMap_cons_some hr, List.filter_cons_of_neg (by simpa using hne), ih]
          simp [hk, hp]
      · rw [List.filterMap_cons_some (relax_other (by simp [hp]))]
        rw [List.filter_cons_of_pos (by simpa using hk), List.filter_cons_of_pos (by simpa using hk),
          List.filter_cons_of_pos (by simpa using hp), ih]
    · rw [List.filterMap_cons_some (relax_other (by simp [hk]))]
      rw [List.filter_cons_of_neg (by simpa using hk), List.filter_cons_of_neg (by simpa using hk), ih]

/-- What another subscriber owes is untouched by an acknowledgement. -/
theorem owes_other {k j : Nat} (hjk : j ≠ k) (c : Nat → Bool) : ∀ l : List Sent,
    ((l.filterMap (relax k c)).filter (fun r => decide (j ∈ r.owed))).map (fun r => (r.pid, r.payload, r.ts)) =
    (l.filter fun r => decide (j ∈ r.owed)).map (fun r => (r.pid, r.payload, r.ts)) := by
  intro l
  induction l with
  | nil => rfl
  | cons r l ih =>
    by_cases hk : c r.pid ∧ k ∈ r.owed
    · have hr : relax k c r = if r.owed.erase k = [] then none else some { r with owed := r.owed.erase k } := by
        unfold relax; rw [if_pos hk]
      have hmem : j ∈ r.owed.erase k ↔ j ∈ r.owed := List.mem_erase_of_ne hjk
      by_cases he : r.owed.erase k = []
      · rw [if_pos he] at hr
        have : j ∉ r.owed := by rw [← hmem, he]; simp
        rw [List.filterMap_cons_none hr, ih, List.filter_cons_of_neg (by simpa using this)]
      · rw [if_neg he] at hr
        rw [List.filterMap_cons_some hr]
        by_cases hj : j ∈ r.owed
        · rw [List.filter_cons_of_pos (by simpa [hmem] using hj), List.filter_cons_of_pos (by simpa using hj),
            List.map_cons, List.map_cons, ih]
        · rw [List.filter_cons_of_neg (by simpa [hmem] using hj), List.filter_cons_of_neg (by simpa using hj), ih]
    · rw [List.filterMap_cons_some (relax_other hk)]
      by_cases hj : j ∈ r.owed
      · rw [List.filter_cons_of_pos (by simpa using hj), List.filter_cons_of_pos (by simpa using hj),
          List.map_cons, List.map_cons, ih]
      · rw [List.filter_cons_of_neg (by simpa using hj), List.filter_cons_of_neg (by simpa using hj), ih]

theorem infl_pids_asc {A : PSpec} (h : Inv A) : (A.infl.map (·.pid)).Pairwise (· < ·) :=
  (List.pairwise_append.mp h.asc).1

theorem owes_asc {A : PSpec} (h : Inv A) (k : Nat) : ((owes A k).map (·.pid)).Pairwise (· < ·) :=
  (infl_pids_asc h).sublist (List.filter_sublist.map _)

/-- A subscriber that is done with everything owes nothing. -/
theorem owes_release_all {A : PSpec} (h : Inv A) (k : Nat) : owes (release A k (fun _ => true)) k = [] := by
  unfold owes
  simp only [release]
  rw [owes_filterMap k _ A.infl h.owedND]
  simp

/-- After acknowledging the oldest packet owed, the others remain. -/
theorem owes_ack_head {A : PSpec} (h : Inv A) {k : Nat} {r : Sent} {rs : List Sent} (ho : owes A k = r :: rs) :
    owes (release A k (fun q => q == r.pid)) k = rs := by
  have h1 := owes_filterMap k (fun q => q == r.pid) A.infl h.owedND
  have h2 := owes_asc h k
  unfold owes at ho h2 ⊢
  simp only [release]
  rw [h1, ho, List.filter_cons_of_neg (by simp)]
  rw [ho, List.map_cons, List.pairwise_cons] at h2
  rw [List.filter_eq_self]
  intro x hx
  have := h2.1 x.pid (List.mem_map_of_mem hx)
  simp; omega

/-- Being done with everything at once, or with the packets owed one by one, oldest first, is the same. -/
theorem release_all_head {A : PSpec} (h : Inv A) {k : Nat} {r : Sent} {rs : List Sent} (ho : owes A k = r :: rs) :
    release A k (fun _ => true) = release (release A k (fun q => q == r.pid)) k (fun _ => true) := by
  have hasc := infl_pids_asc h
  have hnd := h.owedND
  unfold owes at ho
  obtain ⟨I1, I2, e1, e2, e3⟩ : ∃ I1 I2, A.infl = I1 ++ r :: I2 ∧ (∀ x ∈ I1, k ∉ x.owed) ∧ k ∈ r.owed := by
    have : ∀ l : List Sent, (l.filter fun r => decide (k ∈ r.owed)) = r :: rs →
        ∃ I1 I2, l = I1 ++ r :: I2 ∧ (∀ x ∈ I1, k ∉ x.owed) ∧ k ∈ r.owed := by
      intro l
      induction l with
      | nil => intro h; simp at h
      | cons x l ih =>
        intro h
        by_cases hk : k ∈ x.owed
        · rw [List.filter_cons_of_pos (by simpa using hk)] at h
          cases h
          exact ⟨[], l, rfl, by simp, hk⟩
        · rw [List.filter_cons_of_neg (by simpa using hk)] at h
          obtain ⟨a, b, c1, c2, c3⟩ := ih h
          refine ⟨x :: a, b, by rw [c1]; rfl, ?_, c3⟩
          intro y hy
          rcases List.mem_cons.mp hy with rfl | hy
          · exact hk
          · exact c2 y hy
    exact this _ ho
  rw [e1, List.map_append, List.map_cons, List.pairwise_append, List.pairwise_cons] at hasc
  have hI2 : ∀ x ∈ I2, ¬ ((x.pid == r.pid) = true ∧ k ∈ x.owed) := by
    intro x hx ⟨hc, _⟩
    have := hasc.2.1.1 x.pid (List.mem_map_of_mem hx)
    simp at hc; omega
  have hI1 : ∀ (c : Nat → Bool), ∀ x ∈ I1, ¬ (c x.pid = true ∧ k ∈ x.owed) := fun c x hx ⟨_, hc⟩ => e2 x hx hc
  obtain ⟨a1, b1⟩ := filterMap_relax_id (c := fun q => q == r.pid) (hI1 (fun q => q == r.pid))
  obtain ⟨a1', b1'⟩ := filterMap_relax_id (c := fun _ => true) (hI1 (fun _ => true))
  obtain ⟨a2, b2⟩ := filterMap_relax_id (c := fun q => q == r.pid) hI2
  have hr1 : relax k (fun q => q == r.pid) r =
      if r.owed.erase k = [] then none else some { r with owed := r.owed.erase k } := by
    unfold relax; rw [if_pos ⟨by simp, e3⟩]
  have hr2 : relax k (fun _ => true) r =
      if r.owed.erase k = [] then none else some { r with owed := r.owed.erase k } := by
    unfold relax; rw [if_pos ⟨rfl, e3⟩]
  have hnk : k ∉ r.owed.erase k := fun hc => (hnd r (by rw [e1]; simp)).not_mem_erase hc
  have hr3 : relax k (fun _ => true) { r with owed := r.owed.erase k } = some { r with owed := r.owed.erase k } :=
    relax_other (by simp [hnk])
  unfold freed at b1 b1' b2
  unfold release freed
  simp only [e1, List.filterMap_append]
  by_cases he : r.owed.erase k = []
  · rw [if_pos he] at hr1 hr2
    simp only [List.filterMap_cons, hr1, hr2, a1, a1', a2, b1, b1', b2, if_true, List.filterMap_append]
    simp
  · rw [if_neg he] at hr1 hr2
    simp only [List.filterMap_cons, hr1, hr2, hr3, a1, a1', a2, b1, b1', b2, List.filterMap_append]
    simp

theorem release_none {A : PSpec} {k : Nat} {c : Nat → Bool} (h : ∀ r ∈ A.infl, ¬ (c r.pid ∧ k ∈ r.owed)) :
    release A k c = A := by
  obtain ⟨g1, g2⟩ := filterMap_relax_id h
  unfold release; rw [g1, g2, List.append_nil]

theorem owes_log (A : PSpec) (l : List PEv) (k : Nat) : owes { A with log := l } k = owes A k := rfl

theorem Inv_step {A : PSpec} (h : Inv A) {op : POp} (ha : allowed A op) : Inv (step A op) := by
  cases op with
  | connect k =>
    obtain ⟨h1, h2, h3, h4, h5, h6⟩ := h
    refine ⟨?_, h2, ?_, h4, h5, h6⟩
    · show (A.subs ++ [k]).Nodup
      rw [List.nodup_append]
      refine ⟨h1, by simp, ?_⟩
      intro a haa b hb
      simp only [List.mem_singleton] at hb
      subst hb
      rintro rfl
      exact ha haa
    · intro r hr j hj
      exact List.mem_append_left _ (h3 r hr j hj)
  | close k =>
    have hi := Inv_release (Inv_log h (A.log ++ [.close k])) k (fun _ => true)
    have ho := owes_release_all (Inv_log h (A.log ++ [.close k])) k
    refine ⟨h.subsND.erase k, hi.2, ?_, hi.4, hi.5, hi.6⟩
    intro r hr j hj
    have hjs : j ∈ A.subs := hi.3 r hr j hj
    show j ∈ A.subs.erase k
    have hjk : j ≠ k := by
      rintro rfl
      have : r ∈ owes (release { A with log := A.log ++ [.close j] } j (fun _ => true)) j := by
        unfold owes; rw [List.mem_filter]; exact ⟨hr, by simpa using hj⟩
      rw [ho] at this; simp at this
    rw [List.mem_erase_of_ne hjk]; exact hjs
  | queue p =>
    obtain ⟨h1, h2, h3, h4, h5, h6⟩ := h
    refine ⟨h1, h2, h3, ?_, ?_, Nat.succ_pos _⟩
    · show (A.infl.map (·.pid) ++ (A.que ++ [(A.nextPid, p)]).map (·.1)).Pairwise (· < ·)
      rw [List.map_append, ← List.append_assoc, List.pairwise_append]
      refine ⟨h4, by simp, ?_⟩
      intro a ha b hb
      simp at hb
      subst hb
      exact (h5 a ha).2
    · intro q hq
      have hq : q ∈ A.infl.map (·.pid) ++ (A.que ++ [(A.nextPid, p)]).map (·.1) := hq
      show 0 < q ∧ q < A.nextPid + 1
      rw [List.map_append, ← List.append_assoc, List.mem_append] at hq
      rcases hq with hq | hq
      · have := h5 q hq; omega
      · simp at hq; omega
  | announce p => exact ⟨h.1, h.2, h.3, h.4, h.5, h.6⟩
  | send ts =>
    cases hann : A.ann with
    | cons p ann =>
      simp only [step, hann]
      exact ⟨h.1, h.2, h.3, h.4, h.5, h.6⟩
    | nil =>
      cases hq : A.que with
      | nil => simp only [step, hann, hq]; exact h
      | cons x que =>
        obtain ⟨pid, p⟩ := x
        obtain ⟨h1, h2, h3, h4, h5, h6⟩ := h
        simp only [step, hann, hq]
        rw [hq] at h4 h5
        refine ⟨h1, ?_, ?_, ?_, ?_, h6⟩
        · intro r hr
          rcases List.mem_append.mp hr with hr | hr
          · exact h2 r hr
          · simp at hr; subst hr; exact h1
        · intro r hr j hj
          rcases List.mem_append.mp hr with hr | hr
          · exact h3 r hr j hj
          · simp at hr; subst hr; exact hj
        · simpa using h4
        · simpa using h5
  | ack k pid => exact Inv_release (Inv_log h _) k _

theorem Inv_run : ∀ (ops : List POp) {A : PSpec}, Inv A → allowedAll A ops → Inv (run A ops) := by
  intro ops
  induction ops with
  | nil => intro A h _; exact h
  | cons op ops ih => intro A h ha; exact ih (Inv_step h ha.1) ha.2

end PSpec
end Rmc
