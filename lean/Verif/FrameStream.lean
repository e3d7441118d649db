import Verif.ProtoLemmas

/-! # Reading part of a stream of complete commands -/

namespace Rmc
namespace Proto.Lang

variable {σ : Type}

/-- If a stream is complete commands, one after the other, then what is parsed of any front part of it are the first of these
commands, and what is left of that part continues the stream with the others. -/
theorem prefix_split {L : Lang σ} (hL : L.OK) : ∀ (ms : List (List UInt8)) (xs ys : List UInt8),
    (∀ m ∈ ms, ∀ more, L.frame (m ++ more) = .cmd m.length) → xs ++ ys = ms.flatten →
    ∃ ms1 ms2, ms = ms1 ++ ms2 ∧ L.commands xs = ms1 ∧ L.rest xs ++ ys = ms2.flatten ∧ L.status xs ≠ EPROTO := by
  intro ms
  induction ms with
  | nil =>
    intro xs ys _ h
    rw [List.flatten_nil] at h
    have hx : xs = [] := (List.append_eq_nil_iff.1 h).1
    subst hx
    exact ⟨[], [], rfl, commands_nil, by rw [rest_nil]; exact h, by rw [status_nil]; decide⟩
  | cons m ms ih =>
    intro xs ys hm h
    rw [List.flatten_cons] at h
    have hm1 := hm m (by simp)
    by_cases hl : m.length ≤ xs.length
    · obtain ⟨zs, rfl⟩ : ∃ zs, xs = m ++ zs := by
        have h1 : m <+: m ++ ms.flatten := List.prefix_append ..
        have h2 : xs <+: m ++ ms.flatten := by rw [← h]; exact List.prefix_append ..
        obtain ⟨t, ht⟩ := List.prefix_of_prefix_length_le h1 h2 hl
        exact ⟨t, ht.symm⟩
      rw [List.append_assoc] at h
      obtain ⟨ms1, ms2, e1, e2, e3, e4⟩ := ih zs ys (fun x hx => hm x (by simp [hx])) (List.append_cancel_left h)
      obtain ⟨k1, k2, k3⟩ := split_cmd hL (hm1 zs)
      rw [List.take_left, List.drop_left] at k1
      rw [List.drop_left] at k2 k3
      exact ⟨m :: ms1, ms2, by rw [e1]; rfl, by rw [k1, e2], by rw [k3]; exact e3, by rw [k2]; exact e4⟩
    · refine ⟨[], m :: ms, rfl, ?_⟩
      by_cases hx : xs = []
      · subst hx
        exact ⟨commands_nil, by rw [rest_nil]; exact h, by rw [status_nil]; decide⟩
      obtain ⟨t, ht⟩ : ∃ t, m = xs ++ t := by
        have h1 : m <+: m ++ ms.flatten := List.prefix_append ..
        have h2 : xs <+: m ++ ms.flatten := by rw [← h]; exact List.prefix_append ..
        obtain ⟨t, ht⟩ := List.prefix_of_prefix_length_le h2 h1 (by omega)
        exact ⟨t, ht.symm⟩
      have hf := hm1 []
      rw [List.append_nil] at hf
      have hmore : L.frame xs = .more := by
        cases hc : L.frame xs with
        | more => rfl
        | bad =>
          have := hL.bad_append xs t hx hc
          rw [← ht, hf] at this; cases this
        | cmd n =>
          have h1 := hL.cmd_append xs t n hc
          have h2 := hL.pos _ _ hc
          rw [← ht, hf] at h1
          have := Frame.cmd.inj h1
          omega
      obtain ⟨k1, k2, k3⟩ := split_more hx hmore
      exact ⟨k1, by rw [k3]; exact h, by rw [k2]; decide⟩

end Proto.Lang
end Rmc
