import Verif.SysLemmas
import Verif.SysPub

/-! # One connection between a publisher and a subscriber: what the subscriber writes -/

set_option linter.unusedSimpArgs false
set_option linter.unusedVariables false

namespace Rmc
namespace SubPub

theorem acked_le : ∀ (n : Nat) (ops : List Op), ops.length = n → Valid ops → ∀ iv ∈ (Hist.init.run ops).acked, iv.first ≤ iv.last := by
  intro n
  induction n with
  | zero =>
    intro ops hl hv iv hiv
    have : ops = [] := List.length_eq_zero_iff.1 hl
    subst this
    cases hiv
  | succ n ih =>
    intro ops hl hv iv hiv
    rcases List.eq_nil_or_concat ops with rfl | ⟨os, o, rfl⟩
    · cases hl
    rw [List.concat_eq_append] at hl hv hiv
    rw [List.length_append] at hl
    have hv' : Valid os := by
      intro a ha
      apply hv
      unfold arrivals at ha ⊢
      rw [List.filterMap_append]
      exact List.mem_append_left _ ha
    have ih' := ih os (by simpa using hl) hv'
    have hrun : Hist.init.run (os ++ [o]) = (Hist.init.run os).step o := by
      unfold Hist.run; rw [List.foldl_append]; rfl
    rw [hrun] at hiv
    cases o with
    | arrive p m ts => exact ih' iv hiv
    | popIv =>
      unfold Hist.step at hiv
      dsimp only at hiv
      split at hiv
      · exact ih' iv hiv
      · rename_i j rest hj
        rcases List.mem_append.1 hiv with h | h
        · exact ih' iv h
        · rw [List.mem_singleton] at h
          subst h
          cases hb : (arrivedPids os).head? with
          | none =>
            have : arrivedPids os = [] := by simpa using hb
            rw [hist_nil hv' this] at hj
            cases hj
          | some b => exact (C37_intervals hv' hb).2.1 iv (by rw [hj]; simp)

end SubPub

namespace SubCtx
open SubPub CircBuf ConnVec Proto
variable {tm : Nat}

/-- Control messages put on a connection fit the length field and have that length. -/
def CtlOK (c : SubCtx) : Prop := ∀ i bs ds, SEv.ctl i bs ds ∈ c.log → ds.length = bs.length ∧ bs.length < 65536

theorem CtlOK.app {c c' : SubCtx} (h : CtlOK c) {es : List SEv} (e : c'.log = c.log ++ es) (hn : ∀ j f l, SEv.ctl j f l ∉ es) :
    CtlOK c' := by
  intro i bs ds hm
  rw [e] at hm
  rcases List.mem_append.1 hm with hm | hm
  · exact h i bs ds hm
  · exact absurd hm (hn _ _ _)

theorem CtlOK.log {c c' : SubCtx} (h : CtlOK c) (e : c'.log = c.log) : CtlOK c' := by
  unfold CtlOK; rw [e]; exact h

theorem CtlOK.micro {c c' : SubCtx} (m : Micro tm c c') (hc : Core c) (h : CtlOK c) : CtlOK c' := by
  cases m with
  | @user a p ps hx e he => exact h.app (es := [e]) rfl (by rcases he with rfl | rfl <;> simp)
  | cb hk => exact h.app (es := [_]) rfl (by simp)
  | setCb f hk => exact h.log rfl
  | annCb a => exact h.app (es := [_]) rfl (by simp)
  | sock m es => exact h.log rfl
  | @dup i t hu hs p m ts hp hd => exact h.app (es := [_]) rfl (by simp)
  | @recv i t hu hs pid data m ts hd al ha =>
    refine h.app (es := [.arrive i ⟨c.nextAddr, pid, ⟨c.nextAddr, data, false⟩, i⟩ m ts] ++
      [.alloc ⟨c.nextAddr, pid, ⟨c.nextAddr, data, false⟩, i⟩] ++
      (process (received' t ⟨c.nextAddr, pid, ⟨c.nextAddr, data, false⟩, i⟩ m ts)).2.map .ready)
      (by unfold recvd; simp only [List.append_assoc]) ?_
    intro j f l hm; simp at hm
  | io hu rb a es => exact h.log rfl
  | @taken i t iv rest hs hi ha => exact h.app (es := [_]) rfl (by simp)
  | dropAck ha hs hi => exact h.log rfl
  | @msg i hu b e xs hw hz hb he =>
    rcases he with ⟨iv, hiv, rfl, -⟩ | ⟨bs, ds, rfl, hx, hl⟩
    · exact h.app (es := [_]) rfl (by simp)
    · intro j bs' ds' hm
      have hm' : SEv.ctl j bs' ds' ∈ c.log ++ [.ctl i bs ds] := hm
      rcases List.mem_append.1 hm' with hm' | hm'
      · exact h j bs' ds' hm'
      · rw [List.mem_singleton] at hm'
        cases hm'
        refine ⟨hl, ?_⟩
        have h1 := inUse_lt hw
        rw [← length_bytes, hb, hz, (hc.wb i hu.1).2, hx] at h1
        unfold ctlFrame at h1
        simp only [List.length_append, List.length_cons] at h1
        have : RMC_MAX_PACKET = 65400 := rfl
        omega
  | @out i hu b xs hw hz hb a es => exact h.app (es := [_]) rfl (by simp)
  | @connect i addr port nid d L hv hL hi v hv' h1 h2 h3 h4 h5 => exact h.app (es := [_]) rfl (by simp)
  | noConnect hv hv' h1 h2 h3 h4 => exact h.log rfl
  | complete hi hm => exact h.app (es := [_]) rfl (by simp)
  | @noComplete i hi hm L hv v hv' h1 h2 h3 h4 xs hx => exact h.app (es := xs) rfl (by rcases hx with rfl | rfl <;> simp)
  | @close i t hi hs =>
    refine h.app (es := [.closed i] ++ (reset t).2.map fun p => .free p.payload.ptr p.payload.data.length (.u32 p.slot))
      (by unfold closedAt; simp only [List.append_assoc]) ?_
    intro j f l hm; simp at hm

theorem Reaches.ctlOK {ops : List Op} {c : SubCtx} (h : Reaches ops c) : CtlOK c := by
  refine Reaches.induct (P := fun _ c => CtlOK c) ?_ ?_ h
  · intro mem n nid hn i f l hm; cases hm
  · intro ops c op r c' hr ha hs
    rcases step_cases hr.inv.core hr.inv.mem hs with h | ⟨hc, h⟩
    · exact (Steps.both (P := Core) (Q := CtlOK) (fun _ _ m h => h.micro m) (fun _ _ m h1 h2 => CtlOK.micro m h1 h2) h hr.inv.core ha).2
    · exact (Steps.both (P := Core) (Q := CtlOK) (fun _ _ m h => h.micro m) (fun _ _ m h1 h2 => CtlOK.micro m h1 h2) h hr.inv.core.forget
        (show CtlOK (forget c) from ha)).2

/-- The messages the subscriber puts on a connection. -/
theorem messages_ok {ops : List Op} {c : SubCtx} (h : Reaches ops c) {i : Nat} (hu : Up c i) (hv : ValidPids i c.log) :
    ∀ m ∈ messagesAt i c.log, PubCtx.IsMsg m ∧ ∀ f l, f < U64 → l < U64 → m = ackFrame f l → ∀ q, f ≤ q → q ≤ l →
      ∃ a ∈ arrivedAt i c.log, a.1.pid = q := by
  intro m hm
  unfold messagesAt at hm
  obtain ⟨e, he, hx⟩ := List.mem_filterMap.1 hm
  cases e with
  | ack j f l =>
    dsimp only at hx
    split at hx
    · rename_i hj
      subst hj
      cases hx
      have ha : (f, l) ∈ ackedAt j c.log := List.mem_filterMap.2 ⟨_, he, by simp⟩
      have hle : f ≤ l := by
        obtain ⟨iv, h1, h2, h3⟩ := C38_taken h ha
        rw [(h.rec hu).2.2] at h1
        have := acked_le _ _ rfl hv.ops iv h1
        omega
      have hlt : ∀ q, f ≤ q → q ≤ l → q + 1 < U64 := by
        intro q h1 h2
        obtain ⟨a, a1, a2, _⟩ := C38_api h hu hv ha h1 h2
        rw [← a2]; exact (hv a a1).2
      have hf := hlt f (Nat.le_refl _) hle
      have hl := hlt l hle (Nat.le_refl _)
      refine ⟨.inl ⟨f, l, by omega, by omega, rfl⟩, ?_⟩
      intro f' l' hf' hl' e q h1 h2
      have e' : AckInterval.enc ⟨f, l⟩ = AckInterval.enc ⟨f', l'⟩ := (List.cons.inj e).2
      have d1 := AckInterval.dec_enc (a := ⟨f, l⟩) ⟨by show f < U64; omega, by show l < U64; omega⟩ []
      have d2 := AckInterval.dec_enc (a := ⟨f', l'⟩) ⟨hf', hl'⟩ []
      rw [e', d2] at d1
      cases d1
      obtain ⟨a, a1, a2, _⟩ := C38_api h hu hv ha h1 h2
      exact ⟨a, a1, a2⟩
    · cases hx
  | ctl j bs ds =>
    dsimp only at hx
    split at hx
    · cases hx
      have hin : SEv.ctl j bs ds ∈ c.log := by
        unfold since at he
        rw [List.mem_reverse] at he
        exact List.mem_reverse.1 ((List.takeWhile_sublist _).subset he)
      obtain ⟨q1, q2⟩ := h.ctlOK j bs ds hin
      refine ⟨.inr ⟨ds, by omega, by rw [q1]⟩, ?_⟩
      intro f l _ _ e
      have := (List.cons.inj e).1
      exact absurd this (by decide)
    · cases hx
  | _ => cases hx

end SubCtx
end Rmc
