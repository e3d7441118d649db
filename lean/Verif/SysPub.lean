import Verif.PubLink
import Verif.SubCtxInv
import Verif.Props.PubCtxRead
import Verif.FrameStream
import Verif.PubBad

/-! # One connection between a publisher and a subscriber: what the publisher reads and accepts -/

set_option linter.unusedSimpArgs false
set_option linter.unusedVariables false

namespace Rmc
namespace PubCtx
open PLog CircBuf ConnVec Proto

/-- A message as a subscriber puts it on the wire: an acknowledged interval or a control message. -/
def IsMsg (m : List UInt8) : Prop :=
  (∃ f l, f < U64 ∧ l < U64 ∧ m = SubCtx.ackFrame f l) ∨ (∃ ds : List UInt8, ds.length < 65536 ∧ m = SubCtx.ctlFrame ds.length ds)

theorem pubFrame_msg {m : List UInt8} (h : IsMsg m) (more : List UInt8) : pubFrame (m ++ more) = .cmd m.length := by
  rcases h with ⟨f, l, hf, hl, rfl⟩ | ⟨ds, hd, rfl⟩
  · unfold SubCtx.ackFrame
    rw [List.cons_append, pubFrame_ack, if_neg (by rw [List.length_append, AckInterval.length_enc]; unfold ACK_LEN; omega), List.length_cons,
      AckInterval.length_enc]
    rfl
  · unfold SubCtx.ctlFrame
    rw [List.cons_append]
    unfold pubFrame
    dsimp only
    rw [if_neg (by decide), if_pos rfl]
    have h2 : (ctlEnc ds.length).length = 2 := rfl
    have h3 : ctlDec (List.take 2 (ctlEnc ds.length ++ ds ++ more)) = ds.length := by
      rw [List.append_assoc, List.take_append_of_le_length (by rw [h2]; exact Nat.le_refl _), List.take_of_length_le (by rw [h2]; exact Nat.le_refl _)]
      have := ctlDec_enc hd []
      rwa [List.append_nil] at this
    rw [h3, if_neg (by simp only [List.length_append, h2]; omega), if_neg (by simp only [List.length_append, h2]; omega)]
    simp only [List.length_cons, List.length_append, h2]
    congr 1; omega

theorem effects_acks {i : Nat} : ∀ (cs : List (List UInt8)) {c d : PubCtx} {pops : List POp} {L : List Nat},
    Good c pops L → (∀ m ∈ cs, IsMsg m) → effects (pubLangQ i) c cs = .ok d →
    ∃ ys, Good d (pops ++ ys) L ∧ cfg d = cfg c ∧ d.log = c.log ∧
      ∀ y ∈ ys, ∃ pid f l, y = .ack i pid ∧ f ≤ pid ∧ pid ≤ l ∧ (f < U64 ∧ l < U64) ∧ SubCtx.ackFrame f l ∈ cs := by
  intro cs
  induction cs with
  | nil => intro c d pops L h _ hx; cases hx; exact ⟨[], by simpa using h, rfl, rfl, by simp⟩
  | cons m cs ih =>
    intro c d pops L h hm hx
    rw [effects_cons] at hx
    obtain ⟨c1, h1, h2⟩ := bind_ok hx
    have step : ∃ ys, Good c1 (pops ++ ys) L ∧ cfg c1 = cfg c ∧ c1.log = c.log ∧
        ∀ y ∈ ys, ∃ pid f l, y = .ack i pid ∧ f ≤ pid ∧ pid ≤ l ∧ (f < U64 ∧ l < U64) ∧ SubCtx.ackFrame f l = m := by
      have h1' : pubEffQ i c m = .ok c1 := h1
      rcases hm m (by simp) with ⟨f, l, hf, hl, rfl⟩ | ⟨ds, hd, rfl⟩
      · unfold SubCtx.ackFrame pubEffQ at h1'
        dsimp only at h1'
        rw [if_pos rfl] at h1'
        have he : AckInterval.dec (AckInterval.enc ⟨f, l⟩) = ⟨f, l⟩ := by
          have := AckInterval.dec_enc (a := ⟨f, l⟩) ⟨hf, hl⟩ []
          rwa [List.append_nil] at this
        rw [he] at h1'
        by_cases hb : l = U64 - 1
        · unfold ackInterval at h1'; rw [if_pos hb] at h1'; cases h1'
        · obtain ⟨c', g1, g2, g3, g4, g5⟩ := ackInterval_spec h i ⟨f, l⟩ hb
          rw [g1] at h1'; cases h1'
          refine ⟨_, g2, g3.cfg, g5, ?_⟩
          intro y hy
          obtain ⟨pid, hp, e⟩ := List.mem_map.mp hy
          rw [List.mem_range'_1] at hp
          dsimp only at hp
          exact ⟨pid, f, l, e.symm, hp.1, by omega, ⟨hf, hl⟩, rfl⟩
      · unfold SubCtx.ctlFrame pubEffQ at h1'
        dsimp only at h1'
        rw [if_neg (by decide)] at h1'
        split at h1'
        · cases h1'
        · cases h1'; exact ⟨[], by simpa using h, rfl, rfl, by simp⟩
    obtain ⟨ys, g1, g2, g3, g5⟩ := step
    obtain ⟨zs, k1, k2, k3, k5⟩ := ih g1 (fun m' hm' => hm m' (by simp [hm'])) h2
    refine ⟨ys ++ zs, by rw [← List.append_assoc]; exact k1, k2.trans g2, k3.trans g3, ?_⟩
    · intro y hy
      rcases List.mem_append.1 hy with hy | hy
      · obtain ⟨pid, f, l, a1, a2, a3, a5, a4⟩ := g5 y hy
        exact ⟨pid, f, l, a1, a2, a3, a5, by rw [a4]; simp⟩
      · obtain ⟨pid, f, l, a1, a2, a3, a5, a4⟩ := k5 y hy
        exact ⟨pid, f, l, a1, a2, a3, a5, by simp [a4]⟩

/-- Connection `k` before and after the publisher reads from it: `ms1` are the messages it took in. -/
structure Took (k : Nat) (c c' : PubCtx) (ms1 : List (List UInt8)) : Prop where
  conn : Connected c' k
  wf : WF (c'.cv.conns k).readBuf
  size : (c'.cv.conns k).readBuf.size = RMC_MAX_PACKET
  wb : (c'.cv.conns k).writeBuf = (c.cv.conns k).writeBuf
  cfg : cfg c' = cfg c
  log : ∃ ds, c'.log = c.log ++ ds ∧ ∀ e ∈ ds, ∃ bs, e = .ctl k bs
  plog : ∃ es, c'.pub.log = c.pub.log ++ es ∧ PEv.connect k ∉ es ∧ sentPkts es = []
  fate : ∀ pid ∈ sentTo k c'.pub.log, pid ∈ c'.pub.outstanding k ∨ (∃ f l, f ≤ pid ∧ pid ≤ l ∧ (f < U64 ∧ l < U64) ∧ SubCtx.ackFrame f l ∈ ms1) ∨
    (pid ∈ sentTo k c.pub.log ∧ pid ∉ c.pub.outstanding k)

theorem read_link {c c' : PubCtx} {pops : List POp} {L : List Nat} {r k : Nat} (h : Good c pops L) (hk : Connected c k)
    (hw : WF (c.cv.conns k).readBuf) (hsz : (c.cv.conns k).readBuf.size = RMC_MAX_PACKET) {xs : List UInt8}
    (hx : xs ≠ []) (hlen : xs.length ≤ available (c.cv.conns k).readBuf) (hr : r ≠ EPROTO)
    {ms : List (List UInt8)} (hm : ∀ m ∈ ms, IsMsg m) {ys : List UInt8}
    (he : bytes (c.cv.conns k).readBuf ++ xs ++ ys = ms.flatten)
    (hs : step c (.read k (some xs)) = .ok (r, c')) :
    ∃ ms1 ms2, ms = ms1 ++ ms2 ∧ bytes (c'.cv.conns k).readBuf ++ ys = ms2.flatten ∧ Took k c c' ms1 := by
  have hkL : k ∈ L := h.connected.1 hk
  obtain ⟨ms1, ms2, e1, e2, e3, e4⟩ := Lang.prefix_split (pubLang_ok k) ms (bytes (c.cv.conns k).readBuf ++ xs) ys
    (fun m hm' more => pubFrame_msg (hm m hm') more) he
  have hs' : readConn c k (some xs) = .ok (r, c') := hs
  have hsz' : (c.cv.conns k).readBuf.size ≤ 65536 := by rw [hsz]; decide
  obtain ⟨d, b', ds, hd, k0, hc', g4, k2, k3, k4, hcv⟩ := readConn_langQ h hkL hw hsz' hx hlen hs'
    (read_safe h hkL hw hsz' hx hlen hs' hr)
  rw [e2] at hd
  · obtain ⟨yops, g1, g2, g3, g5⟩ := effects_acks ms1 h (fun m hm' => hm m (by rw [e1]; exact List.mem_append_left _ hm')) hd
    have hgood : Good c' (pops ++ yops) L := by rw [hc']; exact (good_afterRead g1 hcv hkL b').congr rfl rfl
    have hrb : (c'.cv.conns k).readBuf = b' := by rw [hc']; exact afterRead_self c k b'
    obtain ⟨q1, es, q2, q3⟩ := fate_ops h hgood hkL (k := k)
      (fun hc => by obtain ⟨_, _, _, e, _⟩ := g5 _ hc; cases e) (fun hc => by obtain ⟨_, _, _, e, _⟩ := g5 _ hc; cases e)
    obtain ⟨es', v1, v2⟩ := good_events h hgood
    refine ⟨ms1, ms2, e1, by rw [hrb, k4]; exact e3, ⟨hgood.connected.2 hkL, by rw [hrb]; exact k2, by rw [hrb, k3, hsz], ?_, ?_, ?_, ?_, ?_⟩⟩
    · rw [hc']
      show (if k = k then _ else _ : Conn).writeBuf = _
      rw [if_pos rfl]
    · rw [hc']; exact g2
    · exact ⟨ds, by rw [hc']; rfl, g4⟩
    · refine ⟨es', v1, ?_, ?_⟩
      · intro hc; obtain ⟨_, _, _, e, _⟩ := g5 _ (v2.connect k hc); cases e
      unfold sentPkts
      rw [List.filterMap_eq_nil_iff]
      intro e he'
      cases e with
      | send pid p ts => obtain ⟨_, _, _, e, _⟩ := g5 _ (v2.send pid p ts he'); cases e
      | _ => rfl
    · intro pid hp
      rcases q3 pid hp with q | q | q
      · exact .inl q
      · obtain ⟨pid', f, l, a1, a2, a3, a5, a4⟩ := g5 _ q
        cases a1
        exact .inr (.inl ⟨f, l, a2, a3, a5, a4⟩)
      · exact .inr (.inr q)

/-- What a newly accepted connection looks like. -/
structure Fresh (k : Nat) (c : PubCtx) : Prop where
  conn : Connected c k
  rwf : WF (c.cv.conns k).readBuf
  rsize : (c.cv.conns k).readBuf.size = RMC_MAX_PACKET
  rb : bytes (c.cv.conns k).readBuf = []
  wb : bytes (c.cv.conns k).writeBuf = []
  sent : sentTo k c.pub.log = []

theorem accept_link {c c' : PubCtx} {pops : List POp} {L : List Nat} {r k : Nat} {ar : AccRes} {cb : Option Bool}
    (h : Good c pops L) (hs : saneAcc ar) (hx : step c (.readListen ar cb) = .ok (r, c'))
    (hk : ¬ Connected c k) (hk' : Connected c' k) :
    Fresh k c' ∧ cfg c' = cfg c ∧ (∃ ds, c'.log = c.log ++ ds ∧ outs k ds = []) := by
  have hx' : readListen c ar cb = .ok (r, c') := hx
  obtain ⟨r2, c2, ys, L', ds, h1, h2, h3, h4, h5, h6, h7⟩ := readListen_spec h hs cb
  rw [h1] at hx'
  have e : c2 = c' := congrArg Prod.snd (Except.ok.inj hx')
  subst e
  have hnot : k ∉ L := fun hm => hk (h.connected.2 hm)
  have hin : k ∈ L' := h2.connected.1 hk'
  have hds : outs k ds = [] := by
    apply outs_none
    intro d hd bs hb
    obtain ⟨i, hi | hi | hi⟩ := h6 d hd <;> rw [hi] at hb <;> cases hb
  rcases h7 with ⟨_, e, _⟩ | ⟨_, i, hi, hsz, ⟨e1, e2, e3, e4, e5, e6⟩ | ⟨_, e, _⟩⟩
  · rw [e] at hin; exact absurd hin hnot
  · rw [e2] at hin
    have : k = i := by
      rcases List.mem_cons.1 hin with e | e
      · exact e
      · exact absurd e hnot
    subst this
    obtain ⟨cl1, cl2, _⟩ := h.v.clean k hsz hi
    rw [h.buf] at cl1 cl2
    refine ⟨⟨hk', ?_, ?_, ?_, ?_, ?_⟩, h3, ds, h5, hds⟩
    · rw [e5]; exact (SubCtx.fresh_WF cl1).1
    · rw [e5]; exact cl1.1
    · rw [e5]; exact SubCtx.fresh_bytes cl1 (by decide)
    · rw [e6]; exact SubCtx.fresh_bytes cl2 (by decide)
    · obtain ⟨es, q1, q2⟩ := good_events h h2
      rw [h2.p.reached.log, e1]
      have : (spec (pops ++ [POp.connect k])).log = (spec pops).log ++ [.connect k] := by
        unfold spec; rw [PSpec.run_snoc]; rfl
      rw [this]
      unfold sentTo
      have hsn := since_connect (k := k) (log := (spec pops).log) (e1 := []) (e2 := []) (by simp)
      rw [List.nil_append] at hsn
      rw [hsn]; rfl
  · rw [e] at hin; exact absurd hin hnot

end PubCtx
end Rmc
