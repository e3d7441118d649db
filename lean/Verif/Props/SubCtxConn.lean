import Verif.Props.SubCtxDeliver

/-!
# C43, C44: connections of the subscriber

`Live c i`: slot `i` is occupied by a connection, set up or being set up.
-/

set_option linter.unusedVariables false

namespace Rmc
namespace SubCtx
open SubPub CircBuf ConnVec

/-- Slot `i` is occupied by a connection, set up or being set up. -/
def Live (c : SubCtx) (i : Nat) : Prop := i < c.cv.size ∧ (c.cv.conns i).mode ≠ .closed

/-- Slot `i` is occupied by a connection to the publisher listening at this address and port. -/
def ConnTo (c : SubCtx) (a p i : Nat) : Prop := Live c i ∧ (c.cv.conns i).addr = a ∧ (c.cv.conns i).port = p

instance (c : SubCtx) (i : Nat) : Decidable (Live c i) := inferInstanceAs (Decidable (_ ∧ _))
instance (c : SubCtx) (a p i : Nat) : Decidable (ConnTo c a p i) := inferInstanceAs (Decidable (_ ∧ _ ∧ _))

/-- No connection is opened or changes its address. -/
def KeysLe (c c' : SubCtx) : Prop := ∀ a p i, ConnTo c' a p i → ConnTo c a p i

theorem KeysLe.of_conns {c c' : SubCtx} (h1 : c'.cv.size = c.cv.size)
    (h2 : ∀ j, Live c' j → (c.cv.conns j).mode ≠ .closed ∧ (c'.cv.conns j).addr = (c.cv.conns j).addr ∧
      (c'.cv.conns j).port = (c.cv.conns j).port) : KeysLe c c' := by
  rintro a p i ⟨hl, ha, hp⟩
  obtain ⟨g1, g2, g3⟩ := h2 i hl
  exact ⟨⟨h1 ▸ hl.1, g1⟩, g2 ▸ ha, g3 ▸ hp⟩

theorem Micro.keys {tm : Nat} {c c' : SubCtx} (m : Micro tm c c') (hc : Core c) (ht : tm ≠ 2) : KeysLe c c' := by
  have set : ∀ (i : Nat) (x : Conn) (d : SubCtx), d.cv.size = c.cv.size → (∀ j, d.cv.conns j = if j = i then x else c.cv.conns j) →
      (c.cv.conns i).mode ≠ .closed → x.addr = (c.cv.conns i).addr → x.port = (c.cv.conns i).port → KeysLe c d := by
    intro i x d h1 h2 h3 h4 h5
    refine KeysLe.of_conns h1 ?_
    intro j hj
    rw [h2 j]
    by_cases e : j = i
    · subst e; rw [if_pos rfl]; exact ⟨h3, h4, h5⟩
    · rw [if_neg e]; exact ⟨by have := hj.2; rw [h2 j, if_neg e] at this; exact this, rfl, rfl⟩
  have up : ∀ {i}, Up c i → (c.cv.conns i).mode ≠ .closed := fun h => by rw [h.2]; decide
  cases m with
  | user hx he => exact fun a p i h => h
  | cb hk => exact fun a p i h => h
  | setCb f hk => exact fun a p i h => h
  | annCb a => exact fun a p i h => h
  | sock m es => exact fun a p i h => h
  | dup hu hs hp hd hk => exact fun a p i h => h
  | recv hu hs hd ha hk => exact fun a p i h => h
  | @io i hu rb a es => exact set i _ _ rfl (fun j => rfl) (up hu) rfl rfl
  | taken hs hi ha => exact fun a p i h => h
  | dropAck ha hs hi => exact fun a p i h => h
  | @msg i hu b e xs hw hz hb he => exact set i _ _ rfl (fun j => rfl) (up hu) rfl rfl
  | @out i hu b xs hw hz hb a es => exact set i _ _ rfl (fun j => rfl) (up hu) rfl rfl
  | @connect i addr port nid d L hv hL hi v hv' h1 h2 h3 h4 h5 hk => exact absurd hk ht
  | @noConnect L hv v hv' h1 h2 h3 h4 =>
    refine KeysLe.of_conns h1 ?_
    intro j hj
    have hjL : j ∈ L := (hv'.mode j hj.1).1 hj.2
    have e : v.conns j = c.cv.conns j := h4 j hjL
    exact ⟨by rw [← e]; exact hj.2, by rw [← e], by rw [← e]⟩
  | @complete i hi hm => exact set i _ _ rfl (fun j => rfl) (by rw [hm]; decide) rfl rfl
  | @noComplete i hi hm L hv v hv' h1 h2 h3 h4 xs hx =>
    refine KeysLe.of_conns h1 ?_
    intro j hj
    have e : j ≠ i := by
      rintro rfl
      have : (v.conns j).mode ≠ .closed := hj.2
      rw [h4] at this; exact this rfl
    have e : v.conns j = c.cv.conns j := h3 j e
    exact ⟨by rw [← e]; exact hj.2, by rw [← e], by rw [← e]⟩
  | @close i s hi hs =>
    obtain ⟨L, hL⟩ := hc.v
    by_cases hiL : i ∈ L
    · obtain ⟨q1, q2, q3, q4, q5, q6, q7⟩ := (close_spec hL i).1 hiL
      refine KeysLe.of_conns q3 ?_
      intro j hj
      have e : j ≠ i := by
        rintro rfl
        have : ((ConnVec.close c.cv j).2.conns j).mode ≠ .closed := hj.2
        rw [q6] at this; exact this rfl
      have e : (ConnVec.close c.cv i).2.conns j = c.cv.conns j := q5 j e
      exact ⟨by rw [← e]; exact hj.2, by rw [← e]; rfl, by rw [← e]; rfl⟩
    · have e := ((close_spec hL i).2 hiL).2
      rintro a p j ⟨⟨k1, k2⟩, k3, k4⟩
      have k1 : j < (ConnVec.close c.cv i).2.size := k1
      have k2 : ((ConnVec.close c.cv i).2.conns j).mode ≠ .closed := k2
      have k3 : ((ConnVec.close c.cv i).2.conns j).addr = a := k3
      have k4 : ((ConnVec.close c.cv i).2.conns j).port = p := k4
      rw [e] at k1 k2 k3 k4
      exact ⟨⟨k1, k2⟩, k3, k4⟩

theorem Steps.keys {tm : Nat} {c c' : SubCtx} (m : Steps tm c c') (hc : Core c) (ht : tm ≠ 2) : KeysLe c c' :=
  (Steps.both (P := Core) (Q := fun d => KeysLe c d) (fun _ _ m h => h.micro m)
    (fun _ _ m h1 h2 a p i h => h2 a p i (m.keys h1 ht a p i h)) m hc (fun _ _ _ h => h)).2

theorem step_keys {c c' : SubCtx} {op : Op} {r : Nat} (hi : Inv c) (hop : ∀ rs, op ≠ .readMcast rs) (hs : step c op = .ok (r, c')) :
    KeysLe c c' := by
  have hk : op.kind ≠ 2 := by
    cases op with
    | readMcast rs => exact absurd rfl (hop rs)
    | read i rv ts => show 3 + i ≠ 2; omega
    | _ => simp [Op.kind]
  rcases step_cases hi.core hi.mem hs with h | ⟨-, h⟩
  · exact h.keys hi.core hk
  · exact h.keys hi.core.forget (by decide)

theorem live_iff {c : SubCtx} {L : List Nat} (hL : VInv c.cv L) (i : Nat) : Live c i ↔ i ∈ L :=
  ⟨fun h => (hL.mode i h.1).1 h.2, fun h => ⟨hL.lt i h, (hL.mode i (hL.lt i h)).2 h⟩⟩

/-- Looking up a connection by address finds one iff there is one. -/
theorem find_none {c : SubCtx} (hc : Core c) (a p : Nat) :
    findByAddress c.cv a p = none ↔ ∀ i, ¬ ConnTo c a p i := by
  obtain ⟨L, hL⟩ := hc.v
  constructor
  · rintro h i ⟨hl, ha, hp⟩
    have hi := (live_iff hL i).1 hl
    have hm := hL.maxLe i hi
    unfold findByAddress at h
    rw [if_neg (by have := hm.1; have := hm.2; rcases hL.max with e | e <;> omega), List.find?_eq_none] at h
    exact h i (by rw [List.mem_range]; have := hm.1; omega) (by simp [(hL.desc i hl.1).2 hi, ha, hp])
  · intro h
    cases hf : findByAddress c.cv a p with
    | none => rfl
    | some i =>
      obtain ⟨g1, g2, g3⟩ := findByAddress_mem hL hf
      exact absurd ⟨(live_iff hL i).2 g1, g2, g3⟩ (h i)

/-! ## C43: announcements -/

/-- One connection per address. -/
def Uniq (c : SubCtx) : Prop := ∀ a p i j, ConnTo c a p i → ConnTo c a p j → i = j

theorem Uniq.le {c c' : SubCtx} (h : Uniq c) (k : KeysLe c c') : Uniq c' :=
  fun a p i j h1 h2 => h a p i j (k a p i h1) (k a p j h2)

/-- What an announcement does with the connections. -/
theorem announced_keys {c : SubCtx} (hc : Core c) (h : PacketHeader) (ann : Option Bool) (sk : Except Nat Nat) (cr : ConnRes) :
    KeysLe c (announced c h ann sk cr) ∨
    ∃ i, ¬ Live c i ∧ ConnTo (announced c h ann sk cr) h.listenIp h.listenPort i ∧
      ∀ j, j ≠ i → ∀ a p, ConnTo (announced c h ann sk cr) a p j → ConnTo c a p j := by
  obtain ⟨L, hL⟩ := hc.v
  have main : ∀ c1 : SubCtx, c1.cv = c.cv → ∀ d, d = (match (ConnVec.connect c1.cv h.listenIp h.listenPort h.nodeId sk cr).2.1 with
      | none => { c1 with cv := (ConnVec.connect c1.cv h.listenIp h.listenPort h.nodeId sk cr).2.2 }
      | some i => ev { c1 with cv := (ConnVec.connect c1.cv h.listenIp h.listenPort h.nodeId sk cr).2.2 }
          (.connect i h.listenIp h.listenPort)) → KeysLe c d ∨ ∃ i, ¬ Live c i ∧ ConnTo d h.listenIp h.listenPort i ∧
      ∀ j, j ≠ i → ∀ a p, ConnTo d a p j → ConnTo c a p j := by
    intro c1 ec d hd
    rw [ec] at hd
    by_cases hf : (∃ e, sk = .error e) ∨ (∃ e, cr = .failed e)
    · obtain ⟨r, v', g1, g2, g3, g4, g5, g6, g7⟩ := connect_failed hL h.listenIp h.listenPort h.nodeId sk cr hf
      rw [g1] at hd
      subst hd
      left
      refine KeysLe.of_conns g3 ?_
      intro j hj
      have e : v'.conns j = c.cv.conns j := g6 j ((g2.mode j hj.1).1 hj.2)
      exact ⟨by rw [← e]; exact hj.2, by rw [← e], by rw [← e]⟩
    · rw [not_or] at hf
      obtain ⟨d', rfl⟩ : ∃ d, sk = .ok d := by
        cases sk with
        | error e => exact absurd ⟨e, rfl⟩ hf.1
        | ok d => exact ⟨d, rfl⟩
      have hcr : ∀ e, cr ≠ .failed e := fun e he => hf.2 ⟨e, he⟩
      rcases connect_ok hL h.listenIp h.listenPort h.nodeId d' cr hcr with ⟨-, g⟩ | ⟨-, r, i, v', g, g1, g2, g3, g4, g5, g6, g7, g8, g9⟩
      · rw [g] at hd
        subst hd
        left
        rintro a p i ⟨⟨k1, k2⟩, k3, k4⟩
        exact ⟨⟨k1, k2⟩, k3, k4⟩
      · rw [g] at hd
        subst hd
        right
        refine ⟨i, fun hl => g2 ((live_iff hL i).1 hl), ⟨⟨?_, ?_⟩, ?_, ?_⟩, ?_⟩
        · show i < v'.size; rw [g4]; exact g1
        · show (v'.conns i).mode ≠ _; rw [g7]; simp
        · show (v'.conns i).addr = _; rw [g7]
        · show (v'.conns i).port = _; rw [g7]
        · rintro j hj a p ⟨⟨k1, k2⟩, k3, k4⟩
          have k1 : j < v'.size := k1
          have k2 : (v'.conns j).mode ≠ .closed := k2
          have k3 : (v'.conns j).addr = a := k3
          have k4 : (v'.conns j).port = p := k4
          rw [g6 j hj] at k2 k3 k4
          exact ⟨⟨by rw [← g4]; exact k1, k2⟩, k3, k4⟩
  unfold announced
  cases ann with
  | none =>
    dsimp only
    rw [if_neg (by simp)]
    exact main c rfl _ rfl
  | some a =>
    dsimp only
    split
    · exact .inl fun _ _ _ h => h
    · exact main (ev c (.announceCb a)) rfl _ rfl

/-- The address a datagram says its publisher listens on. -/
def addrOf (hd : PacketHeader) (src : Nat) : Nat := if hd.listenIp = 0 then src else hd.listenIp

theorem deliver_cv {c c' : SubCtx} {i pid : Nat} {data : List UInt8} {m : Bool} {ts : Int} (hu : Up c i)
    (h : deliver c i pid data m ts = .ok c') : c'.cv = c.cv := by
  cases m with
  | true => exact (deliver_steps (tm := 2) hu (.inl ⟨rfl, rfl⟩) h).2
  | false => exact (deliver_steps (tm := 3 + i) hu (.inr ⟨rfl, rfl⟩) h).2

theorem KeysLe.of_cv {c c' : SubCtx} (h : c'.cv = c.cv) : KeysLe c c' := by
  rintro a p i ⟨⟨k1, k2⟩, k3, k4⟩
  rw [h] at k1 k2 k3 k4
  exact ⟨⟨k1, k2⟩, k3, k4⟩

/-- What a datagram does with the connections: nothing new, unless it is an announcement and no connection to that address
is set up. -/
theorem mcastPacket_keys {c c' : SubCtx} {src r : Nat} {bs : List UInt8} {ts : Int} {ann : Option Bool}
    {sk : Except Nat Nat} {cr : ConnRes} (hc : Core c) (h : mcastPacket c src bs ts ann sk cr = .ok (r, c')) :
    KeysLe c c' ∨ ∃ hd rest, hd.Valid ∧ bs = hd.enc ++ rest ∧ hd.pid = 0 ∧
      ((∀ i, ¬ ConnTo c (addrOf hd src) hd.listenPort i) ∨
        ∃ i, ConnTo c (addrOf hd src) hd.listenPort i ∧ (c.cv.conns i).mode = .connecting) ∧
      ∃ i, ¬ Live c i ∧ ConnTo c' (addrOf hd src) hd.listenPort i ∧
        ∀ j, j ≠ i → ∀ a p, ConnTo c' a p j → ConnTo c a p j := by
  unfold mcastPacket at h
  split at h
  · cases h; exact .inl fun _ _ _ h => h
  · rename_i hlen
    dsimp only at h
    have hb : bs = (PacketHeader.dec (bs.take HDR_LEN)).enc ++ bs.drop HDR_LEN := by
      rw [PacketHeader.enc_dec _ (by rw [List.length_take]; omega), List.take_append_drop]
    have go : ∀ d, (d = if (PacketHeader.dec (bs.take HDR_LEN)).pid ≠ 0 then c else
        announced c { PacketHeader.dec (bs.take HDR_LEN) with
          listenIp := addrOf (PacketHeader.dec (bs.take HDR_LEN)) src } ann sk cr) →
        ((∀ i, ¬ ConnTo c (addrOf (PacketHeader.dec (bs.take HDR_LEN)) src) (PacketHeader.dec (bs.take HDR_LEN)).listenPort i) ∨
          ∃ i, ConnTo c (addrOf (PacketHeader.dec (bs.take HDR_LEN)) src) (PacketHeader.dec (bs.take HDR_LEN)).listenPort i ∧
            (c.cv.conns i).mode = .connecting) →
        KeysLe c d ∨ ∃ hd rest, hd.Valid ∧ bs = hd.enc ++ rest ∧ hd.pid = 0 ∧
          ((∀ i, ¬ ConnTo c (addrOf hd src) hd.listenPort i) ∨
            ∃ i, ConnTo c (addrOf hd src) hd.listenPort i ∧ (c.cv.conns i).mode = .connecting) ∧
          ∃ i, ¬ Live c i ∧ ConnTo d (addrOf hd src) hd.listenPort i ∧
            ∀ j, j ≠ i → ∀ a p, ConnTo d a p j → ConnTo c a p j := by
      intro d hd hk
      split at hd
      · subst hd; exact .inl fun _ _ _ h => h
      · rename_i hp
        have hp : (PacketHeader.dec (bs.take HDR_LEN)).pid = 0 := by simpa using hp
        rcases announced_keys hc { PacketHeader.dec (bs.take HDR_LEN) with
          listenIp := addrOf (PacketHeader.dec (bs.take HDR_LEN)) src } ann sk cr with g | ⟨i, g1, g2, g3⟩
        · subst hd; exact .inl g
        · subst hd; exact .inr ⟨_, _, PacketHeader.valid_dec _, hb, hp, hk, i, g1, g2, g3⟩
    split at h
    · cases h; exact .inl fun _ _ _ h => h
    · split at h
      · rename_i hf
        rw [← (Prod.mk.inj (Except.ok.inj h)).2]
        exact go _ rfl (.inl ((find_none hc _ _).1 hf))
      · rename_i i hf
        obtain ⟨L, hL⟩ := hc.v
        obtain ⟨hi, ha, hp⟩ := findByAddress_mem hL hf
        split at h
        · rename_i hm
          rw [← (Prod.mk.inj (Except.ok.inj h)).2]
          exact go _ rfl (.inr ⟨i, ⟨(live_iff hL i).2 hi, ha, hp⟩, hm⟩)
        · rename_i hm
          split at h
          · cases h; exact .inl fun _ _ _ h => h
          · have hu : Up c i := ⟨hL.lt i hi, (mode_cases hL hi).resolve_left hm⟩
            obtain ⟨c2, h2, h⟩ := bind_ok h
            cases h
            exact .inl (.of_cv (deliver_cv hu h2))

/-- C43: a datagram that opens a connection is an announcement (packet id 0) of a publisher to which there is no connection, or
of one to which a connection is still being set up; it opens one connection, to the address announced. -/
theorem C43_opens {ops : List Op} {c c' : SubCtx} (h : Reaches ops c) {src r : Nat} {bs : List UInt8} {ts : Int} {ann : Option Bool}
    {sk : Except Nat Nat} {cr : ConnRes} (hx : mcastPacket c src bs ts ann sk cr = .ok (r, c'))
    {a p i : Nat} (hn : ConnTo c' a p i) (ho : ¬ ConnTo c a p i) :
    ∃ hd rest, hd.Valid ∧ bs = hd.enc ++ rest ∧ hd.pid = 0 ∧ a = addrOf hd src ∧ p = hd.listenPort ∧
      ((∀ j, ¬ ConnTo c a p j) ∨ ∃ j, ConnTo c a p j ∧ (c.cv.conns j).mode = .connecting) ∧
      ∀ a' p' j, ConnTo c' a' p' j → j ≠ i → ConnTo c a' p' j := by
  rcases mcastPacket_keys h.inv.core hx with g | ⟨hd, rest, g1, g2, g3, g4, k, g5, g6, g7⟩
  · exact absurd (g a p i hn) ho
  · have e : i = k := by
      by_cases e : i = k
      · exact e
      · exact absurd (g7 i e a p hn) ho
    subst e
    obtain ⟨-, e1, e2⟩ := hn
    obtain ⟨-, f1, f2⟩ := g6
    have ea : a = addrOf hd src := e1.symm.trans f1
    have ep : p = hd.listenPort := e2.symm.trans f2
    subst ea ep
    exact ⟨hd, rest, g1, g2, g3, rfl, rfl, g4, fun a' p' j hj hne => g7 j hne a' p' hj⟩

/-- C43: no other call opens a connection. -/
theorem C43_other_calls {ops : List Op} {c c' : SubCtx} {op : Op} {r : Nat} (h : Reaches ops c) (hop : ∀ rs, op ≠ .readMcast rs)
    (hs : step c op = .ok (r, c')) : ∀ a p i, ConnTo c' a p i → ConnTo c a p i := step_keys h.inv hop hs

/-- Reading one datagram. -/
theorem readOne {c c1 : SubCtx} (hm : c.mcast ≠ none) {src : Nat} {bs : List UInt8} (h0 : bs ≠ []) (hl : bs.length ≤ RMC_MAX_PACKET)
    {ts : Int} {ann : Option Bool} {sk : Except Nat Nat} {cr : ConnRes} (h : mcastPacket c src bs ts ann sk cr = .ok (0, c1)) :
    step c (.readMcast [.dgram src bs ts ann sk cr]) = .ok (0, pollModify c1 MULTICAST_INDEX c1.mcast .R .R) := by
  show readMcast c _ = _
  unfold readMcast
  rw [if_neg hm]
  unfold mcastLoop
  rw [if_neg h0, List.take_of_length_le hl, h, Proto.ok_bind, if_neg (by simp)]
  unfold mcastLoop
  rfl

theorem mcastPacket_hdr {hd : PacketHeader} (hval : hd.Valid) {data : List UInt8} (hl : data.length = hd.payloadLen) :
    hd.enc ++ data ≠ [] ∧ (hd.enc ++ data).length = HDR_LEN + data.length ∧ (hd.enc ++ data).take HDR_LEN = hd.enc ∧
    PacketHeader.dec hd.enc = hd := by
  have hlen : (hd.enc ++ data).length = HDR_LEN + data.length := by rw [List.length_append, PacketHeader.length_enc]
  refine ⟨?_, hlen, take_of_len (PacketHeader.length_enc hd), ?_⟩
  · intro e; rw [e] at hlen; simp [HDR_LEN] at hlen; omega
  · have := PacketHeader.dec_enc hval []; rwa [List.append_nil] at this

/-- C43: an announcement of a publisher subscribed to (and to which no further connection is being set up) changes nothing. -/
theorem C43_subscribed {ops : List Op} {c : SubCtx} (h : Reaches ops c) (hm : c.mcast ≠ none) {hd : PacketHeader} (hval : hd.Valid)
    {src : Nat} (h0 : hd.pid = 0) {data : List UInt8} (hl : data.length = hd.payloadLen) (hmax : HDR_LEN + data.length ≤ RMC_MAX_PACKET)
    (hex : ∃ i, ConnTo c (addrOf hd src) hd.listenPort i) (hup : ∀ i, ConnTo c (addrOf hd src) hd.listenPort i → Up c i)
    (ts : Int) (ann : Option Bool) (sk : Except Nat Nat) (cr : ConnRes) :
    step c (.readMcast [.dgram src (hd.enc ++ data) ts ann sk cr]) =
      .ok (0, { c with cv := { c.cv with polls := c.cv.polls ++ [.modify MULTICAST_INDEX c.mcast .R .R] } }) := by
  obtain ⟨e0, e1, e2, e3⟩ := mcastPacket_hdr hval hl
  have hc := h.inv.core
  have hpk : mcastPacket c src (hd.enc ++ data) ts ann sk cr = .ok (0, c) := by
    unfold mcastPacket
    rw [if_neg (by omega)]
    dsimp only
    rw [e2, e3, if_neg (by omega)]
    cases hf : findByAddress c.cv (if hd.listenIp = 0 then src else hd.listenIp) hd.listenPort with
    | none =>
      obtain ⟨i, hi⟩ := hex
      exact absurd hi ((find_none hc _ _).1 hf i)
    | some i =>
      dsimp only
      obtain ⟨L, hL⟩ := hc.v
      obtain ⟨hi, ha, hp⟩ := findByAddress_mem hL hf
      have hu := hup i ⟨(live_iff hL i).2 hi, ha, hp⟩
      rw [if_neg (by rw [hu.2]; decide), if_pos h0]
  exact readOne hm e0 (by omega) hpk

/-- C43: an announcement of a publisher not subscribed to that the announce callback declines changes nothing (the call of the
callback is logged). -/
theorem C43_veto {ops : List Op} {c : SubCtx} (h : Reaches ops c) (hm : c.mcast ≠ none) {hd : PacketHeader} (hval : hd.Valid)
    {src : Nat} (h0 : hd.pid = 0) {data : List UInt8} (hl : data.length = hd.payloadLen) (hmax : HDR_LEN + data.length ≤ RMC_MAX_PACKET)
    (hno : ∀ i, ConnTo c (addrOf hd src) hd.listenPort i → ¬ Up c i) (ts : Int) (sk : Except Nat Nat) (cr : ConnRes) :
    step c (.readMcast [.dgram src (hd.enc ++ data) ts (some false) sk cr]) =
      .ok (0, { c with log := c.log ++ [.announceCb false],
                       cv := { c.cv with polls := c.cv.polls ++ [.modify MULTICAST_INDEX c.mcast .R .R] } }) := by
  obtain ⟨e0, e1, e2, e3⟩ := mcastPacket_hdr hval hl
  have hc := h.inv.core
  have hpk : mcastPacket c src (hd.enc ++ data) ts (some false) sk cr = .ok (0, ev c (.announceCb false)) := by
    unfold mcastPacket
    rw [if_neg (by omega)]
    dsimp only
    rw [e2, e3, if_neg (by omega)]
    cases hf : findByAddress c.cv (if hd.listenIp = 0 then src else hd.listenIp) hd.listenPort with
    | none =>
      dsimp only
      rw [if_neg (by simp [h0])]
      rfl
    | some i =>
      dsimp only
      obtain ⟨L, hL⟩ := hc.v
      obtain ⟨hi, ha, hp⟩ := findByAddress_mem hL hf
      have hu := hno i ⟨(live_iff hL i).2 hi, ha, hp⟩
      have hmode : (c.cv.conns i).mode = .connecting := (mode_cases hL hi).resolve_right (fun e => hu ⟨hL.lt i hi, e⟩)
      rw [if_pos hmode, if_neg (by simp [h0])]
      rfl
  exact readOne hm e0 (by omega) hpk

/-- C43: the announcement of a publisher to which there is no connection, not declined, opens one connection, if there is a free
slot and the socket calls succeed. -/
theorem C43_accepted {ops : List Op} {c : SubCtx} (h : Reaches ops c) (hm : c.mcast ≠ none) {hd : PacketHeader} (hval : hd.Valid)
    {src : Nat} (h0 : hd.pid = 0) {data : List UInt8} (hl : data.length = hd.payloadLen) (hmax : HDR_LEN + data.length ≤ RMC_MAX_PACKET)
    (hno : ∀ i, ¬ ConnTo c (addrOf hd src) hd.listenPort i) (hfree : ∃ i, i < c.cv.size ∧ ¬ Live c i)
    (ts : Int) {ann : Option Bool} (ha : ann ≠ some false) (d : Nat) {cr : ConnRes} (hcr : ∀ e, cr ≠ .failed e) :
    ∃ c' i, step c (.readMcast [.dgram src (hd.enc ++ data) ts ann (.ok d) cr]) = .ok (0, c') ∧ ¬ Live c i ∧
      ConnTo c' (addrOf hd src) hd.listenPort i ∧ (c'.cv.conns i).mode = .connecting ∧
      (∃ es, c'.log = c.log ++ es ++ [.connect i (addrOf hd src) hd.listenPort] ∧ ∀ e ∈ es, e = .announceCb true) ∧
      (∀ j, j ≠ i → c'.cv.conns j = c.cv.conns j) ∧ c'.cv.size = c.cv.size := by
  obtain ⟨e0, e1, e2, e3⟩ := mcastPacket_hdr hval hl
  have hc := h.inv.core
  obtain ⟨L, hL⟩ := hc.v
  have hpk : mcastPacket c src (hd.enc ++ data) ts ann (.ok d) cr =
      .ok (0, announced c { hd with listenIp := addrOf hd src } ann (.ok d) cr) := by
    unfold mcastPacket
    rw [if_neg (by omega)]
    dsimp only
    rw [e2, e3, if_neg (by omega), show findByAddress c.cv (if hd.listenIp = 0 then src else hd.listenIp) hd.listenPort = none from
      (find_none hc _ _).2 hno]
    dsimp only
    rw [if_neg (by simp [h0])]
    rfl
  obtain ⟨X, hX⟩ : ∃ X, X = announced c { hd with listenIp := addrOf hd src } ann (.ok d) cr := ⟨_, rfl⟩
  rw [← hX] at hpk
  have hst := readOne hm e0 (by omega) hpk
  have hlen : ¬ L.length = c.cv.size := by
    intro e
    obtain ⟨i, hi, hn⟩ := hfree
    exact hn ((live_iff hL i).2 (hL.full.1 e i hi))
  have main : ∀ c1 : SubCtx, c1.cv = c.cv → ∃ i, ¬ Live c i ∧
      ∃ v, (match (ConnVec.connect c1.cv (addrOf hd src) hd.listenPort hd.nodeId (.ok d) cr).2.1 with
      | none => { c1 with cv := (ConnVec.connect c1.cv (addrOf hd src) hd.listenPort hd.nodeId (.ok d) cr).2.2 }
      | some i => ev { c1 with cv := (ConnVec.connect c1.cv (addrOf hd src) hd.listenPort hd.nodeId (.ok d) cr).2.2 }
          (.connect i (addrOf hd src) hd.listenPort)) = { c1 with cv := v, log := c1.log ++ [.connect i (addrOf hd src) hd.listenPort] } ∧
        i < v.size ∧ (v.conns i).mode = .connecting ∧ (v.conns i).addr = addrOf hd src ∧ (v.conns i).port = hd.listenPort ∧
        (∀ j, j ≠ i → v.conns j = c.cv.conns j) ∧ v.size = c.cv.size := by
    intro c1 ec
    rw [ec]
    rcases connect_ok hL (addrOf hd src) hd.listenPort hd.nodeId d cr hcr with ⟨g0, g⟩ | ⟨-, r, i, v', g, g1, g2, g3, g4, g5, g6, g7, g8, g9⟩
    · exact absurd g0 hlen
    · rw [g]
      refine ⟨i, fun hl => g2 ((live_iff hL i).1 hl), v', rfl, by rw [g4]; exact g1, by rw [g7], by rw [g7], by rw [g7], g6, g4⟩
  have fin : ∀ (c1 : SubCtx) (es : List SEv), c1.cv = c.cv → c1.log = c.log ++ es → (∀ e ∈ es, e = .announceCb true) →
      X = (match (ConnVec.connect c1.cv (addrOf hd src) hd.listenPort hd.nodeId (.ok d) cr).2.1 with
      | none => { c1 with cv := (ConnVec.connect c1.cv (addrOf hd src) hd.listenPort hd.nodeId (.ok d) cr).2.2 }
      | some i => ev { c1 with cv := (ConnVec.connect c1.cv (addrOf hd src) hd.listenPort hd.nodeId (.ok d) cr).2.2 }
          (.connect i (addrOf hd src) hd.listenPort)) →
      ∃ c' i, step c (.readMcast [.dgram src (hd.enc ++ data) ts ann (.ok d) cr]) = .ok (0, c') ∧ ¬ Live c i ∧
        ConnTo c' (addrOf hd src) hd.listenPort i ∧ (c'.cv.conns i).mode = .connecting ∧
        (∃ es, c'.log = c.log ++ es ++ [.connect i (addrOf hd src) hd.listenPort] ∧ ∀ e ∈ es, e = .announceCb true) ∧
        (∀ j, j ≠ i → c'.cv.conns j = c.cv.conns j) ∧ c'.cv.size = c.cv.size := by
    intro c1 es ec el hes he
    obtain ⟨i, hi, v, g, g1, g2, g3, g4, g5⟩ := main c1 ec
    rw [g] at he
    refine ⟨_, i, hst, hi, ?_⟩
    rw [he]
    exact ⟨⟨⟨g1, by show (v.conns i).mode ≠ _; rw [g2]; decide⟩, g3, g4⟩, g2, ⟨es, by rw [← el]; rfl, hes⟩, g5⟩
  cases ann with
  | none => exact fin c [] rfl (by simp) (by simp) hX
  | some b =>
    cases b with
    | false => exact absurd rfl ha
    | true => exact fin (ev c (.announceCb true)) [.announceCb true] rfl rfl (by simp) hX

/-! ### One connection per publisher -/

/-- No datagram of this sequence announces a publisher to which a connection is being set up at the moment it comes in. -/
def CalmLoop (c : SubCtx) : List RecvRes → Prop
  | [] => True
  | .err _ :: _ => True
  | .dgram src bs ts ann sk cr :: rs =>
    (∀ hd rest, hd.Valid → bs.take RMC_MAX_PACKET = hd.enc ++ rest → hd.pid = 0 →
      ∀ i, ConnTo c (addrOf hd src) hd.listenPort i → (c.cv.conns i).mode ≠ .connecting) ∧
    ∀ c', mcastPacket c src (bs.take RMC_MAX_PACKET) ts ann sk cr = .ok (0, c') → CalmLoop c' rs

/-- No announcement of a publisher comes in while a connection to it is being set up. -/
def Calm : SubCtx → List Op → Prop
  | _, [] => True
  | c, op :: ops => (∀ rs, op = .readMcast rs → CalmLoop c rs) ∧ ∀ r c', step c op = .ok (r, c') → Calm c' ops

theorem mcastLoop_uniq : ∀ (rs : List RecvRes) {c c' : SubCtx} {r : Nat}, Core c → Uniq c → CalmLoop c rs →
    mcastLoop c rs = .ok (r, c') → Uniq c' := by
  intro rs
  induction rs with
  | nil => intro c c' r hc hu _ h; cases h; exact hu
  | cons x rs ih =>
    intro c c' r hc hu hcalm h
    cases x with
    | err e => cases h; exact hu
    | dgram src bs ts ann sk cr =>
      unfold mcastLoop at h
      split at h
      · cases h; exact hu
      · obtain ⟨⟨r1, c1⟩, h1, h⟩ := bind_ok h
        have s1 := mcastPacket_steps hc h1
        have hu1 : Uniq c1 := by
          rcases mcastPacket_keys hc h1 with g | ⟨hd, rest, g1, g2, g3, g4, k, g5, g6, g7⟩
          · exact hu.le g
          · have hnone : ∀ i, ¬ ConnTo c (addrOf hd src) hd.listenPort i := by
              rcases g4 with g4 | ⟨i, g4, g4'⟩
              · exact g4
              · exact absurd g4' (hcalm.1 hd rest g1 g2 g3 i g4)
            intro a p i j hi hj
            have hk : ∀ x y, ConnTo c1 a p x → ConnTo c1 a p y → x = k → y = k := by
              intro x y hx hy e
              by_cases ey : y = k
              · exact ey
              · subst e
                have := g7 y ey a p hy
                obtain ⟨-, e1, e2⟩ := hx
                obtain ⟨-, f1, f2⟩ := g6
                rw [e1] at f1; rw [e2] at f2
                subst f1 f2
                exact absurd this (hnone y)
            by_cases ei : i = k
            · rw [ei, hk i j hi hj ei]
            · by_cases ej : j = k
              · exact absurd (hk j i hj hi ej) ei
              · exact hu a p i j (g7 i ei a p hi) (g7 j ej a p hj)
        dsimp only at h
        split at h
        · cases h; exact hu1
        · rename_i hr
          have hr : r1 = 0 := by simpa using hr
          subst hr
          exact ih (hc.steps s1) hu1 (hcalm.2 c1 h1) h

/-- C43: if no announcement of a publisher comes in while a connection to it is being set up, there is never more than one
connection to a publisher. -/
theorem C43_unique_partial {mem : Nat → Conn} {n nid : Nat} (hn : n ≤ LISTEN_INDEX) {ops : List Op} {rs : List Nat} {c : SubCtx}
    (hr : run (init mem n nid) ops = .ok (rs, c)) (hd : Calm (init mem n nid) ops) :
    ∀ a p i j, ConnTo c a p i → ConnTo c a p j → i = j := by
  have key : ∀ (ops : List Op) (c0 : SubCtx) (rs : List Nat), Inv c0 → Uniq c0 → run c0 ops = .ok (rs, c) → Calm c0 ops → Uniq c := by
    intro ops
    induction ops with
    | nil => intro c0 rs hi hl h _; cases h; exact hl
    | cons op ops ih =>
      intro c0 rs hi hl h hd
      rw [run_cons] at h
      obtain ⟨⟨r, c1⟩, h1, h⟩ := bind_ok h
      obtain ⟨⟨x, c2⟩, h2, h⟩ := bind_ok h
      cases h
      refine ih c1 x (hi.step h1) ?_ h2 (hd.2 r c1 h1)
      by_cases hop : ∃ l, op = .readMcast l
      · obtain ⟨l, rfl⟩ := hop
        have h1 : readMcast c0 l = .ok (r, c1) := h1
        unfold readMcast at h1
        split at h1
        · cases h1; exact hl
        · obtain ⟨⟨r2, c3⟩, h3, h1⟩ := bind_ok h1
          have e := (Prod.mk.inj (Except.ok.inj h1)).2
          rw [← e]
          exact (mcastLoop_uniq l hi.core hl (hd.1 l rfl) h3).le (fun a p i h => h)
      · exact hl.le (step_keys hi (fun l e => hop ⟨l, e⟩) h1)
  refine key ops _ rs (Inv_init mem n nid hn) ?_ hr hd
  rintro a p i j ⟨⟨h1, h2⟩, -⟩
  exact absurd rfl h2


/-- A history that meets the hypotheses: two announcements from port 4 and one from port 5, the second from port 4 once the
connection is set up: two connections. -/
example : ∃ c rs, Reaches (exUp ++ [.readMcast [exDg 4 0 [] 5, exDg 5 0 [] 6]]) c ∧
    run exS0 (exUp ++ [.readMcast [exDg 4 0 [] 5, exDg 5 0 [] 6]]) = .ok (rs, c) ∧
    decide (rs = [0, 0, 0, 0] ∧ ConnTo c 77 4 0 ∧ ConnTo c 77 5 1 ∧ (c.cv.conns 1).mode = .connecting ∧ publisherCount c = 2) = true :=
  reaches_of (P := fun rs c => decide _) (by decide +kernel)

/-- Whether a datagram announces a publisher to which a connection is being set up, by computation: the first two slots. -/
def quiet (c : SubCtx) (src : Nat) (bs : List UInt8) : Bool :=
  let hd := PacketHeader.dec (bs.take HDR_LEN)
  hd.pid != 0 || (List.range c.cv.size).all fun i => decide (¬ (ConnTo c (addrOf hd src) hd.listenPort i ∧ (c.cv.conns i).mode = .connecting))

theorem quiet_spec {c : SubCtx} {src : Nat} {bs : List UInt8} (h : quiet c src bs = true) :
    ∀ hd rest, hd.Valid → bs = hd.enc ++ rest → hd.pid = 0 →
      ∀ i, ConnTo c (addrOf hd src) hd.listenPort i → (c.cv.conns i).mode ≠ .connecting := by
  intro hd rest hv hb hp i hi hm
  have e : PacketHeader.dec (bs.take HDR_LEN) = hd := by
    rw [hb, take_of_len (PacketHeader.length_enc hd)]
    have := PacketHeader.dec_enc hv []; rwa [List.append_nil] at this
  unfold quiet at h
  simp only [e, hp] at h
  have h : ((List.range c.cv.size).all fun i => decide (¬ (ConnTo c (addrOf hd src) hd.listenPort i ∧ (c.cv.conns i).mode = .connecting))) = true := by
    simpa using h
  rw [List.all_eq_true] at h
  have := h i (List.mem_range.2 hi.1.1)
  exact (of_decide_eq_true this) ⟨hi, hm⟩

/-- `CalmLoop` by computation. -/
def calmLoop (c : SubCtx) : List RecvRes → Bool
  | [] => true
  | .err _ :: _ => true
  | .dgram src bs ts ann sk cr :: rs => quiet c src (bs.take RMC_MAX_PACKET) &&
    (match mcastPacket c src (bs.take RMC_MAX_PACKET) ts ann sk cr with
    | .ok x => calmLoop x.2 rs
    | .error _ => true)

theorem calmLoop_spec : ∀ (rs : List RecvRes) {c : SubCtx}, calmLoop c rs = true → CalmLoop c rs := by
  intro rs
  induction rs with
  | nil => intro c _; trivial
  | cons x rs ih =>
    intro c h
    cases x with
    | err e => trivial
    | dgram src bs ts ann sk cr =>
      unfold calmLoop at h
      rw [Bool.and_eq_true] at h
      refine ⟨quiet_spec h.1, ?_⟩
      intro c' hc'
      have h2 := h.2
      rw [hc'] at h2
      exact ih h2

/-- `Calm` by computation. -/
def calm : SubCtx → List Op → Bool
  | _, [] => true
  | c, op :: ops => (match op with | .readMcast rs => calmLoop c rs | _ => true) &&
    (match step c op with
    | .ok x => calm x.2 ops
    | .error _ => true)

theorem calm_spec : ∀ (ops : List Op) {c : SubCtx}, calm c ops = true → Calm c ops := by
  intro ops
  induction ops with
  | nil => intro c _; trivial
  | cons op ops ih =>
    intro c h
    unfold calm at h
    rw [Bool.and_eq_true] at h
    refine ⟨?_, ?_⟩
    · rintro rs rfl
      exact calmLoop_spec rs h.1
    · intro r c' hs
      have h2 := h.2
      rw [hs] at h2
      exact ih h2

example : Calm exS0 (exUp ++ [.readMcast [exDg 4 0 [] 5, exDg 5 0 [] 6]]) := calm_spec _ (by decide +kernel)

/-- C43, what is missing: two announcements of the same publisher, the second while the connection is being set up, open two
connections, and both get set up. -/
theorem C43_false : ∃ ops c, Reaches ops c ∧ ConnTo c 77 4 0 ∧ ConnTo c 77 4 1 ∧ Up c 0 ∧ Up c 1 := by
  obtain ⟨c, rs, h1, h2, h3⟩ := reaches_of (ops := [.activate (.ok 3), .readMcast [exDg 4 0 [] 1, exDg 4 0 [] 2],
      .write 0 (.ok 0) none (.ok 0), Op.write 1 (.ok 0) none (.ok 0)])
    (P := fun rs c => decide (ConnTo c 77 4 0 ∧ ConnTo c 77 4 1 ∧ Up c 0 ∧ Up c 1)) (by decide +kernel)
  exact ⟨_, c, h1, of_decide_eq_true h3⟩

/-! ## C44: closing connections -/

/-- Slots whose connection was set up once have an initialised record. -/
def RecOK (c : SubCtx) : Prop := ∀ i, SEv.complete i ∈ c.log → i < c.cv.size ∧ c.publishers i ≠ none

theorem RecOK.app {c c' : SubCtx} (h : RecOK c) (h1 : c'.cv.size = c.cv.size) {es : List SEv} (h2 : c'.log = c.log ++ es)
    (h3 : ∀ i, SEv.complete i ∈ es → i < c.cv.size ∧ c'.publishers i ≠ none)
    (h4 : ∀ i, c.publishers i ≠ none → c'.publishers i ≠ none) : RecOK c' := by
  intro i hi
  rw [h1]
  rw [h2, List.mem_append] at hi
  rcases hi with hi | hi
  · exact ⟨(h i hi).1, h4 i (h i hi).2⟩
  · exact h3 i hi

theorem RecOK.micro {tm : Nat} {c c' : SubCtx} (m : Micro tm c c') (hc : Core c) (h : RecOK c) : RecOK c' := by
  have keep : ∀ (i : Nat) (s : SubPub) (j : Nat), c.publishers j ≠ none → (if j = i then some s else c.publishers j) ≠ none := by
    intro i s j hj
    split
    · simp
    · exact hj
  have rdy : ∀ (i : Nat) (ps : List SPkt), SEv.complete i ∉ ps.map SEv.ready := by
    intro i ps hx; obtain ⟨p, _, e⟩ := List.mem_map.1 hx; cases e
  have fre : ∀ (i : Nat) (ps : List SPkt), SEv.complete i ∉ ps.map (fun p => SEv.free p.payload.ptr p.payload.data.length (.u32 p.slot)) := by
    intro i ps hx; obtain ⟨p, _, e⟩ := List.mem_map.1 hx; cases e
  cases m with
  | user hx he => exact h.app rfl rfl (by rcases he with rfl | rfl <;> simp) (fun _ h => h)
  | cb hk => exact h.app rfl rfl (by simp) (fun _ h => h)
  | setCb f hk => exact h.app rfl (List.append_nil _).symm (by simp) (fun _ h => h)
  | annCb a => exact h.app rfl rfl (by simp) (fun _ h => h)
  | sock m es => exact h.app rfl (List.append_nil _).symm (by simp) (fun _ h => h)
  | dup hu hs hp hd hk => exact h.app rfl rfl (by simp) (fun _ h => h)
  | @recv i s hu hs pid data m ts hd al ha =>
    obtain ⟨p, hp⟩ : ∃ p, p = (⟨c.nextAddr, pid, ⟨c.nextAddr, data, false⟩, i⟩ : SPkt) := ⟨_, rfl⟩
    rw [← hp]
    refine h.app rfl (es := [.arrive i p m ts, .alloc p] ++ (process (received' s p m ts)).2.map .ready) ?_ ?_ ?_
    · unfold recvd; simp
    · intro j hj
      rw [List.mem_append] at hj
      rcases hj with hj | hj
      · simp at hj
      · exact absurd hj (rdy j _)
    · exact keep i _
  | @io i hu rb a es => exact h.app rfl (List.append_nil _).symm (by simp) (fun _ h => h)
  | @taken i s iv rest hs hi ha => exact h.app rfl rfl (by simp) (keep i _)
  | dropAck ha hs hi => exact h.app rfl (List.append_nil _).symm (by simp) (fun _ h => h)
  | @msg i hu b e xs hw hz hb he =>
    refine h.app rfl (es := [e]) rfl ?_ (fun _ h => h)
    rcases he with ⟨iv, -, rfl, -⟩ | ⟨bs, ds, rfl, -⟩ <;> simp
  | @out i hu b xs hw hz hb a es => exact h.app rfl rfl (by simp) (fun _ h => h)
  | @connect i addr port nid d L hv hL hi v hv' h1 h2 h3 h4 h5 => exact h.app h1 rfl (by simp) (fun _ h => h)
  | @noConnect L hv v hv' h1 h2 h3 h4 => exact h.app h1 (List.append_nil _).symm (by simp) (fun _ h => h)
  | @complete i hi hm =>
    refine h.app rfl (es := [.complete i]) rfl ?_ (keep i _)
    intro j hj
    simp only [List.mem_singleton, SEv.complete.injEq] at hj
    subst hj
    refine ⟨hi, ?_⟩
    show (if j = j then _ else _) ≠ none
    rw [if_pos rfl]; simp
  | @noComplete i hi hm L hv v hv' h1 h2 h3 h4 xs hx =>
    refine h.app h1 (es := xs) rfl ?_ (keep i _)
    intro j hj
    rcases hx with rfl | rfl
    · cases hj
    · simp only [List.mem_singleton, SEv.complete.injEq] at hj
      subst hj
      refine ⟨hi, ?_⟩
      show (if j = j then _ else _) ≠ none
      rw [if_pos rfl]; simp
  | @close i s hi hs =>
    have hsz : (ConnVec.close c.cv i).2.size = c.cv.size := by
      obtain ⟨L, hL⟩ := hc.v
      by_cases hi : i ∈ L
      · exact ((close_spec hL i).1 hi).2.2.1
      · rw [((close_spec hL i).2 hi).2]
    refine h.app hsz (es := [.closed i] ++ (reset s).2.map fun p => .free p.payload.ptr p.payload.data.length (.u32 p.slot)) ?_ ?_ (keep i _)
    · unfold closedAt; simp
    · intro j hj
      rw [List.mem_append] at hj
      rcases hj with hj | hj
      · simp at hj
      · exact absurd hj (fre j _)

theorem Reaches.recOK {ops : List Op} {c : SubCtx} (h : Reaches ops c) : RecOK c := by
  refine Reaches.induct (P := fun _ c => RecOK c) ?_ ?_ h
  · intro mem n nid hn i hi; cases hi
  · intro ops c op r c' hr ha hs
    have hi := hr.inv
    have go : ∀ {a b : SubCtx} {tm : Nat}, Steps tm a b → Core a → RecOK a → RecOK b := fun st ca ra =>
      (Steps.both (P := Core) (Q := RecOK) (fun _ _ m h => h.micro m) (fun _ _ m h1 h2 => h2.micro m h1) st ca ra).2
    rcases step_cases hi.core hi.mem hs with st | ⟨-, st⟩
    · exact go st hi.core ha
    · exact go st hi.core.forget ha

/-- Closing fails exactly for an index beyond the array or a publisher record never initialised. -/
theorem close_fault {ops : List Op} {c : SubCtx} (h : Reaches ops c) (i : Nat) :
    ((∃ f, step c (.close i) = .error f) ↔ i ≥ c.cv.size ∨ c.publishers i = none) ∧
    (Up c i → i < c.cv.size ∧ c.publishers i ≠ none) := by
  have hsz : (ConnVec.close c.cv i).2.size = c.cv.size := by
    obtain ⟨L, hL⟩ := h.inv.core.v
    by_cases hi : i ∈ L
    · exact ((close_spec hL i).1 hi).2.2.1
    · rw [((close_spec hL i).2 hi).2]
  constructor
  · show (∃ f, closeConnection c i = .error f) ↔ _
    unfold closeConnection
    dsimp only
    rw [hsz]
    by_cases hi : i ≥ c.cv.size
    · rw [if_pos hi]; exact ⟨fun _ => .inl hi, fun _ => ⟨_, rfl⟩⟩
    · rw [if_neg hi]
      unfold getPub
      cases hp : c.publishers i with
      | none =>
        exact ⟨fun _ => .inr rfl, fun _ => ⟨_, rfl⟩⟩
      | some s =>
        refine ⟨?_, ?_⟩
        · rintro ⟨f, hf⟩; cases hf
        · rintro (e | e)
          · exact absurd e hi
          · cases e
  · intro hu
    refine ⟨hu.1, ?_⟩
    obtain ⟨s, hs, -⟩ := h.inv.hist i hu
    rw [hs]; simp

/-- C44: closing a slot whose connection has ever been set up succeeds, whatever its state now; the connection is gone then. -/
theorem C44_close_partial {ops : List Op} {c : SubCtx} (h : Reaches ops c) {i : Nat} (hi : .complete i ∈ c.log) :
    ∃ c', step c (.close i) = .ok (0, c') ∧ ¬ Live c' i := by
  obtain ⟨h1, h2⟩ := h.recOK i hi
  obtain ⟨s, hs⟩ : ∃ s, c.publishers i = some s := Option.ne_none_iff_exists'.1 h2
  have hcl : step c (.close i) = .ok (0, closedAt c i s) := by
    show closeConnection c i = _
    have hsz : (ConnVec.close c.cv i).2.size = c.cv.size := by
      obtain ⟨L, hL⟩ := h.inv.core.v
      by_cases hi : i ∈ L
      · exact ((close_spec hL i).1 hi).2.2.1
      · rw [((close_spec hL i).2 hi).2]
    unfold closeConnection
    dsimp only
    rw [hsz, if_neg (by omega)]
    unfold getPub
    dsimp only
    rw [hs]
    rfl
  refine ⟨_, hcl, ?_⟩
  intro hl
  have := closedAt_find h.inv.core (s := s) (.inl (rfl : i = i))
  unfold findByIndex at this
  rw [if_neg (by have := hl.1; omega), if_neg hl.2] at this
  cases this

theorem closeAll_fault : ∀ (l : List Nat) {c : SubCtx}, Core c →
    ((∃ f, closeAll c l = .error f) ↔ ∃ i ∈ l, findByIndex c.cv i ≠ none ∧ c.publishers i = none) := by
  intro l
  induction l with
  | nil => intro c hc; constructor
           · rintro ⟨f, hf⟩; cases hf
           · rintro ⟨i, hi, -⟩; cases hi
  | cons k l ih =>
    intro c hc
    unfold closeAll
    by_cases hk : findByIndex c.cv k = none
    · rw [if_pos hk, ih hc]
      constructor
      · rintro ⟨i, h1, h2⟩; exact ⟨i, List.mem_cons_of_mem _ h1, h2⟩
      · rintro ⟨i, h1, h2⟩
        rcases List.mem_cons.1 h1 with rfl | h1
        · exact absurd hk h2.1
        · exact ⟨i, h1, h2⟩
    · rw [if_neg hk]
      have hlt : k < c.cv.size := by
        obtain ⟨L, hL⟩ := hc.v
        rw [findByIndex_spec hL] at hk
        split at hk
        · rename_i hx; exact hL.lt k hx
        · exact absurd rfl hk
      have hsz : (ConnVec.close c.cv k).2.size = c.cv.size := by
        obtain ⟨L, hL⟩ := hc.v
        by_cases hi : k ∈ L
        · exact ((close_spec hL k).1 hi).2.2.1
        · rw [((close_spec hL k).2 hi).2]
      cases hp : c.publishers k with
      | none =>
        refine ⟨fun _ => ⟨k, by simp, hk, hp⟩, fun _ => ⟨.uninit, ?_⟩⟩
        have : closeConnection c k = .error .uninit := by
          unfold closeConnection
          dsimp only
          rw [hsz, if_neg (by omega)]
          unfold getPub
          dsimp only
          rw [hp]
          rfl
        rw [this]; rfl
      | some s =>
        have : closeConnection c k = .ok (0, closedAt c k s) := by
          unfold closeConnection
          dsimp only
          rw [hsz, if_neg (by omega)]
          unfold getPub
          dsimp only
          rw [hp]
          rfl
        rw [this, Proto.ok_bind, ih (hc.micro (Micro.close (tm := 0) hlt hp (by omega)))]
        have hpub : ∀ i, (closedAt c k s).publishers i = none ↔ i ≠ k ∧ c.publishers i = none := by
          intro i
          show (if i = k then _ else c.publishers i) = none ↔ _
          by_cases e : i = k
          · rw [if_pos e]; simp [e]
          · rw [if_neg e]; simp [e]
        have hfi : ∀ i, i ≠ k → findByIndex (closedAt c k s).cv i = findByIndex c.cv i := by
          intro i hi
          show findByIndex (ConnVec.close c.cv k).2 i = _
          unfold findByIndex
          rw [hsz, close_conn hc hi]
        constructor
        · rintro ⟨i, h1, h2, h3⟩
          obtain ⟨h4, h5⟩ := (hpub i).1 h3
          exact ⟨i, List.mem_cons_of_mem _ h1, by rw [← hfi i h4]; exact h2, h5⟩
        · rintro ⟨i, h1, h2, h3⟩
          have hne : i ≠ k := by rintro rfl; rw [hp] at h3; cases h3
          rcases List.mem_cons.1 h1 with rfl | h1
          · exact absurd rfl hne
          · exact ⟨i, h1, by rw [hfi i hne]; exact h2, (hpub i).2 ⟨hne, h3⟩⟩

/-- C44: deactivation fails exactly if there is a connection, necessarily one being set up, in a slot whose record has never been
initialised. -/
theorem C44_deactivate_partial {ops : List Op} {c : SubCtx} (h : Reaches ops c) :
    ((∃ f, step c .deactivate = .error f) ↔ ∃ i, Live c i ∧ c.publishers i = none) ∧
    (∀ i, Live c i → c.publishers i = none → (c.cv.conns i).mode = .connecting ∧ .complete i ∉ c.log) := by
  have hc := h.inv.core
  obtain ⟨L, hL⟩ := hc.v
  constructor
  · show (∃ f, deactivate c = .error f) ↔ _
    unfold deactivate
    dsimp only
    rw [popReady_eq _ _ h.inv.mem.rdyAddr]
    obtain ⟨d, hd⟩ : ∃ d, d = ({ forget c with
      mcast := none, cv := ((forget c).cv.fdAll [.closed c.mcast]).poll (.remove MULTICAST_INDEX c.mcast) } : SubCtx) := ⟨_, rfl⟩
    have hcd : Core d := by
      rw [hd]
      exact hc.forget.micro (Micro.unsock (tm := 0) (c := forget c))
    have key := closeAll_fault (List.range (c.cv.maxInd + 1)) hcd
    have e2 : (∃ i ∈ List.range (c.cv.maxInd + 1), findByIndex d.cv i ≠ none ∧ d.publishers i = none) ↔
        ∃ i, Live c i ∧ c.publishers i = none := by
      have e3 : ∀ i, findByIndex d.cv i = findByIndex c.cv i := by intro i; rw [hd]; rfl
      have e4 : d.publishers = c.publishers := by rw [hd]; rfl
      constructor
      · rintro ⟨i, h1, h2, h3⟩
        rw [e3, findByIndex_spec hL] at h2
        rw [e4] at h3
        refine ⟨i, (live_iff hL i).2 ?_, h3⟩
        by_cases hi : i ∈ L
        · exact hi
        · rw [if_neg hi] at h2; exact absurd rfl h2
      · rintro ⟨i, h1, h2⟩
        have hi := (live_iff hL i).1 h1
        refine ⟨i, ?_, ?_, by rw [e4]; exact h2⟩
        · have := (hL.maxLe i hi).1
          rw [List.mem_range]; omega
        · rw [e3, findByIndex_spec hL, if_pos hi]; simp
    rw [← e2, ← key, hd]
    cases hx : closeAll ({ forget c with
      mcast := none, cv := ((forget c).cv.fdAll [.closed c.mcast]).poll (.remove MULTICAST_INDEX c.mcast) } : SubCtx)
        (List.range (c.cv.maxInd + 1)) with
    | error f =>
      refine ⟨fun _ => ⟨f, rfl⟩, fun _ => ⟨f, ?_⟩⟩
      have hx' := hx
      unfold forget at hx'
      dsimp only at hx'
      show (Except.bind _ _ : M _) = _
      erw [hx']
      rfl
    | ok y =>
      constructor
      · rintro ⟨f, hf⟩
        exfalso
        have hx' := hx
        unfold forget at hx'
        dsimp only at hx'
        erw [hx'] at hf
        cases hf
      · rintro ⟨f, hf⟩; cases hf
  · intro i hl hp
    constructor
    · rcases mode_cases hL ((live_iff hL i).1 hl) with e | e
      · exact e
      · obtain ⟨s, hs, -⟩ := h.inv.hist i ⟨hl.1, e⟩
        rw [hs] at hp; cases hp
    · intro hx
      exact (h.recOK i hx).2 hp

/-- The hypothesis of C44_close_partial holds of a slot that is being reused: a connection was set up and closed, and a new one
is being set up. -/
example : ∃ c rs, Reaches (exUp ++ [.close 0, .readMcast [exDg 5 0 [] 6]]) c ∧
    run exS0 (exUp ++ [.close 0, .readMcast [exDg 5 0 [] 6]]) = .ok (rs, c) ∧
    decide (.complete 0 ∈ c.log ∧ (c.cv.conns 0).mode = .connecting ∧ ConnTo c 77 5 0 ∧
      afterStep c .deactivate (fun r _ => decide (r = 0)) = true) = true :=
  reaches_of (P := fun rs c => decide _) (by decide +kernel)

/-- C44, what is missing: closing a connection that is being set up, or deactivating the context then, uses a record never
initialised. -/
theorem C44_false : ∃ ops c, Reaches ops c ∧ Live c 0 ∧ (∃ f, step c (.close 0) = .error f) ∧ (∃ f, step c .deactivate = .error f) := by
  obtain ⟨c, rs, h1, h2, h3⟩ := reaches_of (ops := [.activate (.ok 3), Op.readMcast [exDg 4 0 [] 1]])
    (P := fun rs c => decide (Live c 0 ∧ c.publishers 0 = none)) (by decide +kernel)
  obtain ⟨g1, g2⟩ := of_decide_eq_true h3
  exact ⟨_, c, h1, g1, (close_fault h1 0).1.2 (.inr g2), (C44_deactivate_partial h1).1.2 ⟨0, g1, g2⟩⟩

end SubCtx
end Rmc
