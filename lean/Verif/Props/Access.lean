import Verif.Access
import Verif.Props.PubCtxMisc
import Verif.Props.PubCtxCb
import Verif.Props.Settings
import Verif.Props.SubCtxUser

/-!
# C77: what the accessors tell
-/

set_option linter.unusedSimpArgs false

namespace Rmc

namespace PubCtx
open CircBuf ConnVec PLog

/-- Specification: what a call does to being active: the last call of `rmc_pub_activate_context` or `rmc_pub_deactivate_context`
decides. -/
def activeAfter (b : Bool) : Op → Bool
  | .activate (.ok _) => true
  | .activate (.error _ _) => false
  | .deactivate => false
  | _ => b

/-- Specification: is the context active after these calls? -/
def activeBy (ops : List Op) : Bool := ops.foldl activeAfter false

theorem step_active {c c' : PubCtx} {pops : List POp} {L : List Nat} {op : Op} {r : Nat} (h : Good c pops L) (hs : op.sane)
    (hb : (queueArgs pops).length + 2 < U64) (hx : step c op = .ok (r, c')) :
    c'.mcast.isSome = activeAfter c.mcast.isSome op := by
  have same : ∀ {d : PubCtx}, cfg d = cfg c → d.mcast.isSome = c.mcast.isSome := fun {d} e => by
    rw [show d.mcast = c.mcast from congrArg Cfg.mcast e]
  cases op with
  | queue p ann =>
    have hx' : queuePacket c p ann = .ok (r, c') := hx
    rcases queue_cases h p ann hb with ⟨_, e⟩ | ⟨_, _, e⟩ | ⟨_, _, s', h1, h2, h3, e⟩ <;> rw [e] at hx' <;> cases hx' <;>
      exact same rfl
  | readListen ar cb =>
    obtain ⟨r', c'', ys, L', ds, g1, g2, g3, _, g4, g5, _⟩ := readListen_spec h hs cb
    have : step c (.readListen ar cb) = .ok (r', c'') := g1
    rw [this] at hx; cases hx; exact same g3
  | readMcast err =>
    have hx' : readMcast c err = (r, c') := Except.ok.inj hx
    unfold readMcast at hx'
    split at hx'
    · cases hx'; exact same rfl
    · split at hx' <;> cases hx' <;> exact same rfl
  | read i rv =>
    rcases readConn_spec h hx with ⟨_, _, e⟩ | ⟨_, c1, ys, zs, ds, L', hst, hy, g, hcf, _⟩
    · subst e; exact same rfl
    · exact same hcf
  | writeMcast rs =>
    obtain ⟨r', c'', ys, es, ds, g1, g2, g3, _⟩ := multicastWrite_spec rs h
    have : step c (.writeMcast rs) = .ok (r', c'') := g1
    rw [this] at hx; cases hx; exact same g3
  | write i wv =>
    have hx' : writeConn c i wv = .ok (r, c') := hx
    rcases writeConn_spec h i wv with ⟨_, e | e⟩ | ⟨_, _, e⟩ | ⟨_, _, r', c'', out, e, g, g3, _, _, g2, _⟩ <;> rw [e] at hx' <;>
      cases hx'
    · exact same rfl
    · exact same rfl
    · exact same rfl
    · exact same g3
  | timeout now cb sp =>
    have hx' : timeoutProcess c now cb sp = .ok (r, c') := hx
    by_cases hd : annDue c now
    · have key : ∀ x, timeoutProcess c now cb sp = .ok x →
          x.2.nodeId = c.nodeId ∧ x.2.listenIp = c.listenIp ∧ x.2.listenPort = c.listenPort ∧ x.2.mcast = c.mcast := by
        intro x hx
        unfold timeoutProcess at hx
        rw [if_pos ⟨hd.1, hd.2.1, by have := hd.2.2; omega⟩] at hx
        dsimp only at hx
        split at hx
        · have h' : Good (ev c (.announce now c.annInterval)) pops L := h.congr rfl rfl
          rcases queue_cases h' ⟨sp, (annAnswer cb).2, true⟩ true hb with ⟨_, e⟩ | ⟨_, _, e⟩ | ⟨_, _, s', _, _, _, e⟩ <;>
            rw [e, Pub.ok_bind] at hx <;> cases hx <;> exact ⟨rfl, rfl, rfl, rfl⟩
        · rw [Pub.ok_bind] at hx; cases hx; exact ⟨rfl, rfl, rfl, rfl⟩
      obtain ⟨k1, k2, k3, k4⟩ := key _ hx'
      exact congrArg Option.isSome k4
    · have ht := timeout_resend h hd hx'
      obtain ⟨_, ys, g1, g2, g3, _⟩ := subscribersTimeout_spec _ ((subs_nodup h).filter _)
        (fun k hk => (h.slots k).2 (List.mem_filter.mp hk).1) h ht
      exact same g2.cfg
  | close i =>
    have hx' : closeConnection c i = .ok (r, c') := hx
    by_cases hi : i ∈ L
    · obtain ⟨c'', e, g, g3, _, g2, _⟩ := close_spec h hi
      rw [e] at hx'; cases hx'; exact same g3
    · rw [close_none h hi] at hx'; cases hx'
      exact same rfl
  | setAnnounce n now => cases hx; rfl
  | throttling a b =>
    have hx' : throttling c a b = (r, c') := Except.ok.inj hx
    unfold throttling at hx'
    split at hx' <;> cases hx' <;> rfl
  | setCtlCb b => cases hx; rfl
  | activate x =>
    have hx' : activate c x = (r, c') := Except.ok.inj hx
    unfold activate at hx'
    split at hx' <;> cases hx' <;> rfl
  | deactivate =>
    obtain ⟨c'', ys, ds, e, g, _, hd, hd2, hy, g2, _⟩ := deactivate_spec h
    have hx' : deactivate c = .ok (r, c') := hx
    rw [e] at hx'; cases hx'
    show c'.mcast.isSome = _
    rw [show c'.mcast = none from congrArg Cfg.mcast g2]; rfl

/-- C77: the node id and the greatest number of subscribers are those given to `rmc_pub_init_context`, whatever is called afterwards; the queue
length counts exactly the packets and announcements queued that have not been multicast; there are never more subscribers than
the greatest number; the TTL can be set exactly while the context is active. -/
theorem C77_publisher {mem : Nat → Conn} {n nid ip port : Nat} {ops : List Op} {rs : List Nat} {c : PubCtx} (hn : n ≤ LISTEN_INDEX)
    (hs : ∀ op ∈ ops, op.sane) (hb : ops.length + 1 < U64) (h : run (init mem n nid ip port) ops = .ok (rs, c)) :
    getNodeId c = nid ∧ maxSubscriberCount c = n ∧ subscriberCount c ≤ n ∧
    queueLength c + (sentAll c.pub.log).length = (queuedPkts c.pub.log).length + (queuedAnn c.pub.log).length ∧
    (∀ r, setTtl c r = if activeBy ops then r else ENOTCONN) := by
  have hr : Reaches ops c := ⟨mem, n, nid, ip, port, rs, hn, hs, hb, h⟩
  obtain ⟨pops, L, g, _⟩ := hr.good
  have key : ∀ (ops : List Op) {c c' : PubCtx} {rs : List Nat} {pops : List POp} {L : List Nat}, Good c pops L → (∀ op ∈ ops, op.sane) →
      (queueArgs pops).length + ops.length + 1 < U64 → run c ops = .ok (rs, c') → c'.nodeId = c.nodeId ∧ c'.cv.size = c.cv.size := by
    intro ops
    induction ops with
    | nil => intro c c' rs pops L _ _ _ hx; cases hx; exact ⟨rfl, rfl⟩
    | cons op ops ih =>
      intro c c' rs pops L g hs hb hx
      rw [run_cons] at hx
      obtain ⟨⟨r, c1⟩, h1, hx⟩ := bind_ok hx
      obtain ⟨⟨rs', c2⟩, h2, hx⟩ := bind_ok hx
      cases hx
      simp only [List.length_cons] at hb
      obtain ⟨ys, L', g1, g2, _⟩ := run_good [op] (rs := [r]) (c' := c1) g (by simpa using hs op (by simp)) (by simp; omega) (by
        rw [run_cons, h1]; rfl)
      have hl : (queueArgs (pops ++ ys)).length ≤ (queueArgs pops).length + 1 := by
        have : queueArgs (pops ++ ys) = queueArgs pops ++ queueArgs ys := List.filterMap_append ..
        rw [this, List.length_append]; simp at g2; omega
      obtain ⟨i1, i2⟩ := ih g1 (fun o ho => hs o (by simp [ho])) (by omega) h2
      obtain ⟨j1, _⟩ := step_ids g (hs op (by simp)) (by omega) h1
      obtain ⟨_, _, _, _, j2, _⟩ := step_bal (q := false) (hs op (by simp)) (fun h => by cases h) h1
      exact ⟨i1.trans j1, i2.trans j2⟩
  obtain ⟨k1, k2⟩ := key ops (Good.init mem hn nid ip port) hs (by simpa [queueArgs] using hb) h
  refine ⟨k1, k2, ?_, queueSize_log g, fun r => ?_⟩
  · rw [(C56_publisher hr).1, ← show c.cv.size = n from k2]
    exact Nat.le_trans (List.countP_le_length ..) (by rw [List.length_range]; exact Nat.le_refl _)
  · have ha : c.mcast.isSome = activeBy ops := by
      refine Reaches.induct (P := fun ops c => c.mcast.isSome = activeBy ops) ?_ ?_ hr
      · intro mem n nid ip port hn; rfl
      · intro ops c op r c' hr ha hs hb hx
        obtain ⟨pops, L, g, hq, _⟩ := hr.good
        rw [step_active g hs (by omega) hx, ha]
        unfold activeBy
        rw [List.foldl_append]; rfl
    rw [← ha]
    unfold setTtl
    cases c.mcast <;> rfl

/-- Non-vacuity: a subscriber has connected, three packets have been multicast and one is still queued; the TTL can be set. -/
example : ∃ c rs, Reaches (exPre ++ [.queue ⟨8, [1, 2, 3], false⟩ false]) c ∧ run exC0 (exPre ++ [.queue ⟨8, [1, 2, 3], false⟩ false]) = .ok (rs, c) ∧
    decide (queueLength c = 1 ∧ (sentAll c.pub.log).length = 3 ∧ subscriberCount c = c.pub.subs.length ∧ 0 < subscriberCount c ∧ maxSubscriberCount c = 2 ∧ setTtl c 0 = 0) = true :=
  reaches_of (P := fun rs c => decide _) (by
    intro op hop
    rcases List.mem_append.1 hop with hop | hop
    · exact exPre_sane op hop
    · simp at hop; subst hop; trivial) (by decide +kernel) (by decide +kernel)

end PubCtx

namespace SubCtx
open SubPub CircBuf ConnVec

/-- What never changes, and where packets come from. -/
structure AccOK (nid n : Nat) (c : SubCtx) : Prop where
  nid : c.nodeId = nid
  size : c.cv.size = n
  born : ∀ p, .alloc p ∈ c.log → ∃ m ts, .arrive p.slot p m ts ∈ c.log

theorem AccOK.up {nid n : Nat} {c c' : SubCtx} (h : AccOK nid n c) (h1 : c'.nodeId = c.nodeId) (h2 : c'.cv.size = c.cv.size) {es : List SEv}
    (hl : c'.log = c.log ++ es) (he : ∀ p, .alloc p ∈ es → ∃ m ts, .arrive p.slot p m ts ∈ es) : AccOK nid n c' := by
  refine ⟨h1.trans h.nid, h2.trans h.size, ?_⟩
  intro p hp
  rw [hl, List.mem_append] at hp
  rcases hp with hp | hp
  · obtain ⟨m, ts, x⟩ := h.born p hp
    exact ⟨m, ts, by rw [hl]; exact List.mem_append_left _ x⟩
  · obtain ⟨m, ts, x⟩ := he p hp
    exact ⟨m, ts, by rw [hl]; exact List.mem_append_right _ x⟩

theorem AccOK.same {nid n : Nat} {c c' : SubCtx} (h : AccOK nid n c) (h1 : c'.nodeId = c.nodeId) (h2 : c'.cv.size = c.cv.size)
    (hl : c'.log = c.log) : AccOK nid n c' := h.up h1 h2 (es := []) (by rw [hl, List.append_nil]) (by simp)

theorem AccOK.micro {nid n tm : Nat} {c c' : SubCtx} (m : Micro tm c c') (hc : Core c) (h : AccOK nid n c) : AccOK nid n c' := by
  cases m with
  | user hx he => refine h.up rfl rfl rfl ?_; rcases he with rfl | rfl <;> simp
  | cb hk => exact h.up rfl rfl rfl (by simp)
  | setCb f hk => exact h.same rfl rfl rfl
  | annCb a => exact h.up rfl rfl rfl (by simp)
  | sock m es => exact h.same rfl rfl rfl
  | dup hu hs hp hd hk => exact h.up rfl rfl rfl (by simp)
  | @recv i t hu hs pid data m ts hd al ha =>
    refine h.up (es := [.arrive i ⟨c.nextAddr, pid, ⟨c.nextAddr, data, false⟩, i⟩ m ts] ++ [.alloc ⟨c.nextAddr, pid, ⟨c.nextAddr, data, false⟩, i⟩] ++
      (process (received' t ⟨c.nextAddr, pid, ⟨c.nextAddr, data, false⟩, i⟩ m ts)).2.map .ready) rfl rfl (by unfold recvd; simp) ?_
    intro p hp
    simp at hp
    subst hp
    exact ⟨m, ts, by simp⟩
  | io hu rb a es => exact h.same rfl rfl rfl
  | taken hs hi ha => exact h.up rfl rfl rfl (by simp)
  | dropAck ha hs hi => exact h.same rfl rfl rfl
  | msg hu hw hz hb he =>
    refine h.up rfl rfl rfl ?_
    intro p hp
    rw [List.mem_singleton] at hp
    rcases he with ⟨iv, -, he, -⟩ | ⟨bs, ds, he, -⟩ <;> rw [he] at hp <;> cases hp
  | out hu hw hz hb a es => exact h.up rfl rfl rfl (by simp)
  | connect addr port nid d hv hL hi hv' h1 h2 h3 h4 h5 => exact h.up rfl h1 rfl (by simp)
  | noConnect hv hv' h1 h2 h3 h4 => exact h.same rfl h1 rfl
  | complete hi hm => exact h.up rfl rfl rfl (by simp)
  | noComplete hi hm hv hv' h1 h2 h3 h4 hx =>
    refine h.up rfl h1 rfl ?_
    rcases hx with rfl | rfl <;> simp
  | @close i t hi hs =>
    refine h.up rfl ?_ (es := [.closed i] ++ (reset t).2.map fun p => .free p.payload.ptr p.payload.data.length (.u32 p.slot)) (by
      unfold closedAt; simp) (by simp)
    obtain ⟨L, hL⟩ := hc.v
    by_cases hiL : i ∈ L
    · exact ((close_spec hL i).1 hiL).2.2.1
    · show (ConnVec.close c.cv i).2.size = _
      rw [((close_spec hL i).2 hiL).2]

/-- C77 for the subscriber: the node id and the greatest number of publishers are those given to `rmc_sub_init_context`, whatever is called
afterwards; there are never more publishers than the greatest number; for a packet available to the application, the index is that of the connection it
arrived on, and the payload and its length are those of what arrived, at the address payload_alloc returned for it. -/
theorem C77_subscriber {mem : Nat → Conn} {n nid : Nat} {ops : List Op} {rs : List Nat} {c : SubCtx} (hn : n ≤ LISTEN_INDEX)
    (h : run (init mem n nid) ops = .ok (rs, c)) :
    getNodeId c = nid ∧ maxPublisherCount c = n ∧ publisherCount c ≤ n ∧
    ∀ p ∈ c.ready, .alloc p ∈ c.log ∧
      ∃ q m ts, .arrive (packetIndex p) q m ts ∈ c.log ∧ q.pid = p.pid ∧ packetPayloadLen p = q.payload.data.length ∧ packetPayload p = q.payload.ptr := by
  have hr : Reaches ops c := ⟨rs, mem, n, nid, hn, h⟩
  have key : ∀ (ops : List Op) (c c' : SubCtx) (rs : List Nat), Inv c → AccOK nid n c → run c ops = .ok (rs, c') → AccOK nid n c' := by
    intro ops
    induction ops with
    | nil => intro c c' rs _ ha hx; cases hx; exact ha
    | cons op ops ih =>
      intro c c' rs hi ha hx
      rw [run] at hx
      obtain ⟨⟨r, c1⟩, h1, hx⟩ := bind_ok hx
      obtain ⟨⟨rs', c2⟩, h2, hx⟩ := bind_ok hx
      cases hx
      have go : ∀ {a b : SubCtx} {tm : Nat}, Steps tm a b → Inv a → AccOK nid n a → AccOK nid n b := fun st ia ua =>
        (Steps.both (P := Core) (Q := AccOK nid n) (fun _ _ m h => h.micro m) (fun _ _ m h1 h2 => h2.micro m h1) st ia.core ua).2
      refine ih c1 _ _ (hi.step h1) ?_ h2
      · rcases step_cases hi.core hi.mem h1 with st | ⟨_, st⟩
        · exact go st hi ha
        · exact go st hi.forget ⟨ha.nid, ha.size, ha.born⟩
  have hk := key ops _ _ _ (Inv_init mem n nid hn) ⟨rfl, rfl, by intro p hp; cases hp⟩ h
  refine ⟨hk.nid, hk.size, ?_, ?_⟩
  · rw [(C56_subscriber hr).1, ← hk.size]
    exact Nat.le_trans (List.countP_le_length ..) (by rw [List.length_range]; exact Nat.le_refl _)
  · intro p hp
    have ha := mem_born.1 (hr.useOK.born p (hr.useOK.rdy p hp))
    obtain ⟨m, ts, hx⟩ := hk.born p ha
    exact ⟨ha, p, m, ts, hx, rfl, rfl, rfl⟩

/-- Packet 5 of the publisher on port 4 is available; its connection (slot 0) is closed, and the publisher on port 6 gets the slot. -/
def exReused : List Op :=
  exUp ++ [.readMcast [exDg 4 5 [50, 51] 1000], .close 0, .readMcast [exDg 6 0 [] 2000], .write 0 (.ok 0) none (.ok 0)]

/-- C77_subscriber is about something: a packet of length 2 is available, with index 0. -/
example : ∃ c rs, Reaches (exReused.take 4) c ∧ run exS0 (exReused.take 4) = .ok (rs, c) ∧
    decide (c.ready.map packetIndex = [0] ∧ c.ready.map packetPayloadLen = [2] ∧ maxPublisherCount c = 2 ∧ publisherCount c = 1 ∧ getNodeId c = 9) = true :=
  reaches_of (P := fun rs c => decide _) (by decide +kernel)

end SubCtx
end Rmc
