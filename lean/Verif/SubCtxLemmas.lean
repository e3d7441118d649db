import Verif.SubCtx
import Verif.Polls
import Verif.Fds
import Verif.ConnLemmas
import Verif.PubCtxRun
import Verif.Props.Sub
import Verif.Props.Proto

/-!
# Lemmas about the subscriber context

Every API call is a sequence of small steps (`Micro`); invariants are proved for the small steps.
-/

set_option linter.unusedSimpArgs false
set_option linter.unusedVariables false

namespace Rmc
namespace SubCtx
variable {tm : Nat}
open SubPub CircBuf

/-- The connection in slot `i` is set up: there is a subscription. -/
def Up (c : SubCtx) (i : Nat) : Prop := i < c.cv.size ∧ (c.cv.conns i).mode = .connected

instance (c : SubCtx) (i : Nat) : Decidable (Up c i) := by unfold Up; infer_instance

/-- The bytes of an acknowledgement on the wire. -/
def ackFrame (first last : Nat) : List UInt8 := CMD_ACK_INTERVAL :: AckInterval.enc ⟨first, last⟩

/-- The bytes of a control message on the wire. -/
def ctlFrame (n : Nat) (ds : List UInt8) : List UInt8 := CMD_CONTROL_MESSAGE :: (ctlEnc n ++ ds)

/-! ## What the log says about the current subscription in a slot -/

/-- What has happened since the subscription in a slot was completed: what reached the publisher record, the packets
made ready, the intervals taken off, the acknowledgements and all messages put on the connection, the bytes that left. -/
structure Sess where
  ops : List SubPub.Op
  ready : List SPkt
  taken : List Intv
  acks : List (Nat × Nat)
  msgs : List (List UInt8)
  out : List UInt8

def Sess.new : Sess := ⟨[], [], [], [], [], []⟩

/-- One event of the log. -/
def Sess.step (i : Nat) (s : Sess) : SEv → Sess
  | .complete j => if j = i then Sess.new else s
  | .arrive j p m ts => if j = i then { s with ops := s.ops ++ [.arrive p m ts] } else s
  | .ready p => if p.slot = i then { s with ready := s.ready ++ [p] } else s
  | .taken j iv => if j = i then { s with ops := s.ops ++ [.popIv], taken := s.taken ++ [iv] } else s
  | .ack j a b => if j = i then { s with acks := s.acks ++ [(a, b)], msgs := s.msgs ++ [ackFrame a b] } else s
  | .ctl j bs ds => if j = i then { s with msgs := s.msgs ++ [ctlFrame bs.length ds] } else s
  | .tcpOut j bs => if j = i then { s with out := s.out ++ bs } else s
  | _ => s

/-- What the log says about the current subscription in slot `i`. -/
def sess (i : Nat) (log : List SEv) : Sess := log.foldl (Sess.step i) Sess.new

theorem sess_append (i : Nat) (xs ys : List SEv) : sess i (xs ++ ys) = ys.foldl (Sess.step i) (sess i xs) := by
  unfold sess; rw [List.foldl_append]

theorem sess_snoc (i : Nat) (xs : List SEv) (e : SEv) : sess i (xs ++ [e]) = Sess.step i (sess i xs) e := by
  rw [sess_append]; rfl

theorem foldl_ready (i : Nat) : ∀ (ps : List SPkt) (s : Sess), (∀ p ∈ ps, p.slot = i) →
    (ps.map SEv.ready).foldl (Sess.step i) s = { s with ready := s.ready ++ ps } := by
  intro ps
  induction ps with
  | nil => intro s _; simp
  | cons p ps ih =>
    intro s h
    rw [List.map_cons, List.foldl_cons, ih _ (fun q hq => h q (by simp [hq]))]
    simp [Sess.step, h p (by simp)]

theorem foldl_ready_other (i : Nat) : ∀ (ps : List SPkt) (s : Sess), (∀ p ∈ ps, p.slot ≠ i) →
    (ps.map SEv.ready).foldl (Sess.step i) s = s := by
  intro ps
  induction ps with
  | nil => intro s _; rfl
  | cons p ps ih =>
    intro s h
    rw [List.map_cons, List.foldl_cons, ih _ (fun q hq => h q (by simp [hq]))]
    simp [Sess.step, h p (by simp)]

theorem foldl_free (i : Nat) : ∀ (ps : List SPkt) (s : Sess),
    (ps.map fun p => SEv.free p.payload.ptr p.payload.data.length (.u32 p.slot)).foldl (Sess.step i) s = s := by
  intro ps
  induction ps with
  | nil => intro s; rfl
  | cons p ps ih => intro s; rw [List.map_cons, List.foldl_cons]; exact ih _

/-! ## Small steps -/

/-- The state after packet `p` was recorded for slot `i` with record `s`; `al` is the new acknowledgement list. -/
def recvd (c : SubCtx) (i : Nat) (s : SubPub) (p : SPkt) (m : Bool) (ts : Int) (al : List Nat) : SubCtx :=
  { c with
    log := c.log ++ [.arrive i p m ts] ++ [.alloc p] ++ (process (received' s p m ts)).2.map .ready,
    nextAddr := c.nextAddr + 1,
    ackList := al,
    publishers := fun j => if j = i then some (process (received' s p m ts)).1 else c.publishers j,
    ready := c.ready ++ (process (received' s p m ts)).2 }

/-- The state after `rmc_sub_close_connection` on slot `i` with record `s`. -/
def closedAt (c : SubCtx) (i : Nat) (s : SubPub) : SubCtx :=
  { c with
    cv := (ConnVec.close c.cv i).2,
    publishers := fun j => if j = i then some (reset s).1 else c.publishers j,
    log := c.log ++ [.closed i] ++ (reset s).2.map fun p => .free p.payload.ptr p.payload.data.length (.u32 p.slot) }

/-- The acknowledgement list after a packet arrived for slot `i` with record `s`. -/
def AckNoted (c : SubCtx) (i : Nat) (s : SubPub) (m : Bool) (al : List Nat) : Prop :=
  (al = c.ackList ∧ (m = true → oldest s ≠ 0)) ∨
  (m = true ∧ oldest s = 0 ∧ ∃ l, insertAckRev c i 0 c.ackList.reverse = .ok l ∧ al = l.reverse)

/-- What happens at the multicast socket: nothing is told to the event loop, and it stays as it is or is opened without success; it is modified; it is
added; it is removed. -/
def SockEv (tm : Nat) (o m : Option Nat) (es : List PollEv) : Prop :=
  (es = [] ∧ (m = o ∨ (o = none ∧ tm = 0))) ∨ (m = o ∧ es = [.modify MULTICAST_INDEX o .R .R]) ∨
  (o = none ∧ ∃ d, m = some d ∧ es = [.add MULTICAST_INDEX (some d) .R]) ∨ (m = none ∧ es = [.remove MULTICAST_INDEX o])

theorem SockEv.idx {tm : Nat} {o m : Option Nat} {es : List PollEv} (h : SockEv tm o m es) : ∀ e ∈ es, e.idx = MULTICAST_INDEX := by
  rcases h with ⟨rfl, _⟩ | ⟨_, rfl⟩ | ⟨_, d, _, rfl⟩ | ⟨_, rfl⟩ <;> simp [PollEv.idx]


/-- The small steps; `tm` says whether intervals may be taken off. -/
inductive Micro (tm : Nat) : SubCtx → SubCtx → Prop
  /-- a packet is marked dispatched -/
  | user {c : SubCtx} {a : Nat} {p : SPkt} {ps : List SPkt} (h : takeReady a c.ready = some (p, ps)) {e : SEv}
      (he : e = .free p.payload.ptr p.payload.data.length .ctx ∨ e = .keep p.payload.ptr)
      {hk : tm = 0 ∨ c.readyCb ≠ none} : Micro tm c (ev { c with ready := ps } e)
  /-- the ready callback is entered -/
  | cb {c : SubCtx} (hk : 2 ≤ tm) : Micro tm c (ev { c with cbCount := c.cbCount + 1 } .readyCb)
  /-- the ready callback is set -/
  | setCb {c : SubCtx} (f : Option (Nat → List SPkt → List UOp)) (hk : tm = 0) : Micro tm c { c with readyCb := f }
  /-- the announce callback is called -/
  | annCb {c : SubCtx} (a : Bool) : Micro tm c (ev c (.announceCb a))
  /-- the multicast socket changes -/
  | sock {c : SubCtx} (m : Option Nat) (es : List PollEv) (hes : SockEv tm c.mcast m es) {fs : List FdEv}
      (hfs : ConnVec.Ledger c.cv (one c.mcast) → ConnVec.Ledger (c.cv.fdAll fs) (one m)) :
      Micro tm c { c with mcast := m, cv := { c.cv with polls := c.cv.polls ++ es, fds := c.cv.fds ++ fs } }
  /-- a duplicate arrives -/
  | dup {c : SubCtx} {i : Nat} {s : SubPub} (hu : Up c i) (hs : c.publishers i = some s) {p : SPkt} {m : Bool} {ts : Int}
      (hp : p.slot = i) (hd : isDuplicate s p.pid = true)
      (hk : (tm = 2 ∧ m = true) ∨ (tm = 3 + i ∧ m = false)) : Micro tm c (ev c (.arrive i p m ts))
  /-- a new packet arrives -/
  | recv {c : SubCtx} {i : Nat} {s : SubPub} (hu : Up c i) (hs : c.publishers i = some s) {pid : Nat}
      {data : List UInt8} {m : Bool} {ts : Int} (hd : isDuplicate s pid = false) {al : List Nat}
      (ha : AckNoted c i s m al) (hk : (tm = 2 ∧ m = true) ∨ (tm = 3 + i ∧ m = false)) : Micro tm c (recvd c i s ⟨c.nextAddr, pid, ⟨c.nextAddr, data, false⟩, i⟩ m ts al)
  /-- a connection's read buffer or action changes -/
  | io {c : SubCtx} {i : Nat} (hu : Up c i) (rb : CircBuf) (a : Act) (es : List PollEv) (hact : a = (c.cv.conns i).action)
      (hes : es = [] ∨ ∃ d, es = [.modify i d .R .R]) (hk : tm = 3 + i) :
      Micro tm c { c with cv := { c.cv.set i { c.cv.conns i with readBuf := rb, action := a } with
                               polls := c.cv.polls ++ es } }
  /-- an interval is taken off a record -/
  | taken {c : SubCtx} {i : Nat} {s : SubPub} {iv : Intv} {rest : List Intv} (hs : c.publishers i = some s)
      (hi : s.intervals = iv :: rest) (ha : i ∈ c.ackList) (ht : tm = 1) :
      Micro tm c (ev (setPub c i { s with intervals := rest }) (.taken i iv))
  /-- the head of the acknowledgement list is dropped -/
  | dropAck {c : SubCtx} {i : Nat} {is : List Nat} (ha : c.ackList = i :: is) {s : SubPub} (hs : c.publishers i = some s)
      (hi : s.intervals = []) : Micro tm c { c with ackList := is }
  /-- a message is put on a connection -/
  | msg {c : SubCtx} {i : Nat} (hu : Up c i) {b : CircBuf} {e : SEv} {xs : List UInt8} (hw : WF b)
      (hz : b.size = (c.cv.conns i).writeBuf.size) (hb : bytes b = bytes (c.cv.conns i).writeBuf ++ xs)
      (he : (∃ iv, iv ∈ (sess i c.log).taken ∧ e = .ack i iv.first iv.last ∧ xs = ackFrame iv.first iv.last) ∨
        (∃ bs ds, e = .ctl i bs ds ∧ xs = ctlFrame bs.length ds ∧ ds.length = bs.length)) :
      Micro tm c (armWrite (ev c e) i b)
  /-- bytes leave on a connection -/
  | out {c : SubCtx} {i : Nat} (hu : Up c i) {b : CircBuf} {xs : List UInt8} (hw : WF b)
      (hz : b.size = (c.cv.conns i).writeBuf.size) (hb : xs ++ bytes b = bytes (c.cv.conns i).writeBuf) (a : Act)
      (es : List PollEv) (hact : a.w = true ↔ bytes b ≠ []) (hes : es = [.modify i (c.cv.conns i).desc (c.cv.conns i).action a])
      (hr : a.r = (c.cv.conns i).action.r) :
      Micro tm c { c with log := c.log ++ [.tcpOut i xs],
                          cv := { c.cv.set i { c.cv.conns i with writeBuf := b, action := a } with
                                  polls := c.cv.polls ++ es } }
  /-- a connection attempt starts -/
  | connect {c : SubCtx} {i : Nat} (addr port nid d : Nat) {L : List Nat} (hv : ConnVec.VInv c.cv L) (hL : i ∉ L)
      (hi : i < c.cv.size) {v : ConnVec} (hv' : ConnVec.VInv v (i :: L)) (h1 : v.size = c.cv.size)
      (h2 : v.bufSize = c.cv.bufSize) (h3 : ∀ j, j ≠ i → v.conns j = c.cv.conns j)
      (h4 : v.conns i = { c.cv.conns i with desc := some d, addr := addr, nodeId := nid, port := port,
                                            mode := .connecting, action := .W })
      (h5 : v.polls = c.cv.polls ++ [.add i (some d) .W]) (hk : tm = 2)
      (hl : (∀ k, ConnVec.Ledger c.cv k → ConnVec.Ledger v k) ∧ c.cv.fds <+: v.fds) :
      Micro tm c { c with cv := v, log := c.log ++ [.connect i addr port] }
  /-- a connection attempt fails at once -/
  | noConnect {c : SubCtx} {L : List Nat} (hv : ConnVec.VInv c.cv L) {v : ConnVec} (hv' : ConnVec.VInv v L)
      (h1 : v.size = c.cv.size) (h2 : v.bufSize = c.cv.bufSize) (h3 : v.polls = c.cv.polls)
      (h4 : ∀ j ∈ L, v.conns j = c.cv.conns j)
      (hl : (∀ k, ConnVec.Ledger c.cv k → ConnVec.Ledger v k) ∧ c.cv.fds <+: v.fds) : Micro tm c { c with cv := v }
  /-- a connection is set up -/
  | complete {c : SubCtx} {i : Nat} (hi : i < c.cv.size) (hm : (c.cv.conns i).mode = .connecting) :
      Micro tm c { c with
        publishers := fun j => if j = i then some SubPub.init else c.publishers j,
        cv := (c.cv.set i { c.cv.conns i with mode := .connected, action := .R }).poll
          (.modify i (c.cv.conns i).desc (c.cv.conns i).action .R),
        log := c.log ++ [.complete i] }
  /-- a connection cannot be set up -/
  | noComplete {c : SubCtx} {i : Nat} (hi : i < c.cv.size) (hm : (c.cv.conns i).mode = .connecting) {L : List Nat}
      (hv : ConnVec.VInv c.cv L) {v : ConnVec} (hv' : ConnVec.VInv v (L.erase i)) (h1 : v.size = c.cv.size)
      (h2 : v.bufSize = c.cv.bufSize) (h3 : ∀ j, j ≠ i → v.conns j = c.cv.conns j)
      (h4 : v.conns i = ConnVec.resetConn c.cv.bufSize (c.cv.conns i) i) {xs : List SEv} (hx : xs = [] ∨ xs = [.complete i])
      (hes : ∃ es, es ≠ [] ∧ (∀ e ∈ es, e = PollEv.remove i (c.cv.conns i).desc) ∧ v.polls = c.cv.polls ++ es) (hk : tm ≠ 2)
      (hl : (∀ k, ConnVec.Ledger c.cv k → ConnVec.Ledger v k) ∧ c.cv.fds <+: v.fds) :
      Micro tm c { c with publishers := fun j => if j = i then some SubPub.init else c.publishers j, cv := v,
                          log := c.log ++ xs }
  /-- a connection is closed -/
  | close {c : SubCtx} {i : Nat} {s : SubPub} (hi : i < c.cv.size) (hs : c.publishers i = some s) (hk : tm ≠ 2) :
      Micro tm c (closedAt c i s)

/-- Poll callbacks for the multicast socket. -/
theorem Micro.polled {c : SubCtx} (es : List PollEv) (hes : es = [.modify MULTICAST_INDEX c.mcast .R .R]) :
    Micro tm c { c with cv := { c.cv with polls := c.cv.polls ++ es } } := by
  have := Micro.sock (tm := tm) (c := c) c.mcast es (.inr (.inl ⟨rfl, hes⟩)) (fs := []) (fun h => by rw [ConnVec.fdAll_nil]; exact h)
  rw [List.append_nil] at this
  exact this

/-- The multicast socket is closed. -/
theorem Micro.unsock {c : SubCtx} : Micro tm c { c with
    mcast := none, cv := (c.cv.fdAll [.closed c.mcast]).poll (.remove MULTICAST_INDEX c.mcast) } := by
  refine Micro.sock (c := c) none [.remove MULTICAST_INDEX c.mcast] (.inr (.inr (.inr ⟨rfl, rfl⟩))) (fs := [.closed c.mcast]) fun h => ?_
  rw [ConnVec.fdAll_cons, ConnVec.fdAll_nil]
  exact h.fdClosed c.mcast fun d => by unfold one; simp

/-- Sequences of small steps. -/
inductive Steps (tm : Nat) : SubCtx → SubCtx → Prop
  | nil {c : SubCtx} : Steps tm c c
  | cons {a b c : SubCtx} : Micro tm a b → Steps tm b c → Steps tm a c

theorem Steps.trans {a b c : SubCtx} (h : Steps tm a b) (h' : Steps tm b c) : Steps tm a c := by
  induction h with
  | nil => exact h'
  | cons m _ ih => exact .cons m (ih h')

theorem Steps.one {a b : SubCtx} (h : Micro tm a b) : Steps tm a b := .cons h .nil

theorem Steps.snoc {a b c : SubCtx} (h : Steps tm a b) (h' : Micro tm b c) : Steps tm a c := h.trans (.one h')

theorem Steps.inv {P : SubCtx → Prop} (hP : ∀ a b, Micro tm a b → P a → P b) {a b : SubCtx} (h : Steps tm a b) (ha : P a) :
    P b := by
  induction h with
  | nil => exact ha
  | cons m _ ih => exact ih (hP _ _ m ha)

/-! ## Facts about one publisher record -/

theorem processLoop_stop : ∀ (l : List SPkt) (m : Nat), (SubPub.processLoop m l).2.2 = [] ∨
    ∃ p ps, (SubPub.processLoop m l).2.2 = p :: ps ∧ (SubPub.processLoop m l).1 ≠ 0 ∧
      p.pid ≠ inc64 (SubPub.processLoop m l).1 := by
  intro l
  induction l with
  | nil => intro m; left; rfl
  | cons p ps ih =>
    intro m
    unfold SubPub.processLoop
    split
    · rename_i h; right; exact ⟨p, ps, rfl, h.1, h.2⟩
    · exact ih _

/-- Nothing in the record is ready to be moved. -/
def Settled (s : SubPub) : Prop := process s = (s, [])

theorem settled_of {s : SubPub} (h : s.received = [] ∨ ∃ p ps, s.received = p :: ps ∧ s.maxReady ≠ 0 ∧
    p.pid ≠ inc64 s.maxReady) : Settled s := by
  obtain ⟨a, b, l, d⟩ := s
  unfold Settled process
  rcases h with h | ⟨p, ps, h, h0, h1⟩
  · simp only at h; subst h; rfl
  · simp only at h h0 h1; subst h
    simp [h0, h1, SubPub.processLoop]

theorem settled_process (s : SubPub) : Settled (process s).1 := by
  apply settled_of
  unfold process
  exact processLoop_stop _ _

theorem settled_congr {s t : SubPub} (h : Settled s) (h1 : t.received = s.received) (h2 : t.maxReady = s.maxReady) :
    Settled t := by
  obtain ⟨a, b, l, d⟩ := s
  obtain ⟨a', b', l', d'⟩ := t
  simp only at h1 h2
  subst h1 h2
  unfold Settled process at *
  simp only [Prod.mk.injEq, SubPub.mk.injEq] at *
  exact ⟨⟨h.1.1, trivial, h.1.2.2.1, trivial⟩, h.2⟩

theorem processLoop_mem : ∀ (l : List SPkt) (m : Nat) (p : SPkt),
    p ∈ (SubPub.processLoop m l).2.1 ++ (SubPub.processLoop m l).2.2 ↔ p ∈ l := by
  intro l
  induction l with
  | nil => intro m p; simp [SubPub.processLoop]
  | cons q ps ih =>
    intro m p
    unfold SubPub.processLoop
    split
    · simp
    · simp only [List.cons_append, List.mem_cons, ih]

theorem process_parts (s : SubPub) : (process s).2 ++ (process s).1.received = s.received := by
  have : ∀ (l : List SPkt) (m : Nat), (SubPub.processLoop m l).2.1 ++ (SubPub.processLoop m l).2.2 = l := by
    intro l
    induction l with
    | nil => intro m; rfl
    | cons q ps ih =>
      intro m
      unfold SubPub.processLoop
      split
      · rfl
      · simp only [List.cons_append, ih]
  unfold process
  exact this _ _

theorem received_mem {s : SubPub} {p q : SPkt} {m : Bool} {ts : Int} :
    q ∈ (received' s p m ts).received ↔ q = p ∨ q ∈ s.received := by
  unfold received'
  simp only [List.mem_reverse, insertDesc_mem]

theorem insertDesc_perm (x : SPkt) : ∀ l : List SPkt, (insertDesc x l).Perm (x :: l) := by
  intro l
  induction l with
  | nil => exact List.Perm.refl _
  | cons y ys ih =>
    unfold insertDesc
    split
    · exact List.Perm.refl _
    · exact (ih.cons y).trans (List.Perm.swap x y ys)

/-- A new packet ends up among the ready ones or in the record; nothing else changes place other than by becoming
ready. -/
theorem recv_perm (s : SubPub) (p : SPkt) (m : Bool) (ts : Int) :
    ((process (received' s p m ts)).2 ++ (process (received' s p m ts)).1.received).Perm (p :: s.received) := by
  rw [process_parts]
  unfold received'
  exact (List.reverse_perm _).trans ((insertDesc_perm p _).trans ((List.reverse_perm s.received).cons p))

end SubCtx
end Rmc
