import Verif.SysInv

/-! # Any number of publishers and subscribers, and the network between them

The two-party system of `System` is one link of this one.  Publisher contexts and subscriber contexts make the calls modelled in
`PubCtx` and `SubCtx`; they share one multicast group, and a link is a TCP connection from a slot of a subscriber to a publisher.
Links come and go: one begins when a subscriber has begun to connect to a publisher (rmc_sub_read.c:100-133, rmc_connection.c:174-333), and
ends when either side closes the connection, when something is read from it that the other side has not sent (a reset, an end of stream), or
when the network loses it.  A subscriber may have links to many publishers and may connect again; a publisher may have many subscribers.
Left out: runs that enter undefined behaviour (characterised separately: C52, C55). -/

namespace Rmc

/-- What does not change: the number of publishers, and the address from which the datagrams of each are received. -/
structure NetEnv where
  np : Nat
  src : Nat → Nat

/-- A TCP connection from slot `slot` of subscriber `q` to publisher `p`; the other fields are those of `Sys`. -/
structure Link where
  p : Nat
  q : Nat
  slot : Nat
  acc : Option Nat
  down : List UInt8
  up : List UInt8
  err : Bool
  deriving DecidableEq

/-- The network. -/
structure Net where
  pubs : Nat → PubCtx
  subs : Nat → SubCtx
  links : List Link

/-- What happens: a call of publisher `p`; a call of subscriber `q`; calls that accept or read from the link of slot `slot` of subscriber `q`;
such a link begins; it is lost. -/
inductive NetOp where
  | pub (p : Nat) (op : PubCtx.Op)
  | sub (q : Nat) (op : SubCtx.Op)
  | accept (q slot k : Nat) (ar : ConnVec.AccRes) (cb : Option Bool)
  | pubRead (q slot n : Nat)
  | subRead (q slot n : Nat) (ts : Int)
  | link (p q slot : Nat)
  | lost (q slot : Nat)

namespace Net

/-- The two-party system of a link. -/
def view (s : Net) (l : Link) : Sys := ⟨s.pubs l.p, s.subs l.q, l.acc, l.down, l.up, l.err⟩
def env (E : NetEnv) (l : Link) : Env := ⟨l.slot, E.src l.p⟩

/-- The address and port of publisher `p` as subscribers see them: rmc_sub_read.c:157-167. -/
def address (E : NetEnv) (s : Net) (p : Nat) : Nat × Nat :=
  (if (s.pubs p).listenIp = 0 then E.src p else (s.pubs p).listenIp, (s.pubs p).listenPort)

/-- A received datagram was multicast by one of the publishers, or it names none of them. -/
def heard (E : NetEnv) (s : Net) : SubCtx.RecvRes → Prop
  | .err _ => True
  | .dgram src bs _ _ _ _ => (∃ p, p < E.np ∧ src = E.src p ∧ bs ∈ PubCtx.dgrams (s.pubs p).log) ∨
      (HDR_LEN ≤ bs.length → ∀ p, p < E.np → ((if (PacketHeader.dec bs).listenIp = 0 then src else (PacketHeader.dec bs).listenIp),
        (PacketHeader.dec bs).listenPort) ≠ address E s p)

instance (E : NetEnv) (s : Net) (r : SubCtx.RecvRes) : Decidable (heard E s r) := by
  cases r <;> unfold heard <;> infer_instance

def setAt {α : Type} (f : Nat → α) (i : Nat) (x : α) : Nat → α := fun j => if j = i then x else f j

/-- A link after the call `op` of publisher `p`, which is `new` then: it is gone if the call closes it or reads from it. -/
def afterPub (s : Net) (p : Nat) (op : PubCtx.Op) (new : PubCtx) (l : Link) : Option Link :=
  if l.p = p then
    if Sys.leaves l.acc op = true then some { l with down := l.down ++ (view s l).sentDown new } else none
  else some l

/-- A link after the call `op` of subscriber `q`, which is `new` then. -/
def afterSub (s : Net) (q : Nat) (op : SubCtx.Op) (new : SubCtx) (l : Link) : Option Link :=
  if l.q = q then
    if Sys.leavesSub l.slot op = true ∧ SubCtx.Live new l.slot then
      some { l with up := l.up ++ SubCtx.outs l.slot (new.log.drop (s.subs q).log.length) }
    else none
  else some l

/-- The link is that of slot `slot` of subscriber `q`. -/
def isAt (q slot : Nat) (l : Link) : Bool := decide (l.q = q ∧ l.slot = slot)

/-- What an event makes of the network; none if it cannot happen (or runs into undefined behaviour). -/
def next (E : NetEnv) (s : Net) : NetOp → Option Net
  | .pub p op =>
    if p < E.np ∧ Sys.callOk op = true then
      match PubCtx.step (s.pubs p) op with
      | .ok r => some ⟨setAt s.pubs p r.2, s.subs, s.links.filterMap (afterPub s p op r.2)⟩
      | .error _ => none
    else none
  | .sub q op =>
    if ∀ r ∈ Sys.received op, heard E s r then
      match SubCtx.step (s.subs q) op with
      | .ok r => some ⟨s.pubs, setAt s.subs q r.2, s.links.filterMap (afterSub s q op r.2)⟩
      | .error _ => none
    else none
  | .accept q slot k ar cb =>
    match s.links.find? (isAt q slot) with
    | none => none
    | some a =>
      if a.acc = none ∧ Sys.callOk (.readListen ar cb) = true ∧ ¬ PubCtx.Connected (s.pubs a.p) k then
        match PubCtx.step (s.pubs a.p) (.readListen ar cb) with
        | .ok r =>
          if PubCtx.Connected r.2 k then
            some ⟨setAt s.pubs a.p r.2, s.subs, s.links.filterMap fun l =>
              if isAt q slot l = true then some { l with acc := some k } else afterPub s a.p (.readListen ar cb) r.2 l⟩
          else none
        | .error _ => none
      else none
  | .pubRead q slot n =>
    match s.links.find? (isAt q slot) with
    | none => none
    | some a =>
      match a.acc with
      | none => none
      | some k =>
        if 0 < n ∧ n ≤ a.up.length ∧ n ≤ CircBuf.available ((s.pubs a.p).cv.conns k).readBuf then
          match PubCtx.step (s.pubs a.p) (.read k (some (a.up.take n))) with
          | .ok r =>
            some ⟨setAt s.pubs a.p r.2, s.subs, s.links.filterMap fun l =>
              if isAt q slot l = true then
                if PubCtx.Connected r.2 k then some { l with up := l.up.drop n, err := l.err || decide (r.1 = EPROTO) } else none
              else afterPub s a.p (.read k (some (a.up.take n))) r.2 l⟩
          | .error _ => none
        else none
  | .subRead q slot n ts =>
    match s.links.find? (isAt q slot) with
    | none => none
    | some a =>
      if SubCtx.Up (s.subs q) slot ∧ 0 < n ∧ n ≤ a.down.length ∧ n ≤ CircBuf.available ((s.subs q).cv.conns slot).readBuf then
        match SubCtx.step (s.subs q) (.read slot (some (a.down.take n)) ts) with
        | .ok r =>
          some ⟨s.pubs, setAt s.subs q r.2, s.links.filterMap fun l =>
            if isAt q slot l = true then
              if SubCtx.Up r.2 slot then some { l with down := l.down.drop n } else none
            else afterSub s q (.read slot (some (a.down.take n)) ts) r.2 l⟩
        | .error _ => none
      else none
  | .link p q slot =>
    if p < E.np ∧ (s.links.find? (isAt q slot)).isNone = true ∧ slot < (s.subs q).cv.size ∧ ((s.subs q).cv.conns slot).mode = .connecting ∧
        (((s.subs q).cv.conns slot).addr, ((s.subs q).cv.conns slot).port) = address E s p then
      some { s with links := ⟨p, q, slot, none, [], [], false⟩ :: s.links }
    else none
  | .lost q slot => some { s with links := s.links.filter fun l => !isAt q slot l }

/-- A history of the network. -/
def run (E : NetEnv) : Net → List NetOp → Option Net
  | s, [] => some s
  | s, op :: ops => (next E s op).bind fun t => run E t ops

/-- Specification: the number of calls of publishers in a history. -/
def calls : List NetOp → Nat
  | [] => 0
  | .pub _ _ :: ops => 1 + calls ops
  | .accept _ _ _ _ _ :: ops => 1 + calls ops
  | .pubRead _ _ _ :: ops => 1 + calls ops
  | _ :: ops => calls ops

/-- How it starts: every context is in a state its own calls can lead to (at most `n` calls of each publisher so far), every publisher has its
listen port, different publishers have different addresses, and there is no link yet. -/
structure Start (E : NetEnv) (n : Nat) (s : Net) : Prop where
  pub : ∀ p, p < E.np → ∃ ops, PubCtx.Reaches ops (s.pubs p) ∧ (∀ op ∈ ops, Sys.callOk op = true) ∧ ops.length ≤ n
  ids : ∀ p, p < E.np → (s.pubs p).nodeId < U32 ∧ (s.pubs p).listenIp < U32 ∧ (s.pubs p).listenPort < 65536 ∧ (s.pubs p).listenPort ≠ 0
  addr : ∀ p p', p < E.np → p' < E.np → address E s p = address E s p' → p = p'
  sub : ∀ q, ∃ ops, SubCtx.Reaches ops (s.subs q)
  links : s.links = []

/-- A state the network can get into, with fewer than 2^64 calls of publishers. -/
def Reached (E : NetEnv) (s : Net) : Prop := ∃ n s0 ops, Start E n s0 ∧ n + calls ops + 1 < U64 ∧ run E s0 ops = some s

end Net
end Rmc
