import Verif.PubCtx
import Verif.SubCtx

/-!
# Model of the life of contexts: `rmc_pub_init_context`, `rmc_pub_delete_context` and their counterparts of the subscriber

rmc_pub_context.c:27-152, 308-318 and rmc_sub_context.c:26-129, 262-272. A program has any number of contexts, numbered in
the order of the calls that allocated them. The three blocks each of them consists of are recorded when they are allocated and freed;
all other calls work on a context as in `PubCtx` and `SubCtx`.

Simplifications: `malloc` succeeds (the code exits otherwise); what `inet_aton` makes of the address strings is a parameter; the
address strings of `NULL` interfaces are valid ("0.0.0.0"); calls with a null context are not modelled, except deletion.
-/

namespace Rmc
namespace Life

/-- The blocks of a context: the structure itself, the array of connections and the array of subscriber (publisher) records. -/
inductive Block where
  | ctx
  | conns
  | records
  deriving DecidableEq, Repr

/-- malloc() and free() of the blocks of context `k`. -/
inductive MemEv where
  | alloc (k : Nat) (b : Block)
  | free (k : Nat) (b : Block)
  deriving DecidableEq, Repr

/-- The arguments of the init functions: whether the result pointer or the group address is null; what inet_aton() makes of the
address strings; the node id, and the random number used if it is 0; the port; the number of connections; the uninitialised memory of
the array of connections. -/
structure Args where
  resNull : Bool := false
  groupNull : Bool := false
  group : Option Nat := some 0
  listenIf : Option Nat := some 0
  mcastIf : Option Nat := some 0
  nodeId : Nat
  random : Nat := 1
  port : Nat := 0
  maxConns : Nat
  mem : Nat → Conn

/-- What a program has of a context. -/
inductive Handle (C : Type) where
  | none               -- not allocated
  | half               -- initialisation returned an error after the allocation: some fields were never set
  | ready (c : C)
  | deleted

/-- The two kinds of contexts. -/
structure Kind (C O : Type) where
  step : C → O → M (Nat × C)
  deactivate : C → M (Nat × C)
  valid : Args → Bool
  make : Args → C

/-- The node id, rmc_pub_context.c:74 and rmc_sub_context.c:72. -/
def Args.id (a : Args) : Nat := if a.nodeId ≠ 0 then a.nodeId else a.random

/-- rmc_pub_context.c:73-151: the addresses checked and the context set up. -/
def pub : Kind PubCtx PubCtx.Op where
  step := PubCtx.step
  deactivate := PubCtx.deactivate
  valid a := a.group.isSome && a.listenIf.isSome && a.mcastIf.isSome
  make a := PubCtx.init a.mem a.maxConns a.id (a.listenIf.getD 0) a.port

/-- rmc_sub_context.c:66-128. -/
def sub : Kind SubCtx SubCtx.Op where
  step := SubCtx.step
  deactivate := SubCtx.deactivate
  valid a := a.group.isSome && a.mcastIf.isSome
  make a := SubCtx.init a.mem a.maxConns a.id

/-- All contexts of a program. -/
structure World (C : Type) where
  ctxs : Nat → Handle C
  next : Nat
  mem : List MemEv

variable {C O : Type}

def World.init : World C := ⟨fun _ => .none, 0, []⟩

def World.set (w : World C) (k : Nat) (h : Handle C) (es : List MemEv) : World C :=
  { w with ctxs := fun j => if j = k then h else w.ctxs j, mem := w.mem ++ es }

/-- rmc_pub_context.c:27-152 `rmc_pub_init_context`, rmc_sub_context.c:26-129 `rmc_sub_init_context`. -/
def create (K : Kind C O) (w : World C) (a : Args) : Nat × World C :=
  if a.resNull = true ∨ a.groupNull = true then (EINVAL, w)
  else if K.valid a = true then
    (0, { w.set w.next (.ready (K.make a)) [.alloc w.next .ctx, .alloc w.next .conns, .alloc w.next .records] with next := w.next + 1 })
  else (EINVAL, { w.set w.next .half [.alloc w.next .ctx, .alloc w.next .conns] with next := w.next + 1 })

/-- rmc_pub_context.c:308-318 `rmc_pub_delete_context`, rmc_sub_context.c:262-272 `rmc_sub_delete_context`. Deactivation looks at
fields a failed initialisation has not set. -/
def delete (K : Kind C O) (w : World C) : Option Nat → M (Nat × World C)
  | none => .ok (EINVAL, w)
  | some k =>
    match w.ctxs k with
    | .none => .error .oob
    | .half => .error .uninit
    | .deleted => .error .useAfterFree
    | .ready c => do
      let _ ← K.deactivate c
      return (0, w.set k .deleted [.free k .conns, .free k .ctx])

inductive Op (O : Type) where
  | create (a : Args)
  | call (k : Nat) (op : O)       -- any other call
  | delete (k : Option Nat)

def step (K : Kind C O) (w : World C) : Op O → M (Nat × World C)
  | .create a => .ok (create K w a)
  | .delete k => delete K w k
  | .call k op =>
    match w.ctxs k with
    | .none => .error .oob
    | .half => .error .uninit
    | .deleted => .error .useAfterFree
    | .ready c => do
      let r ← K.step c op
      return (r.1, w.set k (.ready r.2) [])

def run (K : Kind C O) : World C → List (Op O) → M (World C)
  | w, [] => .ok w
  | w, o :: os => do
    let r ← step K w o
    run K r.2 os

end Life
end Rmc
