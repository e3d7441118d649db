import Verif.Basic

/-!
# Model of `/repo/rmc_list_template.h` at pointer level

The macro `RMC_LIST_IMPL` generates a doubly linked list. Nodes live on a heap; a node is a
cell with `data`, `next`, `prev`, `owner` (rmc_list.h:27-32); a list header holds `head`,
`tail`, `elem_count` (rmc_list.h:16-25). Null pointers are `none`. Dereferencing a cell that is
not allocated is `Fault.useAfterFree`; failed `assert`s are `Fault.assertFail`; null
dereference is `Fault.nullDeref`.

Simplifications: `malloc` succeeds and returns an address that is not allocated (the address is
a parameter `a` of the allocating operations); `elem_count` is a `Nat` (the C field is
`uint32_t`: lists of 2^32 or more nodes are outside the model); the user supplied
`alloc_node`/`free_node` hooks, which the library never sets, are not modelled; `data` left in a
freed or unlinked node is not cleared in the C code and is irrelevant here.
-/

namespace Rmc

/-- rmc_list.h:27-32 node. Addresses and list identities are `Nat`. -/
structure Node (α : Type) where
  data : α
  next : Option Nat
  prev : Option Nat
  owner : Option Nat
  deriving Repr, DecidableEq

/-- rmc_list.h:16-25 list header. -/
structure Hdr where
  head : Option Nat
  tail : Option Nat
  count : Nat
  deriving Repr, DecidableEq

/-- The heap: all nodes and all list headers. -/
structure Heap (α : Type) where
  node : Nat → Option (Node α)
  hdr : Nat → Hdr

namespace PtrList

variable {α : Type}

/-- Load a node; a cell that is not allocated faults. -/
def deref (s : Heap α) (p : Nat) : M (Node α) :=
  match s.node p with
  | some n => .ok n
  | none => .error .useAfterFree

/-- Write a node (the cell must be allocated). -/
def setNode (s : Heap α) (p : Nat) (n : Node α) : M (Heap α) :=
  match s.node p with
  | some _ => .ok { s with node := fun q => if q = p then some n else s.node q }
  | none => .error .useAfterFree

/-- Write a list header. -/
def setHdr (s : Heap α) (l : Nat) (h : Hdr) : Heap α :=
  { s with hdr := fun k => if k = l then h else s.hdr k }

/-- rmc_list_template.h:13-18 `_rmc_alloc_node`, followed by `node->data = data`: `a` is the address
returned by malloc, next/prev/owner are indeterminate (here `none`; every caller overwrites
them before reading). -/
def allocNode (s : Heap α) (a : Nat) (d : α) : Heap α :=
  { s with node := fun q => if q = a then some ⟨d, none, none, none⟩ else s.node q }

/-- rmc_list_template.h:20-24 `_rmc_free_node`. -/
def freeNode (s : Heap α) (p : Nat) : M (Heap α) :=
  match s.node p with
  | some _ => .ok { s with node := fun q => if q = p then none else s.node q }
  | none => .error .doubleFree

/-- rmc_list_template.h:26-37 `_init`. -/
def init (s : Heap α) (l : Nat) : Heap α := setHdr s l ⟨none, none, 0⟩

/-- rmc_list_template.h:39-44 `_head`. -/
def head (s : Heap α) (l : Nat) : Option Nat := (s.hdr l).head
/-- rmc_list_template.h:46-51 `_tail`. -/
def tail (s : Heap α) (l : Nat) : Option Nat := (s.hdr l).tail
/-- rmc_list_template.h:70-75 `_size`. -/
def size (s : Heap α) (l : Nat) : Nat := (s.hdr l).count

/-- rmc_list_template.h:78-97 `_push_head_node`. -/
def pushHeadNode (s : Heap α) (l p : Nat) : M (Heap α) := do
  let n ← deref s p
  let s ← setNode s p { n with next := (s.hdr l).head, prev := none, owner := some l }
  let s ← (match (s.hdr l).head with
    | some q => do
      let m ← deref s q
      setNode s q { m with prev := some p }
    | none => .ok s)
  let s := setHdr s l { s.hdr l with head := some p }
  let s := if (s.hdr l).tail = none then setHdr s l { s.hdr l with tail := some p } else s
  return setHdr s l { s.hdr l with count := (s.hdr l).count + 1 }

/-- rmc_list_template.h:99-106 `_push_head`. -/
def pushHead (s : Heap α) (l a : Nat) (d : α) : M (Heap α) := pushHeadNode (allocNode s a d) l a

/-- rmc_list_template.h:108-129 `_push_tail_node`. -/
def pushTailNode (s : Heap α) (l p : Nat) : M (Heap α) := do
  let n ← deref s p
  let s ← setNode s p { n with next := none, prev := (s.hdr l).tail, owner := some l }
  let s ← (match (s.hdr l).tail with
    | some q => do
      let m ← deref s q
      setNode s q { m with next := some p }
    | none => .ok s)
  let s := setHdr s l { s.hdr l with tail := some p }
  let s := if (s.hdr l).head = none then setHdr s l { s.hdr l with head := some p } else s
  return setHdr s l { s.hdr l with count := (s.hdr l).count + 1 }

/-- rmc_list_template.h:131-138 `_push_tail`. -/
def pushTail (s : Heap α) (l a : Nat) (d : α) : M (Heap α) := pushTailNode (allocNode s a d) l a

/-- rmc_list_template.h:140-160 `_insert_before_node`: link `p` before `nx`. -/
def insertBeforeNode (s : Heap α) (nx p : Nat) : M (Heap α) := do
  let n ← deref s nx
  match n.owner with
  | none => .error .assertFail
  | some l =>
    if some nx = head s l then pushHeadNode s l p
    else do
      let m ← deref s p
      let s ← setNode s p { m with owner := some l, prev := n.prev }
      match n.prev with
      | none => .error .nullDeref
      | some q => do
        let k ← deref s q
        let s ← setNode s q { k with next := some p }
        let n' ← deref s nx
        let s ← setNode s nx { n' with prev := some p }
        let m' ← deref s p
        let s ← setNode s p { m' with next := some nx }
        return setHdr s l { s.hdr l with count := (s.hdr l).count + 1 }

/-- rmc_list_template.h:170-188 `_insert_after_node`: link `p` after `pv`. -/
def insertAfterNode (s : Heap α) (pv p : Nat) : M (Heap α) := do
  let n ← deref s pv
  match n.owner with
  | none => .error .assertFail
  | some l =>
    if some pv = tail s l then pushTailNode s l p
    else do
      let m ← deref s p
      let s ← setNode s p { m with owner := some l, next := n.next }
      match n.next with
      | none => .error .nullDeref
      | some q => do
        let k ← deref s q
        let s ← setNode s q { k with prev := some p }
        let n' ← deref s pv
        let s ← setNode s pv { n' with next := some p }
        let m' ← deref s p
        let s ← setNode s p { m' with prev := some pv }
        return setHdr s l { s.hdr l with count := (s.hdr l).count + 1 }

/-- rmc_list_template.h:199-219 `_unlink`. -/
def unlink (s : Heap α) (p : Nat) : M (Heap α) := do
  let n ← deref s p
  match n.owner with
  | none => .error .assertFail
  | some l => do
    let s ← (match n.prev with
      | some q => do
        let m ← deref s q
        setNode s q { m with next := n.next }
      | none => .ok s)
    let s ← (match n.next with
      | some q => do
        let m ← deref s q
        setNode s q { m with prev := n.prev }
      | none => .ok s)
    let s := if (s.hdr l).head = some p then setHdr s l { s.hdr l with head := n.next } else s
    let s := if (s.hdr l).tail = some p then setHdr s l { s.hdr l with tail := n.prev } else s
    let s := setHdr s l { s.hdr l with count := (s.hdr l).count - 1 }
    let n' ← deref s p
    setNode s p { n' with owner := none }

/-- rmc_list_template.h:222-227 `_delete`. -/
def delete (s : Heap α) (p : Nat) : M (Heap α) := do
  let s ← unlink s p
  freeNode s p

/-- rmc_list_template.h:230-238 `_pop_head_node`. -/
def popHeadNode (s : Heap α) (l : Nat) : M (Option Nat × Heap α) :=
  match head s l with
  | none => .ok (none, s)
  | some p => do let s ← unlink s p; return (some p, s)

/-- rmc_list_template.h:240-252 `_pop_head`. -/
def popHead (s : Heap α) (l : Nat) : M (Option α × Heap α) :=
  match head s l with
  | none => .ok (none, s)
  | some p => do let n ← deref s p; let s ← delete s p; return (some n.data, s)

/-- rmc_list_template.h:255-266 `_pop_tail`. -/
def popTail (s : Heap α) (l : Nat) : M (Option α × Heap α) :=
  match tail s l with
  | none => .ok (none, s)
  | some p => do let n ← deref s p; let s ← delete s p; return (some n.data, s)

/-- rmc_list_template.h:268-277 `_pop_tail_node`. -/
def popTailNode (s : Heap α) (l : Nat) : M (Option Nat × Heap α) :=
  match tail s l with
  | none => .ok (none, s)
  | some p => do let s ← unlink s p; return (some p, s)

/-- The loop of rmc_list_template.h:306-330 `_find_node` from node `p`; `dir` selects `next`
(`_find_node`) or `prev` (`_find_node_rev`, 332-356). `fuel` bounds the number of nodes visited: running
out is `Fault.diverge`. -/
def findLoop (s : Heap α) (cmp : α → α → Int) (d : α) (fwd : Bool) : Nat → Option Nat → M (Option Nat)
  | _, none => .ok none
  | 0, some _ => .error .diverge
  | fuel + 1, some p => do
    let n ← deref s p
    let r := cmp d n.data
    if r = -1 then return none
    else if r ≠ 0 then return some p
    else findLoop s cmp d fwd fuel (if fwd then n.next else n.prev)

/-- rmc_list_template.h:306-330 `_find_node`. -/
def findNode (s : Heap α) (l : Nat) (cmp : α → α → Int) (d : α) (fuel : Nat) : M (Option Nat) :=
  findLoop s cmp d true fuel (head s l)

/-- rmc_list_template.h:332-356 `_find_node_rev`. -/
def findNodeRev (s : Heap α) (l : Nat) (cmp : α → α → Int) (d : α) (fuel : Nat) : M (Option Nat) :=
  findLoop s cmp d false fuel (tail s l)

/-- The loop of rmc_list_template.h:359-379 `_insert_sorted_node`: the first node, from `p` on, with
`cmp(new, node) ≥ 0`. -/
def seekLoop (s : Heap α) (cmp : α → α → Int) (d : α) (fwd : Bool) : Nat → Option Nat → M (Option Nat)
  | _, none => .ok none
  | 0, some _ => .error .diverge
  | fuel + 1, some p => do
    let n ← deref s p
    if cmp d n.data ≥ 0 then return some p
    else seekLoop s cmp d fwd fuel (if fwd then n.next else n.prev)

/-- rmc_list_template.h:359-379 `_insert_sorted_node`. -/
def insertSortedNode (s : Heap α) (l p : Nat) (cmp : α → α → Int) (fuel : Nat) : M (Heap α) := do
  let n ← deref s p
  let r ← seekLoop s cmp n.data true fuel (head s l)
  match r with
  | some q => insertBeforeNode s q p
  | none => pushTailNode s l p

/-- rmc_list_template.h:381-401 `_insert_sorted_node_rev`. -/
def insertSortedNodeRev (s : Heap α) (l p : Nat) (cmp : α → α → Int) (fuel : Nat) : M (Heap α) := do
  let n ← deref s p
  let r ← seekLoop s cmp n.data false fuel (tail s l)
  match r with
  | some q => insertAfterNode s q p
  | none => pushHeadNode s l p

/-- rmc_list_template.h:404-419 `_insert_sorted`. -/
def insertSorted (s : Heap α) (l a : Nat) (d : α) (cmp : α → α → Int) (fuel : Nat) : M (Heap α) :=
  insertSortedNode (allocNode s a d) l a cmp fuel

/-- rmc_list_template.h:422-437 `_insert_sorted_rev`. -/
def insertSortedRev (s : Heap α) (l a : Nat) (d : α) (cmp : α → α → Int) (fuel : Nat) : M (Heap α) :=
  insertSortedNodeRev (allocNode s a d) l a cmp fuel

/-- rmc_list_template.h:439-445 `_empty`. `fuel` bounds the number of iterations. -/
def empty (s : Heap α) (l : Nat) : Nat → M (Heap α)
  | 0 => if size s l = 0 then .ok s else .error .diverge
  | fuel + 1 =>
    if size s l = 0 then .ok s
    else match head s l with
      | none => .error .nullDeref
      | some p => do let s ← delete s p; empty s l fuel

/-- rmc_list_template.h:280-303 `_for_each` / `_for_each_rev` with a callback that looks at the node data
and says whether to go on: the sequence of data it is shown. -/
def forEachLoop (s : Heap α) (f : α → Bool) (fwd : Bool) : Nat → Option Nat → M (List α)
  | _, none => .ok []
  | 0, some _ => .error .diverge
  | fuel + 1, some p => do
    let n ← deref s p
    if f n.data then do
      let r ← forEachLoop s f fwd fuel (if fwd then n.next else n.prev)
      return n.data :: r
    else return [n.data]

end PtrList
end Rmc
