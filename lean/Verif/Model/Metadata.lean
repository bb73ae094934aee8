import Verif.Base
/-!
# Model of `asm/metadata.go`

The linked list lives in an explicit heap, because the property is about sharing: copies of an
instruction share list nodes. An address is an index into the heap; allocation appends. Values are
interface values; `nil` is `none`. Comparing uncomparable dynamic values panics in Go and is not
modelled. Loops over the list take fuel `heap.length + 1`; `Verif.Props.Metadata` shows that this is
never exhausted.
-/
namespace Ebpf.Metadata

/-- asm/metadata.go:8-11 `metaElement`. -/
structure Node (K V : Type) where
  key : K
  value : V
  next : Option Nat

variable {K V : Type} [DecidableEq K] [DecidableEq V]

abbrev Heap (K V : Type) := List (Node K V)

/-- asm/metadata.go:16-23 `find`. -/
def find (h : Heap K V) : Nat → Option Nat → K → Option Nat
  | 0, _, _ => none
  | _ + 1, none, _ => none
  | n + 1, some a, k =>
    match h[a]? with
    | none => none
    | some e => if e.key = k then some a else find h n e.next k

/-- `*current = p`, where `current` is `&m.head` (`none`) or `&cpy.next`. Returns heap and head. -/
def writeSlot (h : Heap K V) (head : Option Nat) (cur : Option Nat) (p : Option Nat) : Heap K V × Option Nat :=
  match cur with
  | none => (h, p)
  | some c =>
    match h[c]? with
    | none => (h, head)
    | some n => (h.set c { n with next := p }, head)

/-- asm/metadata.go:29-47 `remove`: the loop, with the local variables `m.head`, `current`, `e`. -/
def removeLoop (r : Nat) : Nat → Heap K V → Option Nat → Option Nat → Option Nat → Heap K V × Option Nat
  | 0, h, head, _, _ => (h, head)
  | _ + 1, h, head, _, none => (h, head)
  | n + 1, h, head, cur, some e =>
    match h[e]? with
    | none => (h, head)
    | some node =>
      if e = r then writeSlot h head cur node.next
      else
        let c := h.length
        let w := writeSlot (h ++ [{ key := node.key, value := node.value, next := none }]) head cur (some c)
        removeLoop r n w.1 w.2 (some c) node.next

/-- asm/metadata.go:53-70 `Set`. Returns the new heap and the new `m.head`. -/
def set (h : Heap K V) (head : Option Nat) (k : K) (v : Option V) : Heap K V × Option Nat :=
  let push (w : Heap K V × Option Nat) : Heap K V × Option Nat :=
    match v with
    | none => w
    | some v => (w.1 ++ [{ key := k, value := v, next := w.2 }], some w.1.length)
  match find h (h.length + 1) head k with
  | none => push (h, head)
  | some a =>
    match h[a]? with
    | none => push (h, head)
    | some e =>
      if v = some e.value then (h, head)
      else push (removeLoop a (h.length + 1) h head none head)

/-- asm/metadata.go:75-80 `Get`. -/
def get (h : Heap K V) (head : Option Nat) (k : K) : Option V :=
  match find h (h.length + 1) head k with
  | none => none
  | some a => (h[a]?).map (·.value)

/-- A history on numbered instruction variables: setting metadata of one of them, or copying an
instruction (which copies `m.head`, asm/metadata.go:4-6). -/
inductive Op (K V : Type) where
  | set (var : Nat) (k : K) (v : Option V)
  | copy (dst src : Nat)

/-- State: heap and the head pointer of each variable. -/
structure World (K V : Type) where
  heap : Heap K V
  head : Nat → Option Nat

def World.init : World K V := ⟨[], fun _ => none⟩

/-- One step of a history. -/
def World.step (w : World K V) : Op K V → World K V
  | .set x k v =>
    let r := Metadata.set w.heap (w.head x) k v
    ⟨r.1, fun y => if y = x then r.2 else w.head y⟩
  | .copy d s => ⟨w.heap, fun y => if y = d then w.head s else w.head y⟩

/-- `Get` on a variable. -/
def World.get (w : World K V) (x : Nat) (k : K) : Option V := Metadata.get w.heap (w.head x) k

end Ebpf.Metadata
