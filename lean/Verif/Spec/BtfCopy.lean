import Verif.Model.BtfCopy
/-!
# Specification: what an independent copy of a type graph is

Written against heaps only, without the algorithm.
-/
namespace Ebpf.BtfCopySpec
open Ebpf.Btf Ebpf.BtfCopy

/-- The value of an object: its slices by their elements. -/
def view : CNode → Node Nat
  | .void => .void
  | .int n s e => .int n s e
  | .ptr t => .ptr t
  | .array i t k => .array i t k
  | .struct n s ms ts => .struct n s (ms.elems.map fun m => ⟨m.name, m.type, m.offset, m.bitfieldSize, m.tags.elems⟩) ts.elems
  | .union n s ms ts => .union n s (ms.elems.map fun m => ⟨m.name, m.type, m.offset, m.bitfieldSize, m.tags.elems⟩) ts.elems
  | .enum n s sg vs => .enum n s sg vs.elems
  | .fwd n k => .fwd n k
  | .typedef n t ts => .typedef n t ts.elems
  | .volatile t => .volatile t
  | .const t => .const t
  | .restrict t => .restrict t
  | .func n t l ts ps => .func n t l ts.elems (ps.elems.map (·.elems))
  | .funcProto r ps => .funcProto r ps.elems
  | .var n t l ts => .var n t l ts.elems
  | .datasec n s vs => .datasec n s vs.elems
  | .float n s => .float n s
  | .typeTag t v => .typeTag t v

/-- The backing array of a slice, if it has one. -/
def arrOf {α : Type} (s : Slice α) : List Nat := s.arr.toList

/-- The arrays an object owns. -/
def arrays : CNode → List Nat
  | .struct _ _ ms ts => arrOf ms ++ (ms.elems.flatMap fun m => arrOf m.tags) ++ arrOf ts
  | .union _ _ ms ts => arrOf ms ++ (ms.elems.flatMap fun m => arrOf m.tags) ++ arrOf ts
  | .enum _ _ _ vs => arrOf vs
  | .typedef _ _ ts => arrOf ts
  | .func _ _ _ ts ps => arrOf ts ++ arrOf ps ++ ps.elems.flatMap arrOf
  | .funcProto _ ps => arrOf ps
  | .var _ _ _ ts => arrOf ts
  | .datasec _ _ vs => arrOf vs
  | _ => []

/-- The types a type refers to directly. -/
def targets : Node Nat → List Nat
  | .ptr t => [t]
  | .array i t _ => [i, t]
  | .struct _ _ ms _ => ms.map (·.type)
  | .union _ _ ms _ => ms.map (·.type)
  | .typedef _ t _ => [t]
  | .volatile t => [t]
  | .const t => [t]
  | .restrict t => [t]
  | .func _ t _ _ _ => [t]
  | .funcProto r ps => r :: ps.map (·.type)
  | .var _ t _ _ => [t]
  | .datasec _ _ vs => vs.map (·.type)
  | .typeTag t _ => [t]
  | .declTag t _ _ => [t]
  | .cycle t => [t]
  | _ => []

/-- `y` can be reached from `x`. -/
inductive Reach (h : Heap) : Nat → Nat → Prop where
  | refl {x} : Reach h x x
  | step {x y z} : Reach h x y → z ∈ targets (view (h.objs y)) → Reach h x z

/-- A nil slice has no elements. -/
def SliceOk {α : Type} (s : Slice α) : Prop := s.arr = none → s.elems = []

/-- The slice of slices an object may have is proper. -/
def NodeOk : CNode → Prop
  | .func _ _ _ _ ps => SliceOk ps
  | _ => True

/-- A heap: address 0 is `Void`, and nothing refers to what has not been allocated. -/
structure Heap.WF (h : Heap) : Prop where
  nil : h.objs 0 = .void
  pos : 0 < h.next
  closed : ∀ x < h.next, ∀ c ∈ targets (view (h.objs x)), c < h.next
  arrays : ∀ x < h.next, ∀ a ∈ arrays (h.objs x), a < h.nextArr
  slices : ∀ x < h.next, NodeOk (h.objs x)

/-- `φ` maps the types satisfying `p` of heap `h` to copies in heap `h'`. -/
structure IsCopy (h h' : Heap) (p : Nat → Prop) (φ : Nat → Nat) : Prop where
  /-- Nothing that existed has been changed. -/
  old : ∀ x < h.next, h'.objs x = h.objs x
  /-- Each copy has the value of the original, and refers to the copies of what the original refers to. -/
  same : ∀ x, p x → view (h'.objs (φ x)) = (view (h.objs x)).map φ
  /-- Copies are new objects. (There is only one `Void`.) -/
  fresh : ∀ x, p x → h.objs x ≠ .void → h.next ≤ φ x ∧ φ x < h'.next
  /-- Distinct objects stay distinct. -/
  inj : ∀ x y, p x → p y → h.objs x ≠ .void → φ x = φ y → x = y
  /-- The arrays of a copy are new, and none is used twice. -/
  freshArrays : ∀ x, p x → (∀ a ∈ arrays (h'.objs (φ x)), h.nextArr ≤ a) ∧ (arrays (h'.objs (φ x))).Nodup
  disjoint : ∀ x y, p x → p y → x ≠ y → ∀ a ∈ arrays (h'.objs (φ x)), a ∉ arrays (h'.objs (φ y))

end Ebpf.BtfCopySpec
