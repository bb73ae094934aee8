import Verif.Model.BtfTypes
/-!
# Model of `btf.Copy` and `Spec.Copy`: `btf/types.go:764-795` with the `copy` methods, `btf/unmarshal.go:180-218`

The heap maps addresses to objects. Slices carry the identity of their backing array besides their elements: two slices alias if the
identities agree. Address 0 is `(*Void)(nil)`. Nil interfaces are not modelled.
-/
namespace Ebpf.BtfCopy
open Ebpf.Btf

/-- A Go slice: its backing array (`none` for a nil slice) and its elements. -/
structure Slice (α : Type) where
  arr : Option Nat
  elems : List α
deriving DecidableEq

/-- btf/types.go:297-307 `Member`. -/
structure CMember where
  name : Bytes
  type : Nat
  offset : BitVec 32
  bitfieldSize : BitVec 32
  tags : Slice Bytes
deriving DecidableEq

/-- The structs implementing `Type`, btf/types.go:80-650, with their slices. -/
inductive CNode where
  | void
  | int (name : Bytes) (size : BitVec 32) (encoding : BitVec 8)
  | ptr (target : Nat)
  | array (index type : Nat) (nelems : BitVec 32)
  | struct (name : Bytes) (size : BitVec 32) (members : Slice CMember) (tags : Slice Bytes)
  | union (name : Bytes) (size : BitVec 32) (members : Slice CMember) (tags : Slice Bytes)
  | enum (name : Bytes) (size : BitVec 32) (signed : Bool) (values : Slice EnumValue)
  | fwd (name : Bytes) (kind : Int)
  | typedef (name : Bytes) (type : Nat) (tags : Slice Bytes)
  | volatile (type : Nat)
  | const (type : Nat)
  | restrict (type : Nat)
  | func (name : Bytes) (type : Nat) (linkage : Int) (tags : Slice Bytes) (paramTags : Slice (Slice Bytes))
  | funcProto (ret : Nat) (params : Slice (FuncParam Nat))
  | var (name : Bytes) (type : Nat) (linkage : Int) (tags : Slice Bytes)
  | datasec (name : Bytes) (size : BitVec 32) (vars : Slice (VarSecinfo Nat))
  | float (name : Bytes) (size : BitVec 32)
  | typeTag (type : Nat) (value : Bytes)
deriving DecidableEq

/-- The heap: objects, the next free address and the next free array. -/
structure Heap where
  objs : Nat → CNode
  next : Nat
  nextArr : Nat

/-- `make([]T, len(orig)); copy(cpy, orig)`, btf/types.go:266-267, 341-342, 524-525, 571-572: a new array even if `orig` is nil. -/
def copySlice {α : Type} (s : Slice α) (n : Nat) : Slice α × Nat := (⟨some n, s.elems⟩, n + 1)

/-- btf/types.go:276-283 `copyTags`: nil stays nil. -/
def copyTags (s : Slice Bytes) (n : Nat) : Slice Bytes × Nat :=
  match s.arr with
  | none => (s, n)
  | some _ => (⟨some n, s.elems⟩, n + 1)

/-- btf/types.go:269-272: the tags of each member are copied. -/
def copyMemberTags : List CMember → Nat → List CMember × Nat
  | [], n => ([], n)
  | m :: ms, n =>
    let t := copyTags m.tags n
    let r := copyMemberTags ms t.2
    ({ m with tags := t.1 } :: r.1, r.2)

/-- btf/types.go:265-274 `copyMembers`. -/
def copyMembers (s : Slice CMember) (n : Nat) : Slice CMember × Nat :=
  let r := copyMemberTags s.elems (n + 1)
  (⟨some n, r.1⟩, r.2)

/-- btf/types.go:502-504: the tags of each parameter are copied. -/
def copyTagLists : List (Slice Bytes) → Nat → List (Slice Bytes) × Nat
  | [], n => ([], n)
  | t :: ts, n =>
    let t' := copyTags t n
    let r := copyTagLists ts t'.2
    (t'.1 :: r.1, r.2)

/-- btf/types.go:500-506: `ParamTags`. -/
def copyParamTags (s : Slice (Slice Bytes)) (n : Nat) : Slice (Slice Bytes) × Nat :=
  match s.arr with
  | none => (s, n)
  | some _ =>
    let r := copyTagLists s.elems (n + 1)
    (⟨some n, r.1⟩, r.2)

/-- The `copy` methods, btf/types.go:88-645; the number is the next free array. -/
def copyNode (c : CNode) (n : Nat) : CNode × Nat :=
  match c with
  | .struct nm s ms ts => let m := copyMembers ms n; let t := copyTags ts m.2; (.struct nm s m.1 t.1, t.2)
  | .union nm s ms ts => let m := copyMembers ms n; let t := copyTags ts m.2; (.union nm s m.1 t.1, t.2)
  | .enum nm s sg vs => let v := copySlice vs n; (.enum nm s sg v.1, v.2)
  | .typedef nm t ts => let k := copyTags ts n; (.typedef nm t k.1, k.2)
  | .func nm t l ts ps => let k := copyTags ts n; let p := copyParamTags ps k.2; (.func nm t l k.1 p.1, p.2)
  | .funcProto r ps => let p := copySlice ps n; (.funcProto r p.1, p.2)
  | .var nm t l ts => let k := copyTags ts n; (.var nm t l k.1, k.2)
  | .datasec nm s vs => let v := copySlice vs n; (.datasec nm s v.1, v.2)
  | c => (c, n)

/-- btf/traversal.go:38-160 `children`: the fields that refer to other types. The `declTag`s it also yields are copied into garbage and left out. -/
def childRefs : CNode → List Nat
  | .ptr t => [t]
  | .array i t _ => [i, t]
  | .struct _ _ ms _ => ms.elems.map (·.type)
  | .union _ _ ms _ => ms.elems.map (·.type)
  | .typedef _ t _ => [t]
  | .volatile t => [t]
  | .const t => [t]
  | .restrict t => [t]
  | .func _ t _ _ _ => [t]
  | .funcProto r ps => r :: ps.elems.map (·.type)
  | .var _ t _ _ => [t]
  | .datasec _ _ vs => vs.elems.map (·.type)
  | .typeTag t _ => [t]
  | _ => []

/-- `l[i]`, or `d` at the end: the `i`-th child assigned. -/
def at' (l : List Nat) (i d : Nat) : Nat := l.getD i d

/-- btf/types.go:790-792: assign the children, in the order of `children`. -/
def setRefs (c : CNode) (l : List Nat) : CNode :=
  match c with
  | .ptr t => .ptr (at' l 0 t)
  | .array i t k => .array (at' l 0 i) (at' l 1 t) k
  | .struct nm s ms ts => .struct nm s ⟨ms.arr, ms.elems.mapIdx fun i m => { m with type := at' l i m.type }⟩ ts
  | .union nm s ms ts => .union nm s ⟨ms.arr, ms.elems.mapIdx fun i m => { m with type := at' l i m.type }⟩ ts
  | .typedef nm t ts => .typedef nm (at' l 0 t) ts
  | .volatile t => .volatile (at' l 0 t)
  | .const t => .const (at' l 0 t)
  | .restrict t => .restrict (at' l 0 t)
  | .func nm t lk ts ps => .func nm (at' l 0 t) lk ts ps
  | .funcProto r ps => .funcProto (at' l 0 r) ⟨ps.arr, ps.elems.mapIdx fun i p => { p with type := at' l (i + 1) p.type }⟩
  | .var nm t lk ts => .var nm (at' l 0 t) lk ts
  | .datasec nm s vs => .datasec nm s ⟨vs.arr, vs.elems.mapIdx fun i v => { v with type := at' l i v.type }⟩
  | .typeTag t v => .typeTag (at' l 0 t) v
  | c => c

/-- What `copyType` changes: the heap, `copies` and `copiedIDs`. -/
structure State where
  heap : Heap
  copies : Nat → Option Nat
  copiedIDs : Nat → Option Nat

/-- `m[k] = v` for a Go map. -/
def put (m : Nat → Option Nat) (k v : Nat) : Nat → Option Nat := fun x => if x = k then some v else m x

/-- btf/types.go:790-792: the loop over the children, with the recursive call. -/
def copyList (f : Nat → State → Option (Nat × State)) : List Nat → State → Option (List Nat × State)
  | [], st => some ([], st)
  | r :: rs, st =>
    match f r st with
    | none => none
    | some (a, st1) =>
      match copyList f rs st1 with
      | none => none
      | some (as, st2) => some (a :: as, st2)

/-- btf/types.go:783-788: copy the object itself, register the copy and its ID. `(*Void).copy` returns the nil pointer, address 0. -/
def register (ids : Nat → Option Nat) (r : Nat) (st : State) : Nat × CNode × State :=
  let n := copyNode (st.heap.objs r) st.heap.nextArr
  let a := match n.1 with | .void => 0 | _ => st.heap.next
  let next := match n.1 with | .void => st.heap.next | _ => st.heap.next + 1
  let objs := fun x => match n.1 with | .void => st.heap.objs x | _ => if x = st.heap.next then n.1 else st.heap.objs x
  let cids := match ids r with | some id => put st.copiedIDs a id | none => st.copiedIDs
  (a, n.1, ⟨⟨objs, next, n.2⟩, put st.copies r a, cids⟩)

/-- btf/types.go:772-795 `copyType`; `fuel` bounds the depth of the recursion (`none`: exceeded). The children are assigned at the end instead of
one by one: nothing reads the copy in between. -/
def copyType (ids : Nat → Option Nat) : Nat → Nat → State → Option (Nat × State)
  | 0, _, _ => none
  | fuel + 1, r, st =>
    match st.copies r with
    | some c => some (c, st)
    | none =>
      let g := register ids r st
      match copyList (copyType ids fuel) (childRefs g.2.1) g.2.2 with
      | none => none
      | some (l, st2) => some (g.1, { st2 with heap := { st2.heap with objs := fun x => if x = g.1 then setRefs g.2.1 l else st2.heap.objs x } })

/-- btf/types.go:767-770 `Copy`. -/
def copy (fuel : Nat) (r : Nat) (h : Heap) : Option (Nat × Heap) :=
  match copyType (fun _ => none) fuel r ⟨h, fun _ => none, fun _ => none⟩ with
  | none => none
  | some (a, st) => some (a, st.heap)

/-- btf/unmarshal.go:198-202: the loop over `d.types`, in the order in which the map is ranged over. The result is the new `types`. -/
def copyTypes (ids : Nat → Option Nat) (fuel : Nat) : List (Nat × Nat) → State → Option (List (Nat × Nat) × State)
  | [], st => some ([], st)
  | (id, t) :: ts, st =>
    match copyType ids fuel t st with
    | none => none
    | some (a, st1) =>
      match copyTypes ids fuel ts st1 with
      | none => none
      | some (l, st2) => some ((id, a) :: l, st2)

/-- The mutable fields of a decoder, btf/unmarshal.go:42-45: `types` and `typeIDs`. -/
structure Decoder where
  types : List (Nat × Nat)
  typeIDs : Nat → Option Nat

/-- btf/unmarshal.go:188-218 `copy` of a decoder without base, `copies` are the types copied before. `legacyBitfields` and the immutable fields are
left out. -/
def copyDecoder (fuel : Nat) (d : Decoder) (h : Heap) (copies : Nat → Option Nat) : Option (Decoder × Heap × (Nat → Option Nat)) :=
  match copyTypes d.typeIDs fuel d.types ⟨h, copies, fun _ => none⟩ with
  | none => none
  | some (l, st) => some (⟨l, st.copiedIDs⟩, st.heap, st.copies)

/-- btf/unmarshal.go:180-218: `Copy` of a decoder with a base: the types of the decoder first, then those of the base. -/
def copySplit (fuel : Nat) (d base : Decoder) (h : Heap) : Option (Decoder × Decoder × Heap) :=
  match copyDecoder fuel d h (fun _ => none) with
  | none => none
  | some (d', h1, copies) =>
    match copyDecoder fuel base h1 copies with
    | none => none
    | some (b', h2, _) => some (d', b', h2)

end Ebpf.BtfCopy
