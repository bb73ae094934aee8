import Verif.Base
/-!
# Model of copying specifications: `collection.go:66-101`, `map.go:103-129`, `prog.go:165-174`, `variable.go:100-109`

Objects have addresses (numbers); what an object contains is given with it, so that a specification is all that can be reached from it. The same object may occur
more than once. `n` is the next free address: copying takes addresses from there on. Fields which aren't pointers are one value (`fields`), names included.
`btf.Copy` and `btf.Spec.Copy` are C81; here a graph of types is one object. Slices without elements have an address although they have no storage.
A map's InnerMap is followed as far as it goes or until a map which is its own InnerMap; other cycles aren't modelled (Copy doesn't end on them).
-/
namespace Ebpf.SpecCopy

/-- A pointer or slice which isn't nil, and what is there. -/
structure Ref (α : Type) where
  addr : Nat
  val : α
deriving DecidableEq

/-- map.go:76-80 `MapKV`; the value is (for data sections) a slice of bytes. -/
structure KV where
  key : Bytes
  value : Ref Bytes
deriving DecidableEq

/-- map.go:27-75 `MapSpec`; `inner` is the address in InnerMap. -/
structure MapSpec where
  addr : Nat
  fields : Bytes
  contents : Option (Ref (List KV))
  key : Option (Ref Bytes)
  value : Option (Ref Bytes)
  tags : Option (Ref (List Bytes))
  inner : Option Nat
  extra : Option (Ref Bytes)
deriving DecidableEq

/-- asm/instruction.go:32-42 `Instruction`; its metadata is a list which is never changed in place. -/
structure Ins where
  data : Bytes
  md : Option (Ref Bytes)
deriving DecidableEq

/-- prog.go:71-149 `ProgramSpec`; `target` is AttachTarget. -/
structure ProgSpec where
  addr : Nat
  fields : Bytes
  target : Option (Ref Bytes)
  insns : Option (Ref (List Ins))
deriving DecidableEq

/-- variable.go:18-30 `VariableSpec`. -/
structure VarSpec where
  addr : Nat
  fields : Bytes
  value : Option (Ref Bytes)
  typ : Option (Ref Bytes)
deriving DecidableEq

/-- collection.go:45-64 `CollectionSpec`: maps with their inner maps (no map: nil), programs (`none`: nil), variables. -/
structure CollSpec where
  addr : Nat
  maps : Option (Ref (List (Bytes × List MapSpec)))
  progs : Option (Ref (List (Bytes × Option ProgSpec)))
  vars : Option (Ref (List (Bytes × VarSpec)))
  types : Option (Ref Bytes)
  order : Bytes
deriving DecidableEq

/-- slices.Clone (map.go:112, 115, variable.go:102), btf.Copy (map.go:113-114, variable.go:104-106), btf.Spec.Copy (collection.go:77), `extra := *cpy.Extra` (map.go:123-126). -/
def cloneRef {α : Type} (r : Option (Ref α)) (n : Nat) : Option (Ref α) × Nat :=
  match r with
  | none => (none, n)
  | some r => (some ⟨n, r.val⟩, n + 1)

/-- map.go:106-129 `MapSpec.Copy`, of a map and its inner maps. -/
def copyMap : List MapSpec → Nat → List MapSpec × Nat
  | [], n => ([], n)
  | m :: ms, n =>
    let (contents, n1) := cloneRef m.contents (n + 1)
    let (key, n2) := cloneRef m.key n1
    let (value, n3) := cloneRef m.value n2
    let (tags, n4) := cloneRef m.tags n3
    if m.inner = some m.addr then
      let (extra, n5) := cloneRef m.extra n4
      ([⟨n, m.fields, contents, key, value, tags, some n, extra⟩], n5)
    else
      let (rest, n5) := copyMap ms n4
      let (extra, n6) := cloneRef m.extra n5
      (⟨n, m.fields, contents, key, value, tags, rest.head?.map (·.addr), extra⟩ :: rest, n6)

/-- prog.go:165-174 `ProgramSpec.Copy`. -/
def copyProg (p : Option ProgSpec) (n : Nat) : Option ProgSpec × Nat :=
  match p with
  | none => (none, n)
  | some p => (some ⟨n, p.fields, p.target, some ⟨n + 1, match p.insns with | none => [] | some r => r.val⟩⟩, n + 2)

/-- variable.go:100-109 `VariableSpec.Copy`. -/
def copyVar (v : VarSpec) (n : Nat) : VarSpec × Nat :=
  let (value, n1) := cloneRef v.value (n + 1)
  let (typ, n2) := cloneRef v.typ n1
  (⟨n, v.fields, value, typ⟩, n2)

/-- The loops of collection.go:80-82 and 96-98, in some order. -/
def copyEntries {α : Type} (f : α → Nat → α × Nat) : List (Bytes × α) → Nat → List (Bytes × α) × Nat
  | [], n => ([], n)
  | (k, v) :: l, n =>
    let (v, n1) := f v n
    let (l, n2) := copyEntries f l n1
    ((k, v) :: l, n2)

/-- collection.go:90-101 `copyMapOfSpecs`, and 75-85 for the variables. -/
def copyMapOfSpecs {α : Type} (f : α → Nat → α × Nat) (m : Option (Ref (List (Bytes × α)))) (n : Nat) : Option (Ref (List (Bytes × α))) × Nat :=
  match m with
  | none => (none, n)
  | some r =>
    let (l, n1) := copyEntries f r.val (n + 1)
    (some ⟨n, l⟩, n1)

/-- collection.go:67-88 `CollectionSpec.Copy`. -/
def copy (cs : CollSpec) (n : Nat) : CollSpec × Nat :=
  let (maps, n1) := copyMapOfSpecs copyMap cs.maps (n + 1)
  let (progs, n2) := copyMapOfSpecs copyProg cs.progs n1
  let (vars, n3) := copyMapOfSpecs copyVar cs.vars n2
  let (types, n4) := cloneRef cs.types n3
  (⟨n, maps, progs, vars, types, cs.order⟩, n4)

end Ebpf.SpecCopy
