import Verif.Base
/-!
# Model of the BTF type graph, `btf/types.go` and `btf/traversal.go:38-160`

Go types are pointers to structs which refer to each other. `R` is the type of pointers (object identities) and a graph
is a function `R → Node R` giving the struct a pointer points at, so any graph, cyclic or not, can be expressed.
Names are byte lists. Nil interfaces are not modelled: every `Type` field is assumed to be set.
-/
namespace Ebpf.Btf

/-- btf/types.go:297-307 `Member`. -/
structure Member (R : Type) where
  name : Bytes
  type : R
  offset : BitVec 32
  bitfieldSize : BitVec 32
  tags : List Bytes
deriving DecidableEq

/-- btf/types.go:327-332 `EnumValue`. -/
structure EnumValue where
  name : Bytes
  value : BitVec 64
deriving DecidableEq

/-- btf/types.go:521-524 `FuncParam`. -/
structure FuncParam (R : Type) where
  name : Bytes
  type : R
deriving DecidableEq

/-- btf/types.go:566-574 `VarSecinfo`. -/
structure VarSecinfo (R : Type) where
  type : R
  offset : BitVec 32
  size : BitVec 32
deriving DecidableEq

/-- The structs implementing `Type`, btf/types.go:80-650 (`cycle` is only produced by `UnderlyingType` and `QualifiedType`).
`FuncLinkage`, `VarLinkage`, `FwdKind` and `declTag.Index` are Go ints. -/
inductive Node (R : Type) where
  | void
  | int (name : Bytes) (size : BitVec 32) (encoding : BitVec 8)
  | ptr (target : R)
  | array (index type : R) (nelems : BitVec 32)
  | struct (name : Bytes) (size : BitVec 32) (members : List (Member R)) (tags : List Bytes)
  | union (name : Bytes) (size : BitVec 32) (members : List (Member R)) (tags : List Bytes)
  | enum (name : Bytes) (size : BitVec 32) (signed : Bool) (values : List EnumValue)
  | fwd (name : Bytes) (kind : Int)
  | typedef (name : Bytes) (type : R) (tags : List Bytes)
  | volatile (type : R)
  | const (type : R)
  | restrict (type : R)
  | func (name : Bytes) (type : R) (linkage : Int) (tags : List Bytes) (paramTags : List (List Bytes))
  | funcProto (ret : R) (params : List (FuncParam R))
  | var (name : Bytes) (type : R) (linkage : Int) (tags : List Bytes)
  | datasec (name : Bytes) (size : BitVec 32) (vars : List (VarSecinfo R))
  | float (name : Bytes) (size : BitVec 32)
  | declTag (type : R) (value : Bytes) (index : Int)
  | typeTag (type : R) (value : Bytes)
  | cycle (root : R)
deriving DecidableEq

/-- A type graph. -/
abbrev Graph (R : Type) := R → Node R

namespace Node
variable {R : Type}

/-- `TypeName`, btf/types.go:83 … 640. -/
def name : Node R → Bytes
  | int n _ _ => n
  | struct n _ _ _ => n
  | union n _ _ _ => n
  | enum n _ _ _ => n
  | fwd n _ => n
  | typedef n _ _ => n
  | func n _ _ _ _ => n
  | var n _ _ _ => n
  | datasec n _ _ => n
  | float n _ => n
  | _ => []

/-- Types implementing `sizer`, btf/types.go:652-663, with their `size()`. `Void` and `Float` have the method too. -/
def size? : Node R → Option (BitVec 32)
  | void => some 0
  | int _ s _ => some s
  | ptr _ => some 8
  | struct _ s _ _ => some s
  | union _ s _ _ => some s
  | enum _ s _ _ => some s
  | datasec _ s _ => some s
  | float _ s => some s
  | _ => none

/-- Types implementing `qualifier`, btf/types.go:665-674, with their `qualify()`. -/
def qualify? : Node R → Option R
  | volatile t => some t
  | const t => some t
  | restrict t => some t
  | typeTag t _ => some t
  | _ => none

/-- Qualifiers and typedefs: what `UnderlyingType` and `As` peel off. -/
def peel? : Node R → Option R
  | typedef _ t _ => some t
  | n => n.qualify?

/-- `members()` of the composite types. -/
def members? : Node R → Option (List (Member R))
  | struct _ _ ms _ => some ms
  | union _ _ ms _ => some ms
  | _ => none

/-- The same struct with every pointer replaced: relates graphs over different sets of pointers. -/
def map {S : Type} (f : R → S) : Node R → Node S
  | void => .void
  | int n s e => .int n s e
  | ptr t => .ptr (f t)
  | array i t n => .array (f i) (f t) n
  | struct n s ms ts => .struct n s (ms.map fun m => ⟨m.name, f m.type, m.offset, m.bitfieldSize, m.tags⟩) ts
  | union n s ms ts => .union n s (ms.map fun m => ⟨m.name, f m.type, m.offset, m.bitfieldSize, m.tags⟩) ts
  | enum n s sg vs => .enum n s sg vs
  | fwd n k => .fwd n k
  | typedef n t ts => .typedef n (f t) ts
  | volatile t => .volatile (f t)
  | const t => .const (f t)
  | restrict t => .restrict (f t)
  | func n t l ts pts => .func n (f t) l ts pts
  | funcProto t ps => .funcProto (f t) (ps.map fun p => ⟨p.name, f p.type⟩)
  | var n t l ts => .var n (f t) l ts
  | datasec n s vs => .datasec n s (vs.map fun v => ⟨f v.type, v.offset, v.size⟩)
  | float n s => .float n s
  | declTag t v i => .declTag (f t) v i
  | typeTag t v => .typeTag (f t) v
  | cycle t => .cycle (f t)

end Node

variable {R : Type}

/-- btf/types.go:17 `maxResolveDepth`. -/
def maxResolveDepth : Nat := 32

/-- Why `Sizeof` fails. -/
inductive SizeErr | overflow | unsized | depth
deriving DecidableEq

/-- `math.MaxInt64`. -/
def maxInt64 : Nat := 2 ^ 63 - 1

/-- btf/types.go:681-730 `Sizeof`: the loop with `k` iterations left. `int` has 64 bits, so the check `int64(int(size)) != size`
is void. -/
def sizeofLoop (g : Graph R) : Nat → Nat → R → Except SizeErr Nat
  | 0, _, _ => .error .depth
  | k + 1, n, t =>
    match g t with
    | .array _ e nelems =>
      if n > 0 ∧ nelems.toNat > maxInt64 / n then .error .overflow
      else sizeofLoop g k (n * nelems.toNat) e
    | nd =>
      match nd.size? with
      | some s =>
        if n > 0 ∧ s.toNat > maxInt64 / n then .error .overflow else .ok (n * s.toNat)
      | none =>
        match nd.peel? with
        | some t' => sizeofLoop g k n t'
        | none => .error .unsized

/-- btf/types.go:681-730 `Sizeof`. -/
def sizeof (g : Graph R) (t : R) : Except SizeErr Nat := sizeofLoop g maxResolveDepth 1 t

/-- btf/types.go:826-840 `UnderlyingType`, loop; `none` = a `cycle`. -/
def underlyingLoop (g : Graph R) : Nat → R → Option R
  | 0, _ => none
  | k + 1, t =>
    match (g t).peel? with
    | some t' => underlyingLoop g k t'
    | none => some t

/-- btf/types.go:826-840 `UnderlyingType`: the loop runs for `depth <= maxResolveDepth`. `none` stands for `&cycle{typ}`. -/
def underlyingType (g : Graph R) (t : R) : Option R := underlyingLoop g (maxResolveDepth + 1) t

/-- btf/types.go:842-854 `QualifiedType`, loop. -/
def qualifiedLoop (g : Graph R) : Nat → R → Option R
  | 0, _ => none
  | k + 1, t =>
    match (g t).qualify? with
    | some t' => qualifiedLoop g k t'
    | none => some t

/-- btf/types.go:842-854 `QualifiedType`. -/
def qualifiedType (g : Graph R) (t : R) : Option R := qualifiedLoop g (maxResolveDepth + 1) t

/-- btf/types.go:861-881 `As`, loop; `want` is the type assertion. -/
def asLoop (g : Graph R) (want : Node R → Bool) : Nat → R → Option R
  | 0, _ => none
  | k + 1, t =>
    if want (g t) then some t
    else match (g t).peel? with
      | some t' => asLoop g want k t'
      | none => none

/-- btf/types.go:861-881 `As`. -/
def asType (g : Graph R) (want : Node R → Bool) (t : R) : Option R := asLoop g want (maxResolveDepth + 1) t

/-- btf/types.go:807-817 `newEssentialName`: `i` is `strings.LastIndex(name, "___")`, computed by `lastIndex3`. -/
def uuu : Bytes := [0x5f, 0x5f, 0x5f]

/-- Go `strings.LastIndex(name, "___")`; `none` = -1. -/
def lastIndex3 : Bytes → Option Nat
  | [] => none
  | b :: bs =>
    match lastIndex3 bs with
    | some i => some (i + 1)
    | none => if uuu.isPrefixOf (b :: bs) then some 0 else none

/-- btf/types.go:807-817 `newEssentialName`. -/
def newEssentialName (name : Bytes) : Bytes :=
  if name = [] then []
  else match lastIndex3 name with
    | some i => if i > 0 then name.take i else name
    | none => name

end Ebpf.Btf
