import Verif.Model.BtfTypes
/-!
# Model of `btf/traversal.go`
-/
namespace Ebpf.Btf

/-- Pointers met while walking a graph: those of the graph, and the `*declTag`s `children` allocates for the tags of a type:
the `k`-th tag of component `idx` of `parent`; `ph` is the placeholder `Int` marshalling may allocate for an enum
(btf/marshal.go:497-515). Every pointer is allocated anew for each call of `children`; since every
type is expanded at most once per traversal, naming it by its position is no restriction. -/
inductive TRef (R : Type) where
  | obj (r : R)
  | tag (parent : R) (value : Bytes) (idx : Int) (k : Nat)
  | ph (parent : R)
deriving DecidableEq

variable {R : Type}

/-- btf/traversal.go:64-72, 79-87, 109-116, 150-157: a `declTag` for each tag of a component. -/
def tagRefs (parent : R) (idx : Int) (tags : List Bytes) : List (TRef R) :=
  tags.mapIdx fun k v => .tag parent v idx k

/-- btf/traversal.go:60-73, 75-88: members of a composite, each followed by its tags. -/
def memberRefs (parent : R) (ms : List (Member R)) : List (TRef R) :=
  (ms.mapIdx fun i m => .obj m.type :: tagRefs parent (i : Int) m.tags).flatten

/-- btf/traversal.go:106-119: tags of the parameters of a function; `n` is the number of parameters. -/
def paramTagRefs (parent : R) (n : Nat) (pts : List (List Bytes)) : List (TRef R) :=
  ((pts.take n).mapIdx fun i ts => tagRefs parent (i : Int) ts).flatten

/-- btf/traversal.go:106: `if fp, ok := v.Type.(*FuncProto)`, the number of parameters. -/
def protoLen (n : Node R) : Nat :=
  match n with
  | .funcProto _ ps => ps.length
  | _ => 0

/-- btf/traversal.go:38-160 `children` of the type `r` of graph `g`. -/
def childrenObj (g : Graph R) (r : R) : List (TRef R) :=
  match g r with
  | .void => []
  | .int .. => []
  | .enum .. => []
  | .fwd .. => []
  | .float .. => []
  | .declTag .. => []
  | .cycle _ => []
  | .ptr t => [.obj t]
  | .array i t _ => [.obj i, .obj t]
  | .struct _ _ ms ts => memberRefs r ms ++ tagRefs r (-1) ts
  | .union _ _ ms ts => memberRefs r ms ++ tagRefs r (-1) ts
  | .typedef _ t ts => .obj t :: tagRefs r (-1) ts
  | .volatile t => [.obj t]
  | .const t => [.obj t]
  | .restrict t => [.obj t]
  | .func _ t _ ts pts => .obj t :: (paramTagRefs r (protoLen (g t)) pts ++ tagRefs r (-1) ts)
  | .funcProto t ps => .obj t :: ps.map fun p => .obj p.type
  | .var _ t _ ts => .obj t :: tagRefs r (-1) ts
  | .datasec _ _ vs => vs.map fun v => .obj v.type
  | .typeTag t _ => [.obj t]

/-- btf/traversal.go:38-160 `children`; a `declTag` is a leaf. -/
def children (g : Graph R) : TRef R → List (TRef R)
  | .obj r => childrenObj g r
  | .tag .. => []
  | .ph _ => []

variable {α : Type} [DecidableEq α]

/-- btf/traversal.go:29-33: the loop over the children. `v` is the recursive call; the result are the types yielded and the
types visited. -/
def visitList (v : α → List α → Option (List α × List α)) : List α → List α → Option (List α × List α)
  | [], vis => some ([], vis)
  | c :: cs, vis =>
    match v c vis with
    | none => none
    | some (o, vis) =>
      match visitList v cs vis with
      | none => none
      | some (os, vis) => some (o ++ os, vis)

/-- btf/traversal.go:20-36 `visitInPostorder` for a consumer that takes all types; generic in the graph. The result are the types
yielded, in order, and the final `visited` set. `fuel` bounds the depth of the recursion (`none` = exceeded). -/
def visit (ch : α → List α) : Nat → α → List α → Option (List α × List α)
  | 0, _, _ => none
  | fuel + 1, root, vis =>
    if root ∈ vis then some ([], vis)
    else
      match visitList (visit ch fuel) (ch root) (root :: vis) with
      | none => none
      | some (out, vis') => some (out ++ [root], vis')

end Ebpf.Btf
