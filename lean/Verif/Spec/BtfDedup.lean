import Verif.Model.BtfTypes
/-!
# What deduplication of types must preserve

A type is looked at by unfolding it: what it says itself, and the same for the types it refers to, to
any depth. Two types mean the same if no depth tells them apart.
-/
namespace Ebpf.BtfSpec
open Ebpf.Btf
variable {R : Type}

/-- What a type itself says, with everything a user can observe. -/
def full (n : Node R) : Node Unit := n.map fun _ => ()

/-- What a type itself says, without: size and signedness of enums, bit field sizes, the linkage of
functions, the size of data sections, and all declaration tags. -/
def brief : Node R → Node Unit
  | .struct n s ms _ => .struct n s (ms.map fun m => ⟨m.name, (), m.offset, 0, []⟩) []
  | .union n s ms _ => .union n s (ms.map fun m => ⟨m.name, (), m.offset, 0, []⟩) []
  | .enum n _ _ vs => .enum n 0 false vs
  | .typedef n _ _ => .typedef n () []
  | .func n _ _ _ _ => .func n () 0 [] []
  | .var n _ l _ => .var n () l []
  | .datasec n _ vs => .datasec n 0 (vs.map fun v => ⟨(), v.offset, v.size⟩)
  | n => n.map fun _ => ()

/-- The types a type refers to. -/
def subs : Node R → List R
  | .ptr t => [t]
  | .array i t _ => [i, t]
  | .struct _ _ ms _ => ms.map (·.type)
  | .union _ _ ms _ => ms.map (·.type)
  | .typedef _ t _ => [t]
  | .volatile t => [t]
  | .const t => [t]
  | .restrict t => [t]
  | .func _ t _ _ _ => [t]
  | .funcProto r ps => r :: ps.map (·.type)
  | .var _ t _ _ => [t]
  | .datasec _ _ vs => vs.map (·.type)
  | .typeTag t _ => [t]
  | .declTag t _ _ => [t]
  | _ => []

/-- A type unfolded to some depth. -/
inductive Tree where
  | cut
  | node (says : Node Unit) (refers : List Tree)

/-- Unfold a type; `look` says what is looked at. -/
def unfold (look : Node R → Node Unit) (g : Graph R) : Nat → R → Tree
  | 0, _ => .cut
  | n + 1, r => .node (look (g r)) ((subs (g r)).map (unfold look g n))

/-- Two types are the same as far as `look` can tell. -/
def SameType (look : Node R → Node Unit) (g : Graph R) (a b : R) : Prop := ∀ n, unfold look g n a = unfold look g n b

/-- The type refers to other types at most `n - 1` levels deep; in particular it is not recursive. -/
def Depth (g : Graph R) : Nat → R → Prop
  | 0, _ => False
  | n + 1, r => ∀ x ∈ subs (g r), Depth g n x

/-- A type graph as it is given to the deduper: `N` bounds how deep types are nested, so that no type refers to
itself; there are no placeholders. -/
structure Acyclic (g : Graph R) (N : Nat) : Prop where
  depth : ∀ r, Depth g N r
  real : ∀ r t, g r ≠ .cycle t

/-- Where the traversal finds the declaration tags it makes up: for each parent (not itself a tag), value, index and
position an address. -/
def Allocates (alloc : R → Bytes → Int → Nat → R) (g : Graph R) : Prop :=
  ∀ p v i k, (∀ q w j, g p ≠ .declTag q w j) → g (alloc p v i k) = .declTag p v i

/-- Enums with the same name and values have the same size and signedness. -/
def EnumsAgree (g : Graph R) : Prop := ∀ x y n s sg vs s' sg', g x = .enum n s sg vs → g y = .enum n s' sg' vs → s = s' ∧ sg = sg'

end Ebpf.BtfSpec
