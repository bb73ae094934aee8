import Verif.Spec.BtfRecord
import Verif.Spec.BtfTraversal
/-! # Specification: what a reader sees of the types that were written -/
namespace Ebpf.BtfSpec
open Ebpf.Btf
variable {R : Type}

/-- The number of parameters of a prototype. -/
def arity : Node R → Nat
  | .funcProto _ ps => ps.length
  | _ => 0

/-- A function carries a tag, on itself or on one of its `k` parameters. -/
def Tagged (k : Nat) (ts : List Bytes) (pts : List (List Bytes)) : Prop := ts ≠ [] ∨ ∃ p ∈ pts.take k, p ≠ []

instance (k ts pts) : Decidable (Tagged k ts pts) := by unfold Tagged; infer_instance

/-- Tags of parameters as a reader sees them: one list for each of the `k` parameters, or nothing if the function has no tags at all. -/
def paramTagsSeen (k : Nat) (ts : List Bytes) (pts : List (List Bytes)) : List (List Bytes) :=
  if Tagged k ts pts then pts.take k ++ List.replicate (k - pts.length) [] else []

/-- The struct a reader sees for a type. Without options it is the type itself, up to the representation of absent parameter tags of functions. With options, newer features are
replaced: tags are dropped, the linkage of functions is 0, type tags are `const`, 64-bit enums are unions. -/
def seen (o : Opts) (g : Graph R) : TRef R → Node (TRef R)
  | .obj r =>
    match g r with
    | .struct n s ms ts =>
      .struct n s (ms.map fun m => ⟨m.name, .obj m.type, m.offset, m.bitfieldSize, if o.replaceDeclTags then [] else m.tags⟩) (if o.replaceDeclTags then [] else ts)
    | .union n s ms ts =>
      .union n s (ms.map fun m => ⟨m.name, .obj m.type, m.offset, m.bitfieldSize, if o.replaceDeclTags then [] else m.tags⟩) (if o.replaceDeclTags then [] else ts)
    | .typedef n t ts => .typedef n (.obj t) (if o.replaceDeclTags then [] else ts)
    | .var n t l ts => .var n (.obj t) l (if o.replaceDeclTags then [] else ts)
    | .func n t l ts pts =>
      .func n (.obj t) (if o.stripFuncLinkage then 0 else l) (if o.replaceDeclTags then [] else ts)
        (if o.replaceDeclTags then [] else paramTagsSeen (arity (g t)) ts pts)
    | n => lower o (.ph r) (n.map .obj)
  | t => lower o t (extGraph g t)

/-- A type that can be written and read back: its fields fit the wire format; it is not one of the library's internal types; a tagged function has a prototype
which does not lead back to the function. -/
structure Writable (g : Graph R) (r : R) : Prop where
  fits : Fits (g r)
  exported : ∀ t v i, g r ≠ .declTag t v i
  acyclic : ∀ t, g r ≠ .cycle t
  func : ∀ n t l ts pts, g r = .func n t l ts pts → Tagged (arity (g t)) ts pts →
    (∃ ret ps, g t = .funcProto ret ps) ∧ ¬ Reach (children g) (.obj t) (.obj r)

/-- All strings of a type. -/
def texts : Node R → List Bytes
  | .struct n _ ms ts => n :: (ms.map (·.name) ++ ((ms.map (·.tags)).flatten ++ ts))
  | .union n _ ms ts => n :: (ms.map (·.name) ++ ((ms.map (·.tags)).flatten ++ ts))
  | .enum n _ _ vs => n :: vs.map (·.name)
  | .typedef n _ ts => n :: ts
  | .var n _ _ ts => n :: ts
  | .func n _ _ ts pts => n :: (pts.flatten ++ ts)
  | .funcProto _ ps => ps.map (·.name)
  | .declTag _ v _ => [v]
  | .typeTag _ v => [v]
  | n => [n.name]

/-- A type the encoder accepts: strings contain no NUL, and the values of enums of at most 4 bytes fit 32 bits. -/
structure Storable (n : Node R) : Prop where
  nul : ∀ s ∈ texts n, 0#8 ∉ s
  enum : ∀ nm s sg vs, n = .enum nm s sg vs → s ≠ 8 → ∀ v ∈ vs, if sg then -2 ^ 31 ≤ v.value.toInt ∧ v.value.toInt < 2 ^ 31 else v.value.toNat < 2 ^ 32

/-- A bound on the size of a type and its tags in a blob. -/
def cost (n : Node R) : Nat :=
  100 + ((texts n).map fun s => s.length + 50).sum + match n with
    | .datasec _ _ vs => 16 * vs.length
    | _ => 0

/-- What is written for the types `ts`: everything they lead to, and a placeholder for each 64-bit enum which is replaced. -/
def Covered (o : Opts) (g : Graph R) (ts : List R) (t : TRef R) : Prop :=
  (∃ a ∈ ts, Reach (children g) (.obj a) t) ∨
  (o.replaceEnum64 = true ∧ ∃ r nm sg vs, t = .ph r ∧ g r = .enum nm 8 sg vs ∧ ∃ a ∈ ts, Reach (children g) (.obj a) (.obj r))

/-- The types a type refers to. -/
def targets {T : Type} : Node T → List T
  | .ptr t => [t]
  | .array i t _ => [i, t]
  | .struct _ _ ms _ => ms.map (·.type)
  | .union _ _ ms _ => ms.map (·.type)
  | .typedef _ t _ => [t]
  | .volatile t => [t]
  | .const t => [t]
  | .restrict t => [t]
  | .func _ t _ _ _ => [t]
  | .funcProto r ps => r :: ps.map (·.type)
  | .var _ t _ _ => [t]
  | .datasec _ _ vs => vs.map (·.type)
  | .declTag t _ _ => [t]
  | .typeTag t _ => [t]
  | _ => []

/-- `heap` (addresses to structs) contains a copy of the part `K` of the graph `node`: `f` gives the address of the copy. The copy of a type is the type itself, with every reference
replaced by the address of the copy of what it refers to, and different types have different copies (all Voids are the same). -/
structure CopyOf {T : Type} (node : T → Node T) (K : T → Prop) (f : T → Nat) (heap : List (Node Nat)) : Prop where
  copy : ∀ t, K t → heap[f t]? = some ((node t).map f)
  closed : ∀ t, K t → ∀ u ∈ targets (node t), K u
  inj : ∀ t u, K t → K u → f t = f u → t = u ∨ (node t = .void ∧ node u = .void)

end Ebpf.BtfSpec
