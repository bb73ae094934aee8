import Verif.Model.Assign
/-!
# Specification: fields tagged `ebpf`

The fields meant are the tagged ones of the struct and of all structs in it or pointed to by it through untagged fields.
-/
namespace Ebpf.AssignSpec
open Ebpf.Assign

/-- A struct reached from another one through untagged fields. The flags: was there an unexported field on the way? -/
inductive Reach (h : Nat → Strct) : Nat → Bool → Nat → Bool → Prop
  | here (a : Nat) (s : Bool) : Reach h a s a s
  | step (a : Nat) (s : Bool) (i : Nat) (f : Fld) (b c : Nat) (s' : Bool) : (h a).fields[i]? = some f → f.tag = "" → f.kind = .struct b ∨ f.kind = .ptr (some b) →
      Reach h b (s || (!f.exported && !f.embedded)) c s' → Reach h a s c s'

/-- A tagged field of `root`: where it is, its type and tag, and whether the program could set it. -/
def Tagged (h : Nat → Strct) (root : Nat) (loc : Nat × Nat) (t : Ty) (tag : String) (settable : Bool) : Prop :=
  ∃ s, ∃ f : Fld, Reach h root false loc.1 s ∧ (h loc.1).fields[loc.2]? = some f ∧ f.tag ≠ "" ∧ t = f.typ ∧ tag = f.tag ∧ settable = (!s && f.exported)

/-- A tagged field met on the path `p` (field numbers) from the struct at `a`. -/
inductive Occ (h : Nat → Strct) : Nat → Bool → List Nat → F → Prop
  | here (a : Nat) (s : Bool) (i : Nat) (f : Fld) : (h a).fields[i]? = some f → f.tag ≠ "" → Occ h a s [i] ⟨(a, i), f.tag, f.typ, !s && f.exported⟩
  | step (a : Nat) (s : Bool) (i : Nat) (f : Fld) (b : Nat) (p : List Nat) (x : F) : (h a).fields[i]? = some f → f.tag = "" → f.kind = .struct b ∨ f.kind = .ptr (some b) →
      Occ h b (s || (!f.exported && !f.embedded)) p x → Occ h a s (i :: p) x

/-- There is an untagged nil pointer to a struct. -/
def NilField (h : Nat → Strct) (root : Nat) : Prop :=
  ∃ a s, ∃ (i : Nat) (f : Fld), Reach h root false a s ∧ (h a).fields[i]? = some f ∧ f.tag = "" ∧ f.kind = .ptr none

/-- No struct contains or points to itself, even indirectly. -/
def Acyclic (h : Nat → Strct) : Prop :=
  ∃ rank : Nat → Nat, ∀ a (i : Nat) (f : Fld) b, (h a).fields[i]? = some f → f.tag = "" → f.kind = .struct b ∨ f.kind = .ptr (some b) → rank b < rank a

/-- Memory after storing. -/
def store (m : Nat × Nat → Option Nat) : List ((Nat × Nat) × Nat) → Nat × Nat → Option Nat
  | [] => m
  | (l, o) :: r => store (fun x => if x = l then some o else m x) r

/-- The object of a type and name. -/
def Has (c : Coll) (t : Ty) (n : String) (o : Nat) : Prop :=
  match t with
  | .prog => c.progs.lookup n = some o
  | .map => c.maps.lookup n = some o
  | .var => c.vars.lookup n = some o
  | .other => False

end Ebpf.AssignSpec
