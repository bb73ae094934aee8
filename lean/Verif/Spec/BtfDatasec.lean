import Verif.Spec.BtfTypes
/-!
# Specification: alignment and layout of a data section

Over unbounded integers.
-/
namespace Ebpf.BtfSpec
open Ebpf.Btf
variable {R : Type}

/-- The alignment of scalars, enums and arrays of these, behind any typedefs and qualifiers. -/
inductive HasAlign (g : Graph R) : R → Nat → Prop where
  | int {t n s e} : g t = .int n s e → HasAlign g t s.toNat
  | enum {t n s sg vs} : g t = .enum n s sg vs → HasAlign g t s.toNat
  | array {t i e k a} : g t = .array i e k → HasAlign g e a → HasAlign g t a
  | peel {t t' a} : Peel g t t' → HasAlign g t' a → HasAlign g t a

/-- Variables placed one after another from `off`, each at the first multiple of its alignment: `offs` are the offsets and
the section ends at `e`. -/
inductive Layout (g : Graph R) : Nat → List R → List Nat → Nat → Prop where
  | nil (off) : Layout g off [] [] off
  | cons {off v n t l ts d sz al o vs os e} : g v = .var n t l ts → HasSize g d t sz → HasAlign g t al →
      off ≤ o → al ∣ o → o < off + al → Layout g (o + sz) vs os e → Layout g off (v :: vs) (o :: os) e

/-- `vars` with their recorded offsets are aligned, in order, disjoint and inside a section of `size` bytes. -/
def WellPlaced (g : Graph R) (vars : List (VarSecinfo R)) (size : BitVec 32) : Prop :=
  ∀ (i : Nat) (v : VarSecinfo R), vars[i]? = some v → ∃ n t l ts d sz al, g v.type = .var n t l ts ∧ HasSize g d t sz ∧ HasAlign g t al ∧
    al ∣ v.offset.toNat ∧ (∃ k, al = 2 ^ k) ∧ v.offset.toNat + sz ≤ size.toNat ∧
    ∀ (j : Nat) (w : VarSecinfo R), vars[j]? = some w → i < j → v.offset.toNat + sz ≤ w.offset.toNat

end Ebpf.BtfSpec
