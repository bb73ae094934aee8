import Verif.Model.BtfTypes
/-!
# Specifications for `Sizeof`, `UnderlyingType` and essential names

Only the data type `Node` of type graphs is taken from the model.
-/
namespace Ebpf.BtfSpec
open Ebpf.Btf
variable {R : Type}

/-- The C size of a type, over unbounded integers. `d` counts the wrappers around the base type. -/
inductive HasSize (g : Graph R) : Nat → R → Nat → Prop where
  | void {t} : g t = .void → HasSize g 0 t 0
  | int {t n s e} : g t = .int n s e → HasSize g 0 t s.toNat
  | ptr {t a} : g t = .ptr a → HasSize g 0 t 8
  | struct {t n s ms ts} : g t = .struct n s ms ts → HasSize g 0 t s.toNat
  | union {t n s ms ts} : g t = .union n s ms ts → HasSize g 0 t s.toNat
  | enum {t n s sg vs} : g t = .enum n s sg vs → HasSize g 0 t s.toNat
  | datasec {t n s vs} : g t = .datasec n s vs → HasSize g 0 t s.toNat
  | float {t n s} : g t = .float n s → HasSize g 0 t s.toNat
  | array {t i e k d m} : g t = .array i e k → HasSize g d e m → HasSize g (d + 1) t (k.toNat * m)
  | typedef {t n t' ts d m} : g t = .typedef n t' ts → HasSize g d t' m → HasSize g (d + 1) t m
  | volatile {t t' d m} : g t = .volatile t' → HasSize g d t' m → HasSize g (d + 1) t m
  | const {t t' d m} : g t = .const t' → HasSize g d t' m → HasSize g (d + 1) t m
  | restrict {t t' d m} : g t = .restrict t' → HasSize g d t' m → HasSize g (d + 1) t m
  | typeTag {t t' v d m} : g t = .typeTag t' v → HasSize g d t' m → HasSize g (d + 1) t m

/-- One qualifier is removed. -/
inductive Qual (g : Graph R) : R → R → Prop where
  | volatile {t t'} : g t = .volatile t' → Qual g t t'
  | const {t t'} : g t = .const t' → Qual g t t'
  | restrict {t t'} : g t = .restrict t' → Qual g t t'
  | typeTag {t t' v} : g t = .typeTag t' v → Qual g t t'

/-- One qualifier or typedef is removed. -/
inductive Peel (g : Graph R) : R → R → Prop where
  | qual {t t'} : Qual g t t' → Peel g t t'
  | typedef {t n t' ts} : g t = .typedef n t' ts → Peel g t t'

/-- `d` steps of a relation. -/
inductive Steps {α : Type} (r : α → α → Prop) : Nat → α → α → Prop where
  | refl (a) : Steps r 0 a a
  | step {d a b c} : r a b → Steps r d b c → Steps r (d + 1) a c

/-- `e` is the name `s` without its flavour: `s = e ++ "___" ++ suffix` with `e` non-empty, taking the last possible "___". -/
def Flavoured (s e : Bytes) : Prop :=
  e ≠ [] ∧ (∃ suf, s = e ++ [0x5f, 0x5f, 0x5f] ++ suf) ∧ ∀ e' suf', s = e' ++ [0x5f, 0x5f, 0x5f] ++ suf' → e'.length ≤ e.length

end Ebpf.BtfSpec
