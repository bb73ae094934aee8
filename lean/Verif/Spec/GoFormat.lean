import Verif.Model.GoFormat
import Verif.Spec.BtfTypes
/-!
# Specification: memory layout of Go types and what it means to represent a C type

The layout of Go types is that of the gc compiler (cmd/compile/internal/types/size.go): a field is placed at the next multiple of its
alignment; a struct that is not empty and ends in a field of size zero gets one more byte; the size of a struct is rounded up to its
alignment. `w` is the word size of the processor (4 or 8): basic types are aligned to their size, at most `w`.
`env` gives size and alignment of the named types.
-/
namespace Ebpf.BtfSpec
open Ebpf.Btf
variable {R : Type}

/-- The next multiple of `a`. -/
def roundUp (x a : Nat) : Nat := (x + a - 1) / a * a

mutual
/-- Alignment of a Go type. -/
def goAlign (env : R → Nat × Nat) (w : Nat) : GoTy R → Nat
  | .int _ s => min s w
  | .bool => 1
  | .bytes _ => 1
  | .array _ t => goAlign env w t
  | .struct fs => fieldsAlign env w fs
  | .named u => (env u).2
/-- The largest alignment of the fields. -/
def fieldsAlign (env : R → Nat × Nat) (w : Nat) : GoFields R → Nat
  | .nil => 1
  | .cons _ t r => max (goAlign env w t) (fieldsAlign env w r)
end

mutual
/-- Size of a Go type. -/
def goSize (env : R → Nat × Nat) (w : Nat) : GoTy R → Nat
  | .int _ s => s
  | .bool => 1
  | .bytes n => n
  | .array n t => n * goSize env w t
  | .struct fs =>
    let e := fieldsEnd env w 0 fs
    roundUp (if e ≠ 0 ∧ lastEmpty env w fs then e + 1 else e) (fieldsAlign env w fs)
  | .named u => (env u).1
/-- Where the last field ends, if the first one may begin at `off`. -/
def fieldsEnd (env : R → Nat × Nat) (w : Nat) : Nat → GoFields R → Nat
  | off, .nil => off
  | off, .cons _ t r => fieldsEnd env w (roundUp off (goAlign env w t) + goSize env w t) r
/-- Does the last field have size zero? -/
def lastEmpty (env : R → Nat × Nat) (w : Nat) : GoFields R → Bool
  | .nil => false
  | .cons _ t .nil => goSize env w t == 0
  | .cons _ _ (.cons n t r) => lastEmpty env w (.cons n t r)
end

/-- `FieldAt fs off name o t`: with the first field at or after `off`, field `name` of type `t` is at offset `o`. -/
inductive FieldAt (env : R → Nat × Nat) (w : Nat) : GoFields R → Nat → Bytes → Nat → GoTy R → Prop where
  | here {name t r off} : FieldAt env w (.cons (some name) t r) off name (roundUp off (goAlign env w t)) t
  | there {nm t r off name o t'} : FieldAt env w r (roundUp off (goAlign env w t) + goSize env w t) name o t' →
      FieldAt env w (.cons nm t r) off name o t'

mutual
/-- The Go type has the size of the C type, and every field of it can be found in the Go type at the offset it has in C, with a Go type that represents
its type. Of unions this is asked of the first member; bit fields are not represented. -/
inductive Represents (g : Graph R) (names : R → Bool) (env : R → Nat × Nat) (w : Nat) : GoTy R → R → Prop where
  | int {gt t n s e} : g t = .int n s e → goSize env w gt = s.toNat → Represents g names env w gt t
  | enum {gt t n s sg vs} : g t = .enum n s sg vs → goSize env w gt = s.toNat → Represents g names env w gt t
  | peel {gt t t'} : Peel g t t' → Represents g names env w gt t' → Represents g names env w gt t
  | array {ge t i e c} : g t = .array i e c → Represents g names env w ge e → Represents g names env w (.array c.toNat ge) t
  | named {u} : names u = true → Represents g names env w (.named u) u
  | struct {fs t n s ms ts} : g t = .struct n s ms ts → goSize env w (.struct fs) = s.toNat →
      (∀ m ∈ ms, m.bitfieldSize = 0#32 → Shows g names env w fs m (m.offset.toNat / 8)) → Represents g names env w (.struct fs) t
  | union {fs t n s m ms ts} : g t = .union n s (m :: ms) ts → goSize env w (.struct fs) = s.toNat →
      (m.bitfieldSize = 0#32 → Shows g names env w fs m (m.offset.toNat / 8)) → Represents g names env w (.struct fs) t
  | datasec {fs t n s vs} : g t = .datasec n s vs → goSize env w (.struct fs) = s.toNat →
      (∀ v ∈ vs, ∀ nm ty tg, g v.type = .var nm ty 1 tg → ShowsVar g names env w fs nm v.offset.toNat ty) →
      Represents g names env w (.struct fs) t
/-- Member `m` of a struct, at byte offset `off`, can be found there; an anonymous union is represented by its first member. -/
inductive Shows (g : Graph R) (names : R → Bool) (env : R → Nat × Nat) (w : Nat) : GoFields R → Member R → Nat → Prop where
  | named {fs m off gt} : m.name ≠ [] → FieldAt env w fs 0 m.name off gt → Represents g names env w gt m.type → Shows g names env w fs m off
  | anon {fs m off n s m0 ms ts} : m.name = [] → g m.type = .union n s (m0 :: ms) ts → Shows g names env w fs m0 off → Shows g names env w fs m off
/-- The variable called `nm` can be found at offset `off`. -/
inductive ShowsVar (g : Graph R) (names : R → Bool) (env : R → Nat × Nat) (w : Nat) : GoFields R → Bytes → Nat → R → Prop where
  | mk {fs nm off gt ty} : FieldAt env w fs 0 nm off gt → Represents g names env w gt ty → ShowsVar g names env w fs nm off ty
end

/-- `a` is a multiple of the natural alignment of everything in the type that is not a bit field: at multiples of `a` all of it is aligned. Integers
of more than 8 bytes are byte arrays in Go. -/
inductive AlignedAt (g : Graph R) : R → Nat → Prop where
  | int {t n s e a} : g t = .int n s e → (s.toNat ≤ 8 → s.toNat ∣ a) → AlignedAt g t a
  | enum {t n s sg vs a} : g t = .enum n s sg vs → s.toNat ∣ a → AlignedAt g t a
  | peel {t t' a} : Peel g t t' → AlignedAt g t' a → AlignedAt g t a
  | array {t i e c a} : g t = .array i e c → AlignedAt g e a → AlignedAt g t a
  | struct {t n s ms ts a} : g t = .struct n s ms ts → (∀ m ∈ ms, m.bitfieldSize = 0#32 → AlignedAt g m.type a) → AlignedAt g t a
  | union {t n s ms ts a} : g t = .union n s ms ts → (∀ m ∈ ms, m.bitfieldSize = 0#32 → AlignedAt g m.type a) → AlignedAt g t a
  | datasec {t n s vs a} : g t = .datasec n s vs → (∀ v ∈ vs, ∀ nm ty tg, g v.type = .var nm ty 1 tg → AlignedAt g ty a) → AlignedAt g t a

/-- The size of a member's type. -/
def TypeSize (g : Graph R) (t : R) (n : Nat) : Prop := ∃ d, HasSize g d t n

/-- Members from byte `prev` on are in order, aligned, and end by `size`; none of size zero is at the very end. -/
inductive InOrder (g : Graph R) (size : Nat) : Nat → List (Member R) → Prop where
  | nil {prev} : prev ≤ size → InOrder g size prev []
  | bitfield {prev m ms} : m.bitfieldSize ≠ 0#32 → InOrder g size prev ms → InOrder g size prev (m :: ms)
  | cons {prev m ms n} : m.bitfieldSize = 0#32 → TypeSize g m.type n → prev ≤ m.offset.toNat / 8 → AlignedAt g m.type (m.offset.toNat / 8) →
      (n = 0 → m.offset.toNat / 8 < size) → InOrder g size (m.offset.toNat / 8 + n) ms → InOrder g size prev (m :: ms)

/-- The same for the variables of a data section: their sizes are those of their types. -/
inductive VarsInOrder (g : Graph R) (size : Nat) : Nat → List (VarSecinfo R) → Prop where
  | nil {prev} : prev ≤ size → VarsInOrder g size prev []
  | skip {prev v vs} : (∀ nm ty tg, g v.type ≠ .var nm ty 1 tg) → VarsInOrder g size prev vs → VarsInOrder g size prev (v :: vs)
  | cons {prev v vs nm ty tg} : g v.type = .var nm ty 1 tg → TypeSize g ty v.size.toNat → prev ≤ v.offset.toNat → AlignedAt g ty v.offset.toNat →
      (v.size = 0#32 → v.offset.toNat < size) → VarsInOrder g size (v.offset.toNat + v.size.toNat) vs → VarsInOrder g size prev (v :: vs)

mutual
/-- A type as C lays it out (without packing); types with a Go name are not looked into. -/
inductive NaturalLayout (g : Graph R) (names : R → Bool) : R → Prop where
  | named {t} : names t = true → (∀ t', ¬ Qual g t t') → NaturalLayout g names t
  | qual {t t'} : Qual g t t' → NaturalLayout g names t' → NaturalLayout g names t
  | lit {t} : NaturalLit g names t → NaturalLayout g names t
/-- The same for a type that is written out: integers have sizes 1, 2, 4, 8 or 16; members are in order, aligned and do not overlap; the size of
a struct is a multiple of its alignment; members of unions are at offset 0. -/
inductive NaturalLit (g : Graph R) (names : R → Bool) : R → Prop where
  | int {t n s e} : g t = .int n s e → (s.toNat = 1 ∨ s.toNat = 2 ∨ s.toNat = 4 ∨ s.toNat = 8 ∨ s.toNat = 16) → NaturalLit g names t
  | enum {t n s sg vs} : g t = .enum n s sg vs → NaturalLit g names t
  | qual {t t'} : Qual g t t' → NaturalLit g names t' → NaturalLit g names t
  | typedef {t n t' ts} : g t = .typedef n t' ts → NaturalLayout g names t' → NaturalLit g names t
  | array {t i e c} : g t = .array i e c → NaturalLayout g names e → NaturalLit g names t
  | struct {t n s ms ts} : g t = .struct n s ms ts → InOrder g s.toNat 0 ms → AlignedAt g t s.toNat →
      (∀ m ∈ ms, m.bitfieldSize = 0#32 → m.name ≠ [] → NaturalLayout g names m.type) →
      (∀ m ∈ ms, m.bitfieldSize = 0#32 → m.name = [] → NaturalLit g names m.type) → NaturalLit g names t
  | union {t n s ms ts} : g t = .union n s ms ts → (∀ m ∈ ms, InOrder g s.toNat 0 [m] ∧ m.offset = 0#32) → AlignedAt g t s.toNat →
      (∀ m ∈ ms, m.bitfieldSize = 0#32 → m.name ≠ [] → NaturalLayout g names m.type) →
      (∀ m ∈ ms, m.bitfieldSize = 0#32 → m.name = [] → NaturalLit g names m.type) → NaturalLit g names t
  | datasec {t n s vs} : g t = .datasec n s vs → VarsInOrder g s.toNat 0 vs → AlignedAt g t s.toNat →
      (∀ v ∈ vs, ∀ nm ty tg, g v.type = .var nm ty 1 tg → NaturalLayout g names ty) → NaturalLit g names t
end

end Ebpf.BtfSpec
