import Verif.Spec.CoreCompat
import Verif.Spec.BtfDatasec
/-!
# Specification: what a field relocation refers to

Positions are bit offsets from the start of the outermost type, over unbounded integers.
-/
namespace Ebpf.BtfSpec
open Ebpf.Btf
variable {R : Type}

/-- `m` is a member called `name` of the composite `c`, `o` bits from its start; C looks through anonymous structs and unions. -/
inductive Inside (g : Graph R) (name : Bytes) : R → Nat → Member R → Prop where
  | here {c ms m} : (g c).members? = some ms → m ∈ ms → m.name = name → Inside g name c m.offset.toNat m
  | anon {c ms a c' o m} : (g c).members? = some ms → a ∈ ms → a.name = [] → Underlies g a.type c' → Inside g name c' o m →
      Inside g name c (a.offset.toNat + o) m

/-- One step of an access path. -/
inductive Sel
  | field (name : Bytes)
  | index (n : Nat)
deriving DecidableEq

/-- Following `path` from `root` leads to something of type `t`, `o` bits from the start; `b` is its size in bits if it is a bitfield
and zero otherwise. The first step indexes `root` as if it were an array. -/
inductive Path (g : Graph R) (root : R) : List Sel → R → Nat → Nat → Prop where
  | start {n sz d} : (n = 0 ∨ HasSize g d root sz) → Path g root [.index n] root (n * sz * 8) 0
  | field {p t o name c o' m} : Path g root p t o 0 → Underlies g t c → Inside g name c o' m →
      Path g root (p ++ [.field name]) m.type (o + o') m.bitfieldSize.toNat
  | index {p t o i a ix e k sz d} : Path g root p t o 0 → Underlies g t a → g a = .array ix e k → (k = 0 ∨ i < k.toNat) →
      (i = 0 ∨ HasSize g d e sz) → Path g root (p ++ [.index i]) e (o + i * sz * 8) 0

/-- Following the accessor `acc` (a list of member and array indices) through the local type. `path` is the same access written with
names; anonymous structs and unions don't appear in it. -/
inductive Access (g : Graph R) (root : R) : List Nat → List Sel → R → Nat → Nat → Prop where
  | start {n sz d} : (n = 0 ∨ HasSize g d root sz) → Access g root [n] [.index n] root (n * sz * 8) 0
  | field {acc p t o c ms m} {i : Nat} : Access g root acc p t o 0 → Underlies g t c → (g c).members? = some ms → ms[i]? = some m → m.name ≠ [] →
      Access g root (acc ++ [i]) (p ++ [.field m.name]) m.type (o + m.offset.toNat) m.bitfieldSize.toNat
  | anon {acc p t o c ms m c'} {i : Nat} : Access g root acc p t o 0 → Underlies g t c → (g c).members? = some ms → ms[i]? = some m → m.name = [] →
      Underlies g m.type c' → (g c').members? ≠ none → Access g root (acc ++ [i]) p c' (o + m.offset.toNat) 0
  | index {acc p t o i a ix e k sz d} : Access g root acc p t o 0 → Underlies g t a → g a = .array ix e k → (k = 0 ∨ i < k.toNat) →
      (i = 0 ∨ HasSize g d e sz) → Access g root (acc ++ [i]) (p ++ [.index i]) e (o + i * sz * 8) 0

/-- Members that are not bitfields, and structs and unions in any case, start at a byte boundary. -/
def ByteAligned (g : Graph R) : Prop := ∀ c ms m, (g c).members? = some ms → m ∈ ms →
  (m.bitfieldSize = 0 ∨ ∃ c', Underlies g m.type c' ∧ (g c').members? ≠ none) → m.offset.toNat % 8 = 0

/-- Compatibility of the types of fields: `bpf_core_fields_are_compat`. -/
def FieldCompat (g : Graph R) (a b : R) : Prop :=
  ∃ u v, Underlies g a u ∧ Underlies g b v ∧
    (((g u).members? ≠ none ∧ (g v).members? ≠ none) ∨
     (∃ i e n j f m, g u = .array i e n ∧ g v = .array j f m) ∨
     (∃ x y, g u = .ptr x ∧ g v = .ptr y) ∨
     (∃ n s m t, g u = .float n s ∧ g v = .float m t) ∨
     (∃ n s e m t f, g u = .int n s e ∧ g v = .int m t f) ∨
     (∃ n s sg vs n' s' sg' vs', g u = .enum n s sg vs ∧ g v = .enum n' s' sg' vs' ∧ NamesAgree n n') ∨
     (∃ n k n' k', g u = .fwd n k ∧ g v = .fwd n' k' ∧ NamesAgree n n'))

/-- Two names are equal once the flavours are cut off. -/
def SameEssential (a b : Bytes) : Prop :=
  ∃ e, (Flavoured a e ∨ ((∀ x, ¬ Flavoured a x) ∧ e = a)) ∧ (Flavoured b e ∨ ((∀ x, ¬ Flavoured b x) ∧ e = b))

/-- `v` is the `i`-th value of the enum below `t`. -/
def EnumAt (g : Graph R) (t : R) (i : Nat) (v : EnumValue) : Prop :=
  ∃ e n s sg vs, Underlies g t e ∧ g e = .enum n s sg vs ∧ vs[i]? = some v

/-! ## Reading a bitfield -/

/-- The number `bs` is, little endian. -/
def leNum : Bytes → Nat
  | [] => 0
  | b :: bs => b.toNat + 256 * leNum bs

/-- The number `bs` is, big endian. -/
def beNum (bs : Bytes) : Nat := leNum bs.reverse

/-- The value of the `s` bits starting `o` bits into the memory `mem`: counted from the least significant bit of the first byte on
little endian, from the most significant bit of the first byte on big endian machines. -/
def fieldValue (le : Bool) (mem : Bytes) (o s : Nat) : Nat :=
  if le then leNum mem / 2 ^ o % 2 ^ s else beNum mem / 2 ^ (8 * mem.length - o - s) % 2 ^ s

/-- What `BPF_CORE_READ_BITFIELD` does: load `width` bytes at `off`, zero-extend, shift left, then shift right. -/
def readField (le : Bool) (mem : Bytes) (off width : Nat) (lshift rshift : BitVec 64) (signed : Bool) : BitVec 64 :=
  let bytes := (mem.drop off).take width
  let x := BitVec.ofNat 64 (if le then leNum bytes else beNum bytes) <<< lshift
  if signed then x.sshiftRight rshift.toNat else x >>> rshift

end Ebpf.BtfSpec
