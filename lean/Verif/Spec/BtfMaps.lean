import Verif.Model.BtfMaps
import Verif.Spec.BtfTypes
/-!
# Specification: the map a definition in BTF describes

`__uint(name, n)` declares a pointer to an array of `n` elements, `__ulong(name, n)` an enum with the value `n`, `__type(name, t)` a pointer to `t`,
`__array(name, t)` an array of pointers to `t` whose elements are relocations.
-/
namespace Ebpf.BtfMapSpec
open Ebpf.Btf Ebpf.BtfSpec Ebpf.BtfMap
variable {R : Type}

/-- The member declares the number `n`. -/
inductive IsUInt (g : Graph R) (t : R) : Nat → Prop where
  | uint {a i e k} : g t = .ptr a → g a = .array i e k → IsUInt g t k.toNat
  | ulong {nm s sg v vs} : g t = .enum nm s sg (v :: vs) → IsUInt g t v.value.toNat

/-- `m` is the member called like the field. -/
def Decl (ms : List (Member R)) (f : Field) (m : Member R) : Prop := m ∈ ms ∧ m.name = ascii (fieldName f)

/-- Nothing is declared for the field. -/
def Absent (ms : List (Member R)) (f : Field) : Prop := ∀ m, ¬ Decl ms f m

/-- The number that is declared for a field, 0 if there is none. -/
inductive Number (g : Graph R) (ms : List (Member R)) (f : Field) : Nat → Prop where
  | declared {m n} : Decl ms f m → IsUInt g m.type n → Number g ms f n
  | absent : Absent ms f → Number g ms f 0

/-- Type and size that are declared, either by `__type(typ, t)` or by `__uint(size, n)`. -/
inductive TypeAndSize (g : Graph R) (ms : List (Member R)) (typ size : Field) : Option R → Nat → Prop where
  | type {m a d n} : Decl ms typ m → g m.type = .ptr a → HasSize g d a n → TypeAndSize g ms typ size (some a) n
  | size {n} : Absent ms typ → Number g ms size n → TypeAndSize g ms typ size none n

/-- The elements of `values`: pointers of 8 bytes from offset `off` of the definition to its end, those that have a relocation. -/
structure ValuesOf (p : Place) (off : Nat) (l : List (Nat × Bytes)) : Prop where
  exact : ∀ i n, (i, n) ∈ l ↔ i < (p.symSize.toNat - off) / 8 ∧ ∃ r, p.relocations (BitVec.ofNat 64 (p.symValue.toNat + off + 8 * i)) = some r ∧ r.name = n
  sorted : l.Pairwise fun a b => a.1 < b.1

/-- The map that is described. `inner` says what inner map a struct type describes. Numbers are those that were declared, in 32 bits. -/
structure Describes {I : Type} (g : Graph R) (p : Place) (ms : List (Member R)) (inner : R → I → Prop) (d : MapDef R I) : Prop where
  type : ∃ n, Number g ms .type n ∧ d.type = BitVec.ofNat 32 n
  flags : ∃ n, Number g ms .mapFlags n ∧ d.flags = BitVec.ofNat 32 n
  maxEntries : ∃ n, Number g ms .maxEntries n ∧ d.maxEntries = BitVec.ofNat 32 n
  pinning : ∃ n, Number g ms .pinning n ∧ d.pinning = BitVec.ofNat 32 n
  mapExtra : ∃ n, Number g ms .mapExtra n ∧ d.mapExtra = BitVec.ofNat 64 n
  key : ∃ n, TypeAndSize g ms .key .keySize d.key n ∧ d.keySize = BitVec.ofNat 32 n
  /-- Ring buffers (27), arenas (33) and perf event arrays (4) have no value size, even if a type is given. -/
  value : ∃ n, TypeAndSize g ms .value .valueSize d.value n ∧
    (d.value.isSome ∧ (d.type = 27#32 ∨ d.type = 33#32 ∨ d.type = 4#32) → d.valueSize = 0#32) ∧
    (¬ (d.value.isSome ∧ (d.type = 27#32 ∨ d.type = 33#32 ∨ d.type = 4#32)) →
      (∀ m, Decl ms .values m → d.valueSize = 4#32) ∧ (Absent ms .values → d.valueSize = BitVec.ofNat 32 n))
  contents : (∀ m, Decl ms .values m → p.align = 8#64 → p.symSize.toNat < 2 ^ 32 → p.symValue.toNat + p.symSize.toNat < 2 ^ 64 →
    ValuesOf p (m.offset.toNat / 8) d.contents) ∧ (Absent ms .values → d.contents = [])
  /-- Maps in maps (types 12 and 13) have an inner map, program arrays (type 3) have not. -/
  innerMap : (∀ m, Decl ms .values m → ∃ ia ie ik t, g m.type = .array ia ie ik ∧ g ie = .ptr t ∧
      ((∃ nm s mm tg i, g t = .struct nm s mm tg ∧ (d.type = 12#32 ∨ d.type = 13#32) ∧ d.inner = some i ∧ inner t i) ∨
       (∃ rt ps, g t = .funcProto rt ps ∧ d.type = 3#32 ∧ d.inner = none))) ∧ (Absent ms .values → d.inner = none)

/-- The names of members of the structs are distinct, as in C. -/
def Distinct (ms : List (Member R)) : Prop := (ms.map (·.name)).Nodup

/-- `__type(name, t)`: a pointer to a type of `n` bytes. -/
def IsType (g : Graph R) (t : R) (n : Nat) : Prop := ∃ a d, g t = .ptr a ∧ HasSize g d a n ∧ d < 32 ∧ n ≠ 0 ∧ n < 2 ^ 63

/-- A definition that uses every macro the way it is meant. `ok` says which structs are well-formed inner maps. -/
structure WellFormed (g : Graph R) (p : Place) (inner : Bool) (ok : R → Prop) (ms : List (Member R)) : Prop where
  /-- All members are known. -/
  known : ∀ m ∈ ms, ∃ f, m.name = ascii (fieldName f)
  numbers : ∀ m, ∀ f ∈ [Field.type, .mapFlags, .maxEntries, .keySize, .valueSize, .pinning, .mapExtra], Decl ms f m → ∃ n, IsUInt g m.type n
  types : ∀ m, ∀ f ∈ [Field.key, .value], Decl ms f m → ∃ n, IsType g m.type n
  /-- A size is given either by a type or by a number. -/
  keys : Absent ms .key ∨ Absent ms .keySize
  vals : Absent ms .value ∨ Absent ms .valueSize
  /-- Inner maps are not pinned. -/
  pinned : inner = true → Absent ms .pinning
  /-- `values` is the last member. -/
  last : ∀ pre m post, ms = pre ++ m :: post → m.name = ascii (fieldName .values) → post = []
  /-- `values` are of size 4, and inner maps of an outer map or programs of a program array. -/
  values : ∀ m, Decl ms .values m →
    (∀ v, Decl ms .value v → IsType g v.type 4) ∧ (∀ v, Decl ms .valueSize v → IsUInt g v.type 4) ∧
    ∃ ia ie ik t tm n, g m.type = .array ia ie ik ∧ g ie = .ptr t ∧ Decl ms .type tm ∧ IsUInt g tm.type n ∧
      ((∃ nm s mm tg, g t = .struct nm s mm tg ∧ (n = 12 ∨ n = 13) ∧ inner = false ∧ ok t) ∨ (∃ rt ps, g t = .funcProto rt ps ∧ n = 3))
  /-- The elements of `values` refer to variables and functions. -/
  relocated : ∀ m, Decl ms .values m → p.align = 8#64 ∧ p.symSize.toNat < 2 ^ 32 ∧ p.symValue.toNat + p.symSize.toNat < 2 ^ 64 ∧
    m.offset.toNat / 8 ≤ p.symSize.toNat ∧ ∀ a r, p.relocations a = some r → r.known = true

/-- Characters the kernel allows in names. -/
def AllowedByte (c : Byte) : Prop :=
  (65 ≤ c.toNat ∧ c.toNat ≤ 90) ∨ (97 ≤ c.toNat ∧ c.toNat ≤ 122) ∨ (48 ≤ c.toNat ∧ c.toNat ≤ 57) ∨ c.toNat = 46 ∨ c.toNat = 95

/-- The name without other characters. -/
inductive Sanitized : Bytes → Bytes → Prop
  | nil : Sanitized [] []
  | keep (c : Byte) (n m : Bytes) : AllowedByte c → Sanitized n m → Sanitized (c :: n) (c :: m)
  | drop (c : Byte) (n m : Bytes) : ¬ AllowedByte c → Sanitized n m → Sanitized (c :: n) m

end Ebpf.BtfMapSpec
