import Verif.Base
/-!
# Specification: memory shared with BPF programs, and pointers into it

The types of Go, as far as the collector and the layout of memory are concerned; and the address space of a process.
-/
namespace Ebpf.UnsafeMemorySpec

/-- Kinds of types without components. `ref` are pointers, interfaces, channels, functions, maps, slices, strings and unsafe.Pointer:
everything the collector follows. -/
inductive Basic where
  | bool | int8 | int16 | int32 | int64 | uint8 | uint16 | uint32 | uint64 | uintptr | float32 | float64
  | int | uint | complex64 | complex128
  | ref
deriving DecidableEq

/-- Go types. A struct type has a package path and a name (both empty if it has no name). -/
inductive GoType where
  | basic (k : Basic)
  | array (n : Nat) (elem : GoType)
  | struct (pkg name : String) (fields : List GoType)

/-- The type has no part the collector follows. -/
def NoPointers : GoType → Prop
  | .basic k => k ≠ .ref
  | .array _ e => NoPointers e
  | .struct _ _ fs => ∀ f ∈ fs, NoPointers f

/-- The atomic types of the standard library which are not pointers. -/
def atomics : List String := ["Bool", "Int32", "Int64", "Uint32", "Uint64", "Uintptr"]

/-- structs.HostLayout. -/
def IsHostLayout : GoType → Prop
  | .struct "structs" "HostLayout" _ => True
  | _ => False

/-- One of the atomic types. -/
def IsAtomic : GoType → Prop
  | .struct "sync/atomic" n _ => n ∈ atomics
  | _ => False

/-- The sizes in bytes the language gives to the types without components which the layout check accepts; `word` is the size of an address. -/
def sizes (word : Nat) : List (Basic × Nat) :=
  [(.bool, 1), (.int8, 1), (.uint8, 1), (.int16, 2), (.uint16, 2), (.int32, 4), (.uint32, 4), (.float32, 4), (.int64, 8), (.uint64, 8), (.float64, 8),
   (.uintptr, word)]

/-- The type is laid out as C does: all its structs, except the atomic types, have structs.HostLayout as a field; and its size doesn't depend on what Go
takes for an int. -/
inductive HostLayout : GoType → Prop
  | basic (k) : k ∉ [Basic.int, .uint, .complex64, .complex128, .ref] → HostLayout (.basic k)
  | array (n e) : HostLayout e → HostLayout (.array n e)
  | atomic (t) : IsAtomic t → HostLayout t
  | struct (p n fs) : (∃ f ∈ fs, IsHostLayout f) → (∀ f ∈ fs, ¬ IsHostLayout f → HostLayout f) → HostLayout (.struct p n fs)

/-- The standard library: its atomic types hold no pointers, and HostLayout holds nothing. -/
inductive Std : GoType → Prop
  | basic (k) : Std (.basic k)
  | array (n e) : Std e → Std (.array n e)
  | struct (p n fs) : (∀ f ∈ fs, Std f) → (p = "sync/atomic" → n ∈ atomics → ∀ f ∈ fs, NoPointers f) →
      (p = "structs" → n = "HostLayout" → fs = []) → Std (.struct p n fs)

/-- What is mapped at a page: memory of the process (the Go heap among others), a page of a BPF map, or nothing. -/
inductive Page where
  | anon
  | map (id page : Nat) (writable : Bool)
  | hole
deriving DecidableEq

/-- The address space, by page number. -/
abbrev Space := Nat → Page

end Ebpf.UnsafeMemorySpec
