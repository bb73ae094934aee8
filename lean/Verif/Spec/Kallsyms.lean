import Verif.Base
/-! # Specification for symbol lookup (C44) -/
namespace Ebpf.Spec.Kallsyms

/-- A symbol table: address and name of each symbol, in file order. -/
abbrev Table := List (BitVec 64 × Bytes)

/-- Addresses listed for `name`. -/
def addrs (t : Table) (name : Bytes) : List (BitVec 64) :=
  (t.filter fun e => e.2 = name).map Prod.fst

/-- `name` may be looked up: it occurs at most once and not at address zero. -/
def Resolvable (t : Table) (name : Bytes) : Prop :=
  addrs t name = [] ∨ ∃ a, addrs t name = [a] ∧ a ≠ 0

/-- The address of `name`: that of its line, 0 if missing. -/
def address (t : Table) (name : Bytes) : BitVec 64 := (addrs t name).headD 0

/-- Lower case hexadecimal digit. -/
def digit (n : Nat) : Byte := BitVec.ofNat 8 (if n < 10 then 0x30 + n else 0x61 + (n - 10))

/-- `n` as `k` hexadecimal digits (C format `%0kx`). -/
def hex : Nat → Nat → Bytes
  | 0, _ => []
  | k + 1, n => hex k (n / 16) ++ [digit (n % 16)]

/-- `"\t[%s]"` for module symbols. -/
def moduleSuffix : Option Bytes → Bytes
  | none => []
  | some m => [0x09#8, 0x5b#8] ++ m ++ [0x5d#8]

/-- A line of /proc/kallsyms as the kernel prints it: `"%016lx %c %s"`, followed by `"\t[%s]"` for
module symbols. -/
def line (addr : BitVec 64) (typ : Byte) (name : Bytes) (mod : Option Bytes) : Bytes :=
  hex 16 addr.toNat ++ [0x20#8, typ, 0x20#8] ++ name ++ moduleSuffix mod

end Ebpf.Spec.Kallsyms
