import Verif.Model.Program
/-!
# Specification: maps by symbol, symbols and references of a program
-/
namespace Ebpf.Asm.AssocSpec
open Ebpf.Asm

/-- A load of a map's descriptor or of the address of its value: `lddw` with the pseudo source 1 or 2. -/
def MapLoad (i : Ins) : Prop := i.op = 0x18#32 ∧ (i.src = 1#8 ∨ i.src = 2#8)

/-- `j` is `i`, but if `i` refers to `sym`, it has the map and no reference any more. -/
def Linked (sym : String) (m : Int) (i j : PIns) : Prop :=
  (i.ref ≠ sym ∧ j = i) ∨ (i.ref = sym ∧ j.ins = i.ins ∧ j.sym = i.sym ∧ j.ref = "" ∧ j.map = some m)

/-- One instruction after the other. -/
inductive Pointwise (R : PIns → PIns → Prop) : List PIns → List PIns → Prop
  | nil : Pointwise R [] []
  | cons {i j p q} : R i j → Pointwise R p q → Pointwise R (i :: p) (j :: q)

/-- No two instructions have the same symbol. -/
def DistinctSymbols (p : List PIns) : Prop :=
  ∀ a b : Nat, ∀ i j : PIns, p[a]? = some i → p[b]? = some j → i.sym = j.sym → i.sym ≠ "" → a = b

/-- Digits of numbers in base 16. -/
def digits : List Byte := [0x30, 0x31, 0x32, 0x33, 0x34, 0x35, 0x36, 0x37, 0x38, 0x39, 0x61, 0x62, 0x63, 0x64, 0x65, 0x66]

/-- `t` is `b`, two digits for every byte. -/
inductive Hex : Bytes → Bytes → Prop
  | nil : Hex [] []
  | cons {c x y b t} : digits[c.toNat / 16]? = some x → digits[c.toNat % 16]? = some y → Hex b t → Hex (c :: b) (x :: y :: t)

/-- The instructions as the kernel hashes them: encoded one after the other, map loads with 0 instead of descriptor and offset. -/
def Hashed (native : String) (bo : ByteOrder) (p : List PIns) (r : Except AsmErr Bytes) : Prop :=
  ∃ q : List Ins, marshalAll native bo q = r ∧ q.length = p.length ∧ ∀ (n : Nat) (i : PIns), p[n]? = some i →
    ∃ j, q[n]? = some j ∧ ((MapLoad i.ins ∧ j = { i.ins with cons := 0 }) ∨ (¬ MapLoad i.ins ∧ j = i.ins))

end Ebpf.Asm.AssocSpec
