import Verif.Model.Program
/-!
# Specification: bpf-to-bpf linking
-/
namespace Ebpf.Linker.Spec
open Ebpf.Asm

/-- An unresolved reference to function `b`: a bpf-to-bpf call (`BPF_CALL` with source register 1) or
a function pointer load (`ld_imm64` with source register 4), immediate -1, with a non-empty name. -/
def References (i : PIns) (b : String) : Prop :=
  i.ref = b ∧ b ≠ "" ∧ i.ins.cons.toInt = -1 ∧
    ((OpCode.jumpOp i.ins.op = 0x80#8 ∧ i.ins.src = 1#8) ∨ (i.ins.op = 0x18#32 ∧ i.ins.src = 4#8))

/-- Function `a` of the object refers to `b`. -/
def Calls (progs : List (String × List PIns)) (a b : String) : Prop :=
  ∃ p, progs.lookup a = some p ∧ ∃ i ∈ p, References i b

/-- `b` is reachable from `a` through one or more references. -/
inductive Reach (progs : List (String × List PIns)) : String → String → Prop
  | one {a b : String} : Calls progs a b → Reach progs a b
  | more {a b c : String} : Reach progs a b → Calls progs b c → Reach progs a c

/-- The instructions of the named functions, one after the other. -/
def bodies (progs : List (String × List PIns)) (names : List String) : List PIns :=
  (names.map (fun n => (progs.lookup n).getD [])).flatten

end Ebpf.Linker.Spec
