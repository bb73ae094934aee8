import Verif.Base
/-! # Specification of BTF string tables -/
namespace Ebpf.Btf

/-- `s` is the NUL terminated string starting at offset `n` of the table `b`: the table continues with `s` and a NUL
there, and `n` is the start of the table or follows a NUL. -/
def StringAt (b : Bytes) (n : Nat) (s : Bytes) : Prop :=
  ∃ pre post, b = pre ++ (s ++ 0 :: post) ∧ pre.length = n ∧ 0#8 ∉ s ∧ (pre = [] ∨ pre.getLast? = some 0)

/-- A list of strings, each followed by a NUL. -/
def table (l : List Bytes) : Bytes := (l.map (· ++ [0])).flatten

end Ebpf.Btf
