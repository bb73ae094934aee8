import Verif.Model.ProgLoad
/-!
# Specification: the log of the kernel's verifier

From the kernel (`kernel/bpf/log.c`): a log is written if a level is given; a buffer of more than `UINT_MAX >> 2` bytes is rejected; if the
log and its terminator do not fit the call fails with `ENOSPC`, whatever the verdict on the program. Since Linux 6.4 the size needed is reported.
-/
namespace Ebpf.ProgLoadSpec
open Ebpf.ProgLoad

/-- What the verifier thinks of a program. -/
structure Verifier where
  verdict : Except Nat Nat
  /-- the whole log at each level -/
  full : BitVec 32 → Bytes
  /-- is `log_true_size` reported -/
  reportsSize : Bool
  noNul : ∀ l, 0#8 ∉ full l

/-- The verdict as a result of the system call. -/
def Verifier.result (v : Verifier) : Except Errno Nat :=
  match v.verdict with
  | .ok fd => .ok fd
  | .error e => .error (.other e)

/-- Does the log fit into a buffer. -/
def Fits (v : Verifier) (level size : BitVec 32) : Prop := (v.full level).length + 1 ≤ size.toNat

/-- The number of EINVAL. -/
def einval : Nat := 22

/-- A kernel that behaves like Linux with this verifier. In a truncated log anything may stand. -/
structure Linux (v : Verifier) (k : Kernel) : Prop where
  noLog : ∀ n a, a.logLevel = 0#32 → a.logSize = 0#32 → (k n a).result = v.result
  noLogSize : ∀ n a, a.logLevel = 0#32 → (k n a).trueSize = a.trueSize ∨ (k n a).trueSize = 0#32
  tooBig : ∀ n a, a.logLevel ≠ 0#32 → 0x3fffffff#32 < a.logSize → (k n a).result = .error (.other einval)
  fits : ∀ n a, a.logLevel ≠ 0#32 → a.logSize ≤ 0x3fffffff#32 → Fits v a.logLevel a.logSize → (k n a).result = v.result ∧ (k n a).log = v.full a.logLevel
  short : ∀ n a, a.logLevel ≠ 0#32 → a.logSize ≤ 0x3fffffff#32 → ¬ Fits v a.logLevel a.logSize → (k n a).result = .error .noSpace
  size : ∀ n a, a.logLevel ≠ 0#32 → a.logSize ≤ 0x3fffffff#32 →
    (k n a).trueSize = if v.reportsSize then BitVec.ofNat 32 ((v.full a.logLevel).length + 1) else a.trueSize

/-- White space: tab, line feed, vertical tab, carriage return, space. -/
def Blank (l : Bytes) : Prop := ∀ c ∈ l, c = 9#8 ∨ c = 10#8 ∨ c = 11#8 ∨ c = 13#8 ∨ c = 32#8

/-- "processed ", with which the line of statistics begins. -/
def statsPrefix : Bytes := "processed ".toList.map fun c => BitVec.ofNat 8 c.toNat

end Ebpf.ProgLoadSpec
