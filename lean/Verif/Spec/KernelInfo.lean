import Verif.Base
/-! # Specification of C97: notes of an ELF file, lists of CPUs, version numbers -/
namespace Ebpf.KernelInfoSpec

/-! ## ELF notes (elf(5)) -/

/-- A note: its name with the terminating NUL if it has one, its type and its description. -/
structure Note where
  name : Bytes
  typ : BitVec 32
  desc : Bytes

/-- Padded with zeros to a multiple of four bytes. -/
def pad4 (b : Bytes) : Bytes := b ++ List.replicate ((4 - b.length % 4) % 4) 0

/-- A note in a file. -/
def Note.bytes (bo : ByteOrder) (n : Note) : Bytes :=
  bo.put32 (BitVec.ofNat 32 n.name.length) ++ bo.put32 (BitVec.ofNat 32 n.desc.length) ++ bo.put32 n.typ ++ pad4 n.name ++ pad4 n.desc

/-- Sizes fit. -/
def Note.Fits (n : Note) : Prop := n.name.length + 3 < 2 ^ 31 ∧ n.desc.length + 3 < 2 ^ 31

/-- The note in which Linux gives its version: named "Linux", of type 0, a 32 bit description. -/
def Note.IsVersion (n : Note) (v : BitVec 32) (bo : ByteOrder) : Prop :=
  (∃ r, n.name = [0x4c, 0x69, 0x6e, 0x75, 0x78] ++ r ∧ (r = [] ∨ ∃ t, r = 0 :: t)) ∧ n.typ = 0 ∧ n.desc = bo.put32 v

/-! ## Decimal numbers -/

/-- A digit in ASCII. -/
def digit (n : Nat) : Byte := BitVec.ofNat 8 (0x30 + n)

/-- A number in decimal (`%d`). -/
def dec (n : Nat) : Bytes := if n < 10 then [digit n] else dec (n / 10) ++ [digit (n % 10)]
termination_by n

/-! ## Lists of CPUs, as printed by `bitmap_list_string` in lib/vsprintf.c -/

/-- A run of set bits: one number, or the first and the last. -/
def runText (r : Nat × Nat) : Bytes := if r.1 = r.2 then dec r.1 else dec r.1 ++ [0x2d] ++ dec r.2

/-- Runs, separated by commas. -/
def listText : List (Nat × Nat) → Bytes
  | [] => []
  | [r] => runText r
  | r :: s :: t => runText r ++ [0x2c] ++ listText (s :: t)

/-- The runs are maximal: in order, and there is a gap between any two. -/
def Runs : List (Nat × Nat) → Prop
  | [] => True
  | [r] => r.1 ≤ r.2
  | r :: s :: t => r.1 ≤ r.2 ∧ r.2 + 1 < s.1 ∧ Runs (s :: t)

/-- The CPUs in a list of runs. -/
def InRuns (rs : List (Nat × Nat)) (c : Nat) : Prop := ∃ r ∈ rs, r.1 ≤ c ∧ c ≤ r.2

/-! ## Kernel versions -/

/-- `LINUX_VERSION_CODE` of a kernel major.minor.sub (Makefile, `filechk_version.h`). -/
def linuxVersionCode (major minor sub : Nat) : Nat := major * 65536 + minor * 256 + min sub 255

/-! ## Versions of features -/

/-- A version `w`, given as `v`, is for this platform: `goos:w` or `native:w`, or, on Linux, just `w`. -/
def Applies (goos native v w : Bytes) : Prop :=
  v = goos ++ 0x3a :: w ∨ (native ≠ [] ∧ v = native ++ 0x3a :: w) ∨ (native = [0x6c, 0x69, 0x6e, 0x75, 0x78] ∧ 0x3a ∉ v ∧ w = v)

end Ebpf.KernelInfoSpec
