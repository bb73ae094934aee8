import Verif.Base
/-!
# Specification: architectures, and which files go build takes

What the Go toolchain and the kernel's architectures are, as far as bpf2go has to know; none of it is in /repo.
-/
namespace Ebpf.TargetsSpec

abbrev Name := List Char

inductive Endian where
  | little | big
deriving DecidableEq

/-- The name of clang's BPF target of a byte order. -/
def clangOf : Endian → String
  | .little => "bpfel"
  | .big => "bpfeb"

/-- The architectures of Go for which bpf2go generates code: byte order, and the name in the kernel's sources (as in the macros of
bpf_tracing.h) if there is one. -/
inductive IsArch : String → Endian → Option String → Prop
  | i386 : IsArch "386" .little (some "x86")
  | amd64 : IsArch "amd64" .little (some "x86")
  | arm : IsArch "arm" .little (some "arm")
  | arm64 : IsArch "arm64" .little (some "arm64")
  | loong64 : IsArch "loong64" .little (some "loongarch")
  | mips : IsArch "mips" .big (some "mips")
  | mipsle : IsArch "mipsle" .little none
  | mips64 : IsArch "mips64" .big none
  | mips64le : IsArch "mips64le" .little none
  | ppc64 : IsArch "ppc64" .big (some "powerpc")
  | ppc64le : IsArch "ppc64le" .little (some "powerpc")
  | riscv64 : IsArch "riscv64" .little (some "riscv")
  | s390x : IsArch "s390x" .big (some "s390")
  | wasm : IsArch "wasm" .little none

/-- Build constraints (go/build/constraint). -/
inductive Expr where
  | tag (s : String)
  | not (x : Expr)
  | and (x y : Expr)
  | or (x y : Expr)
deriving DecidableEq

/-- Expr.Eval. -/
def Expr.eval (ok : String → Bool) : Expr → Bool
  | .tag s => ok s
  | .not x => !x.eval ok
  | .and x y => x.eval ok && y.eval ok
  | .or x y => x.eval ok || y.eval ok

/-- What is being built: a GOOS, a GOARCH, and further tags. -/
structure Build where
  goos : String
  goarch : String
  tags : List String

/-- The tags which hold. -/
def Build.ok (b : Build) (t : String) : Bool := t == b.goos || t == b.goarch || b.tags.contains t

/-- Names of systems and architectures which go build looks for in file names (internal/syslist of Go). -/
def knownOS : List String := ["aix", "android", "darwin", "dragonfly", "freebsd", "hurd", "illumos", "ios", "js", "linux", "nacl", "netbsd",
  "openbsd", "plan9", "solaris", "wasip1", "windows", "zos"]
def knownArch : List String := ["386", "amd64", "amd64p32", "arm", "armbe", "arm64", "arm64be", "loong64", "mips", "mipsle", "mips64",
  "mips64le", "mips64p32", "mips64p32le", "ppc", "ppc64", "ppc64le", "riscv", "riscv64", "s390", "s390x", "sparc", "sparc64", "wasm"]

/-- Cut a name at each '_'. -/
def parts : Name → List Name
  | [] => [[]]
  | c :: s =>
    match parts s with
    | [] => [[c]]
    | p :: ps => if c = '_' then [] :: p :: ps else (c :: p) :: ps

/-- The last parts of a name, last first, without the part before the first '_' and without a final _test. -/
def tail (n : Name) : List Name :=
  match ((parts (n.takeWhile (· ≠ '.'))).tail).reverse with
  | [] => []
  | p :: ps => if p = "test".toList then ps else p :: ps

/-- goodOSArchFile: whether the name of a file permits it to be part of a build. -/
def nameOk (b : Build) (n : Name) : Bool :=
  match tail n with
  | a :: o :: _ =>
    if (String.ofList o ∈ knownOS ∧ String.ofList a ∈ knownArch) then b.ok (String.ofList a) && b.ok (String.ofList o)
    else if String.ofList a ∈ knownOS ∨ String.ofList a ∈ knownArch then b.ok (String.ofList a) else true
  | [a] => if String.ofList a ∈ knownOS ∨ String.ofList a ∈ knownArch then b.ok (String.ofList a) else true
  | [] => true

/-- A Go file is part of a build: its name doesn't begin with '_' or '.', is permitted, and the constraint in the file holds. -/
def inBuild (b : Build) (n : Name) (c : Option Expr) : Bool :=
  n.head? ≠ some '_' && n.head? ≠ some '.' && nameOk b n && (c.map (·.eval b.ok)).getD true

end Ebpf.TargetsSpec
