import Verif.Spec.Targets
/-!
# Model of target selection, file names and compiler flags of bpf2go

Running the compiler always succeeds; the file system is a function from names in the output directory. Names are ASCII. Maps are lists of
pairs; the order in which Go ranges over them is a parameter.
-/
namespace Ebpf.Targets
open TargetsSpec

/-- Target (cmd/bpf2go/gen/target.go:33-42). -/
structure Target where
  clang : String
  linux : String
  goos : String
deriving DecidableEq

/-- targetsByGoArch (cmd/bpf2go/gen/target.go:16-31). -/
def table : List (String × Target) := [
  ("386", ⟨"bpfel", "x86", ""⟩),
  ("amd64", ⟨"bpfel", "x86", ""⟩),
  ("arm", ⟨"bpfel", "arm", ""⟩),
  ("arm64", ⟨"bpfel", "arm64", ""⟩),
  ("loong64", ⟨"bpfel", "loongarch", ""⟩),
  ("mips", ⟨"bpfeb", "mips", ""⟩),
  ("mipsle", ⟨"bpfel", "", ""⟩),
  ("mips64", ⟨"bpfeb", "", ""⟩),
  ("mips64le", ⟨"bpfel", "", ""⟩),
  ("ppc64", ⟨"bpfeb", "powerpc", ""⟩),
  ("ppc64le", ⟨"bpfel", "powerpc", ""⟩),
  ("riscv64", ⟨"bpfel", "riscv", ""⟩),
  ("s390x", ⟨"bpfeb", "s390", ""⟩),
  ("wasm", ⟨"bpfel", "", "js"⟩)]

/-- The default case of FindTarget (cmd/bpf2go/gen/target.go:130-148): the target of an architecture. `order` is the order of ranging over
the table. The sorting of the architectures is left out: it has no effect on the meaning of the constraint. -/
def findArch (order : List (String × Target)) (id : String) : Option (Target × List String) :=
  match table.lookup id with
  | none => none
  | some t =>
    if t.linux = "" then none
    else some (t, (order.filter (fun p => p.2 = t)).map (·.1))

/-- FindTarget (cmd/bpf2go/gen/target.go:112-150); `host` is runtime.GOARCH. -/
def findTarget (host : String) (order : List (String × Target)) (id : String) : Option (Target × List String) :=
  if id = "bpf" ∨ id = "bpfel" ∨ id = "bpfeb" then
    some (⟨id, "", ""⟩, (order.filter (fun p => p.2.clang = id)).map (·.1))
  else findArch order (if id = "native" then host else id)

/-- orConstraints (cmd/bpf2go/gen/target.go:152-162). -/
def orConstraints : Option Expr → Option Expr → Option Expr
  | none, y => y
  | x, none => x
  | some x, some y => some (.or x y)

/-- andConstraints (cmd/bpf2go/flags.go:37-47). -/
def andConstraints : Option Expr → Option Expr → Option Expr
  | none, y => y
  | x, none => x
  | some x, some y => some (.and x y)

/-- GoArches.Constraint (cmd/bpf2go/gen/target.go:90-97). -/
def constraint (arches : List String) : Option Expr :=
  arches.foldl (fun acc a => orConstraints acc (some (.tag a))) none

/-- Target.Suffix (cmd/bpf2go/gen/target.go:56-70). -/
def suffix (t : Target) : Name :=
  if t.linux ≠ "" then t.linux.toList ++ '_' :: t.clang.toList else t.clang.toList

/-- Target.ObsoleteSuffix (cmd/bpf2go/gen/target.go:75-81). -/
def obsoleteSuffix (t : Target) : Name :=
  if t.linux = "" then [] else t.clang.toList ++ '_' :: t.linux.toList

/-- Adding to the map of targets (cmd/bpf2go/main.go:232). -/
def put (m : List (Target × List String)) (t : Target) (a : List String) : List (Target × List String) :=
  (t, a) :: m.filter (fun p => p.1 ≠ t)

/-- The loop over the -target flag (cmd/bpf2go/main.go:220-233), `ids` being the flag cut at commas. -/
def newTargets (host : String) (order : List (String × Target)) : List String → List (Target × List String) →
    Option (List (Target × List String))
  | [], m => some m
  | id :: ids, m =>
    match findTarget host order id with
    | none => none
    | some (t, a) => newTargets host order ids (put m t a)

/-- The options concerning output (cmd/bpf2go/main.go:64-67, 81-82). -/
structure Opts where
  outputStem : Name
  identStem : Name
  outputSuffix : Name
  tags : Option Expr

/-- The output stem (cmd/bpf2go/main.go:338-341). -/
def outStem (o : Opts) : Name :=
  if o.outputStem = [] then o.identStem.map Char.toLower else o.outputStem

/-- The stem of the names of the files for a target (cmd/bpf2go/main.go:343). -/
def fileStem (o : Opts) (t : Target) : Name := outStem o ++ '_' :: suffix t ++ o.outputSuffix

/-- The name of the Go file (cmd/bpf2go/main.go:422). -/
def goFile (o : Opts) (t : Target) : Name := fileStem o t ++ ".go".toList

/-- The name of the object file (cmd/bpf2go/main.go:350). -/
def objFile (o : Opts) (t : Target) : Name := fileStem o t ++ ".o".toList

/-- What is in a file: an object compiled for a target; Go code with a constraint that embeds a file; something else. -/
inductive Content where
  | obj (clang linux : String)
  | go (c : Option Expr) (embeds : Name)
  | other (n : Nat)
deriving DecidableEq

/-- The output directory. -/
abbrev Dir := Name → Option Content

/-- Removing or writing a file. -/
def Dir.set (d : Dir) (n : Name) (c : Option Content) : Dir := fun m => if m = n then c else d m

/-- removeOldOutputFiles (cmd/bpf2go/main.go:479-500). -/
def removeOld (o : Opts) (t : Target) (d : Dir) : Dir :=
  let s := obsoleteSuffix t
  if s = [] then d
  else
    let stem := outStem o ++ '_' :: s
    (d.set (stem ++ ".o".toList) none).set (stem ++ ".go".toList) none

/-- convert (cmd/bpf2go/main.go:328-474), without dependencies. -/
def convert (o : Opts) (t : Target) (arches : List String) (d : Dir) : Dir :=
  let c := andConstraints (constraint arches) o.tags
  let d := removeOld o t d
  let d := d.set (objFile o t) (some (.obj t.clang t.linux))
  d.set (goFile o t) (some (.go c (objFile o t)))

/-- convertAll (cmd/bpf2go/main.go:319-323), the targets in the order in which the map is ranged over. -/
def convertAll (o : Opts) (ts : List (Target × List String)) (d : Dir) : Dir :=
  ts.foldl (fun d p => convert o p.1 p.2 d) d

/-! ## Compiler flags -/

/-- strings.HasPrefix. -/
def hasPrefix (f p : String) : Bool := p.toList.isPrefixOf f.toList

/-- The compiler and its flags (cmd/bpf2go/main.go:165-193): `cc` are the words of -cc, `split` those of -cflags, `cmd` the arguments
after --. Fails without a compiler, and if a flag asks for dependencies. -/
def b2gFlags (cc split cmd : List String) : Option (String × List String) :=
  match cc with
  | [] => none
  | c :: rest =>
    let cFlags := split ++ cmd
    if cFlags.any (hasPrefix · "-M") then none
    else some (c, rest ++ cFlags)

/-- insertDefaultFlags (cmd/bpf2go/gen/compile.go:31-61). -/
def insertDefaultFlags (flags : List String) : List String :=
  flags.takeWhile (fun f => !hasPrefix f "-") ++ ["-O2", "-mcpu=v1"] ++ flags.dropWhile (fun f => !hasPrefix f "-")

/-- The value of __BPF_TARGET_MISSING (cmd/bpf2go/gen/compile.go:97). -/
def missing : String :=
  "\"GCC error \\\"The eBPF is using target specific macros, please provide -target that is not bpf, bpfel or bpfeb\\\"\""

/-- The flags that can't be overridden (cmd/bpf2go/gen/compile.go:78-98). -/
def fixedFlags (t : Target) (source dest inputDir relDir : String) : List String :=
  (if t.linux ≠ "" then ["-D__TARGET_ARCH_" ++ t.linux] else []) ++
    ["-Wunused-command-line-argument", "-target", t.clang, "-c", source, "-o", dest, "-fno-ident",
     "-fdebug-prefix-map=" ++ (inputDir ++ ("=" ++ relDir)), "-fdebug-compilation-dir", ".", "-g",
     "-D__BPF_TARGET_MISSING=" ++ missing]

/-- The arguments of the compiler (cmd/bpf2go/gen/compile.go:64-100). -/
def compileArgs (flags : List String) (t : Target) (source dest inputDir relDir : String) : List String :=
  let t := if t = ⟨"", "", ""⟩ then { t with clang := "bpf" } else t
  insertDefaultFlags flags ++ fixedFlags t source dest inputDir relDir

end Ebpf.Targets
