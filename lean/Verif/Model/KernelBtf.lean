import Verif.Base
/-!
# Model of where BTF comes from: `btf/kernel.go`, and reading ELFs in `btf/btf.go:60-236, 505-528`

The file system, the parser of ELF containers (debug/elf) and the decoder of BTF (C26, C56) are parameters. A spec is known by the bytes it was decoded from.
Windows isn't modelled.
-/
namespace Ebpf.KernelBtf

/-- Names and paths. -/
abbrev Name := List Char

/-- Why `os.Open` fails. -/
inductive OpenErr where
  | notExist | other
deriving DecidableEq

/-- An open file: whether `Stat`, `mmap` and reading work, and its contents. -/
structure File where
  statOk : Bool
  mmapOk : Bool
  readOk : Bool
  content : Bytes

/-- `elf.SectionType`, as far as it matters. -/
inductive SType where
  | progbits | nobits | other
deriving DecidableEq

/-- A section; `data` is what `Data` returns. -/
structure Sec where
  name : Name
  typ : SType
  size : BitVec 64
  data : Option Bytes

/-- A symbol; `sec` is its section index. -/
structure Sym where
  name : Name
  sec : BitVec 16
  value : BitVec 64

/-- An ELF; `symbols` is what `Symbols` returns, which fails if there is no symbol table. -/
structure Elf where
  big : Bool
  sections : List Sec
  symbols : Option (List Sym)

/-- The environment: opening files, `uname`, whether a file is an ELF, the byte order of a blob of BTF if it can be decoded with the base. -/
structure Env where
  fopen : Name → Except OpenErr File
  release : Option Name
  elf : Bytes → Option Elf
  decode : Bytes → Option Bytes → Option Bool

/-- btf/btf.go:32-36 `elfData`. Go maps are functions. -/
structure ElfData where
  sizes : Name → Option (BitVec 32)
  offsets : Name → Name → Option (BitVec 32)

/-- btf/btf.go:44-50 `Spec`: what it was decoded from, its base, and data from an ELF. -/
structure Spec where
  raw : Bytes
  base : Option Bytes
  elf : Option ElfData

/-- Errors. -/
inductive Err where
  | opening (e : OpenErr) | stat | read | uname | decode | notFound | notSupported | sectionSize | symbols | symbolSection | data | byteOrder | name
deriving DecidableEq

/-- What happens to files and mappings. `owned` is the mapping becoming the spec's, to be unmapped with it. -/
inductive Ev where
  | opened (p : Name) | closed (p : Name) | mapped | unmapped | owned
deriving DecidableEq

/-- btf/btf.go:195-237 `loadRawSpec`. -/
def loadRawSpec (env : Env) (raw : Bytes) (base : Option Bytes) : Except Err Spec :=
  match env.decode raw base with
  | none => .error .decode
  | some _ => .ok ⟨raw, base, none⟩

/-- btf/btf.go:521-528 `LoadSplitSpecFromReader`. -/
def loadSplitSpecFromReader (env : Env) (f : File) (base : Option Bytes) : Except Err Spec :=
  if f.readOk then loadRawSpec env f.content base else .error .read

/-- `offsets[k] = v`. -/
def setOffset (m : Name → Name → Option (BitVec 32)) (s n : Name) (v : BitVec 32) : Name → Name → Option (BitVec 32) :=
  fun a b => if a = s ∧ b = n then some v else m a b

/-- btf/btf.go:116-133: one symbol. `elf.SHN_LORESERVE` is 0xff00 and `SHN_HIRESERVE` 0xffff. -/
def addSymbol (sections : List Sec) (s : Sym) (m : Name → Name → Option (BitVec 32)) : Except Err (Name → Name → Option (BitVec 32)) :=
  if 0xff00 ≤ s.sec.toNat ∧ s.sec.toNat ≤ 0xffff then .ok m
  else if s.value.toNat > 0xffffffff then .ok m
  else
    match sections[s.sec.toNat]? with
    | none => .error .symbolSection
    | some sec => .ok (setOffset m sec.name s.name (s.value.setWidth 32))

/-- btf/btf.go:115-134: the loop over the symbols. -/
def addSymbols (sections : List Sec) : List Sym → (Name → Name → Option (BitVec 32)) → Except Err (Name → Name → Option (BitVec 32))
  | [], m => .ok m
  | s :: r, m =>
    match addSymbol sections s m with
    | .error e => .error e
    | .ok m => addSymbols sections r m

/-- btf/btf.go:108-137 `symbolOffsets`. -/
def symbolOffsets (e : Elf) : Except Err (Name → Name → Option (BitVec 32)) :=
  match e.symbols with
  | none => .error .symbols
  | some l => addSymbols e.sections l (fun _ _ => none)

/-- `sizes[k] = v`. -/
def setSize (m : Name → Option (BitVec 32)) (n : Name) (v : BitVec 32) : Name → Option (BitVec 32) := fun a => if a = n then some v else m a

/-- btf/btf.go:139-161: the loop over the sections: the section with the BTF and the sizes. -/
def scanSections : List Sec → Option Sec → (Name → Option (BitVec 32)) → Except Err (Option Sec × (Name → Option (BitVec 32)))
  | [], b, m => .ok (b, m)
  | s :: r, b, m =>
    if s.name = ".BTF".toList then scanSections r (some s) m
    else if s.typ ≠ .progbits ∧ s.typ ≠ .nobits then scanSections r b m
    else if s.size.toNat > 0xffffffff then .error .sectionSize
    else scanSections r b (setSize m s.name (s.size.setWidth 32))

/-- btf/btf.go:139-193 `loadSpecFromELF`. -/
def loadSpecFromELF (env : Env) (e : Elf) : Except Err Spec :=
  match scanSections e.sections none (fun _ => none) with
  | .error err => .error err
  | .ok (none, _) => .error .notFound
  | .ok (some btf, sizes) =>
    match symbolOffsets e with
    | .error err => .error err
    | .ok offsets =>
      match btf.data with
      | none => .error .data
      | some raw =>
        match env.decode raw none with
        | none => .error .decode
        | some big => if big ≠ e.big then .error .byteOrder else .ok ⟨raw, none, some ⟨sizes, offsets⟩⟩

/-- btf/btf.go:67-79 `LoadSpecFromReader`. -/
def loadSpecFromReader (env : Env) (f : File) : Except Err Spec :=
  match env.elf f.content with
  | none => if f.readOk then loadRawSpec env f.content none else .error .read
  | some e => loadSpecFromELF env e

/-- btf/kernel.go:33: the kernel's own BTF. -/
def vmlinux : Name := "/sys/kernel".toList ++ "/btf/vmlinux".toList

/-- btf/kernel.go:117-125: the locations. -/
def locations (r : Name) : List Name :=
  [ "/boot/vmlinux-".toList ++ r,
    "/lib/modules/".toList ++ r ++ "/vmlinux-".toList ++ r,
    "/lib/modules/".toList ++ r ++ "/build/vmlinux".toList,
    "/usr/lib/modules/".toList ++ r ++ "/kernel/vmlinux".toList,
    "/usr/lib/debug/boot".toList ++ "/vmlinux-".toList ++ r,
    "/usr/lib/debug/boot".toList ++ "/vmlinux-".toList ++ r ++ ".debug".toList,
    "/usr/lib/debug/lib".toList ++ "/modules/".toList ++ r ++ "/vmlinux".toList ]

/-- btf/kernel.go:127-135: the first that exists. -/
def firstOf (env : Env) : List Name → Except Err (Name × File)
  | [] => .error .notSupported
  | p :: r =>
    match env.fopen p with
    | .error .notExist => firstOf env r
    | .error e => .error (.opening e)
    | .ok f => .ok (p, f)

/-- btf/kernel.go:104-136 `findVMLinux`. -/
def findVMLinux (env : Env) : Except Err (Name × File) :=
  match env.release with
  | none => .error .uname
  | some r => firstOf env (locations r)

/-- btf/kernel.go:34-61: with the kernel's own BTF open. -/
def loadSys (env : Env) (f : File) : Except Err Spec × List Ev :=
  if !f.statOk then (.error .stat, [])
  else if !f.mmapOk then (loadSplitSpecFromReader env f none, [])
  else
    match loadRawSpec env f.content none with
    | .error e => (.error e, [.mapped, .unmapped])
    | .ok s => (.ok s, [.mapped, .owned])

/-- btf/kernel.go:28-71 `LoadKernelSpec`. -/
def loadKernelSpec (env : Env) : Except Err Spec × List Ev :=
  match env.fopen vmlinux with
  | .ok f => let r := loadSys env f; (r.1, .opened vmlinux :: r.2 ++ [.closed vmlinux])
  | .error _ =>
    match findVMLinux env with
    | .error e => (.error e, [])
    | .ok (p, f) => (loadSpecFromReader env f, [.opened p, .closed p])

/-- `filepath.Ext(file) != ""` for a name without slashes: there is a dot. -/
def hasExt (n : Name) : Bool := n.any (· = '.')

/-- `dir != ""` for `filepath.Split`: there is a slash. -/
def hasDir (n : Name) : Bool := n.any (· = '/')

/-- `filepath.Join("/sys/kernel/btf", module)` for a name without slashes and dots. -/
def modulePath (n : Name) : Name := "/sys/kernel".toList ++ "/btf".toList ++ (if n = [] then [] else '/' :: n)

/-- btf/kernel.go:87-105 `loadKernelModuleSpec`. -/
def loadKernelModuleSpec (env : Env) (module : Name) (base : Bytes) : Except Err Spec × List Ev :=
  if hasDir module || hasExt module then (.error .name, [])
  else
    match env.fopen (modulePath module) with
    | .error e => (.error (.opening e), [])
    | .ok f => (loadSplitSpecFromReader env f (some base), [.opened (modulePath module), .closed (modulePath module)])

/-- btf/kernel.go:78-85 `LoadKernelModuleSpec`. -/
def loadModule (env : Env) (module : Name) : Except Err Spec × List Ev :=
  match loadKernelSpec env with
  | (.error e, t) => (.error e, t)
  | (.ok b, t) => let r := loadKernelModuleSpec env module b.raw; (r.1, t ++ r.2)

/-- btf/kernel.go:143-148 `Cache`, the list of modules. -/
abbrev Cached := Option (List Name)

/-- Bytewise order of names. -/
def nameLe (a b : Name) : Bool := decide (a ≤ b)

/-- btf/kernel.go:252-257: entries without vmlinux, sorted. -/
def listed (entries : List Name) : List Name := (entries.filter (fun s => s ≠ "vmlinux".toList)).mergeSort nameLe

/-- btf/kernel.go:224-258 `Cache.Modules`; `dir` is what reading the directory gives at the time. -/
def modules (c : Cached) (dir : Except Err (List Name)) : Cached × Except Err (List Name) :=
  match c with
  | some l => (some l, .ok l)
  | none =>
    match dir with
    | .error e => (none, .error e)
    | .ok l => (some (listed l), .ok (listed l))

/-- A history of calls, and what the directory held at each. -/
def calls : Cached → List (Except Err (List Name)) → List (Except Err (List Name))
  | _, [] => []
  | c, d :: r => (modules c d).2 :: calls (modules c d).1 r

end Ebpf.KernelBtf
