import Verif.Model.Info
/-!
# Specification: what Linux says about programs and maps (kernel/bpf/syscall.c `bpf_prog_get_info_by_fd`, `bpf_prog_show_fdinfo`, `bpf_map_show_fdinfo`)
-/
namespace Ebpf.InfoSpec
open Ebpf.Info

/-- A loaded program. `funcInfo`, `lineInfo`: records. -/
structure KProg where
  typ : Nat
  id : Nat
  tag : List Nat
  name : List Nat
  loadTime : Nat
  uid : Nat
  btf : Nat
  verified : Nat
  maps : List Nat
  xlated : List Nat
  jited : List Nat
  ksyms : List Nat
  funcLens : List Nat
  funcInfo : List Nat
  lineInfo : List Nat
  jitedLine : List Nat
  memlock : Nat

/-- The kernel and the caller. `level`: 0 is Linux 4.13, 1 is 4.15, 2 is 4.18, 3 is 5.0, 4 is 5.16. `rawOk`: addresses may be shown; `blinded`: constants in the program are blinded. -/
structure KEnv where
  level : Nat
  capable : Bool
  rawOk : Bool
  blinded : Bool

/-- Copy an array to user space. `none`: bad address. Writing past the end of the caller's memory counts as that. -/
def fill (real : List Nat) (allowed : Bool) (f : Fld) : Option Fld :=
  if f.count = 0 ∨ real = [] then some { f with count := real.length }
  else if allowed = false then some { f with count := real.length, ptr := false }
  else if f.ptr = false ∨ f.buf.length < min f.count real.length then none
  else some ⟨real.length, true, real.take f.count ++ f.buf.drop (min f.count real.length)⟩

/-- The same, if the kernel has this field. -/
def fillIf (have_ : Bool) (real : List Nat) (allowed : Bool) (f : Fld) : Option Fld := if have_ then fill real allowed f else some f

/-- Everything after the instructions. -/
def linuxRest (ke : KEnv) (p : KProg) (r : PI) : Option PI :=
  (fill p.jited ke.rawOk r.jited).bind fun jited =>
  (fillIf (decide (2 ≤ ke.level)) p.ksyms ke.rawOk r.ksyms).bind fun ksyms =>
  (fillIf (decide (2 ≤ ke.level)) p.funcLens ke.rawOk r.funcLens).bind fun funcLens =>
  (fillIf (decide (3 ≤ ke.level)) p.funcInfo true r.funcInfo).bind fun funcInfo =>
  (fillIf (decide (3 ≤ ke.level)) p.lineInfo true r.lineInfo).bind fun lineInfo =>
  (fillIf (decide (3 ≤ ke.level)) p.jitedLine ke.rawOk r.jitedLine).bind fun jitedLine =>
  some { r with jited := jited, ksyms := ksyms, funcLens := funcLens, funcInfo := funcInfo, lineInfo := lineInfo, jitedLine := jitedLine }

/-- Scalars and record sizes. -/
def scalars (ke : KEnv) (p : KProg) (maps : Fld) (r : PI) : PI :=
  { r with
    typ := p.typ, id := p.id, tag := p.tag, maps := maps
    name := if 1 ≤ ke.level then p.name ++ List.replicate (16 - p.name.length) 0 else r.name
    loadTime := if 1 ≤ ke.level then p.loadTime else r.loadTime
    uid := if 1 ≤ ke.level then p.uid else r.uid
    btf := if 3 ≤ ke.level then p.btf else r.btf
    verified := if 4 ≤ ke.level then p.verified else r.verified
    funcRec := if 3 ≤ ke.level then 8 else r.funcRec
    lineRec := if 3 ≤ ke.level then 16 else r.lineRec
    jitedLineRec := if 3 ≤ ke.level then 8 else r.jitedLineRec }

/-- The caller sets something the kernel doesn't know. -/
def tooNew (ke : KEnv) (r : PI) : Prop :=
  (ke.level < 1 ∧ r.maps ≠ .none) ∨ (ke.level < 2 ∧ (r.ksyms ≠ .none ∨ r.funcLens ≠ .none)) ∨
  (ke.level < 3 ∧ (r.funcInfo ≠ .none ∨ r.lineInfo ≠ .none ∨ r.jitedLine ≠ .none ∨ r.funcRec ≠ 0 ∨ r.lineRec ≠ 0 ∨ r.jitedLineRec ≠ 0))

/-- Record sizes other than the kernel's. -/
def badRec (r : PI) : Prop :=
  ((r.funcInfo.count ≠ 0 ∨ r.funcRec ≠ 0) ∧ r.funcRec ≠ 8) ∨ ((r.lineInfo.count ≠ 0 ∨ r.lineRec ≠ 0) ∧ r.lineRec ≠ 16) ∨
  ((r.jitedLine.count ≠ 0 ∨ r.jitedLineRec ≠ 0) ∧ r.jitedLineRec ≠ 8)

instance (ke : KEnv) (r : PI) : Decidable (tooNew ke r) := by unfold tooNew; infer_instance
instance (r : PI) : Decidable (badRec r) := by unfold badRec; infer_instance

/-- BPF_OBJ_GET_INFO_BY_FD on a program. -/
def linuxInfo (ke : KEnv) (p : KProg) (r : PI) : Except Err PI :=
  if tooNew ke r then .error .e2big
  else if 3 ≤ ke.level ∧ badRec r then .error .einval
  else
    match fillIf (decide (1 ≤ ke.level)) p.maps true r.maps with
    | none => .error .other
    | some maps =>
      if ke.capable = false then
        .ok { scalars ke p maps r with
          xlated := { r.xlated with count := 0 }, jited := { r.jited with count := 0 }
          ksyms := { r.ksyms with count := 0 }, funcLens := { r.funcLens with count := 0 }
          funcInfo := { r.funcInfo with count := 0 }, lineInfo := { r.lineInfo with count := 0 }, jitedLine := { r.jitedLine with count := 0 } }
      else
        match fill p.xlated (!ke.blinded || ke.rawOk) r.xlated with
        | none => .error .other
        | some x =>
          if r.xlated.count ≠ 0 ∧ p.xlated ≠ [] ∧ ke.blinded ∧ ke.rawOk = false then .ok { scalars ke p maps r with xlated := x }
          else
            match linuxRest ke p { scalars ke p maps r with xlated := x } with
            | none => .error .other
            | some r => .ok r

/-- The program's file in fdinfo: only what is so, and the type if anything. Other lines are arbitrary. -/
def ProgFile (p : KProg) (lines : List (Option (String × Tok))) : Prop :=
  (∀ v, some ("prog_type", v) ∈ lines → v = .num p.typ) ∧ (∀ v, some ("prog_tag", v) ∈ lines → v = .word (hex p.tag)) ∧
  (∀ v, some ("memlock", v) ∈ lines → v = .num p.memlock) ∧
  (∀ v, some ("prog_tag", v) ∈ lines ∨ some ("memlock", v) ∈ lines → some ("prog_type", .num p.typ) ∈ lines)

/-- A program as the kernel has it. -/
structure Sane (p : KProg) : Prop where
  typ : 0 < p.typ ∧ p.typ < 2 ^ 28
  memlock : p.memlock < 2 ^ 64
  tag : p.tag ≠ []
  name : p.name.length ≤ 15 ∧ 0 ∉ p.name
  lines : p.lineInfo.length < 2 ^ 28
  funcs : p.funcInfo.length < 2 ^ 28
  ksyms : p.ksyms ≠ []
  funcLens : p.funcLens ≠ []

/-- The array if this holds and it isn't empty. -/
def avail (c : Bool) (l : List Nat) : Option (List Nat) := if c ∧ l ≠ [] then some l else none

/-- What ProgramInfo has to say. -/
structure Exact (ke : KEnv) (p : KProg) (lines : List (Option (String × Tok))) (pi : PInfo) : Prop where
  typ : pi.typ = p.typ
  id : pi.id = p.id
  tag : pi.tag = hex p.tag
  uid : pi.uid = if 1 ≤ ke.level then some p.uid else none
  maps : pi.mapIDs = if 1 ≤ ke.level then some p.maps else none
  loadTime : pi.loadTime = if 1 ≤ ke.level then p.loadTime else 0
  btf : pi.btf = if 3 ≤ ke.level then p.btf else 0
  verified : pi.verified = if 4 ≤ ke.level then p.verified else 0
  size : pi.numInsns = if ke.capable then p.xlated.length else 0
  jitedSize : pi.jitedSize = if ke.capable then p.jited.length else 0
  insns : pi.instructions = if ke.capable = true ∧ p.xlated ≠ [] then (if ke.blinded = true ∧ ke.rawOk = false then some none else some (some p.xlated)) else none
  jited : pi.jitedInsns = avail (ke.capable && ke.rawOk) p.jited
  ksyms : pi.jitedKsymAddrs = avail (ke.capable && ke.rawOk && decide (2 ≤ ke.level)) p.ksyms
  funcLens : pi.jitedFuncLens = avail (ke.capable && ke.rawOk && decide (2 ≤ ke.level)) p.funcLens
  jitedLine : pi.jitedLineInfos = avail (ke.capable && ke.rawOk && decide (3 ≤ ke.level)) p.jitedLine
  lineInfo : pi.lineInfo = if ke.capable = true ∧ 3 ≤ ke.level then p.lineInfo else []
  numLineInfo : pi.numLineInfo = pi.lineInfo.length
  funcInfo : pi.funcInfo = if ke.capable = true ∧ 3 ≤ ke.level then p.funcInfo else []
  numFuncInfo : pi.numFuncInfo = pi.funcInfo.length
  memlock : pi.memlock = if some ("memlock", Tok.num p.memlock) ∈ lines then p.memlock else 0

/-! ## Maps -/

/-- A map. -/
structure KMap where
  typ : Nat
  keySize : Nat
  valueSize : Nat
  maxEntries : Nat
  flags : Nat
  name : List Nat
  id : Nat
  btf : Nat
  extra : Nat
  memlock : Nat
  frozen : Bool

/-- A number in fdinfo. -/
def lineOf (lines : List (Option (String × Tok))) (key : String) (n : Nat) : Prop := ∀ v, some (key, v) ∈ lines → v = .num n

/-- The map's file in fdinfo says only what is so. -/
structure MapFile (m : KMap) (lines : List (Option (String × Tok))) : Prop where
  typ : lineOf lines "map_type" m.typ
  id : lineOf lines "map_id" m.id
  keySize : lineOf lines "key_size" m.keySize
  valueSize : lineOf lines "value_size" m.valueSize
  maxEntries : lineOf lines "max_entries" m.maxEntries
  flags : lineOf lines "map_flags" m.flags
  extra : lineOf lines "map_extra" m.extra
  memlock : lineOf lines "memlock" m.memlock
  frozen : lineOf lines "frozen" m.frozen.toNat

/-- Sizes of the kernel's variables. -/
structure SaneMap (m : KMap) : Prop where
  typ : m.typ < 2 ^ 28
  id : m.id < 2 ^ 32
  keySize : m.keySize < 2 ^ 32
  valueSize : m.valueSize < 2 ^ 32
  maxEntries : m.maxEntries < 2 ^ 32
  flags : m.flags < 2 ^ 32
  extra : m.extra < 2 ^ 64
  memlock : m.memlock < 2 ^ 64
  name : m.name.length ≤ 15 ∧ 0 ∉ m.name

/-- The line is there. -/
def has (lines : List (Option (String × Tok))) (key : String) : Prop := ∃ v, some (key, v) ∈ lines

/-- The value that is reported: the kernel's one, if it is known from the system call or from fdinfo. -/
def Known (known : Prop) (real got : Nat) : Prop := (known → got = real) ∧ (¬ known → got = 0)

/-- BPF_OBJ_GET_INFO_BY_FD on a map: what is new may be missing. -/
structure Reply (m : KMap) (info : KMapInfo) : Prop where
  typ : info.typ = m.typ
  id : info.id = m.id
  keySize : info.keySize = m.keySize
  valueSize : info.valueSize = m.valueSize
  maxEntries : info.maxEntries = m.maxEntries
  flags : info.flags = m.flags
  name : info.name = m.name ++ List.replicate (16 - m.name.length) 0 ∨ info.name = List.replicate 16 0
  btf : info.btf = 0 ∨ info.btf = m.btf
  extra : info.extra = 0 ∨ info.extra = m.extra

/-! ## Hexadecimal -/

/-- The value of a lower case hexadecimal digit in ASCII. -/
def digitVal (c : Nat) : Option Nat := if 48 ≤ c ∧ c ≤ 57 then some (c - 48) else if 97 ≤ c ∧ c ≤ 102 then some (c - 87) else none

/-- Two digits to a byte. -/
def unhex : List Nat → Option (List Nat)
  | [] => some []
  | [_] => none
  | a :: b :: r => (digitVal a).bind fun x => (digitVal b).bind fun y => (unhex r).map ((16 * x + y) :: ·)

end Ebpf.InfoSpec
