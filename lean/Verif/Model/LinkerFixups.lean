import Verif.Model.Program
import Verif.Model.Platform
import Verif.Model.Kallsyms
/-!
# Model of `linker.go`: references to kernel symbols, kfuncs and .kconfig

`newProgramWithOptions` (prog.go:326-395) works on a copy of the instructions of the spec; the lists
here are that copy. Error texts are dropped.
-/
namespace Ebpf.LinkerFix
open Ebpf.Asm

/-- elf_reader.go:41-45 `ksymMeta`. `isVoid` is `btf.As[*btf.Void](meta.Var.Type)`, linker.go:472. -/
structure KsymMeta where
  weak : Bool
  name : Bytes
  varName : Bytes
  isVoid : Bool
deriving DecidableEq, Repr

/-- elf_reader.go:34-37 `kfuncMeta` (the type of the function is only looked at by the oracle). -/
structure KfuncMeta where
  weak : Bool
  name : Bytes
deriving DecidableEq, Repr

/-- elf_reader.go:27-30 `kconfigMeta`: the identity of the `.kconfig` MapSpec and the offset. -/
structure KconfigMeta where
  map : Nat
  offset : BitVec 32
deriving DecidableEq, Repr

/-- An instruction with the metadata the fixups look at. -/
structure LIns where
  p : PIns
  ksym : Option KsymMeta := none
  kfunc : Option KfuncMeta := none
  kconfig : Option KconfigMeta := none
deriving DecidableEq, Repr

/-- Error classes of the fixups. -/
inductive FixErr where
  | lookup (e : Kallsyms.Err) | missing | notFound | kernel | tooMany | typeID | notDword | incompatible
  | badInsn | multipleKconfig | notMapLoad | createMap | unsatisfiedMap | platform
deriving DecidableEq

/-- Change the constant of an instruction. -/
def LIns.setCons (i : LIns) (c : BitVec 64) : LIns := { i with p := { i.p with ins := { i.p.ins with cons := c } } }

/-! ## untyped ksyms -/

/-- linker.go:472-475, 492-495: the names of the untyped ksyms, without duplicates. -/
def untypedNames : List LIns → List Bytes
  | [] => []
  | i :: r =>
    match i.ksym with
    | some m => if m.isVoid && !(untypedNames r).contains m.name then m.name :: untypedNames r else untypedNames r
    | none => untypedNames r

/-- linker.go:506-517: one fixup; `none` when a required symbol is missing. -/
def untypedOne (addr : Bytes → BitVec 64) (i : LIns) : Option LIns :=
  match i.ksym with
  | some m =>
    if m.isVoid then (if addr m.name = 0 && !m.weak then none else some (i.setCons (addr m.name))) else some i
  | none => some i

/-- linker.go:505-518: the loop; missing symbols do not stop it. -/
def untypedLoop (addr : Bytes → BitVec 64) (l : List LIns) : List LIns × Bool :=
  (l.map (fun i => (untypedOne addr i).getD i), l.any (fun i => (untypedOne addr i).isNone))

/-- linker.go:485-529 `applyUntypedKsymFixups`: result, the new cache of kallsyms addresses and the
instructions. `cache` and `f` are the state of `kallsyms.AssignAddresses` and /proc/kallsyms. -/
def applyUntyped (cache : Kallsyms.SymMap) (f : Option Kallsyms.File) (l : List LIns) :
    Option FixErr × Kallsyms.SymMap × List LIns :=
  if untypedNames l = [] then (none, cache, l)
  else
    match Kallsyms.assign cache f (untypedNames l) (fun _ => 0) with
    | (err, cache', addr) =>
      match err with
      | some .restricted =>
        if (untypedLoop addr l).2 then (some (.lookup .restricted), cache', (untypedLoop addr l).1)
        else (none, cache', (untypedLoop addr l).1)
      | some e => (some (.lookup e), cache', l)
      | none =>
        if (untypedLoop addr l).2 then (some .missing, cache', (untypedLoop addr l).1)
        else (none, cache', (untypedLoop addr l).1)

/-! ## module handles -/

/-- prog.go:1257-1281 `findTargetInKernel`, as seen by its callers. A found type has its id (`none`:
`spec.TypeID` fails), the new handle of the module it is in (its fd, `none` for vmlinux) and whether
its type is compatible with the one in the program (only for kfuncs). -/
inductive Found where
  | notFound
  | failed
  | found (id : Option (BitVec 32)) (module : Option Nat) (compatible : Bool)
deriving DecidableEq, Repr

/-- What the kernel answers to the n-th call, depending on the name. -/
abbrev Oracle := Nat → Bytes → Found

/-- math.MaxInt16, linker.go:29. -/
def maxModules : Nat := 32767

/-- linker.go:24-36 `handles.add`: the new list and the index; `none` when full. -/
def addHandle (hs : List Nat) : Option Nat → Option (List Nat × Nat)
  | none => some (hs, 0)
  | some h => if hs.length = maxModules then none else some (hs ++ [h], hs.length + 1)

/-- linker.go:38-46 `fdArray`. -/
def fdArray (hs : List Nat) : List Nat := 0 :: hs

/-- The handles acquired and closed so far (ghost state, to express leaks). -/
structure Handles where
  acquired : List Nat := []
  closed : List Nat := []
deriving DecidableEq, Repr

/-! ## typed ksyms -/

/-- asm/instruction.go:282-295 `AssociateBTFID`. A module fd is never negative. -/
def associateBTFID (i : LIns) (id : BitVec 32) (fd : Nat) : Option LIns :=
  if !i.p.ins.op.isDWordLoad then none
  else some { i with p := { i.p with ins := { i.p.ins with
    src := Ins.PseudoBtfId, cons := id.setWidth 64 ||| (BitVec.ofNat 64 fd <<< 32) } } }

/-- State of the loop in `applyTypedKsymFixups`. -/
structure TState where
  symbols : List (Bytes × (BitVec 32 × Nat)) := []
  modules : List Nat := []
  calls : Nat := 0
  acquired : List Nat := []
deriving DecidableEq, Repr

/-- linker.go:551-587: the body of the loop for one fixup. -/
def typedOne (o : Oracle) (s : TState) (m : KsymMeta) (i : LIns) : Except (FixErr × TState) (TState × LIns) :=
  match s.symbols.lookup m.varName with
  | some (id, fd) =>
    match associateBTFID i id fd with
    | none => .error (.notDword, s)
    | some j => .ok (s, j)
  | none =>
    match o s.calls m.varName with
    | .notFound => if m.weak then .ok ({ s with calls := s.calls + 1 }, i) else .error (.notFound, { s with calls := s.calls + 1 })
    | .failed => .error (.kernel, { s with calls := s.calls + 1 })
    | .found id module _ =>
      let s := { s with calls := s.calls + 1, acquired := s.acquired ++ module.toList }
      match addHandle s.modules module with
      | none => .error (.tooMany, s)
      | some (ms, _) =>
        let s := { s with modules := ms }
        match id with
        | none => .error (.typeID, s)
        | some id =>
          let s := { s with symbols := (m.varName, (id, module.getD 0)) :: s.symbols }
          match associateBTFID i id (module.getD 0) with
          | none => .error (.notDword, s)
          | some j => .ok (s, j)

/-- linker.go:463-478, 551-588: the loop over the typed ksyms of the program, in order. The
instructions before a failing one have been changed already. -/
def typedLoop (o : Oracle) : TState → List LIns → Except (FixErr × TState) (TState × List LIns)
  | s, [] => .ok (s, [])
  | s, i :: r =>
    match i.ksym with
    | none =>
      match typedLoop o s r with
      | .error e => .error e
      | .ok (s, r) => .ok (s, i :: r)
    | some m =>
      if m.isVoid then
        match typedLoop o s r with
        | .error e => .error e
        | .ok (s, r) => .ok (s, i :: r)
      else match typedOne o s m i with
        | .error e => .error e
        | .ok (s, j) =>
          match typedLoop o s r with
          | .error e => .error e
          | .ok (s, r) => .ok (s, j :: r)

/-- linker.go:534-591 `applyTypedKsymFixups`: the result and what happened to the module handles.
On an error the collected ones are closed (linker.go:539-543). -/
def applyTyped (o : Oracle) (l : List LIns) : Except FixErr (List Nat × List LIns) × Handles :=
  match typedLoop o {} l with
  | .error (e, s) => (.error e, ⟨s.acquired, s.modules⟩)
  | .ok (s, l) => (.ok (s.modules, l), ⟨s.acquired, []⟩)

/-! ## kfuncs -/

/-- linker.go:254 `kfuncCallPoisonBase`. -/
def kfuncCallPoisonBase : BitVec 32 := 0xdedc0de#32

/-- asm/func.go:18-23 `BuiltinFunc.Call`: a new instruction without metadata. -/
def poisonCall (c : BitVec 32) : LIns := { p := { ins := ⟨0x85#32, 0#8, 0#8, 0#16, c.setWidth 64⟩ } }

/-- linker.go:321-322: a weak load of a missing kfunc. -/
def zeroLoad (i : LIns) : LIns := { i with p := { i.p with ins := { i.p.ins with cons := 0#64, src := 0#8 } } }

/-- linker.go:357-358: `ins.Constant = int64(id)`, `ins.Offset = int16(idx)`. -/
def setKfunc (i : LIns) (id : BitVec 32) (idx : Nat) : LIns :=
  { i with p := { i.p with ins := { i.p.ins with cons := id.setWidth 64, off := BitVec.ofNat 16 idx } } }

/-- State of the second loop of `fixupKfuncs`: `pos` is the index of `iter.Ins`. -/
structure KState where
  insns : List LIns
  pos : Nat := 0
  handles : List Nat := []
  calls : Nat := 0
  acquired : List Nat := []
deriving DecidableEq, Repr

/-- asm/instruction.go:976-988 `InstructionIterator.Next`: at the end the current instruction stays. -/
def KState.next (s : KState) : KState := if s.pos + 1 < s.insns.length then { s with pos := s.pos + 1 } else s

/-- Whether `iter.Next()` returns true. -/
def KState.hasNext (s : KState) : Bool := decide (s.pos + 1 < s.insns.length)

/-- Outcome of one iteration of the loop. -/
inductive KStep where
  | next (s : KState)
  | done (s : KState)
  | failed (e : FixErr) (s : KState)
deriving DecidableEq

/-- `if !iter.Next() { break }` (linker.go:295, 360). -/
def KState.advance (s : KState) : KStep := if s.hasNext then .next s.next else .done s

/-- linker.go:290-363: one iteration. `native` is `platform.Native`. -/
def kfuncStep (native : String) (o : Oracle) (s : KState) : KStep :=
  match s.insns[s.pos]? with
  | none => .done s
  | some i =>
    match i.kfunc with
    | none => s.advance
    | some m =>
      match o s.calls m.name with
      | .notFound =>
        let s := { s with calls := s.calls + 1 }
        if m.weak then
          if i.p.ins.isKfuncCall then
            match Platform.encodeConstant native kfuncCallPoisonBase with
            | none => .failed .platform s
            | some c => .next (KState.next { s with insns := s.insns.set s.pos (poisonCall c) })
          else if i.p.ins.op.isDWordLoad then
            .next (KState.next { s with insns := s.insns.set s.pos (zeroLoad i) })
          else .failed .badInsn s
        else .failed .notFound s
      | .failed => .failed .kernel { s with calls := s.calls + 1 }
      | .found id module compat =>
        let s := { s with calls := s.calls + 1, acquired := s.acquired ++ module.toList }
        match addHandle s.handles module with
        | none => .failed .tooMany s
        | some (hs, idx) =>
          let s := { s with handles := hs }
          if !compat then .failed .incompatible s
          else match id with
            | none => .failed .typeID s
            | some id =>
              KState.advance { s with insns := s.insns.set s.pos (setKfunc i id idx) }

/-- linker.go:264-270: position of the first instruction with kfunc metadata. -/
def firstKfunc (l : List LIns) : Option Nat := l.findIdx? (fun i => i.kfunc.isSome)

/-- `n` iterations of the loop; a finished loop stays finished. -/
def kfuncRun (native : String) (o : Oracle) : Nat → KState → KStep
  | 0, s => .next s
  | n + 1, s =>
    match kfuncStep native o s with
    | .next s => kfuncRun native o n s
    | r => r

/-- linker.go:259-366 `fixupKfuncs`: the state in which the second loop starts (`none`: no kfuncs).
`cache.Kernel()` (linker.go:279) is taken to succeed or to return ErrNotSupported. -/
def kfuncStart (l : List LIns) : Option KState :=
  (firstKfunc l).map (fun n => { insns := l, pos := n })

/-- What the loop does within `n` iterations: `none` when it is still running. On failure all handles
in the list are closed (linker.go:288). -/
def fixupKfuncs (native : String) (o : Oracle) (n : Nat) (l : List LIns) :
    Option (Except FixErr (List Nat × List LIns) × Handles) :=
  match kfuncStart l with
  | none => some (.ok ([], l), {})
  | some s =>
    match kfuncRun native o n s with
    | .next _ => none
    | .done s => some (.ok (s.handles, s.insns), ⟨s.acquired, []⟩)
    | .failed e s => some (.error e, ⟨s.acquired, s.handles⟩)

/-! ## .kconfig -/

/-- linker.go:406-413: the `.kconfig` map of the first reference. -/
def firstKconfig (l : List LIns) : Option Nat := l.findSome? (fun i => i.kconfig.map (·.map))

/-- linker.go:434-449: one instruction; `fd` is the new map. `AssociateMap` is
asm/instruction.go:235-244. -/
def kconfigOne (spec : Nat) (fd : Int) (i : LIns) : Except FixErr LIns :=
  match i.kconfig with
  | none => .ok i
  | some m =>
    if m.map ≠ spec then .error .multipleKconfig
    else if !i.p.ins.isLoadFromMap then .error .notMapLoad
    else
      let ins := { i.p.ins with cons := m.offset.setWidth 64 <<< 32 }
      .ok { i with kconfig := none, p := { i.p with ref := "", map := some fd, ins := ins } }

/-- linker.go:432-450: the loop. -/
def kconfigLoop (spec : Nat) (fd : Int) : List LIns → Except FixErr (List LIns)
  | [] => .ok []
  | i :: r =>
    match kconfigOne spec fd i with
    | .error e => .error e
    | .ok j =>
      match kconfigLoop spec fd r with
      | .error e => .error e
      | .ok r => .ok (j :: r)

/-- linker.go:394-453 `resolveKconfigReferences`. `create` is the fd of the new map, `none` when
resolving the values (C46) or creating the map fails. Second component: maps created and
closed by the function. -/
def resolveKconfig (create : Nat → Option Int) (l : List LIns) :
    Except FixErr (Option Int × List LIns) × (List Int × List Int) :=
  match firstKconfig l with
  | none => (.ok (none, l), ([], []))
  | some spec =>
    match create spec with
    | none => (.error .createMap, ([], []))
    | some fd =>
      match kconfigLoop spec fd l with
      | .error e => (.error e, ([fd], [fd]))
      | .ok l => (.ok (some fd, l), ([fd], []))

/-! ## last minute checks -/

/-- linker.go:376-391 `fixupProbeReadKernel`; `haveProbe` is `haveProbeReadKernel() == nil`. The
helpers are asm/func_lin.go (LinuxTag is 0). -/
def fixupProbeRead (haveProbe : Bool) (i : Ins) : Ins :=
  if !i.isBuiltinCall then i
  else if haveProbe then i
  else if i.cons.setWidth 32 = 113#32 ∨ i.cons.setWidth 32 = 112#32 then { i with cons := 4#64 }
  else if i.cons.setWidth 32 = 115#32 ∨ i.cons.setWidth 32 = 114#32 then { i with cons := 45#64 }
  else i

/-- linker.go:232-248 `fixupAndValidate`. -/
def fixupAndValidate (haveProbe : Bool) : List LIns → Except FixErr (List LIns)
  | [] => .ok []
  | i :: r =>
    if i.p.ins.isLoadFromMap && (i.p.ref != "" || i.kconfig.isSome) && i.p.map.isNone then .error .unsatisfiedMap
    else
      match fixupAndValidate haveProbe r with
      | .error e => .error e
      | .ok r => .ok ({ i with p := { i.p with ins := fixupProbeRead haveProbe i.p.ins } } :: r)

end Ebpf.LinkerFix
