import Verif.Model.Program
/-!
# Model of `linker.go`: bpf-to-bpf linking
-/
namespace Ebpf.Linker
open Ebpf.Asm

/-- linker.go:148 `progs map[string]*ProgramSpec`: only the instructions of a spec matter here. An
association list; the first entry of a name is the one a Go map would hold. -/
abbrev Progs := List (String × List PIns)

/-- `sort.Strings`, asm/instruction.go:691, as an insertion sort (the input has no duplicates, so
every correct sort gives this result). -/
def insertSorted (s : String) : List String → List String
  | [] => [s]
  | t :: r => if s < t then s :: t :: r else t :: insertSorted s r

/-- asm/instruction.go:669-683: the instructions that `FunctionReferences` takes into account. -/
def isCall (i : PIns) : Bool := i.ins.cons == BitVec.allOnes 64 && i.ref != "" && i.ins.isFunctionReference

/-- asm/instruction.go:667-693 `FunctionReferences`: the set of names, then sorted. -/
def functionReferences : List PIns → List String
  | [] => []
  | i :: r =>
    let rest := functionReferences r
    if isCall i then (if rest.contains i.ref then rest else insertSorted i.ref rest) else rest

/-- linker.go:68-77 `hasFunctionReferences`. -/
def hasFunctionReferences (p : List PIns) : Bool := p.any (fun i => i.ins.isFunctionReference)

/-- linker.go:199-224: the loop over `pending`; `linked` is the set of names already appended. The
fuel is `budget` below; `none` would mean that the loop has not ended by then. The reference lists
are recomputed instead of looked up in `refs` (which holds the same lists, linker.go:150-153). -/
def linkLoop (progs : Progs) : Nat → List String → List String → List PIns → Option (List PIns)
  | _, [], _, insns => some insns
  | 0, _ :: _, _, _ => none
  | n + 1, ref :: pending, linked, insns =>
    if linked.contains ref then linkLoop progs n pending linked insns
    else match progs.lookup ref with
      | none => linkLoop progs n pending linked insns
      | some p => linkLoop progs n (pending ++ functionReferences p) (ref :: linked) (insns ++ p)

/-- An upper bound for the iterations of the loop (not in the code): every popped name was pushed,
and every program pushes its references at most twice (as the root and when linked). -/
def budget (progs : Progs) : Nat :=
  2 * (progs.map (fun e => (functionReferences e.2).length)).sum

/-- linker.go:175-227 `flattenInstructions`. The outer `none` is the nil dereference at linker.go:181
when `name` is not in `progs`. -/
def flattenInstructions (progs : Progs) (name : String) : Option (List PIns) :=
  match progs.lookup name with
  | none => none
  | some p =>
    if functionReferences p = [] then some p
    else linkLoop progs (budget progs) (functionReferences p) [] p

/-- linker.go:155-160: flatten all names first. -/
def flattenAll (progs : Progs) : List String → Option (List (String × List PIns))
  | [] => some []
  | n :: r =>
    match flattenInstructions progs n, flattenAll progs r with
    | some p, some rest => some ((n, p) :: rest)
    | _, _ => none

/-- linker.go:164: `progs[name].Instructions = flattened[i]`. -/
def assignInsns (progs : Progs) (name : String) (p : List PIns) : Progs :=
  progs.map (fun e => if e.1 = name then (e.1, p) else e)

/-- linker.go:148-166 `flattenPrograms`. -/
def flattenPrograms (progs : Progs) (names : List String) : Option Progs :=
  match flattenAll progs names with
  | none => none
  | some l => some (l.foldl (fun ps e => assignInsns ps e.1 e.2) progs)

end Ebpf.Linker
