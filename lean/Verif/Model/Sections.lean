import Verif.Model.ElfSectionTable
/-!
# Model of `elf_reader.go:1632-1685`: section names to program types

Strings are lists of characters.
-/
namespace Ebpf.Sections

/-- `strings.Cut(s, "/")` (Go standard library): before and after the first slash, and whether there is one. -/
def cut : List Char → List Char × List Char × Bool
  | [] => ([], [], false)
  | c :: cs => if c = '/' then ([], cs, true) else let r := cut cs; (c :: r.1, r.2.1, r.2.2)

/-- `strings.TrimRight(s, "+/")` (Go standard library). -/
def trimRight : List Char → List Char
  | [] => []
  | c :: cs => match trimRight cs with
    | [] => if c = '+' ∨ c = '/' then [] else [c]
    | r :: rs => c :: r :: rs

/-- `strings.HasSuffix(s, c)` (Go standard library) for one character. -/
def endsWith (c : Char) : List Char → Bool
  | [] => false
  | [x] => x == c
  | _ :: y :: r => endsWith c (y :: r)

/-- `strings.HasPrefix(s, p)` (Go standard library). -/
def hasPrefix : List Char → List Char → Bool
  | _, [] => true
  | [], _ :: _ => false
  | c :: cs, p :: ps => c == p && hasPrefix cs ps

/-- elf_reader.go:1671-1685 `matchSectionName`; `none` if not found. -/
def matchSectionName (name pattern : List Char) : Option (List Char) :=
  let have' := (cut name).1
  let extra := (cut name).2.1
  let found := (cut name).2.2
  let want := trimRight pattern
  if endsWith '/' pattern then (if have' = want ∧ found = true then some extra else none)
  else if endsWith '+' pattern then (if have' = want then some extra else none)
  else if hasPrefix name pattern then some [] else none

/-- elf_reader.go:1643-1661: what is returned for a definition. `BPF_F_SLEEPABLE` is 16, `BPF_F_XDP_HAS_FRAGS` is 32, `StructOps` is 27. -/
def resultOf (t : Def) (extra : List Char) : Nat × Nat × Nat × List Char :=
  (t.progType, t.attachType, (if t.sleepable then 16 else 0) ||| (if t.xdpFrags then 32 else 0), if t.progType = 27 then [] else extra)

/-- elf_reader.go:1636-1662: the loop over the table. -/
def search (name : List Char) : List Def → Nat × Nat × Nat × List Char
  | [] => (0, 0, 0, [])
  | t :: ts => match matchSectionName name t.pattern with
    | none => search name ts
    | some extra => resultOf t extra

/-- `strings.TrimPrefix(s, "?")` (Go standard library). -/
def trimOptional : List Char → List Char
  | '?' :: r => r
  | s => s

/-- elf_reader.go:1632-1665 `getProgType`: program type, attach type, flags, what to attach to. -/
def getProgType (name : List Char) : Nat × Nat × Nat × List Char := search (trimOptional name) elfSectionDefs

end Ebpf.Sections
