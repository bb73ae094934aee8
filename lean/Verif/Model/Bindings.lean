import Verif.Spec.Bindings
/-!
# Model of the generation of Go bindings by bpf2go

Names are ASCII. Instead of the text of the template the model gives the declarations in it. Go maps are lists in the order in which they are ranged
over. Strings are compared by a total order which is a parameter. Chains of typedefs and qualifiers are shorter than the limit of 32.
-/
namespace Ebpf.Bindings
open BindingsSpec

/-- unicode.ToUpper, ASCII (internal/output.go:22, cmd/bpf2go/gen/output.go:236). -/
def upper (c : Char) : Char := c.toUpper

/-- One step of Identifier (internal/output.go:18-50): `prev` is none for -1. The result is the new `prev`, and the rune to be kept. -/
def identStep (prev : Option Char) (r : Char) : Option Char × Option Char :=
  if isLetter r then
    let r := if prev.isNone then upper r else r
    (some r, some r)
  else if r = '_' then
    match prev with
    | none => (none, none)
    | some p => if isDigit p || (isLetter p && isLower p) then (none, none) else (some r, some r)
  else if isDigit r then (some r, some r)
  else (prev, none)

/-- strings.Map with the state of Identifier (internal/output.go:17). -/
def identLoop : Option Char → Name → Name
  | _, [] => []
  | prev, r :: s =>
    match identStep prev r with
    | (p, some c) => c :: identLoop p s
    | (p, none) => identLoop p s

/-- Identifier (internal/output.go:15-52). -/
def identifier (s : Name) : Name := identLoop none s

/-- btf.UnderlyingType (btf/types.go:821-834). -/
def underlying : Ty → Ty
  | .qual t => underlying t
  | .typedef _ _ t => underlying t
  | t => t

/-- btf.QualifiedType (btf/types.go:837-848). -/
def qualified : Ty → Ty
  | .qual t => qualified t
  | t => t

/-- TypeName of the types (btf/types.go:58-655). -/
def typeName : Ty → Name
  | .comp _ n => n
  | .typedef _ n _ => n
  | .other n => n
  | .array _ => []
  | .qual _ => []

theorem underlying_size (t u : Ty) (h : underlying t = .array u) : sizeOf u < sizeOf t := by
  induction t with
  | comp => cases h
  | array t => cases h; simp
  | qual t ih => have := ih h; simp; omega
  | typedef i n t ih => have := ih h; simp; omega
  | other => cases h

/-- selectType (cmd/bpf2go/gen/types.go:77-92). -/
def selectType (t : Ty) : Option Ty :=
  match _h : underlying t with
  | .comp _ _ => some t
  | .array u => selectType u
  | _ => none
termination_by sizeOf t
decreasing_by exact underlying_size t u _h

/-- addType (cmd/bpf2go/gen/types.go:56-75). -/
def addType (types : List Ty) (incoming : Ty) : List Ty :=
  match selectType incoming with
  | none => types
  | some t =>
    let t := qualified t
    if typeName t = [] then types
    else if types.any (fun e => typeName e = typeName t) then types
    else types ++ [t]

/-- The types of a MapSpec (map.go:88-89). -/
structure MapTypes where
  key : Option Ty
  value : Option Ty

/-- A key or value is only looked at if it has a name (cmd/bpf2go/gen/types.go:34, 38). -/
def addNamed (types : List Ty) : Option Ty → List Ty
  | none => types
  | some t => if typeName t ≠ [] then addType types t else types

/-- collectMapTypes (cmd/bpf2go/gen/types.go:32-44). -/
def collectMapTypes (types : List Ty) (maps : List MapTypes) : List Ty :=
  maps.foldl (fun ts m => addNamed (addNamed ts m.key) m.value) types

/-- collectVariableTypes (cmd/bpf2go/gen/types.go:47-53). -/
def collectVariableTypes (types : List Ty) (vars : List Ty) : List Ty := vars.foldl addType types

/-- Insertion, before what is strictly greater; for sorting (slices.SortStableFunc, sort.Strings). -/
def insertBy {α : Type} (le : Name → Name → Bool) (key : α → Name) (x : α) : List α → List α
  | [] => [x]
  | y :: ys => if le (key y) (key x) then y :: insertBy le key x ys else x :: y :: ys

/-- A stable sort (cmd/bpf2go/gen/types.go:24). -/
def sortBy {α : Type} (le : Name → Name → Bool) (key : α → Name) (l : List α) : List α :=
  l.foldl (fun acc x => insertBy le key x acc) []

/-- CollectGlobalTypes (cmd/bpf2go/gen/types.go:18-29). -/
def collectGlobalTypes (le : Name → Name → Bool) (maps : List MapTypes) (vars : List Ty) : List Ty :=
  sortBy le typeName (collectVariableTypes (collectMapTypes [] maps) vars)

/-- sortTypes (cmd/bpf2go/gen/output.go:208-231): `l` is the map in the order in which it is ranged over. sort.SearchStrings finds the
first name which isn't less. -/
def sortTypes (le : Name → Name → Bool) : List (Ty × Name) → List (Ty × Name) → Option (List (Ty × Name))
  | [], acc => some acc
  | (t, n) :: l, acc =>
    let i := acc.findIdx (fun p => le n p.2)
    match acc[i]? with
    | none => sortTypes le l (acc ++ [(t, n)])
    | some p => if p.2 = n then none else sortTypes le l (acc.take i ++ (t, n) :: acc.drop i)

/-- toUpperFirst (cmd/bpf2go/gen/output.go:234-237). -/
def toUpperFirst : Name → Name
  | [] => []
  | c :: s => upper c :: s

/-- token.IsExported (cmd/bpf2go/gen/output.go:30). -/
def isExported : Name → Bool
  | [] => false
  | c :: _ => isUpper c

/-- templateName.Load (cmd/bpf2go/gen/output.go:56-58). -/
def loadName (stem : Name) : Name :=
  let s := "load".toList ++ toUpperFirst stem
  if isExported stem then toUpperFirst s else s

/-- templateName.LoadObjects (cmd/bpf2go/gen/output.go:60-62). -/
def loadObjectsName (stem : Name) : Name :=
  let s := "load".toList ++ (toUpperFirst stem ++ "Objects".toList)
  if isExported stem then toUpperFirst s else s

/-- What is generated: constants with their values; declared types; the fields (name and tag) of the structs of specs and of objects; the fields
closed by Close. -/
structure Out where
  consts : List (Name × Name)
  types : List (Name × Ty)
  progSpecs : List (Name × Name)
  mapSpecs : List (Name × Name)
  varSpecs : List (Name × Name)
  progs : List (Name × Name)
  maps : List (Name × Name)
  vars : List (Name × Name)
  closeProgs : List Name
  closeMaps : List Name

/-- The names declared by the template whatever the input (cmd/bpf2go/gen/output.go:37-84, output.tpl:46-196). -/
def fixedNames (stem : Name) : List Name :=
  [loadName stem, loadObjectsName stem, stem ++ "Specs".toList, stem ++ "ProgramSpecs".toList, stem ++ "MapSpecs".toList,
   stem ++ "VariableSpecs".toList, stem ++ "Objects".toList, stem ++ "Maps".toList, stem ++ "Variables".toList,
   stem ++ "Programs".toList, '_' :: toUpperFirst stem ++ "Close".toList, '_' :: toUpperFirst stem ++ "Bytes".toList]

/-- A name that go/format accepts as the name of a field (internal/output.go:57-60): not beginning with a digit. -/
def fieldOk (n : Name) : Bool :=
  match n with
  | [] => true
  | c :: _ => !isDigit c

/-- Generate (cmd/bpf2go/gen/output.go:108-203) with output.tpl: ranging over a map in a template goes by sorted keys. A field without a
name, which is an embedded one, is only wrong where it is closed. -/
def generate (le : Name → Name → Bool) (stem : Name) (maps vars progs : List Name) (types : List (Ty × Name)) : Option Out :=
  let maps := (sortBy le id maps).map (fun n => (identifier n, n))
  let vars := (sortBy le id vars).map (fun n => (identifier n, n))
  let progs := (sortBy le id progs).map (fun n => (identifier n, n))
  match sortTypes le types [] with
  | none => none
  | some ts =>
    if (maps ++ progs).all (fun p => fieldOk p.1 && p.1 ≠ []) && vars.all (fun p => fieldOk p.1) then
      some {
        consts := maps.map (fun p => (stem ++ "Map".toList ++ p.1, p.2)) ++ progs.map (fun p => (stem ++ "Prog".toList ++ p.1, p.2)) ++
          vars.map (fun p => (stem ++ "Var".toList ++ p.1, p.2))
        types := ts.map (fun p => (p.2, p.1))
        progSpecs := progs, mapSpecs := maps, varSpecs := vars, progs := progs, maps := maps, vars := vars
        closeProgs := progs.map (·.1), closeMaps := maps.map (·.1) }
    else none

/-- The maps given to Generate (cmd/bpf2go/main.go:389-395): not those of data sections. -/
def mapNames (maps : List Name) : List Name := maps.filter (fun n => n.head? ≠ some '.')

/-- The types given to Generate, with their names (cmd/bpf2go/main.go:407-414, cmd/bpf2go/gen/output.go:147-151). A type given twice is
one key of the map. -/
def typeNames (stem : Name) (types : List Ty) : List (Ty × Name) :=
  types.foldl (fun m t => if m.any (fun p => p.1 = t) then m else m ++ [(t, stem ++ identifier (typeName t))]) []

/-- The helper called by Close (cmd/bpf2go/gen/output.tpl:186-193): `err` tells which objects can't be closed. The result are the objects closed, and whether
it failed. -/
def closeHelper {α : Type} (err : α → Bool) : List α → List α × Bool
  | [] => ([], false)
  | x :: xs =>
    if err x then ([x], true)
    else ((x :: (closeHelper err xs).1), (closeHelper err xs).2)

/-- An object: a program or a map, by the name of its field. -/
inductive Obj where
  | prog (field : Name)
  | map (field : Name)
deriving DecidableEq

/-- Close of all objects (cmd/bpf2go/gen/output.tpl:133-138): Close of the programs, then of the maps. -/
def closeObjects (err : Obj → Bool) (o : Out) : List Obj × Bool :=
  match closeHelper err (o.closeProgs.map .prog) with
  | (c, true) => (c, true)
  | (c, false) => (c ++ (closeHelper err (o.closeMaps.map .map)).1, (closeHelper err (o.closeMaps.map .map)).2)

end Ebpf.Bindings
