/-!
# Model of assigning objects to the fields of a struct (`collection.go`)

Memory is a set of structs at addresses; a struct inside another one is a struct at its own address.
-/
namespace Ebpf.Assign

/-- Types of tagged fields: *Program(Spec), *Map(Spec), *Variable(Spec), anything else. -/
inductive Ty where
  | prog
  | map
  | var
  | other
deriving DecidableEq

/-- What an untagged field is: a struct, a pointer to a struct, anything else. -/
inductive Kind where
  | struct (a : Nat)
  | ptr (a : Option Nat)
  | other
deriving DecidableEq

/-- A field of a struct type with its value: `reflect.StructField`. -/
structure Fld where
  tag : String
  typ : Ty
  kind : Kind
  exported : Bool
  embedded : Bool
deriving DecidableEq

/-- A struct: its type and its fields. -/
structure Strct where
  typ : Nat
  fields : List Fld

/-- collection.go:941-944 `structField`: where it is and whether it can be set. -/
structure F where
  loc : Nat × Nat
  tag : String
  typ : Ty
  settable : Bool
deriving DecidableEq

/-- Errors. -/
inductive Err where
  | recursion
  | nilPtr
  | comma
  | twice
  | missing
  | unsupported
  | readonly
  | target
deriving DecidableEq

/-- reflect: is what is below a field read-only? (`flagStickyRO`) -/
def below (sticky : Bool) (f : Fld) : Bool := sticky || (!f.exported && !f.embedded)

/-- collection.go:962-1005: the loop over the fields of the struct at `a`. `inner`: the recursive call. -/
def fieldsLoop (a : Nat) (sticky : Bool) (inner : Nat → Bool → Option (Except Err (List F))) : Nat → List Fld → Option (Except Err (List F))
  | _, [] => some (.ok [])
  | i, f :: r =>
    if f.tag ≠ "" then
      match fieldsLoop a sticky inner (i + 1) r with
      | some (.ok fs) => some (.ok (⟨(a, i), f.tag, f.typ, !sticky && f.exported⟩ :: fs))
      | x => x
    else
      match f.kind with
      | .other => fieldsLoop a sticky inner (i + 1) r
      | .ptr none => some (.error .nilPtr)
      | .ptr (some b) | .struct b =>
        match inner b (below sticky f) with
        | some (.ok fs) =>
          match fieldsLoop a sticky inner (i + 1) r with
          | some (.ok gs) => some (.ok (fs ++ gs))
          | x => x
        | x => x

/-- collection.go:946-1006 `ebpfFields`. `none`: more than `n` nested calls. `visited` is never added to. -/
def ebpfFields (h : Nat → Strct) (visited : List Nat) : Nat → Nat → Bool → Option (Except Err (List F))
  | 0, _, _ => none
  | n + 1, a, sticky =>
    if visited.contains (h a).typ then some (.error .recursion)
    else fieldsLoop a sticky (ebpfFields h visited n) 0 (h a).fields

/-- collection.go:1033-1062: the loop of `assignValues`: what is stored, and the error. `done`: `assigned`. -/
def assignLoop (get : Ty → String → Except Err Nat) : List (Ty × String) → List F → List ((Nat × Nat) × Nat) × Option Err
  | _, [] => ([], none)
  | done, f :: r =>
    if f.tag.toList.contains ',' then ([], some .comma)
    else if done.contains (f.typ, f.tag) then ([], some .twice)
    else
      match get f.typ f.tag with
      | .error e => ([], some e)
      | .ok o =>
        if !f.settable then ([], some .readonly)
        else
          let (st, e) := assignLoop get ((f.typ, f.tag) :: done) r
          ((f.loc, o) :: st, e)

/-- collection.go:1008-1063 `assignValues`. `to`: the address of a struct, if it is a pointer to one. -/
def assignValues (h : Nat → Strct) (get : Ty → String → Except Err Nat) (fuel : Nat) (to : Option Nat) : Option (List ((Nat × Nat) × Nat) × Option Err) :=
  match to with
  | none => some ([], some .target)
  | some a =>
    match ebpfFields h [] fuel a false with
    | none => none
    | some (.error e) => some ([], some e)
    | some (.ok fs) => some (assignLoop get [] fs)

/-- The objects of a CollectionSpec or Collection, by name. -/
structure Coll where
  progs : List (String × Nat)
  maps : List (String × Nat)
  vars : List (String × Nat)

/-- collection.go:125-148, 859-886: `getValue`. -/
def Coll.get (c : Coll) (t : Ty) (n : String) : Except Err Nat :=
  match t with
  | .prog => (match c.progs.lookup n with | some o => .ok o | none => .error .missing)
  | .map => (match c.maps.lookup n with | some o => .ok o | none => .error .missing)
  | .var => (match c.vars.lookup n with | some o => .ok o | none => .error .missing)
  | .other => .error .unsupported

/-- collection.go:124-151 `CollectionSpec.Assign`. -/
def specAssign (h : Nat → Strct) (c : Coll) (fuel : Nat) (to : Option Nat) : Option (List ((Nat × Nat) × Nat) × Option Err) := assignValues h c.get fuel to

/-- Remove names from a map. -/
def del (l : List (String × Nat)) (ns : List String) : List (String × Nat) := l.filter (fun x => !ns.contains x.1)

/-- The names of the fields of one type: `assignedProgs`, `assignedMaps`, `assignedVars`. -/
def names (t : Ty) (fs : List F) : List String := (fs.filter (fun f => f.typ == t)).map (·.tag)

/-- collection.go:852-904 `Collection.Assign`: what is stored, the error, the collection afterwards. -/
def collAssign (h : Nat → Strct) (c : Coll) (fuel : Nat) (to : Option Nat) : Option (List ((Nat × Nat) × Nat) × Option Err × Coll) :=
  match to with
  | none => some ([], some .target, c)
  | some a =>
    match ebpfFields h [] fuel a false with
    | none => none
    | some (.error e) => some ([], some e, c)
    | some (.ok fs) =>
      match assignLoop c.get [] fs with
      | (st, some e) => some (st, some e, c)
      | (st, none) => some (st, none, ⟨del c.progs (names .prog fs), del c.maps (names .map fs), del c.vars (names .var fs)⟩)

end Ebpf.Assign
