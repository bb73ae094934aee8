/-!
# Model of `collection.go`: loading a collection

Objects are numbers. Every fallible operation (creating, cloning or populating a map, loading a
program, mapping memory) asks the oracle `f` with the number of operations made so far; `true` means
that it fails. An operation that fails leaves nothing open (creation of maps and programs inside
map.go and prog.go is not part of this model). Struct_ops maps are not modelled. Variables do not own
an object, only the map they are in matters.
-/
namespace Ebpf.Coll

/-- types.go:144-160: what a map may store. -/
inductive Kind where
  | scalar | ofProgs | ofMaps
deriving DecidableEq, Repr

/-- map.go `MapKV.Value`: a plain value, or a string naming another object of the spec. -/
inductive Content where
  | value (v : Nat)
  | object (name : String)
deriving DecidableEq, Repr

/-- map.go `MapSpec`; `replaced`: the name is in `CollectionOptions.MapReplacements`;
`constant`: `isConstantDataSection || isKconfigSection`. -/
structure MapS where
  kind : Kind := .scalar
  contents : List (Nat × Content) := []
  constant : Bool := false
  replaced : Bool := false
deriving DecidableEq, Repr

/-- prog.go `ProgramSpec`: whether the type is unspecified and the names of the maps its instructions
load from (collection.go:470-489; those with a map fd of their own are left out). -/
structure ProgS where
  unspecified : Bool := false
  refs : List String := []
deriving DecidableEq, Repr

/-- collection.go `CollectionSpec`: Go maps as association lists; a variable is given by the map it is in. -/
structure CSpec where
  maps : List (String × MapS) := []
  progs : List (String × ProgS) := []
  vars : List (String × String) := []
deriving DecidableEq, Repr

/-- What ends up in a map. -/
inductive Written where
  | value (v : Nat)
  | prog (id : Nat)
  | map (id : Nat)
deriving DecidableEq, Repr

/-- collection.go:321-328 `collectionLoader`, and ghost state: objects opened and closed so far, the
objects that were loaded under a name (`mapLog`, `progLog`, which are not forgotten when an object is
handed to the user), and the contents of the maps that were populated and frozen. -/
structure L where
  maps : List (String × Nat) := []
  progs : List (String × Nat) := []
  mapLog : List (String × Nat) := []
  progLog : List (String × Nat) := []
  next : Nat := 0
  ops : Nat := 0
  opened : List Nat := []
  closed : List Nat := []
  written : List (Nat × List (Nat × Written)) := []
  frozen : List Nat := []
deriving DecidableEq, Repr

/-- One more operation was made. -/
def L.tick (s : L) : L := { s with ops := s.ops + 1 }
/-- A new object. -/
def L.openObj (s : L) : L := { s with next := s.next + 1, opened := s.next :: s.opened }
/-- `Close`. -/
def L.closeObj (s : L) (id : Nat) : L := { s with closed := id :: s.closed }

/-- collection.go:429,455: `cl.maps[mapName] = m`. -/
def L.addMap (s : L) (name : String) (id : Nat) : L := { s with maps := (name, id) :: s.maps, mapLog := (name, id) :: s.mapLog }
/-- collection.go:501: `cl.programs[progName] = prog`. -/
def L.addProg (s : L) (name : String) (id : Nat) : L := { s with progs := (name, id) :: s.progs, progLog := (name, id) :: s.progLog }

/-- map.go:1620-1634 `finalize`, when it succeeds. -/
def L.fill (s : L) (id : Nat) (c : List (Nat × Written)) (constant : Bool) : L :=
  { s with written := (id, c) :: s.written, frozen := if constant then id :: s.frozen else s.frozen }

/-- Contents of a scalar map. Strings are ordinary values there; they are numbered by `0`. -/
def plain (c : List (Nat × Content)) : List (Nat × Written) :=
  c.map (fun e => (e.1, match e.2 with | .value v => .value v | .object _ => .value 0))

/-- collection.go:401-457 `loadMap`; `none` is an error. -/
def loadMap (S : CSpec) (f : Nat → Bool) (s : L) (name : String) : Option Nat × L :=
  match s.maps.lookup name with
  | some id => (some id, s)
  | none =>
    match S.maps.lookup name with
    | none => (none, s)
    | some m =>
      if f s.ops then (none, s.tick)
      else
        let id := s.next
        let s := s.tick.openObj
        if m.replaced then (some id, s.addMap name id)
        else if m.kind = .scalar then
          if f s.ops then (none, s.tick.closeObj id)
          else
            let s := s.tick.fill id (plain m.contents) m.constant
            (some id, s.addMap name id)
        else (some id, s.addMap name id)

/-- collection.go:468-492: the maps a program refers to. -/
def loadRefs (S : CSpec) (f : Nat → Bool) : L → List String → Bool × L
  | s, [] => (true, s)
  | s, n :: r =>
    match loadMap S f s n with
    | (none, s) => (false, s)
    | (some _, s) => loadRefs S f s r

/-- collection.go:459-503 `loadProgram`. -/
def loadProgram (S : CSpec) (f : Nat → Bool) (s : L) (name : String) : Option Nat × L :=
  match s.progs.lookup name with
  | some id => (some id, s)
  | none =>
    match S.progs.lookup name with
    | none => (none, s)
    | some p =>
      if p.unspecified then (none, s)
      else
        match loadRefs S f s p.refs with
        | (false, s) => (none, s)
        | (true, s) =>
          if f s.ops then (none, s.tick)
          else
            let id := s.next
            let s := s.tick.openObj
            (some id, s.addProg name id)

/-- collection.go:505-551 `loadVariable`. -/
def loadVariable (S : CSpec) (f : Nat → Bool) (s : L) (name : String) : Bool × L :=
  match S.vars.lookup name with
  | none => (false, s)
  | some sec =>
    match loadMap S f s sec with
    | (none, s) => (false, s)
    | (some _, s) => if f s.ops then (false, s.tick) else (true, s.tick)

/-- collection.go:577-604: resolve the names in the contents of a map. -/
def resolve (S : CSpec) (f : Nat → Bool) (k : Kind) : L → List (Nat × Content) → Option (List (Nat × Written)) × L
  | s, [] => (some [], s)
  | s, (key, .value v) :: r =>
    match resolve S f k s r with
    | (some l, s) => (some ((key, .value v) :: l), s)
    | (none, s) => (none, s)
  | s, (key, .object n) :: r =>
    match (match k with
      | .ofProgs => (match loadProgram S f s n with | (o, s) => (o.map Written.prog, s))
      | .ofMaps => (match loadMap S f s n with | (o, s) => (o.map Written.map, s))
      | .scalar => (some (Written.value 0), s)) with
    | (none, s) => (none, s)
    | (some w, s) =>
      match resolve S f k s r with
      | (some l, s) => (some ((key, w) :: l), s)
      | (none, s) => (none, s)

/-- collection.go:557-616: the body of the loop in `populateDeferredMaps` for one loaded map. -/
def populateOne (S : CSpec) (f : Nat → Bool) (s : L) (name : String) : Bool × L :=
  match s.maps.lookup name, S.maps.lookup name with
  | some id, some m =>
    if m.kind = .scalar then (true, s)
    else
      match resolve S f m.kind s m.contents with
      | (none, s) => (false, s)
      | (some c, s) => if f s.ops then (false, s.tick) else (true, s.tick.fill id c m.constant)
  | _, _ => (false, s)

/-- collection.go:555-619 `populateDeferredMaps`, for the sequence of names the `range` loop produces. -/
def populate (S : CSpec) (f : Nat → Bool) : L → List String → Bool × L
  | s, [] => (true, s)
  | s, n :: r =>
    match populateOne S f s n with
    | (false, s) => (false, s)
    | (true, s) => populate S f s r

/-- collection.go:391-399 `close`. -/
def closeRest (s : L) : L := { s with closed := s.maps.map (·.2) ++ s.progs.map (·.2) ++ s.closed, maps := [], progs := [] }

/-- The type of a tagged field. -/
inductive FKind where
  | prog | map | var | other
deriving DecidableEq, Repr

/-- A tagged field of the destination struct (collection.go:931-1003 `ebpfFields`); `ok`: the tag has no
comma and the field can be set. -/
structure Field where
  kind : FKind
  name : String
  ok : Bool := true
deriving DecidableEq, Repr

/-- collection.go:190-208: `getValue` of `LoadAndAssign`. The object given to the field, `some none` for
variables. -/
def getValue (S : CSpec) (f : Nat → Bool) (s : L) (fl : Field) : Option (Option Nat) × L :=
  match fl.kind with
  | .prog => (match loadProgram S f s fl.name with | (o, s) => (o.map some, s))
  | .map => (match loadMap S f s fl.name with | (o, s) => (o.map some, s))
  | .var => (match loadVariable S f s fl.name with | (b, s) => (if b then some none else none, s))
  | .other => (none, s)

/-- collection.go:1029-1062: the loop of `assignValues`. `done` are the fields assigned so far; the
result lists the objects given to the fields. (The order of the comma check, which precedes the
lookup, does not matter: in both cases the call fails.) -/
def assignFields (S : CSpec) (f : Nat → Bool) : L → List Field → List Field → Option (List Nat) × L
  | s, _, [] => (some [], s)
  | s, done, fl :: r =>
    if done.any (fun d => d.kind = fl.kind && d.name = fl.name) then (none, s)
    else
      match getValue S f s fl with
      | (none, s) => (none, s)
      | (some o, s) =>
        if !fl.ok then (none, s)
        else
          match assignFields S f s (fl :: done) r with
          | (none, s) => (none, s)
          | (some ids, s) => (some (o.toList ++ ids), s)

/-- Names of the fields of a kind. -/
def namesOf (k : FKind) (fs : List Field) : List String := (fs.filter (fun fl => fl.kind = k)).map (·.name)

/-- collection.go:221-235: a program array with contents that is not assigned. -/
def badProgArray (S : CSpec) (s : L) (assigned : List String) : Bool :=
  s.maps.any (fun e => match S.maps.lookup e.1 with
    | some m => m.kind = .ofProgs && !assigned.contains e.1 && m.contents != []
    | none => false)

/-- collection.go:239-248: forget the assigned objects, so that they are not closed. -/
def release (s : L) (maps progs : List String) : L :=
  { s with maps := s.maps.filter (fun e => !maps.contains e.1), progs := s.progs.filter (fun e => !progs.contains e.1) }

/-- collection.go:178-251 `LoadAndAssign`. `order` is the sequence of names produced by ranging over the
loaded maps in `populateDeferredMaps`. The first operation stands for the checks in
`newCollectionLoader` (collection.go:330-357). -/
def loadAndAssign (S : CSpec) (f : Nat → Bool) (fields : List Field) (order : List String) : Option (List Nat) × L :=
  let s : L := {}
  if f s.ops then (none, s.tick)
  else
    match assignFields S f s.tick [] fields with
    | (none, s) => (none, closeRest s)
    | (some ids, s) =>
      match populate S f s order with
      | (false, s) => (none, closeRest s)
      | (true, s) =>
        if badProgArray S s (namesOf .map fields) then (none, closeRest s)
        else (some ids, closeRest (release s (namesOf .map fields) (namesOf .prog fields)))

/-- The state in which `LoadAndAssign` begins to populate maps. -/
def beforePopulate (S : CSpec) (f : Nat → Bool) (fields : List Field) : L := (assignFields S f (L.tick {}) [] fields).2

/-- collection.go:285-289: load all maps, in some order. -/
def loadAllMaps (S : CSpec) (f : Nat → Bool) : L → List String → Bool × L
  | s, [] => (true, s)
  | s, n :: r =>
    match loadMap S f s n with
    | (none, s) => (false, s)
    | (some _, s) => loadAllMaps S f s r

/-- collection.go:291-299: load all programs, in some order, skipping those of unspecified type. -/
def loadAllProgs (S : CSpec) (f : Nat → Bool) : L → List String → Bool × L
  | s, [] => (true, s)
  | s, n :: r =>
    match S.progs.lookup n with
    | none => (false, s)
    | some p =>
      if p.unspecified then loadAllProgs S f s r
      else
        match loadProgram S f s n with
        | (none, s) => (false, s)
        | (some _, s) => loadAllProgs S f s r

/-- collection.go:301-305: load all variables, in some order. -/
def loadAllVars (S : CSpec) (f : Nat → Bool) : L → List String → Bool × L
  | s, [] => (true, s)
  | s, n :: r =>
    match loadVariable S f s n with
    | (false, s) => (false, s)
    | (true, s) => loadAllVars S f s r

/-- A collection: collection.go:254-262. -/
structure Collection where
  maps : List (String × Nat)
  progs : List (String × Nat)
deriving DecidableEq, Repr

/-- The orders in which Go ranges over its maps. -/
structure Orders where
  maps : List String
  progs : List String
  vars : List String
  populate : List String
deriving DecidableEq, Repr

/-- collection.go:277-319 `NewCollectionWithOptions`. -/
def newCollection (S : CSpec) (f : Nat → Bool) (o : Orders) : Option Collection × L :=
  let s : L := {}
  if f s.ops then (none, s.tick)
  else
    match loadAllMaps S f s.tick o.maps with
    | (false, s) => (none, closeRest s)
    | (true, s) =>
      match loadAllProgs S f s o.progs with
      | (false, s) => (none, closeRest s)
      | (true, s) =>
        match loadAllVars S f s o.vars with
        | (false, s) => (none, closeRest s)
        | (true, s) =>
          match populate S f s o.populate with
          | (false, s) => (none, closeRest s)
          | (true, s) => (some ⟨s.maps, s.progs⟩, s)

end Ebpf.Coll
