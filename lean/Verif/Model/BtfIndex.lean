import Verif.Model.BtfUnmarshal
/-!
# Model of the index of names, `btf/unmarshal.go:115-127, 241-263, 699-769` and `btf/btf.go:393-501`

The hash is an arbitrary function (in Go it depends on a random seed). Locking is not modelled. `fixupDatasec`, which only concerns specs read from
ELF files, is not modelled here.
-/
namespace Ebpf.Btf

/-- btf/unmarshal.go:759-761 `newFuzzyStringIndexEntry`. -/
def indexEntry (hash : BitVec 32) (id : ID) : BitVec 64 := (hash.setWidth 64 <<< 32) ||| id.setWidth 64
/-- btf/unmarshal.go:763-765 `hash`. -/
def entryHash (e : BitVec 64) : BitVec 32 := (e >>> 32).setWidth 32
/-- btf/unmarshal.go:767-769 `id`. -/
def entryID (e : BitVec 64) : ID := e.setWidth 32

/-- btf/unmarshal.go:115-120: the name a type is indexed under. `bytes.Index` is not -1 iff `bytes.LastIndex` is not. -/
def cutFlavour (name : Bytes) : Bytes :=
  match lastIndex3 name with
  | none => name
  | some i => name.take i

/-- btf/unmarshal.go:114-123, 718-721 `Add`: the entries for types with the given names, numbered from `id`. -/
def indexNames (hash : Bytes → BitVec 32) : ID → List Bytes → List (BitVec 64)
  | _, [] => []
  | id, n :: ns => if n = [] then indexNames hash (id + 1) ns else indexEntry (hash (cutFlavour n)) id :: indexNames hash (id + 1) ns

/-- Insert into a sorted list. -/
def insertEntry (e : BitVec 64) : List (BitVec 64) → List (BitVec 64)
  | [] => [e]
  | x :: xs => if e ≤ x then e :: x :: xs else x :: insertEntry e xs

/-- btf/unmarshal.go:726-728 `Build`, `slices.Sort`: since sorting integers has one result only, the algorithm does not matter. -/
def buildIndex (es : List (BitVec 64)) : List (BitVec 64) := es.foldr insertEntry []

/-- The loop of `slices.BinarySearch` (Go 1.23 slices/sort.go:117-130); `k` bounds the iterations. Indices are in range. -/
def bsearch (es : List (BitVec 64)) (target : BitVec 64) : Nat → Nat → Nat → Nat
  | 0, i, _ => i
  | k + 1, i, j =>
    if i < j then
      if es[(i + j) / 2]?.getD 0 < target then bsearch es target k ((i + j) / 2 + 1) j
      else bsearch es target k i ((i + j) / 2)
    else i

/-- btf/unmarshal.go:735-752 `Find`: the IDs yielded. -/
def findIDs (es : List (BitVec 64)) (hash : BitVec 32) : List ID :=
  ((es.drop (bsearch es (hash.setWidth 64 <<< 32) es.length 0 es.length)).takeWhile fun e => entryHash e == hash).map entryID

/-- btf/unmarshal.go:110: the name of a type as its header has it. -/
def Dec.headerName (d : Dec) (id : ID) : Bytes :=
  match d.rawAt id with
  | none => []
  | some (h, _) => (d.strings.lookup h.nameOff).getD []

/-- btf/unmarshal.go:95-127: the index of a decoder. -/
def Dec.index (d : Dec) (hash : Bytes → BitVec 32) : List (BitVec 64) :=
  buildIndex (indexNames hash 1 ((List.range d.offsets.length).map fun i => d.headerName (BitVec.ofNat 32 (i + 1))))

/-- Why a lookup fails: `ErrNotFound`, `ErrMultipleMatches` or the error of inflating a type; `panic` is a run-time panic. -/
inductive LookupErr | notFound | multiple | inflate | panic
deriving DecidableEq

/-- `TypeName` of the object at an address. -/
def DState.nameAt (s : DState) (a : Nat) : Bytes :=
  match s.heap[a]? with
  | none => []
  | some n => n.name

/-- btf/unmarshal.go:245-256: the loop of `TypesByName`; `none` = error. -/
def Dec.collect (d : Dec) (fuel : Nat) (name : Bytes) : DState → List ID → DState × Option (List Nat)
  | s, [] => (s, some [])
  | s, id :: ids =>
    match d.inflate fuel s id with
    | (s, none) => (s, none)
    | (s, some a) =>
      match d.collect fuel name s ids with
      | (s', none) => (s', none)
      | (s', some as) => (s', some (if newEssentialName (s.nameAt a) = name then a :: as else as))

/-- btf/unmarshal.go:241-263 `TypesByName`. -/
def Dec.typesByName (d : Dec) (hash : Bytes → BitVec 32) (fuel : Nat) (s : DState) (name : Bytes) : DState × Except LookupErr (List Nat) :=
  match d.collect fuel name s (findIDs (d.index hash) (hash name)) with
  | (s, none) => (s, .error .inflate)
  | (s, some []) => (s, .error .notFound)
  | (s, some (a :: as)) => (s, .ok (a :: as))

/-- btf/btf.go:399-413: the loop of `AnyTypesByName`, for `i`; `k` bounds the iterations. `slices.Delete` moves the following elements down. -/
def deleteLoop (nm : Nat → Bytes) (name : Bytes) : Nat → Nat → List Nat → List Nat
  | 0, _, types => types
  | k + 1, i, types =>
    match types[i]? with
    | none => types
    | some a =>
      if nm a ≠ name then deleteLoop nm name k (i + 1) (types.eraseIdx i)
      else deleteLoop nm name k (i + 1) types

/-- btf/btf.go:393-416 `AnyTypesByName`. -/
def Dec.anyTypesByName (d : Dec) (hash : Bytes → BitVec 32) (fuel : Nat) (s : DState) (name : Bytes) : DState × Except LookupErr (List Nat) :=
  match d.typesByName hash fuel s (newEssentialName name) with
  | (s, .error e) => (s, .error e)
  | (s, .ok types) => (s, .ok (deleteLoop s.nameAt name types.length 0 types))

/-- btf/btf.go:421-432 `AnyTypeByName`. -/
def Dec.anyTypeByName (d : Dec) (hash : Bytes → BitVec 32) (fuel : Nat) (s : DState) (name : Bytes) : DState × Except LookupErr Nat :=
  match d.anyTypesByName hash fuel s name with
  | (s, .error e) => (s, .error e)
  | (s, .ok types) =>
    if types.length > 1 then (s, .error .multiple)
    else match types[0]? with
      | none => (s, .error .panic)
      | some a => (s, .ok a)

/-- btf/btf.go:476-494: the loop of `TypeByName`. -/
def pickCandidate (isWanted : Nat → Bool) : Option Nat → List Nat → Except LookupErr (Option Nat)
  | c, [] => .ok c
  | c, t :: ts =>
    if !isWanted t then pickCandidate isWanted c ts
    else match c with
      | some _ => .error .multiple
      | none => pickCandidate isWanted (some t) ts

/-- btf/btf.go:443-501 `TypeByName`; `wanted` is the test for the Go type of the argument, which is assumed to be a valid pointer. -/
def Dec.typeByName (d : Dec) (hash : Bytes → BitVec 32) (fuel : Nat) (s : DState) (name : Bytes) (wanted : Node Nat → Bool) : DState × Except LookupErr Nat :=
  match d.anyTypesByName hash fuel s name with
  | (s, .error e) => (s, .error e)
  | (s, .ok types) =>
    match pickCandidate (fun a => (s.heap[a]?.map wanted).getD false) none types with
    | .error e => (s, .error e)
    | .ok none => (s, .error .notFound)
    | .ok (some a) => (s, .ok a)

end Ebpf.Btf
