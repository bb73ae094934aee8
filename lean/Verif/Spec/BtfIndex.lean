import Verif.Model.BtfIndex
/-! # Specification of C28: lookup by name -/
namespace Ebpf.BtfSpec
open Ebpf.Btf

/-- The states a decoder can be in: any history of `TypeByID` calls, successful or not. -/
inductive DReach (d : Dec) : DState → Prop
  | init : DReach d .init
  | step {s} (fuel id) : DReach d s → DReach d (d.inflate fuel s id).1

/-- The IDs of all types except Void. -/
def allIDs (d : Dec) : List ID := (List.range d.offsets.length).map fun i => BitVec.ofNat 32 (i + 1)

/-- The name of the type with this ID: what `TypeName` of the type returned by `TypeByID` is. -/
def typeName (d : Dec) (id : ID) : Bytes :=
  match d.record id with
  | none => []
  | some r => r.early.name

/-- The IDs of the types which are called `name`. -/
def named (d : Dec) (name : Bytes) : List ID := (allIDs d).filter fun id => typeName d id = name

/-- The IDs of the types which are called `name` or are a flavour of it. -/
def flavours (d : Dec) (name : Bytes) : List ID := (allIDs d).filter fun id => newEssentialName (typeName d id) = name

/-- The addresses `as` are those of the types `ids`. -/
def Loaded (s : DState) (ids : List ID) (as : List Nat) : Prop := as.map some = ids.map fun id => List.lookup id s.types

/-- No type is called differently but has the same essential name. -/
def NoOtherFlavour (d : Dec) (name : Bytes) : Prop := ∀ id ∈ allIDs d, newEssentialName (typeName d id) = newEssentialName name → typeName d id = name

end Ebpf.BtfSpec
