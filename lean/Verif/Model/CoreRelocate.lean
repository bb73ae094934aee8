import Verif.Model.CoreField
import Verif.Model.BtfIndex
import Verif.Model.BtfMarshal
/-!
# Model of `CORERelocate` (btf/core.go:187-291) and `applyRelocations` (linker.go:85-150)

All types, local and target, live in one graph `g`. `coreCalculateFixup` is the parameter `compute`, which is told the first target because type
IDs are resolved in it; C34 to C36 are about it. A target is its byte order and its lookup by essential name, which C28 is about.
-/
namespace Ebpf.Btf
open Ebpf.Asm Ebpf.Core

/-- btf/btf.go `Spec`, as far as used here: the byte order, and `TypesByName` (btf/unmarshal.go:241-263). -/
structure Target (R : Type) where
  bo : ByteOrder
  typesByName : Bytes → Except LookupErr (List R)

/-- Errors of `CORERelocate`. -/
inductive RelocateErr (E : Type)
  | noTargets | byteOrder | accessor | builder | unnamed | lookup (e : LookupErr) | calc (e : CalcErr E)

section
variable {R E : Type} [DecidableEq R]

/-- btf/core.go:213-217 `reloGroup`: relocations and their positions. -/
structure ReloGroup (R : Type) where
  relos : List (Relo R)
  indices : List Nat

/-- btf/core.go:246-252: `relosByType[relo.typ]`, created if missing, and append to it. The map is a list of pairs; the order of iteration is a parameter
of `coreRelocate`. -/
def addToGroup (i : Nat) (relo : Relo R) : List (R × ReloGroup R) → List (R × ReloGroup R)
  | [] => [(relo.typ, ⟨[relo], [i]⟩)]
  | (t, gr) :: rest =>
    if t = relo.typ then (t, ⟨gr.relos ++ [relo], gr.indices ++ [i]⟩) :: rest
    else (t, gr) :: addToGroup i relo rest

/-- btf/core.go:220-253: the first loop. `i` is the index of the first of the remaining relocations. -/
def collectLoop (g : Graph R) : Nat → List (Relo R) → TypeBuilder R → List (R × ReloGroup R) → List Fixup →
    Except (RelocateErr E) (List (R × ReloGroup R) × List Fixup × TypeBuilder R)
  | _, [], b, groups, result => .ok (groups, result, b)
  | i, relo :: relos, b, groups, result =>
    if relo.kind = .typeIDLocal then
      if relo.accs ≠ [] ∨ relo.acc ≠ 0 then .error .accessor
      else match b.add g relo.typ with
        | (none, _) => .error .builder
        | (some id, b) => collectLoop g (i + 1) relos b groups (result.set i ⟨relo.kind, relo.id.setWidth 64, id.setWidth 64, false, false⟩)
    else collectLoop g (i + 1) relos b (addToGroup i relo groups) result

/-- btf/core.go:263-274: the candidates for an essential name, of all targets in order. -/
def candidates (name : Bytes) : List (Target R) → Except LookupErr (List R)
  | [] => .ok []
  | t :: ts =>
    match t.typesByName name with
    | .error .notFound => candidates name ts
    | .error e => .error e
    | .ok types => match candidates name ts with
      | .error e => .error e
      | .ok more => .ok (types ++ more)

/-- btf/core.go:281-283: `result[index] = fixups[j]`. Both slices have the same length. -/
def writeBack : List Nat → List Fixup → List Fixup → List Fixup
  | index :: indices, f :: fixups, result => writeBack indices fixups (result.set index f)
  | _, _, result => result

/-- btf/core.go:255-284: the second loop, over the groups in the order the map yields them. -/
def groupLoop (g : Graph R) (compute : Relo R → R → Except E Fixup) (targets : List (Target R)) :
    List (R × ReloGroup R) → List Fixup → Except (RelocateErr E) (List Fixup)
  | [], result => .ok result
  | (localType, group) :: groups, result =>
    if (g localType).name = [] then .error .unnamed
    else match candidates (newEssentialName (g localType).name) targets with
      | .error e => .error (.lookup e)
      | .ok targetTypes =>
        match calculateFixups Relo.kind compute group.relos targetTypes with
        | .error e => .error (.calc e)
        | .ok fixups => groupLoop g compute targets groups (writeBack group.indices fixups result)

/-- `COREFixup{}`: the zero value, of which `make([]COREFixup, len(relos))` (btf/core.go:219) is full. -/
def zeroFixup : Fixup := ⟨.byteOffset, 0, 0, false, false⟩

/-- btf/core.go:187-287 `CORERelocate` with `resolveLocalTypeID` = `b.Add`. `order` is the order in which the map is iterated. -/
def coreRelocate (g : Graph R) (compute : Target R → Relo R → R → Except E Fixup) (order : List (R × ReloGroup R) → List (R × ReloGroup R))
    (relos : List (Relo R)) (targets : List (Target R)) (bo : ByteOrder) (b : TypeBuilder R) :
    Except (RelocateErr E) (List Fixup × TypeBuilder R) :=
  match targets with
  | [] => .error .noTargets
  | first :: rest =>
    if (first :: rest).any (fun t => bo ≠ t.bo) then .error .byteOrder
    else match collectLoop g 0 relos b [] (List.replicate relos.length zeroFixup) with
      | .error e => .error e
      | .ok (groups, result, b) =>
        match groupLoop g (compute first) (first :: rest) (order groups) result with
        | .error e => .error e
        | .ok result => .ok (result, b)

/-! ## `applyRelocations` -/

/-- An instruction with its relocation: `btf.CORERelocationMetadata`. -/
structure RIns (R : Type) where
  ins : CIns
  relo : Option (Relo R) := none

/-- `btf.Cache` (btf/kernel.go:162-258): the kernel, the names of the modules, the types of a module. -/
structure KernelTypes (R E : Type) where
  kernel : Except E (Target R)
  /-- `none`: `fs.ErrNotExist`. -/
  modules : Except E (Option (List String))
  module_ : String → Except E (Target R)

/-- Errors of `applyRelocations`. -/
inductive ApplyRelErr (E : Type)
  | kernel (e : E) | modules (e : E) | relocate (e : RelocateErr E) | fixup (e : ApplyErr)

/-- linker.go:118-125: the types of each module. -/
def loadModules (c : KernelTypes R E) : List String → Except E (List (Target R))
  | [] => .ok []
  | m :: ms =>
    match c.module_ m with
    | .error e => .error e
    | .ok t => match loadModules c ms with
      | .error e => .error e
      | .ok ts => .ok (t :: ts)

/-- linker.go:103-133: what is relocated against. -/
def targetsOf (c : KernelTypes R E) (kernelOverride : Option (Target R)) (extra : List (Target R)) : Except (ApplyRelErr E) (List (Target R)) :=
  match kernelOverride with
  | some t => .ok ([t] ++ extra)
  | none =>
    match c.kernel with
    | .error e => .error (.kernel e)
    | .ok kernel =>
      match c.modules with
      | .error e => .error (.modules e)
      | .ok modules =>
        match loadModules c (modules.getD []) with
        | .error e => .error (.modules e)
        | .ok ts => .ok (kernel :: ts ++ extra)

/-- linker.go:140-144: apply the fix-ups to the instructions with a relocation, in order. A poisoned instruction has no metadata left. -/
def applyFixups : List (RIns R) → List Fixup → Except ApplyErr (List (RIns R))
  | [], _ => .ok []
  | i :: is, fs =>
    match i.relo, fs with
    | some r, f :: fs =>
      match apply f i.ins with
      | .error e => .error e
      | .ok j =>
        match applyFixups is fs with
        | .error e => .error e
        | .ok js => .ok (⟨j, if f.poison then none else some r⟩ :: js)
    | _, fs =>
      match applyFixups is fs with
      | .error e => .error e
      | .ok js => .ok (i :: js)

/-- linker.go:85-147 `applyRelocations`. `bo`: `none` is nil; `native` is `internal.NativeEndian`. -/
def applyRelocations (g : Graph R) (compute : Target R → Relo R → R → Except E Fixup) (order : List (R × ReloGroup R) → List (R × ReloGroup R))
    (native : ByteOrder) (insns : List (RIns R)) (bo : Option ByteOrder) (b : TypeBuilder R) (c : KernelTypes R E)
    (kernelOverride : Option (Target R)) (extra : List (Target R)) : Except (ApplyRelErr E) (List (RIns R) × TypeBuilder R) :=
  let relos := insns.filterMap RIns.relo
  if relos.length = 0 then .ok (insns, b)
  else match targetsOf c kernelOverride extra with
    | .error e => .error e
    | .ok targets =>
      match coreRelocate g compute order relos targets (bo.getD native) b with
      | .error e => .error (.relocate e)
      | .ok (fixups, b) =>
        match applyFixups insns fixups with
        | .error e => .error (.fixup e)
        | .ok insns => .ok (insns, b)
end

end Ebpf.Btf
