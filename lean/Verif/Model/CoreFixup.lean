import Verif.Model.Program
/-!
# Model of `btf/core.go:20-135` (`COREFixup`) and `btf/core.go:296-356` (`coreCalculateFixups`)
-/
namespace Ebpf.Core
open Ebpf.Asm Ebpf.Asm.OpCode

/-- btf/core.go:132-148 `coreKind` (a `uint32` in Go; values above 12 are `other`). -/
inductive Kind where
  | byteOffset | byteSize | fieldExists | signed | lshift | rshift
  | typeIDLocal | typeIDTarget | typeExists | typeSize | enumvalExists | enumvalValue | typeMatches | other (n : Nat)
deriving DecidableEq, Repr

/-- btf/core.go:150-152 `checksForExistence`. -/
def Kind.checksForExistence : Kind → Bool
  | .enumvalExists | .typeExists | .fieldExists | .typeMatches => true
  | _ => false

/-- btf/core.go:25-36 `COREFixup`. -/
structure Fixup where
  kind : Kind
  loc : BitVec 64
  target : BitVec 64
  poison : Bool := false
  skipLocalValidation : Bool := false
deriving DecidableEq, Repr

/-- btf/core.go:38-40 `equal`. -/
def Fixup.equal (f o : Fixup) : Bool := f.loc == o.loc && f.target == o.target

/-- btf/core.go:127-129 `isNonExistant`. -/
def Fixup.isNonExistant (f : Fixup) : Bool := f.kind.checksForExistence && f.target == 0

/-- An instruction with the metadata relevant here: what `Instructions.Marshal` reads (`PIns`), the source line and the
function info attached by the BTF code. -/
structure CIns where
  p : PIns
  source : Option String := none
  func : Option String := none
deriving DecidableEq, Repr

/-- btf/core.go:23 `COREBadRelocationSentinel`. -/
def sentinel : BitVec 64 := 0xbad2310

/-- Errors of `Apply`. -/
inductive ApplyErr | offset | exceedsInt16 | notDWord | immediate | swap | source | exceedsInt32 | cls
deriving DecidableEq, Repr

/-- btf/core.go:54-61: a fresh instruction without metadata. `LoadImm`: asm/load_store.go:228, `Call`: asm/func.go:18. -/
def poisoned (isDWordLoad : Bool) : CIns :=
  if isDWordLoad then ⟨⟨⟨0x18, 10, 0, 0, sentinel⟩, "", "", none⟩, none, none⟩
  else ⟨⟨⟨0x85, 0, 0, 0, sentinel⟩, "", "", none⟩, none, none⟩

/-- btf/core.go:49-125 `Apply` on Linux. -/
def apply (f : Fixup) (i : CIns) : Except ApplyErr CIns :=
  let ins := i.p.ins
  if f.poison then
    let j := poisoned ins.op.isDWordLoad
    match j.source with
    | some s => .ok { j with source := some ("instruction poisoned by CO-RE: " ++ s) }
    | none => .ok { j with source := some "instruction poisoned by CO-RE" }
  else
    let setCons : Except ApplyErr CIns := .ok { i with p := { i.p with ins := { ins with cons := f.target } } }
    let alu : Except ApplyErr CIns :=
      if ins.op.source ≠ 0 then .error .source
      else if f.skipLocalValidation = false ∧ f.loc ≠ ins.cons then .error .immediate
      else if f.target.toNat > 2 ^ 31 - 1 then .error .exceedsInt32
      else setCons
    if ins.op.cls = LdXClass ∨ ins.op.cls = StClass ∨ ins.op.cls = StXClass then
      if f.skipLocalValidation = false ∧ f.loc.setWidth 16 ≠ ins.off then .error .offset
      else if f.target.toNat > 2 ^ 15 - 1 then .error .exceedsInt16
      else .ok { i with p := { i.p with ins := { ins with off := f.target.setWidth 16 } } }
    else if ins.op.cls = LdClass then
      if ¬ (ins.op = 0x18 ∧ ins.src = 0 ∧ ins.off = 0) then .error .notDWord
      else if f.skipLocalValidation = false ∧ f.loc ≠ ins.cons then .error .immediate
      else setCons
    else if ins.op.cls = ALUClass then
      if ins.op.aluOp = Swap then .error .swap else alu
    else if ins.op.cls = ALU64Class then alu
    else .error .cls

/-! ## Choosing a target -/

/-- btf/core.go:309-315: the number of relocations of a candidate which fail, and its fix-ups. `compute` is `coreCalculateFixup`. -/
def candidate {E R T : Type} (compute : R → T → Except E Fixup) (t : T) : List R → Except E (Nat × List Fixup)
  | [] => .ok (0, [])
  | r :: rs =>
    match compute r t with
    | .error e => .error e
    | .ok f =>
      match candidate compute t rs with
      | .error e => .error e
      | .ok (n, fs) => .ok ((if f.poison || f.isNonExistant then n + 1 else n), f :: fs)

/-- Errors of `coreCalculateFixups`. -/
inductive CalcErr (E : Type) | ambiguous | compute (e : E)
deriving DecidableEq

/-- btf/core.go:330-336: `range bestFixups` (nil has no elements) comparing with `fixups[i]`. -/
def agree (best : Option (List Fixup)) (fixups : List Fixup) : Bool :=
  (List.zipWith Fixup.equal (best.getD []) fixups).all id

/-- btf/core.go:304-337: the loop over the targets. -/
def targetLoop {E R T : Type} (compute : R → T → Except E Fixup) (relos : List R) :
    List T → Nat → Option (List Fixup) → Except (CalcErr E) (Option (List Fixup))
  | [], _, best => .ok best
  | t :: ts, bestScore, best =>
    match candidate compute t relos with
    | .error e => .error (.compute e)
    | .ok (score, fixups) =>
      if score > bestScore then targetLoop compute relos ts bestScore best
      else if score < bestScore then targetLoop compute relos ts score (some fixups)
      else if agree best fixups then targetLoop compute relos ts bestScore best
      else .error .ambiguous

/-- btf/core.go:339-353: nothing matched. -/
def noMatch (k : Kind) : Fixup :=
  if k.checksForExistence then { kind := k, loc := 1, target := 0 } else { kind := k, loc := 0, target := 0, poison := true }

/-- btf/core.go:302-356 `coreCalculateFixups`. -/
def calculateFixups {E R T : Type} (kind : R → Kind) (compute : R → T → Except E Fixup) (relos : List R) (targets : List T) :
    Except (CalcErr E) (List Fixup) :=
  match targetLoop compute relos targets relos.length none with
  | .error e => .error e
  | .ok (some fs) => .ok fs
  | .ok none => .ok (relos.map fun r => noMatch (kind r))

end Ebpf.Core
