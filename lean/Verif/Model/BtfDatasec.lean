import Verif.Model.BtfTypes
/-!
# Model of the data section fix-ups, `btf/btf.go:240-340`, `alignof`, `btf/types.go:744-763`, and `internal/math.go`
-/
namespace Ebpf.Btf
variable {R : Type}

/-- internal/math.go:9-11 `IsPow`, instantiated at `int` for non-negative values. -/
def isPow (n : Nat) : Bool := n != 0 && (n &&& (n - 1)) == 0

/-- internal/math.go:4-6 `Align`, instantiated at `uint32`. -/
def align32 (n alignment : BitVec 32) : BitVec 32 := (n + alignment - 1) / alignment * alignment

/-- Why `alignof` fails. `diverges` stands for the fuel of the model running out; the code would recurse further. -/
inductive AlignErr | unsupported | notPow | diverges
deriving DecidableEq

/-- btf/types.go:744-763 `alignof`. The code recurses without a bound on nested arrays; the model has fuel, see
`alignof_terminates` for why 33 is enough after `Sizeof` succeeded. -/
def alignof (g : Graph R) : Nat → R → Except AlignErr Nat
  | 0, _ => .error .diverges
  | k + 1, t =>
    match underlyingType g t with
    | none => .error .unsupported
    | some u =>
      match g u with
      | .enum _ s _ _ => if isPow s.toNat then .ok s.toNat else .error .notPow
      | .int _ s _ => if isPow s.toNat then .ok s.toNat else .error .notPow
      | .array _ e _ => alignof g k e
      | _ => .error .unsupported

/-- Why fixing up a data section fails. -/
inductive SecErr | notVar | size (e : SizeErr) | align (e : AlignErr) | ksyms | missingSize | missingOffset
deriving DecidableEq

/-- The type of a variable, btf/types.go:547-552. -/
def Node.varType? : Node R → Option R
  | .var _ t _ _ => some t
  | _ => none

/-- btf/btf.go:310-340 `fixupDatasecLayout`, the loop. Returns the (possibly partially updated) variables. -/
def layoutLoop (g : Graph R) : BitVec 32 → List (VarSecinfo R) → List (VarSecinfo R) × Except SecErr (BitVec 32)
  | off, [] => ([], .ok off)
  | off, v :: vs =>
    match (g v.type).varType? with
    | none => (v :: vs, .error .notVar)
    | some t =>
      match sizeof g t with
      | .error e => (v :: vs, .error (.size e))
      | .ok size =>
        match alignof g (maxResolveDepth + 1) t with
        | .error e => (v :: vs, .error (.align e))
        | .ok al =>
          let off := align32 off (BitVec.ofNat 32 al)
          let r := layoutLoop g (off + BitVec.ofNat 32 size) vs
          ({ v with offset := off } :: r.1, r.2)

/-- btf/btf.go:32-36 `elfData` (the parts read by `fixupDatasec`; `fixups` is in `FixState`). -/
structure ElfData where
  sectionSizes : Bytes → Option (BitVec 32)
  symbolOffsets : Bytes → Bytes → Option (BitVec 32)

/-- The heap and `elfData.fixups`. -/
structure FixState (R : Type) where
  g : Graph R
  fixups : R → Bool

/-- Writing a struct. -/
def setNode [DecidableEq R] (g : Graph R) (r : R) (nd : Node R) : Graph R := fun x => if x = r then nd else g x

/-- ".ksyms" -/
def dotKsyms : Bytes := [0x2e, 0x6b, 0x73, 0x79, 0x6d, 0x73]
/-- ".kconfig" -/
def dotKconfig : Bytes := [0x2e, 0x6b, 0x63, 0x6f, 0x6e, 0x66, 0x69, 0x67]

/-- btf/btf_types.go:58-62 `GlobalVar`. -/
def globalVar : Int := 1

/-- btf/btf.go:281-283: every variable of .kconfig gets global linkage. -/
def setGlobal [DecidableEq R] (g : Graph R) : List (VarSecinfo R) → Graph R
  | [] => g
  | v :: vs =>
    match g v.type with
    | .var n t _ ts => setGlobal (setNode g v.type (.var n t globalVar ts)) vs
    | _ => setGlobal g vs

/-- btf/btf.go:297-303: offsets from the symbol table. -/
def elfOffsets (elf : ElfData) (g : Graph R) (sec : Bytes) : List (VarSecinfo R) → List (VarSecinfo R) × Option SecErr
  | [] => ([], none)
  | v :: vs =>
    match elf.symbolOffsets sec (g v.type).name with
    | none => ({ v with offset := 0 } :: vs, some .missingOffset)
    | some o =>
      let r := elfOffsets elf g sec vs
      ({ v with offset := o } :: r.1, r.2)

/-- btf/btf.go:242-306 `fixupDatasec` with a non-nil receiver. `none` = nil error. -/
def fixupDatasec [DecidableEq R] (elf : ElfData) (st : FixState R) (t : R) : FixState R × Option SecErr :=
  match st.g t with
  | .datasec name size vars =>
    if st.fixups t then (st, none)
    else
      let fx := fun x => if x = t then true else st.fixups x
      if name = dotKsyms then
        if vars.all (fun v => match st.g v.type with | .func .. => true | .var .. => true | _ => false)
        then (⟨st.g, fx⟩, none) else (⟨st.g, fx⟩, some .ksyms)
      else if name = dotKconfig then
        match layoutLoop st.g 0 vars with
        | (vars', .error e) => (⟨setNode st.g t (.datasec name size vars'), fx⟩, some e)
        | (vars', .ok off) => (⟨setGlobal (setNode st.g t (.datasec name off vars')) vars', fx⟩, none)
      else if size ≠ 0 then (⟨st.g, fx⟩, none)
      else
        match elf.sectionSizes name with
        | none => (⟨st.g, fx⟩, some .missingSize)
        | some size' =>
          let r := elfOffsets elf st.g name vars
          (⟨setNode st.g t (.datasec name size' r.1), fx⟩, r.2)
  | _ => (st, none)

end Ebpf.Btf
