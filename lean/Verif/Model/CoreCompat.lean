import Verif.Model.BtfTypes
/-!
# Model of type compatibility and matching, `btf/core.go:915-1280`
-/
namespace Ebpf.Btf
variable {R : Type}

/-- The dynamic type of a `Type`, as compared by `reflect.TypeOf`. -/
def Node.kindTag : Node R → Nat
  | void => 0 | int .. => 1 | ptr _ => 2 | array .. => 3 | struct .. => 4 | union .. => 5 | enum .. => 6 | fwd .. => 7
  | typedef .. => 8 | volatile _ => 9 | const _ => 10 | restrict _ => 11 | func .. => 12 | funcProto .. => 13 | var .. => 14
  | datasec .. => 15 | float .. => 16 | declTag .. => 17 | typeTag .. => 18 | cycle _ => 19

/-- `errIncompatibleTypes`, or any other error. -/
inductive CompatErr | incompatible | unsupported
deriving DecidableEq

/-- A verdict together with the `visited` map. `none` = the fuel of the model ran out. -/
abbrev Verdict (R : Type) := Option (Except CompatErr Unit × List (R × R))

/-- Check a list of pairs in order, stopping at the first error. -/
def checkPairs (f : R → R → List (R × R) → Verdict R) : List (R × R) → List (R × R) → Verdict R
  | [], vis => some (.ok (), vis)
  | (a, b) :: ps, vis =>
    match f a b vis with
    | some (.ok (), vis) => checkPairs f ps vis
    | r => r

variable [DecidableEq R]

/-- btf/core.go:954-1006 `coreAreTypesCompatible`, with fuel for the recursion. `cycle` types are always new pointers, so they are
never in `visited`. -/
def compatible (g : Graph R) : Nat → R → R → List (R × R) → Verdict R
  | 0, _, _, _ => none
  | k + 1, l, t, vis =>
    match underlyingType g l, underlyingType g t with
    | some u, some v =>
      if (g u).kindTag ≠ (g v).kindTag then some (.error .incompatible, vis)
      else if (u, v) ∈ vis then some (.ok (), vis)
      else
        let vis := (u, v) :: vis
        match g u, g v with
        | .void, _ => some (.ok (), vis)
        | .struct .., _ => some (.ok (), vis)
        | .union .., _ => some (.ok (), vis)
        | .enum .., _ => some (.ok (), vis)
        | .fwd .., _ => some (.ok (), vis)
        | .int .., _ => some (.ok (), vis)
        | .ptr a, .ptr b => compatible g k a b vis
        | .array i a _, .array j b _ =>
          match compatible g k i j vis with
          | some (.ok (), vis) => compatible g k a b vis
          | r => r
        | .funcProto r ps, .funcProto r' ps' =>
          match compatible g k r r' vis with
          | some (.ok (), vis) =>
            if ps.length ≠ ps'.length then some (.error .incompatible, vis)
            else checkPairs (compatible g k) ((ps.map (·.type)).zip (ps'.map (·.type))) vis
          | r => r
        | _, _ => some (.error .unsupported, vis)
    | none, none => some (.error .unsupported, vis)
    | _, _ => some (.error .incompatible, vis)

/-- btf/core.go:1074-1082 `coreEssentialNamesMatch`. -/
def namesMatch (a b : Bytes) : Bool :=
  if a = [] ∨ b = [] then true else newEssentialName a = newEssentialName b

/-- btf/core.go:1229-1231 `coreEncodingMatches` (`Signed` = 1, btf/types.go:97). -/
def encodingMatches (sz : BitVec 32) (enc : BitVec 8) (sz' : BitVec 32) (enc' : BitVec 8) : Bool :=
  sz == sz' && ((enc == 1) == (enc' == 1))

/-- btf/core.go:1236-1262 `coreEnumsMatch`. -/
def enumsMatch (sz : BitVec 32) (vs : List EnumValue) (sz' : BitVec 32) (vs' : List EnumValue) : Bool :=
  sz == sz' && decide (vs.length ≤ vs'.length) && vs.all fun v => vs'.any fun w => namesMatch v.name w.name

/-- btf/types.go:383-393 `Fwd.matches`; `FwdStruct` = 0, `FwdUnion` = 1. -/
def fwdMatches (g : Graph R) (kind : Int) (t : R) : Bool :=
  (match asType g (fun n => match n with | .struct .. => true | _ => false) t with | some _ => kind == 0 | none => false) ||
  (match asType g (fun n => match n with | .union .. => true | _ => false) t with | some _ => kind == 1 | none => false)

/-- btf/core.go:1188-1194: either side is a forward declaration the other side matches. -/
def ptrFwd (g : Graph R) (a b : R) : Bool :=
  (match asType g (fun n => match n with | .fwd .. => true | _ => false) a with
   | some f => (match g f with | .fwd _ k => fwdMatches g k b | _ => false)
   | none => false) ||
  (match asType g (fun n => match n with | .fwd .. => true | _ => false) b with
   | some f => (match g f with | .fwd _ k => fwdMatches g k a | _ => false)
   | none => false)

/-- btf/core.go:1158-1161: a Go map from name to member keeps the last one of each name. -/
def lastMember (ms : List (Member R)) (name : Bytes) : Option (Member R) := ms.reverse.find? fun m => m.name = name

/-- btf/core.go:1163-1174: the loop over the local members. -/
def checkMembers (f : R → R → List (R × R) → Verdict R) (ts : List (Member R)) : List (Member R) → List (R × R) → Verdict R
  | [], vis => some (.ok (), vis)
  | m :: ms, vis =>
    match lastMember ts m.name with
    | none => some (.error .incompatible, vis)
    | some tm =>
      match f m.type tm.type vis with
      | some (.ok (), vis) => checkMembers f ts ms vis
      | r => r

/-- btf/core.go:1113-1225 `coreTypesMatch`. -/
def typesMatch (g : Graph R) : Nat → R → R → List (R × R) → Verdict R
  | 0, _, _, _ => none
  | k + 1, l, t, vis =>
    match underlyingType g l, underlyingType g t with
    | some u, some v =>
      if namesMatch (g u).name (g v).name = false then some (.error .incompatible, vis)
      else if (g u).kindTag ≠ (g v).kindTag then some (.error .incompatible, vis)
      else if (u, v) ∈ vis then some (.ok (), vis)
      else
        let vis := (u, v) :: vis
        match g u, g v with
        | .void, _ => some (.ok (), vis)
        | .fwd _ ka, .fwd _ kb => if kb ≠ ka then some (.error .incompatible, vis) else some (.ok (), vis)
        | .enum _ sa _ as, .enum _ sb _ bs => if enumsMatch sa as sb bs then some (.ok (), vis) else some (.error .incompatible, vis)
        | .struct _ _ as _, .struct _ _ bs _ =>
          if as.length > bs.length then some (.error .incompatible, vis) else checkMembers (typesMatch g k) bs as vis
        | .union _ _ as _, .union _ _ bs _ =>
          if as.length > bs.length then some (.error .incompatible, vis) else checkMembers (typesMatch g k) bs as vis
        | .int _ sa ea, .int _ sb eb => if encodingMatches sa ea sb eb then some (.ok (), vis) else some (.error .incompatible, vis)
        | .ptr a, .ptr b => if ptrFwd g a b then some (.ok (), vis) else typesMatch g k a b vis
        | .array _ a n, .array _ b m => if n ≠ m then some (.error .incompatible, vis) else typesMatch g k a b vis
        | .funcProto r ps, .funcProto r' ps' =>
          if ps.length ≠ ps'.length then some (.error .incompatible, vis)
          else match checkPairs (typesMatch g k) ((ps.map (·.type)).zip (ps'.map (·.type))) vis with
            | some (.ok (), vis) => typesMatch g k r r' vis
            | r => r
        | _, _ => some (.error .unsupported, vis)
    | none, none => some (.error .unsupported, vis)
    | _, _ => some (.error .incompatible, vis)

end Ebpf.Btf
