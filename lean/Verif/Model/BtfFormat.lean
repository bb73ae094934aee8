import Verif.Model.BtfTypes
import Verif.Model.VerifierText
/-!
# Model of the printing of BTF types: `formatType` and the `Format` methods of `btf/types.go`

What package fmt provides is a parameter: how a name is quoted by `%q` and how a pointer is printed by `%#p`. Fields of interface type are set (a nil `Type` would be
printed as `<nil>`). The width is that given in the format, which Go never makes negative.
-/
namespace Ebpf.BtfFormat
open Ebpf.Btf Ebpf.VerifierText
variable {R : Type}

/-- fmt: `%q` of a string and `%#p` of a pointer. -/
structure Env (R : Type) where
  quote : Bytes → Bytes
  addr : R → Bytes

/-- fmt `%d`. -/
def itoaInt (i : Int) : Bytes := if i < 0 then lit "-" ++ itoa i.natAbs else itoa i.natAbs

/-- internal/output.go:90-102 `GoTypeName` of the structs that implement `Type`. -/
def goTypeName : Node R → Bytes
  | .void => lit "Void"
  | .int .. => lit "Int"
  | .ptr _ => lit "Pointer"
  | .array .. => lit "Array"
  | .struct .. => lit "Struct"
  | .union .. => lit "Union"
  | .enum .. => lit "Enum"
  | .fwd .. => lit "Fwd"
  | .typedef .. => lit "Typedef"
  | .volatile _ => lit "Volatile"
  | .const _ => lit "Const"
  | .restrict _ => lit "Restrict"
  | .func .. => lit "Func"
  | .funcProto .. => lit "FuncProto"
  | .var .. => lit "Var"
  | .datasec .. => lit "Datasec"
  | .float .. => lit "Float"
  | .declTag .. => lit "declTag"
  | .typeTag .. => lit "TypeTag"
  | .cycle _ => lit "cycle"

/-- btf/types.go:103-117 `IntEncoding.String`. -/
def encodingString (e : BitVec 8) : Bytes :=
  if e = 2 then lit "char" else if e = 4 then lit "bool" else if e = 1 then lit "signed" else if e = 0 then lit "unsigned"
  else lit "IntEncoding(" ++ itoa e.toNat ++ lit ")"

/-- btf/types.go:355-364 `FwdKind.String`. -/
def fwdString (k : Int) : Bytes :=
  if k = 0 then lit "struct" else if k = 1 then lit "union" else lit "btf.FwdKind(" ++ itoaInt k ++ lit ")"

/-- btf/btf_types_string.go:16-26,36-46 `FuncLinkage.String` and `VarLinkage.String`; `ty` is the name of the Go type. -/
def linkageString (ty : Bytes) (l : Int) : Bytes :=
  if l = 0 then lit "static" else if l = 1 then lit "global" else if l = 2 then lit "extern" else ty ++ lit "(" ++ itoaInt l ++ lit ")"

/-- btf/types.go:248-265 `memberNames`, the loop from index `i`; `max` has its default. -/
def memberNamesFrom (max : Nat) : Nat → List (Member R) → List Bytes
  | _, [] => []
  | i, m :: ms =>
    if i ≥ max then [lit "..."]
    else (if m.name = [] then lit "<" ++ itoa i ++ lit ">" else m.name) :: memberNamesFrom max (i + 1) ms

/-- btf/types.go:248-265 `memberNames`. -/
def memberNames (members : List (Member R)) (max : Nat) : List Bytes := memberNamesFrom (if max = 0 then 5 else max) 0 members

/-- fmt: a slice of strings after the first of them. -/
def sprintRest : List Bytes → Bytes
  | [] => []
  | s :: l => lit " " ++ s ++ sprintRest l

/-- fmt `Fprint` of a slice of strings. -/
def sprintStrings : List Bytes → Bytes
  | [] => lit "[]"
  | s :: l => lit "[" ++ s ++ sprintRest l ++ lit "]"

/-- An element of `extra`, btf/types.go:941-953: a string, a type, or anything else with its text. -/
inductive Item (R : Type) where
  | str (s : Bytes)
  | typ (t : R)
  | other (s : Bytes)

/-- The `extra` given by the `Format` methods, btf/types.go:85,129-131,145-147,163-165,189-192,224-227,324-326,372-374,402-404,419-421,436-438,453-455,491-493,516-518,
542-544,561-563,594-596,615-617,637-639,654. `width` is 0 if there is none. -/
def extra (width : Nat) : Node R → List (Item R)
  | .void => []
  | .int _ size enc => [.other (encodingString enc), .str (lit "size="), .other (itoa size.toNat)]
  | .ptr t => [.str (lit "target="), .typ t]
  | .array i t n => [.str (lit "index="), .typ i, .str (lit "type="), .typ t, .str (lit "n="), .other (itoa n.toNat)]
  | .struct _ _ ms _ => [.str (lit "fields="), .other (itoa ms.length), .str (lit "fieldNames="), .other (sprintStrings (memberNames ms width))]
  | .union _ _ ms _ => [.str (lit "fields="), .other (itoa ms.length), .str (lit "fieldNames="), .other (sprintStrings (memberNames ms width))]
  | .enum _ size _ vs => [.str (lit "size="), .other (itoa size.toNat), .str (lit "values="), .other (itoa vs.length)]
  | .fwd _ k => [.other (fwdString k)]
  | .typedef _ t _ => [.typ t]
  | .volatile t => [.typ t]
  | .const t => [.typ t]
  | .restrict t => [.typ t]
  | .func _ t l _ _ => [.other (linkageString (lit "FuncLinkage") l), .str (lit "proto="), .typ t]
  | .funcProto ret ps => [.str (lit "args="), .other (itoa ps.length), .str (lit "return="), .typ ret]
  | .var _ _ l _ => [.other (linkageString (lit "VarLinkage") l)]
  | .datasec .. => []
  | .float _ size => [.str (lit "size="), .other (itoa (size * 8#32).toNat)]
  | .declTag t v i => [.str (lit "type="), .typ t, .str (lit "value="), .str v, .str (lit "index="), .other (itoaInt i)]
  | .typeTag t v => [.str (lit "type="), .typ t, .str (lit "value="), .str v]
  | .cycle r => [.str (lit "root="), .typ r]

/-- btf/types.go:898-908: name of the kind and of the type, and the address with flag `+`. -/
def head (e : Env R) (plus : Bool) (t : R) (n : Node R) : Bytes :=
  goTypeName n ++ (if n.name ≠ [] then lit ":" ++ e.quote n.name else []) ++ (if plus then lit ":" ++ e.addr t else [])

/-- btf/types.go:934-957: the loop over `extra`; `f` prints a type. -/
def items (f : R → Bytes) : List (Item R) → Bool → Bytes
  | [], _ => []
  | x :: l, wantSpace =>
    (if wantSpace then lit " " else []) ++
    match x with
    | .str s => s ++ items f l (decide (s ≠ []) && decide (s.getLast? ≠ some 61#8))
    | .typ t => f t ++ items f l true
    | .other s => s ++ items f l true

/-- btf/types.go:892-959 `formatType` with verb `v`; `depth` is that of the `formatState`, 0 for any other state. -/
def formatV (e : Env R) (g : Graph R) (plus : Bool) (width depth : Nat) (t : R) : Bytes :=
  head e plus t (g t) ++
  if _h : depth > width then [] else
    match extra width (g t) with
    | [] => []
    | x :: l => lit "[" ++ items (fun r => formatV e g plus width (depth + 1) r) (x :: l) false ++ lit "]"
termination_by width + 1 - depth

/-- btf/types.go:892-959 `formatType`: the text of a type for the given flag, width and verb (its encoding in UTF-8). -/
def format (e : Env R) (g : Graph R) (plus : Bool) (width : Option Nat) (verb : Bytes) (t : R) : Bytes :=
  if verb ≠ lit "v" ∧ verb ≠ lit "s" then lit "{UNRECOGNIZED: " ++ verb ++ lit "}"
  else if verb = lit "s" then head e plus t (g t)
  else formatV e g plus (width.getD 0) 0 t

end Ebpf.BtfFormat
