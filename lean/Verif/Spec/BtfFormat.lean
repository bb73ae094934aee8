import Verif.Model.BtfFormat
/-! # Specification: the text of a type, by levels -/
namespace Ebpf.BtfFormat.Spec
open Ebpf.Btf Ebpf.VerifierText
variable {R : Type}

/-- What is shown of a type without details: what it is, its name if it has one, and where it is if asked for. -/
def label (e : Env R) (plus : Bool) (t : R) (n : Node R) : Bytes :=
  goTypeName n ++ (if n.name = [] then [] else lit ":" ++ e.quote n.name) ++ (if plus = true then lit ":" ++ e.addr t else [])

/-- How many fields are named. -/
def shown (width : Nat) : Nat := if width = 0 then 5 else width

/-- The name shown for a field. -/
def fieldName (i : Nat) (m : Member R) : Bytes := if m.name = [] then lit "<" ++ itoa i ++ lit ">" else m.name

/-- Names of fields in brackets: the first of them, and dots if there are more. -/
def fieldNames (width : Nat) (ms : List (Member R)) : Bytes :=
  let names := ((ms.take (shown width)).zipIdx.map fun x => fieldName x.2 x.1) ++ (if ms.length > shown width then [lit "..."] else [])
  lit "[" ++ (lit " ").intercalate names ++ lit "]"

/-- The space after the value of a tag; there is none after an empty value, or one that ends in `=`. -/
def gap (v : Bytes) : Bytes := if v = [] ∨ v.getLast? = some 61#8 then [] else lit " "

/-- The details of a type in brackets, if it has any; `f` is the text of types. -/
def details (f : R → Bytes) (width : Nat) : Node R → Bytes
  | .void => []
  | .datasec .. => []
  | .int _ size enc => lit "[" ++ encodingString enc ++ lit " size=" ++ itoa size.toNat ++ lit "]"
  | .ptr t => lit "[target=" ++ f t ++ lit "]"
  | .array i t n => lit "[index=" ++ f i ++ lit " type=" ++ f t ++ lit " n=" ++ itoa n.toNat ++ lit "]"
  | .struct _ _ ms _ => lit "[fields=" ++ itoa ms.length ++ lit " fieldNames=" ++ fieldNames width ms ++ lit "]"
  | .union _ _ ms _ => lit "[fields=" ++ itoa ms.length ++ lit " fieldNames=" ++ fieldNames width ms ++ lit "]"
  | .enum _ size _ vs => lit "[size=" ++ itoa size.toNat ++ lit " values=" ++ itoa vs.length ++ lit "]"
  | .fwd _ k => lit "[" ++ fwdString k ++ lit "]"
  | .typedef _ t _ | .volatile t | .const t | .restrict t => lit "[" ++ f t ++ lit "]"
  | .func _ t l _ _ => lit "[" ++ linkageString (lit "FuncLinkage") l ++ lit " proto=" ++ f t ++ lit "]"
  | .funcProto ret ps => lit "[args=" ++ itoa ps.length ++ lit " return=" ++ f ret ++ lit "]"
  | .var _ _ l _ => lit "[" ++ linkageString (lit "VarLinkage") l ++ lit "]"
  | .float _ size => lit "[size=" ++ itoa (size * 8#32).toNat ++ lit "]"
  | .declTag t v i => lit "[type=" ++ f t ++ lit " value=" ++ v ++ gap v ++ lit "index=" ++ itoaInt i ++ lit "]"
  | .typeTag t v => lit "[type=" ++ f t ++ lit " value=" ++ v ++ lit "]"
  | .cycle r => lit "[root=" ++ f r ++ lit "]"

/-- The text of a type with details of so many levels. -/
def text (e : Env R) (g : Graph R) (plus : Bool) (width : Nat) : Nat → R → Bytes
  | 0, t => label e plus t (g t)
  | n + 1, t => label e plus t (g t) ++ details (text e g plus width n) width (g t)

/-- The types shown in the details of a type: not those of members, parameters, and variables. -/
def subtypes : Node R → List R
  | .ptr t | .typedef _ t _ | .volatile t | .const t | .restrict t | .func _ t _ _ _ | .declTag t _ _ | .typeTag t _ | .cycle t => [t]
  | .funcProto ret _ => [ret]
  | .array i t _ => [i, t]
  | _ => []

/-- `r` is so many steps from `t`. -/
inductive Steps (g : Graph R) : Nat → R → R → Prop where
  | here (t : R) : Steps g 0 t t
  | step (n : Nat) (t s r : R) : s ∈ subtypes (g t) → Steps g n s r → Steps g (n + 1) t r

end Ebpf.BtfFormat.Spec
