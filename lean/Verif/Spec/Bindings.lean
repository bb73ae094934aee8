import Verif.Base
/-!
# Specification: Go identifiers, C types that need a declaration, declarations of a package
-/
namespace Ebpf.BindingsSpec

abbrev Name := List Char

def isUpper (c : Char) : Bool := 'A' ≤ c && c ≤ 'Z'
def isLower (c : Char) : Bool := 'a' ≤ c && c ≤ 'z'
def isLetter (c : Char) : Bool := isUpper c || isLower c
def isDigit (c : Char) : Bool := '0' ≤ c && c ≤ '9'

/-- An exported identifier of Go (ASCII). -/
def Exported : Name → Prop
  | [] => False
  | c :: s => isUpper c = true ∧ ∀ d ∈ s, isLetter d = true ∨ isDigit d = true ∨ d = '_'

/-- Types of C, as far as naming them is concerned. `comp` are structs, unions and enums; `qual` const, volatile, restrict and tags; `other` everything
which needs no declaration. -/
inductive Ty where
  | comp (id : Nat) (name : Name)
  | array (t : Ty)
  | qual (t : Ty)
  | typedef (id : Nat) (name : Name) (t : Ty)
  | other (name : Name)
deriving DecidableEq

/-- A composite, perhaps behind typedefs and qualifiers. -/
inductive Composite : Ty → Prop
  | comp (i n) : Composite (.comp i n)
  | qual (t) : Composite t → Composite (.qual t)
  | typedef (i n t) : Composite t → Composite (.typedef i n t)

/-- `Declares t d`: to use `t` in Go, `d` has to be declared. This is the outermost name for a composite; arrays need their elements. -/
inductive Declares : Ty → Ty → Prop
  | comp (i n) : n ≠ [] → Declares (.comp i n) (.comp i n)
  | typedef (i n t) : n ≠ [] → Composite t → Declares (.typedef i n t) (.typedef i n t)
  | array (t d) : Declares t d → Declares (.array t) d
  | qual (t d) : Declares t d → Declares (.qual t) d
  | through (i n t d) : ¬ Composite t → Declares t d → Declares (.typedef i n t) d

/-- The name of a type. -/
def nameOf : Ty → Name
  | .comp _ n => n
  | .typedef _ n _ => n
  | .other n => n
  | _ => []

/-- A total order of names. -/
structure Order (le : Name → Name → Bool) : Prop where
  total : ∀ a b, le a b = true ∨ le b a = true
  trans : ∀ a b c, le a b = true → le b c = true → le a c = true
  antisymm : ∀ a b, le a b = true → le b a = true → a = b

end Ebpf.BindingsSpec
