import Verif.Base
/-!
# Specification: make's dependency files, and what a path names
-/
namespace Ebpf.MakeDepsSpec

abbrev Text := List Char

/-- A rule: a target and its prerequisites. -/
structure Rule where
  file : Text
  prereqs : List Text
deriving DecidableEq

/-- A name that needs no quoting in a dependency file. -/
def Plain (n : Text) : Prop :=
  n ≠ [] ∧ ∀ c ∈ n, c ≠ ' ' ∧ c ≠ '\t' ∧ c ≠ '\n' ∧ c ≠ '\r' ∧ c ≠ '\x0b' ∧ c ≠ '\x0c' ∧ c ≠ '\\' ∧ c ≠ ':' ∧ c.toNat < 128

/-- White space within a rule: blanks, tabs and continuation lines. -/
inductive Gap : Text → Prop
  | nil : Gap []
  | blank (s) : Gap s → Gap (' ' :: s)
  | tab (s) : Gap s → Gap ('\t' :: s)
  | cont (s) : Gap s → Gap ('\\' :: '\n' :: s)

/-- A gap with a blank or tab in it. -/
def RealGap (s : Text) : Prop := Gap s ∧ (' ' ∈ s ∨ '\t' ∈ s)

/-- The prerequisites of a rule, up to the end of the line. -/
inductive Body : List Text → Text → Prop
  | done (g) : Gap g → Body [] (g ++ ['\n'])
  | word (g w ws s) : RealGap g → Body ws s → Body (w :: ws) (g ++ w ++ s)

/-- A file with the rules in it; there may be empty lines. -/
inductive File : List Rule → Text → Prop
  | nil : File [] []
  | empty (rs s) : File rs s → File rs ('\n' :: s)
  | rule (r rs b s) : Body r.prereqs b → File rs s → File (r :: rs) (r.file ++ ':' :: b ++ s)

/-- The components of a path. -/
def components : Text → List Text
  | [] => [[]]
  | '/' :: s => [] :: components s
  | c :: s =>
    match components s with
    | [] => [[c]]
    | x :: xs => (c :: x) :: xs

/-- One step along a path, starting in a directory given by the names on the way from the root. -/
def step (dir : List Text) (c : Text) : List Text :=
  if c = [] ∨ c = ['.'] then dir else if c = ['.', '.'] then dir.dropLast else dir ++ [c]

/-- What a path names (leaving symbolic links aside), in a given working directory. -/
def names (dir : List Text) (p : Text) : List Text :=
  (components p).foldl step (if p.head? = some '/' then [] else dir)

/-- What a rule says, in a given working directory: the files which the target and the prerequisites name. -/
def says (dir : List Text) (r : Rule) : List Text × List (List Text) := (names dir r.file, r.prereqs.map (names dir))

end Ebpf.MakeDepsSpec
