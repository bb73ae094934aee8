import Verif.Base
/-!
# Specification: words of a command line
-/
namespace Ebpf.ArgsSpec

abbrev Text := List Char

/-- Text outside of quotes, and what it stands for: a backslash takes away any meaning of the next character. -/
inductive Bare : Text → Text → Prop
  | nil : Bare [] []
  | char (c s t) : c ≠ ' ' → c ≠ '\\' → c ≠ '"' → c ≠ '\'' → Bare s t → Bare (c :: s) (c :: t)
  | esc (c s t) : Bare s t → Bare ('\\' :: c :: s) (c :: t)

/-- Text within quotes. -/
inductive Quoted (q : Char) : Text → Text → Prop
  | nil : Quoted q [] []
  | char (c s t) : c ≠ q → c ≠ '\\' → Quoted q s t → Quoted q (c :: s) (c :: t)
  | esc (c s t) : Quoted q s t → Quoted q ('\\' :: c :: s) (c :: t)

/-- A line and its words. Words are separated by blanks; a closing quote ends a word too. -/
inductive Words : Text → List Text → Prop
  | nil : Words [] []
  | blank (s ws) : Words s ws → Words (' ' :: s) ws
  | last (s w) : s ≠ [] → Bare s w → Words s [w]
  | bare (s w r ws) : s ≠ [] → Bare s w → Words r ws → Words (s ++ ' ' :: r) (w :: ws)
  | quoted (s w q s' w' r ws) : Bare s w → (q = '"' ∨ q = '\'') → Quoted q s' w' → Words r ws →
      Words (s ++ q :: s' ++ q :: r) ((w ++ w') :: ws)

/-- White space in Unicode, Latin-1. -/
def isSpace (c : Char) : Bool :=
  c = ' ' || c = '\t' || c = '\n' || c = '\x0b' || c = '\x0c' || c = '\r' || c = '\u0085' || c = '\u00a0'

/-- Text in the middle of white space. -/
def Trimmed (s t : Text) : Prop :=
  ∃ a b, s = a ++ t ++ b ∧ (∀ c ∈ a ++ b, isSpace c = true) ∧ (∀ c, t.head? = some c → isSpace c = false) ∧
    (∀ c, t.getLast? = some c → isSpace c = false)

/-- Write a word so that it is one: within single quotes, with backslashes before quotes and backslashes. -/
def quote (w : Text) : Text := '\'' :: w.flatMap (fun c => if c = '\'' ∨ c = '\\' then ['\\', c] else [c]) ++ ['\'']

/-- A line of words. -/
def line : List Text → Text
  | [] => []
  | [w] => quote w
  | w :: ws => quote w ++ ' ' :: line ws

end Ebpf.ArgsSpec
