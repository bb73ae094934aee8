import Verif.Model.ProgLoad
/-!
# Model of the text of a `VerifierError`: `Error` and `Format` (`internal/errors.go`)

The text is a list of bytes. The verb is given by its UTF-8 encoding. Lines are ASCII, as the kernel prints them: `strings.TrimSpace` would also trim other white
space of Unicode.
-/
namespace Ebpf.VerifierText
open Ebpf.ProgLoad

/-- internal/errors.go:40-48 `VerifierError`; `cause` is the text of the cause. -/
structure VErr where
  source : Bytes
  cause : Bytes
  log : List Bytes

/-- Text of a literal. -/
def lit (s : String) : Bytes := s.toList.map fun c => BitVec.ofNat 8 c.toNat

/-- fmt `%d` for numbers that aren't negative. -/
def itoa (n : Nat) : Bytes := if n < 10 then [BitVec.ofNat 8 (48 + n)] else itoa (n / 10) ++ [BitVec.ofNat 8 (48 + n % 10)]
termination_by n

/-- internal/errors.go:70-73: the lines shown by `Error`, if there are any besides the statistics. -/
def context (l : List Bytes) : List Bytes :=
  let n := l.length
  if 2 ≤ n ∧ includePreviousLine (l.getLastD []) = true then l.drop (n - 2) else l.drop (n - 1)

/-- internal/errors.go:75-78. -/
def joined : List Bytes → Bytes
  | [] => []
  | l :: r => lit ": " ++ trimSpace l ++ joined r

/-- internal/errors.go:80-83, 160-162, 170-174: " (%d line(s) omitted)" after something, if there are any. -/
def note (sep : Bytes) (n : Nat) : Bytes := if 0 < n then sep ++ lit "(" ++ itoa n ++ lit " line(s) omitted)" else []

/-- internal/errors.go:54-86 `Error`. -/
def errorText (e : VErr) : Bytes :=
  let log := withoutStats e.log
  let head := e.source ++ lit ": " ++ e.cause
  if log.length = 0 then head
  else head ++ joined (context log) ++ note (lit " ") (e.log.length - (context log).length)

/-- internal/errors.go:166-168. -/
def indented : List Bytes → Bytes
  | [] => []
  | l :: r => lit "\n\t" ++ l ++ indented r

/-- internal/errors.go:134-137: how many lines are printed. -/
def count (width : Option Nat) (len : Nat) : Nat :=
  match width with
  | none => len
  | some n => if n > len then len else n

/-- internal/errors.go:152-174: with one of the flags. -/
def withFlag (e : VErr) (minus : Bool) (n : Nat) : Bytes :=
  let head := e.source ++ lit ": " ++ e.cause ++ lit ":"
  let omitted := e.log.length - n
  if minus then head ++ note (lit "\n\t") omitted ++ indented (e.log.drop (e.log.length - n))
  else head ++ indented (e.log.take n) ++ note (lit "\n\t") omitted

/-- internal/errors.go:128-179 `Format`. -/
def format (e : VErr) (verb : Bytes) (plus minus : Bool) (width : Option Nat) : Bytes :=
  if verb = lit "s" then errorText e
  else if verb = lit "v" then
    if ¬ plus ∧ ¬ minus then
      if width.isSome then lit "%!v(BADWIDTH)" else errorText e
    else if plus ∧ minus then lit "%!v(BADFLAG)"
    else withFlag e minus (count width e.log.length)
  else lit "%!" ++ verb ++ lit "(BADVERB)"

end Ebpf.VerifierText
