import Verif.Spec.Args
/-!
# Model of how bpf2go splits strings into words, and of its list of types

The result of splitArguments is put together from the end instead of appending.
-/
namespace Ebpf.Args
open ArgsSpec

/-- strings.TrimSpace (cmd/bpf2go/tools.go:31), with the white space of Latin-1. -/
def trimSpace (s : Text) : Text := (((s.dropWhile isSpace).reverse).dropWhile isSpace).reverse

/-- The loop of splitArguments (cmd/bpf2go/tools.go:31-76): the builder, `escaped` and `delim`. -/
def splitLoop : Text → Bool → Char → Text → Option (List Text)
  | cur, escaped, delim, [] =>
    if delim ≠ ' ' then none
    else if escaped then none
    else some (if cur ≠ [] then [cur] else [])
  | cur, escaped, delim, r :: s =>
    if escaped then splitLoop (cur ++ [r]) false delim s
    else if r = '\\' then splitLoop cur true delim s
    else if r = delim then
      if cur ≠ [] ∨ delim ≠ ' ' then (splitLoop [] false ' ' s).map (cur :: ·)
      else splitLoop [] false ' ' s
    else if r = '"' ∨ r = '\'' ∨ r = ' ' then
      if delim = ' ' then splitLoop cur false r s
      else splitLoop (cur ++ [r]) false delim s
    else splitLoop (cur ++ [r]) false delim s

/-- splitArguments (cmd/bpf2go/tools.go:23-78). -/
def splitArguments (s : Text) : Option (List Text) := splitLoop [] false ' ' (trimSpace s)

/-- splitCFlagsFromArgs (cmd/bpf2go/tools.go:11-19). -/
def splitCFlags : List Text → List Text × List Text
  | [] => ([], [])
  | a :: as => if a = ['-', '-'] then ([], as) else (a :: (splitCFlags as).1, (splitCFlags as).2)

/-- The regular expression for names of types (cmd/bpf2go/main.go:258-260), matched against ASCII. -/
def validType (v : Text) : Bool :=
  v ≠ [] && v.all (fun c => ('a' ≤ c && c ≤ 'z') || ('A' ≤ c && c ≤ 'Z') || ('0' ≤ c && c ≤ '9') || c = '_')

/-- cTypes.Set (cmd/bpf2go/main.go:262-279); sort.SearchStrings finds the first name that isn't less. -/
def setType (le : Text → Text → Bool) (ct : List Text) (v : Text) : Option (List Text) :=
  if !validType v then none
  else
    let i := ct.findIdx (fun n => le v n)
    match ct[i]? with
    | none => some (ct ++ [v])
    | some n => if n = v then none else some (ct.take i ++ v :: ct.drop i)

end Ebpf.Args
