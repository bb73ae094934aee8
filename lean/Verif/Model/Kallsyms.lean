import Verif.Model.Kconfig
/-! # Model of `internal/kallsyms/{kallsyms,reader,cache}.go` -/
namespace Ebpf.Kallsyms
open Ebpf.Kconfig (cut)

/-- ASCII white space as tested by Go `bytes.TrimSpace`. Simplification: bytes ≥ 0x80 are not
decoded as UTF-8 (U+0085 and U+00A0 are not treated as white space). -/
def isSpace (b : Byte) : Bool :=
  b == 0x20 || b == 0x09 || b == 0x0a || b == 0x0b || b == 0x0c || b == 0x0d

/-- Go `bytes.TrimSpace`. -/
def trimSpace (s : Bytes) : Bytes :=
  ((s.dropWhile isSpace).reverse.dropWhile isSpace).reverse

/-- internal/kallsyms/reader.go:72-85 `reader.Word`: the next word and the rest of the line. -/
def word (line : Bytes) : Option (Bytes × Bytes) :=
  let line := trimSpace line
  if line = [] then none
  else match cut 0x20#8 line with
    | some (w, r) => some (w, r)
    | none =>
      match cut 0x09#8 line with
      | some (w, r) => some (w, r)
      | none => some (line, [])

/-- A hexadecimal digit as accepted by Go `strconv.ParseUint(_, 16, _)`. -/
def hexDigit (b : Byte) : Option Nat :=
  let n := b.toNat
  if 0x30 ≤ n ∧ n ≤ 0x39 then some (n - 0x30)
  else if 0x61 ≤ n ∧ n ≤ 0x66 then some (n - 0x61 + 10)
  else if 0x41 ≤ n ∧ n ≤ 0x46 then some (n - 0x41 + 10)
  else none

/-- Value of a string of digits. -/
def hexValue : Bytes → Nat → Option Nat
  | [], acc => some acc
  | b :: bs, acc => match hexDigit b with
    | some d => hexValue bs (acc * 16 + d)
    | none => none

/-- Go `strconv.ParseUint(s, 16, 64)` (`none` = error). -/
def parseHex64 (s : Bytes) : Option (BitVec 64) :=
  if s = [] then none
  else match hexValue s 0 with
    | some v => if v < 2 ^ 64 then some (BitVec.ofNat 64 v) else none
    | none => none

/-- internal/kallsyms/kallsyms.go:119-123 `ksym`. -/
structure Ksym where
  addr : BitVec 64
  name : Bytes
  mod : Bytes
deriving DecidableEq

/-- Go `bytes.Trim(s, "[]")`. -/
def trimBrackets (s : Bytes) : Bytes :=
  ((s.dropWhile fun b => b == 0x5b || b == 0x5d).reverse.dropWhile fun b => b == 0x5b || b == 0x5d).reverse

/-- internal/kallsyms/kallsyms.go:133-161 `parseSymbol` with an empty `types`
(as called by `assignAddresses`); `none` = error. -/
def parseSymbol (line : Bytes) : Option Ksym :=
  match word line with
  | none => some ⟨0, [], []⟩
  | some (w0, r) =>
    match parseHex64 w0 with
    | none => none
    | some addr =>
      match word r with
      | none => some ⟨addr, [], []⟩
      | some (_, r) =>
        match word r with
        | none => some ⟨addr, [], []⟩
        | some (name, r) =>
          match word r with
          | none => some ⟨addr, name, []⟩
          | some (m, _) => some ⟨addr, name, trimBrackets m⟩

/-- Errors of a lookup. -/
inductive Err where
  | parse       -- malformed line
  | ambiguous   -- errAmbiguousKsym
  | restricted  -- internal.ErrRestrictedKernel
  | read        -- scanner or open error
deriving DecidableEq

/-- A Go `map[string]uint64`. -/
abbrev SymMap := Bytes → Option (BitVec 64)

/-- `m[k] = v`. -/
def SymMap.set (m : SymMap) (k : Bytes) (v : BitVec 64) : SymMap := fun x => if x = k then some v else m x

/-- internal/kallsyms/kallsyms.go:79-111, the loop of `assignAddresses` over the non-empty lines
(reader.go:49-66 skips empty ones). -/
def assignLoop : List Bytes → SymMap → Except Err SymMap
  | [], m => .ok m
  | line :: rest, m =>
    if line = [] then assignLoop rest m
    else match parseSymbol line with
      | none => .error .parse
      | some s =>
        if (m s.name).getD 0 ≠ 0 then .error .ambiguous
        else match m s.name with
          | some _ => if s.addr = 0 then .error .restricted else assignLoop rest (m.set s.name s.addr)
          | none => assignLoop rest m

/-- The contents of /proc/kallsyms: lines and whether reading ends with an error;
`none` if it cannot be opened. -/
structure File where
  lines : List Bytes
  readErr : Bool

/-- internal/kallsyms/kallsyms.go:74-117 `assignAddresses`; `names` are the keys of `m`. -/
def assignAddresses (f : File) (names : List Bytes) (m : SymMap) : Except Err SymMap :=
  if names = [] then .ok m
  else match assignLoop f.lines m with
    | .error e => .error e
    | .ok m => if f.readErr then .error .read else .ok m

/-- internal/kallsyms/kallsyms.go:26-69 `AssignAddresses` on Linux. `cache` is `symAddrs`,
`names` the keys of the caller's map (in any order, without repetition) and `vals` its values.
Returns the error (if any), the new cache and the new values.
Simplification: one call at a time (the cache is a `sync.Map`; concurrent calls store equal values). -/
def assign (cache : SymMap) (f : Option File) (names : List Bytes) (vals : Bytes → BitVec 64) :
    Option Err × SymMap × (Bytes → BitVec 64) :=
  if names = [] then (none, cache, vals)
  else
    let vals1 : Bytes → BitVec 64 := fun n => if n ∈ names then (cache n).getD (vals n) else vals n
    let request := names.filter fun n => (cache n).isNone
    if request = [] then (none, cache, vals1)
    else match f with
      | none => (some .read, cache, vals1)
      | some f =>
        match assignAddresses f request (fun n => if n ∈ request then some 0 else none) with
        | .error e => (some e, cache, vals1)
        | .ok m =>
          (none, (fun n => if n ∈ request then some ((m n).getD 0) else cache n),
            (fun n => if n ∈ request then (m n).getD 0 else vals1 n))

end Ebpf.Kallsyms
