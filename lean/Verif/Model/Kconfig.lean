import Verif.Base
/-! # Model of `internal/kconfig/kconfig.go` -/
namespace Ebpf.Kconfig

/-! ## Parsing -/

/-- The bytes of an ASCII literal in the Go source. -/
def ascii (s : String) : Bytes := s.toList.map fun c => BitVec.ofNat 8 c.toNat

/-- Go `bytes.Cut(s, []byte{c})`: text before and after the first `c`. -/
def cut (c : Byte) : Bytes → Option (Bytes × Bytes)
  | [] => none
  | b :: bs => if b = c then some ([], bs) else (cut c bs).map fun (k, v) => (b :: k, v)

/-- A Go `map[string]string` built by insertion only; latest insertion first, keys unique. -/
abbrev StrMap := List (Bytes × Bytes)

/-- internal/kconfig/kconfig.go:78-85: the filter excludes `key`. -/
def excluded (filter : Option (List Bytes)) (key : Bytes) : Bool :=
  match filter with
  | some f => !f.contains key
  | none => false

/-- internal/kconfig/kconfig.go:63-96 `processKconfigLine`; `none` = error.
`filter = none` is the nil map; a filter is a list of distinct keys. -/
def processLine (line : Bytes) (m : StrMap) (filter : Option (List Bytes)) : Option StrMap :=
  if ¬ (ascii "CONFIG_").isPrefixOf line then some m
  else match cut 0x3d#8 line with
    | none => none
    | some (key, value) =>
      if value.isEmpty then none
      else if excluded filter key then some m
      else match m.lookup key with
        | some _ => some m
        | none => some ((key, value) :: m)

/-- internal/kconfig/kconfig.go:37-47, the scan loop of `Parse`; `readErr` tells whether the
scanner ends with an error (I/O error or line too long). -/
def scan (filter : Option (List Bytes)) (readErr : Bool) : List Bytes → StrMap → Option StrMap
  | [], ret => if readErr then none else some ret
  | line :: rest, ret =>
    match processLine line ret filter with
    | none => none
    | some ret =>
      match filter with
      | some f => if ret.length = f.length then some ret else scan filter readErr rest ret
      | none => scan filter readErr rest ret

/-- internal/kconfig/kconfig.go:23-58 `Parse`, on the lines yielded by `bufio.Scanner`.
Simplification: gzip detection and decompression and `zr.Close` are not modelled; the input is
the list of lines the scanner yields plus its final error state. -/
def parse (lines : List Bytes) (readErr : Bool) (filter : Option (List Bytes)) : Option StrMap :=
  scan filter readErr lines []

/-! ## Writing values -/

/-- btf.IntEncoding (btf/types.go): `Unsigned`, `Signed`, `Char`, `Bool`. -/
inductive Enc where
  | unsigned | signed | char | bool
deriving DecidableEq

/-- The parts of `btf.Int` used here. -/
structure IntType where
  size : BitVec 32
  enc : Enc

/-- Why a call did not succeed: an `error` value or a Go panic. -/
inductive Fail where
  | error
  | panic
deriving DecidableEq

/-- Go `copy(data, bytes)` restricted to `bytes.length ≤ data.length`. -/
def overwrite (data w : Bytes) : Bytes := w ++ data.drop w.length

/-- `math.MinIntN ≤ int64(n) ≤ math.MaxIntN` as tested at kconfig.go:253,258,263. -/
def fitsSigned (bits : Nat) (n : BitVec 64) : Bool :=
  !(n.toInt > 2 ^ (bits - 1) - 1 || n.toInt < -(2 ^ (bits - 1)))

/-- internal/kconfig/kconfig.go:241-274 `PutInteger`. `bo` is `internal.NativeEndian`. -/
def putInteger (bo : ByteOrder) (data : Bytes) (t : IntType) (n : BitVec 64) : Except Fail Bytes :=
  if t.enc = .bool ∧ n > 1 then .error .error
  else if data.length < t.size.toNat then .error .error
  else if t.size = 1 then
    if t.enc = .signed ∧ ¬ fitsSigned 8 n then .error .error
    else .ok (overwrite data [n.setWidth 8])
  else if t.size = 2 then
    if t.enc = .signed ∧ ¬ fitsSigned 16 n then .error .error
    else .ok (overwrite data (bo.put16 (n.setWidth 16)))
  else if t.size = 4 then
    if t.enc = .signed ∧ ¬ fitsSigned 32 n then .error .error
    else .ok (overwrite data (bo.put32 (n.setWidth 32)))
  else if t.size = 8 then .ok (overwrite data (bo.put64 n))
  else .error .error

/-- The BTF types `PutValue` distinguishes, after `btf.UnderlyingType` (kconfig.go:101).
`array` carries the underlying element type if it is an Int, and `Nelems`. -/
inductive KTyp where
  | int (t : IntType)
  | enum (name : Bytes)
  | array (content : Option IntType) (nelems : BitVec 32)
  | other

/-- internal/kconfig/kconfig.go:125-171 `putValueTri` for the values "y", "n", "m". -/
def putValueTri (bo : ByteOrder) (data : Bytes) (t : KTyp) (value : Bytes) : Except Fail Bytes :=
  match t with
  | .int v =>
    if v.enc ≠ .bool then .error .error
    else if v.size ≠ 1 then .error .error
    else if value = ascii "y" then
      if data = [] then .error .panic else .ok (overwrite data [1])
    else if value = ascii "n" then
      if data = [] then .error .panic else .ok (overwrite data [0])
    else .error .error
  | .enum name =>
    if name ≠ ascii "libbpf_tristate" then .error .error
    else if data.length ≠ 4 then .error .error
    else if value = ascii "y" then .ok (overwrite data (bo.put32 1))
    else if value = ascii "m" then .ok (overwrite data (bo.put32 2))
    else if value = ascii "n" then .ok (overwrite data (bo.put32 0))
    else .error .error
  | _ => .error .error

/-- Go `strings.Trim(s, "\"")`. -/
def trimQuotes (s : Bytes) : Bytes :=
  ((s.dropWhile (· == 0x22#8)).reverse.dropWhile (· == 0x22#8)).reverse

/-- internal/kconfig/kconfig.go:173-205 `putValueString`. `len(str)` is truncated to uint32 and
`str[:Nelems]` panics if `Nelems > len(str)`, which cannot happen after the comparison unless
`len(str) ≥ 2^32`. -/
def putValueString (data : Bytes) (t : KTyp) (value : Bytes) : Except Fail Bytes :=
  match t with
  | .array (some c) nelems =>
    if c.size ≠ 1 ∨ c.enc = .bool then .error .error
    else if ¬ (ascii "\"").isPrefixOf value ∨ ¬ (ascii "\"").isSuffixOf value then .error .error
    else
      let str := trimQuotes value
      let str := if BitVec.ofNat 32 str.length ≥ nelems then str.take nelems.toNat else str
      .ok (overwrite data (str.take data.length))
  | _ => .error .error

/-- Go `strconv.ParseInt`/`ParseUint` with base 0, after the text has been read as the
mathematical integer `v` (`none`: syntax error). `bitSize = 0` means 64; sizes above 64 are
rejected. Simplification: the reading of the digits itself is not modelled. -/
def parseNum (signed : Bool) (v : Option Int) (bitSize : Nat) : Option (BitVec 64) :=
  let bits := if bitSize = 0 then 64 else bitSize
  if bits > 64 then none
  else match v with
    | none => none
    | some v =>
      if signed then
        if v < -(2 ^ (bits - 1)) ∨ v ≥ 2 ^ (bits - 1) then none else some (BitVec.ofInt 64 v)
      else
        if v < 0 ∨ v ≥ 2 ^ bits then none else some (BitVec.ofInt 64 v)

/-- internal/kconfig/kconfig.go:207-235 `putValueNumber`; the text is given by the number it
denotes. `sizeInBits` is computed in uint32 (line 214). -/
def putValueNumber (bo : ByteOrder) (data : Bytes) (t : KTyp) (v : Option Int) : Except Fail Bytes :=
  match t with
  | .int it =>
    let sizeInBits := (it.size * 8).toNat
    match parseNum (it.enc = .signed) v sizeInBits with
    | none => .error .error
    | some n => putInteger bo data it n
  | _ => .error .error

/-- internal/kconfig/kconfig.go:100-113 `PutValue` (the type is already underlying); `num` is the number the text
denotes for `strconv`. -/
def putValue (bo : ByteOrder) (data : Bytes) (t : KTyp) (value : Bytes) (num : Option Int) : Except Fail Bytes :=
  if value = ascii "y" ∨ value = ascii "n" ∨ value = ascii "m" then putValueTri bo data t value
  else if (ascii "\"").isPrefixOf value then putValueString data t value
  else putValueNumber bo data t num

end Ebpf.Kconfig
