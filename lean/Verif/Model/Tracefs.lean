import Verif.Base
/-!
# Model of the text interface to tracefs: `internal/tracefs/kprobe.go`, `internal/tracefs/uprobe.go`, `link/kprobe.go:132-159`

Strings are their bytes. `int` is an integer, `uint64` a natural number below 2^64.
-/
namespace Ebpf.Tracefs

/-- `c >= 'a' && c <= 'z' || c >= 'A' && c <= 'Z'`. -/
def isLetter (c : Byte) : Bool := (0x61#8 ≤ c && c ≤ 0x7a#8) || (0x41#8 ≤ c && c ≤ 0x5a#8)

/-- `c >= '0' && c <= '9'`. -/
def isDigit (c : Byte) : Bool := 0x30#8 ≤ c && c ≤ 0x39#8

/-- internal/tracefs/kprobe.go:80-96: the switch, for characters after the first. -/
def identRest (c : Byte) : Bool := isLetter c || c = 0x5f#8 || c = 0x2d#8 || isDigit c

/-- internal/tracefs/kprobe.go:76-97 `validIdentifier`. -/
def validIdentifier : Bytes → Bool
  | [] => false
  | c :: cs => (isLetter c || c = 0x5f#8) && cs.all identRest

/-- link/kprobe.go:141-156: the switch, for characters after the first. -/
def symbolRest (c : Byte) : Bool := isLetter c || c = 0x5f#8 || isDigit c || c = 0x2e#8

/-- link/kprobe.go:132-159 `isValidKprobeSymbol`. -/
def validSymbol : Bytes → Bool
  | [] => false
  | c :: cs => (isLetter c || c = 0x5f#8) && cs.all symbolRest

/-- internal/tracefs/kprobe.go:178-198 `sanitizeIdentifier`. Go maps runes; all bytes of runes above 127 are invalid here, and runs of invalid characters give one underscore either way. -/
def sanitize : Bool → Bytes → Bytes
  | _, [] => []
  | skip, c :: cs =>
    if isLetter c || isDigit c then c :: sanitize false cs
    else if skip then sanitize true cs
    else 0x5f#8 :: sanitize true cs

/-- internal/tracefs/kprobe.go:178-198 `sanitizeIdentifier`. -/
def sanitizeIdentifier (s : Bytes) : Bytes := sanitize false s

/-- A hexadecimal digit. -/
def hexDigit (n : Nat) : Byte := if n < 10 then BitVec.ofNat 8 (0x30 + n) else BitVec.ofNat 8 (0x61 + (n - 10))

/-- `%x` of a number below 16^fuel, without leading zeroes. -/
def hexDigits : Nat → Nat → Bytes
  | 0, _ => []
  | fuel + 1, n => if n < 16 then [hexDigit n] else hexDigits fuel (n / 16) ++ [hexDigit (n % 16)]

/-- `%#x` of a uint64. -/
def hex (n : Nat) : Bytes := 0x30#8 :: 0x78#8 :: hexDigits 16 n

/-- `%d` of a number below 10^fuel. -/
def decDigits : Nat → Nat → Bytes
  | 0, _ => []
  | fuel + 1, n => if n < 10 then [hexDigit n] else decDigits fuel (n / 10) ++ [hexDigit (n % 10)]

/-- `%d` of a positive int. -/
def dec (n : Nat) : Bytes := decDigits 20 n

/-- `%x` of bytes. -/
def hexBytes (b : Bytes) : Bytes := b.flatMap fun c => [hexDigit (c.toNat / 16), hexDigit (c.toNat % 16)]

/-- internal/tracefs/kprobe.go:48-67 `RandomGroup`, for the 8 bytes read. -/
def randomGroup (pre random : Bytes) : Option Bytes :=
  if validIdentifier pre = false then none
  else
    let group := pre ++ [0x5f#8] ++ hexBytes random
    if 63 < group.length then none else some group

/-- internal/tracefs/kprobe.go:36-42 `ProbeArgs`, the part the text depends on. -/
structure Args where
  uprobe : Bool
  symbol : Bytes
  group : Bytes
  path : Bytes
  offset : Nat
  refCtrOffset : Nat
  maxActive : Int
  ret : Bool

/-- internal/tracefs/kprobe.go:409-417 `KprobeToken`. -/
def kprobeToken (a : Args) : Bytes := if a.offset ≠ 0 then a.symbol ++ [0x2b#8] ++ hex a.offset else a.symbol

/-- internal/tracefs/uprobe.go:6-16 `UprobeToken`. -/
def uprobeToken (a : Args) : Bytes :=
  let po := a.path ++ [0x3a#8] ++ hex a.offset
  if a.refCtrOffset ≠ 0 then po ++ [0x28#8] ++ hex a.refCtrOffset ++ [0x29#8] else po

/-- internal/tracefs/kprobe.go:226-234 `probePrefix`. -/
def probePrefix (ret : Bool) (maxActive : Int) : Bytes :=
  if ret then
    if 0 < maxActive then 0x72#8 :: dec maxActive.toNat else [0x72#8]
  else [0x70#8]

/-- internal/tracefs/kprobe.go:283-322: what is written to the events file, `none` for ErrInvalidMaxActive. -/
def command (a : Args) : Option Bytes :=
  if a.uprobe then
    if a.maxActive ≠ 0 then none
    else some (probePrefix a.ret 0 ++ [0x3a#8] ++ a.group ++ [0x2f#8] ++ sanitizeIdentifier a.symbol ++ [0x20#8] ++ uprobeToken a)
  else
    if a.maxActive ≠ 0 ∧ a.ret = false then none
    else some (probePrefix a.ret a.maxActive ++ [0x3a#8] ++ a.group ++ [0x2f#8] ++ sanitizeIdentifier a.symbol ++ [0x20#8] ++ kprobeToken a)

/-- internal/tracefs/kprobe.go:374-389 `removeEvent`: what is written. -/
def removal (group name : Bytes) : Bytes := [0x2d#8, 0x3a#8] ++ group ++ [0x2f#8] ++ name

end Ebpf.Tracefs
