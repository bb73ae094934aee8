import Verif.Model.Helpers
import Verif.Base
/-!
# Model of what is read from the running kernel: internal/linux/vdso.go, internal/linux/auxv.go, internal/linux/version.go, internal/linux/cpu.go,
internal/version.go:19-44, internal/platform/platform.go:22-62

The vDSO is given by its byte order and the contents of its sections of type SHT_NOTE, in order (NewSafeELFFile, SectionsByType: not modelled).
-/
namespace Ebpf.KernelInfo

/-- Errors, as far as they differ. -/
inductive Err | noVDSO | badAddress | badNote | noNoteSection | noLinuxNote | badFormat
deriving DecidableEq

/-! ## The address of the vDSO -/

/-- internal/linux/vdso.go:52-75 `vdsoMemoryAddress`, reading from internal/linux/auxv.go:31-46 `ReadAuxvPair`: a null pair follows the vector. -/
def vdsoAddress : List (Nat × Nat) → Except Err Nat
  | [] => .error .noVDSO
  | (tag, value) :: r =>
    if tag = 33 then (if value ≠ 0 then .ok value else .error .badAddress)
    else if tag = 0 then .error .noVDSO
    else vdsoAddress r

/-! ## Notes -/

/-- internal/math.go:4-6 `Align[int32](n, 4)` for a positive `n`: the sum may wrap, the division truncates. -/
def align4 (n : Int) : Int := (if n + 3 < 2 ^ 31 then n + 3 else n + 3 - 2 ^ 32).tdiv 4 * 4

/-- golang.org/x/sys/unix `ByteSliceToString`: up to the first NUL. -/
def upToNul (b : Bytes) : Bytes := b.takeWhile (· ≠ 0)

/-- What becomes of reading notes: a version, the end of the section, an error, a panic; `stuck` if the bound on the number of steps is too low. -/
inductive Found | version (v : BitVec 32) | none | error | panic | stuck
deriving DecidableEq

/-- A 32 bit number at an offset, as encoding/binary reads it. -/
def u32 (bo : ByteOrder) (b : Bytes) (off : Nat) : BitVec 32 := bo.get32 (b.getD off 0) (b.getD (off + 1) 0) (b.getD (off + 2) 0) (b.getD (off + 3) 0)

/-- "Linux". -/
def linuxName : Bytes := [0x4c, 0x69, 0x6e, 0x75, 0x78]

/-- What reading the name leads to. -/
inductive Name | read (name rest : Bytes) | fail | panic

/-- internal/linux/vdso.go:112-123: the name of a note and what follows. -/
def readName (nameSize : Int) (rest : Bytes) : Name :=
  if 0 < nameSize then
    let al := align4 nameSize
    if al < 0 then .panic
    else if rest.length < al.toNat then .fail
    else .read (upToNul (rest.take nameSize.toNat)) (rest.drop al.toNat)
  else .read [] rest

/-- internal/linux/vdso.go:135-138: skipping a description. io.CopyN copies nothing if the number is negative. -/
def skipDesc (descSize : Int) (rest : Bytes) : Option Bytes :=
  let al := align4 descSize
  if al < 0 then some rest
  else if rest.length < al.toNat then none
  else some (rest.drop al.toNat)

/-- internal/linux/vdso.go:101-141: the notes of a section. `fuel` bounds the number of notes. -/
def scanNotes (bo : ByteOrder) : Nat → Bytes → Found
  | 0, _ => .stuck
  | fuel + 1, b =>
    if b.length = 0 then .none
    else if b.length < 12 then .error
    else
      match readName (u32 bo b 0).toInt (b.drop 12) with
      | .panic => .panic
      | .fail => .error
      | .read name rest =>
        if 0 < (u32 bo b 4).toInt then
          if name = linuxName ∧ (u32 bo b 4).toInt = 4 ∧ (u32 bo b 8).toInt = 0 then
            if rest.length < 4 then .error else .version (u32 bo rest 0)
          else match skipDesc (u32 bo b 4).toInt rest with
            | none => .error
            | some r => scanNotes bo fuel r
        else scanNotes bo fuel rest

/-- internal/linux/vdso.go:97-144: all sections. -/
def scanSections (bo : ByteOrder) : List Bytes → Found
  | [] => .none
  | s :: r =>
    match scanNotes bo (s.length + 1) s with
    | .none => scanSections bo r
    | f => f

/-- internal/linux/vdso.go:86-147 `vdsoLinuxVersionCode`. `none`: a panic (or out of steps). -/
def linuxVersionCode (bo : ByteOrder) (sections : List Bytes) : Option (Except Err (BitVec 32)) :=
  if sections.length = 0 then some (.error .noNoteSection)
  else match scanSections bo sections with
    | .version v => some (.ok v)
    | .none => some (.error .noLinuxNote)
    | .error => some (.error .badNote)
    | .panic => none
    | .stuck => none

/-- internal/linux/version.go:15-22 `detectKernelVersion`, from the vector and the vDSO at an address. -/
def detectKernelVersion (auxv : List (Nat × Nat)) (mem : Nat → ByteOrder × List Bytes) : Option (Except Err Internal.Version) :=
  match vdsoAddress auxv with
  | .error e => some (.error e)
  | .ok a => (linuxVersionCode (mem a).1 (mem a).2).map fun r => r.map Internal.versionFromCode

/-! ## fmt.Sscanf -/

/-- A decimal digit. -/
def isDigit (c : Byte) : Bool := 0x30 ≤ c.toNat && c.toNat ≤ 0x39

/-- Spaces of ASCII other than the newline: tab, vertical tab, form feed, carriage return, space. -/
def isBlank (c : Byte) : Bool := c = 0x20 || c = 0x09 || c = 0x0b || c = 0x0c || c = 0x0d

/-- fmt/scan.go `SkipSpace` within Sscanf: a newline is an error. Input is ASCII. -/
def skipSpace : Bytes → Option Bytes
  | [] => some []
  | c :: r => if isBlank c then skipSpace r else if c = 0x0a then none else some (c :: r)

/-- The value of decimal digits. -/
def value (b : Bytes) : Nat := b.foldl (fun acc c => acc * 10 + (c.toNat - 0x30)) 0

/-- fmt/scan.go `scanNumber` with decimal digits: at least one of them. -/
def scanDigits (b : Bytes) : Option (Nat × Bytes) :=
  let ds := b.takeWhile isDigit
  if ds = [] then none else some (value ds, b.dropWhile isDigit)

/-- fmt/scan.go `accept("+-")`: whether there was a minus, and the rest. -/
def takeSign : Bytes → Bool × Bytes
  | [] => (false, [])
  | c :: r => if c = 0x2d then (true, r) else if c = 0x2b then (false, r) else (false, c :: r)

/-- fmt/scan.go `scanInt` for `%d` into an int (64 bit). -/
def scanInt (b : Bytes) : Option (Int × Bytes) :=
  match skipSpace b with
  | none => none
  | some b =>
    match scanDigits (takeSign b).2 with
    | none => none
    | some (n, r) =>
      let v : Int := if (takeSign b).1 then -n else n
      if v < -(2 ^ 63) ∨ 2 ^ 63 ≤ v then none else some (v, r)

/-- fmt/scan.go `scanUint` for `%d` into a uint16. -/
def scanUint16 (b : Bytes) : Option (Nat × Bytes) :=
  match skipSpace b with
  | none => none
  | some b =>
    match scanDigits b with
    | none => none
    | some (n, r) => if n < 2 ^ 16 then some (n, r) else none

/-- fmt/scan.go `advance`, for a newline at the end of the format: blanks, then a newline or the end. -/
def newlineOrEnd : Bytes → Bool
  | [] => true
  | c :: r => if isBlank c then newlineOrEnd r else c = 0x0a

/-- fmt/scan.go `advance`, for a character which isn't a space. -/
def literal (l : Byte) : Bytes → Option Bytes
  | [] => none
  | c :: r => if c = l then some r else none

/-! ## CPUs -/

/-- `strings.Trim(s, "\n")`. -/
def trimNewlines (b : Bytes) : Bytes := ((b.dropWhile (· = 0x0a)).reverse.dropWhile (· = 0x0a)).reverse

/-- internal/linux/cpu.go:29-45 `parseCPUs`; `Sscanf(spec, "%d-%d\n")`. The sum may wrap. -/
def parseCPUs (spec : Bytes) : Except Err Int :=
  if trimNewlines spec = [0x30] then .ok 1
  else match scanInt spec with
    | none => .error .badFormat
    | some (low, r) =>
      match literal 0x2d r with
      | none => .error .badFormat
      | some r =>
        match scanInt r with
        | none => .error .badFormat
        | some (high, r) =>
          if newlineOrEnd r = false then .error .badFormat
          else if low ≠ 0 then .error .badFormat
          else .ok (if high + 1 = 2 ^ 63 then -(2 ^ 63) else high + 1)

/-! ## Version numbers -/

/-- internal/version.go:21-28 `NewVersion`: `Sscanf(ver, "%d.%d.%d")`; numbers which can't be read stay zero. -/
def newVersion (ver : Bytes) : Except Err (Nat × Nat × Nat) :=
  match scanUint16 ver with
  | none => .error .badFormat
  | some (major, r) =>
    match literal 0x2e r with
    | none => .error .badFormat
    | some r =>
      match scanUint16 r with
      | none => .error .badFormat
      | some (minor, r) =>
        match literal 0x2e r with
        | none => .ok (major, minor, 0)
        | some r =>
          match scanUint16 r with
          | none => .ok (major, minor, 0)
          | some (patch, _) => .ok (major, minor, patch)

/-- `strings.CutPrefix`. -/
def cutPrefix (p s : Bytes) : Option Bytes := if p.isPrefixOf s then some (s.drop p.length) else none

/-- "linux". -/
def linuxOS : Bytes := [0x6c, 0x69, 0x6e, 0x75, 0x78]

/-- internal/platform/platform.go:41-59: the loop of `selectVersion`. -/
def selectLoop (goos native : Bytes) : List Bytes → Bytes
  | [] => []
  | v :: r =>
    match cutPrefix (goos ++ [0x3a]) v with
    | some a => a
    | none =>
      match (if native ≠ [] ∧ native ≠ goos then cutPrefix (native ++ [0x3a]) v else none) with
      | some a => a
      | none => if native = linuxOS ∧ v.contains 0x3a = false then v else selectLoop goos native r

/-- internal/platform/platform.go:33-62 `selectVersion`. -/
def selectVersion (goos native : Bytes) (versions : List Bytes) : Except Err Bytes :=
  if versions = [] then .error .badFormat else .ok (selectLoop goos native versions)

end Ebpf.KernelInfo
