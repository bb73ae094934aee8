import Verif.Base
/-! # Model of `internal/math.go` and `internal/version.go` -/
namespace Ebpf.Internal

/-- internal/math.go:4-6 `Align[I]` for an unsigned type of `w` bits; division by zero panics (`none`). -/
def alignU {w : Nat} (n a : BitVec w) : Option (BitVec w) :=
  if a = 0 then none else some ((n + a - 1) / a * a)

/-- internal/math.go:4-6 `Align[I]` for a signed type of `w` bits (Go `/` truncates toward zero). -/
def alignS {w : Nat} (n a : BitVec w) : Option (BitVec w) :=
  if a = 0 then none else some ((n + a - 1).sdiv a * a)

/-- internal/math.go:9-11 `IsPow[I]` (signed and unsigned types compute the same bits). -/
def isPow {w : Nat} (n : BitVec w) : Bool := n != 0 && (n &&& (n - 1)) == 0

/-- internal/math.go:14-22 `Between[I]`, over the integers the operands denote
(no arithmetic is involved, only comparisons). -/
def between (val a b : Int) : Int :=
  let (lower, upper) := if a > b then (b, a) else (a, b)
  max (min val upper) lower

/-- internal/version.go:16 `Version` (`[3]uint16`). -/
structure Version where
  major : BitVec 16
  minor : BitVec 16
  patch : BitVec 16
deriving DecidableEq

/-- internal/version.go:31-37 `NewVersionFromCode`. -/
def versionFromCode (code : BitVec 32) : Version :=
  ⟨((code >>> 16).setWidth 8).setWidth 16, ((code >>> 8).setWidth 8).setWidth 16,
    (code.setWidth 8).setWidth 16⟩

/-- internal/version.go:47-55 `Version.Less` (the loop over three elements unrolled). -/
def Version.less (v o : Version) : Bool :=
  if v.major ≠ o.major then v.major < o.major
  else if v.minor ≠ o.minor then v.minor < o.minor
  else if v.patch ≠ o.patch then v.patch < o.patch
  else false

/-- internal/version.go:58-60 `Unspecified`. -/
def Version.unspecified (v : Version) : Bool := v.major == 0 && v.minor == 0 && v.patch == 0

/-- internal/version.go:64-74 `Version.Kernel`. -/
def Version.kernel (v : Version) : BitVec 32 :=
  let s : BitVec 16 := if v.patch < 255 then v.patch else 255
  ((v.major.setWidth 8).setWidth 32) <<< 16 ||| ((v.minor.setWidth 8).setWidth 32) <<< 8 |||
    (s.setWidth 8).setWidth 32

end Ebpf.Internal
