import Verif.Model.Kconfig
import Verif.Model.Helpers
/-!
# Model of `collection.go:714-808` `resolveKconfig` and `internal/linux/kconfig.go`

The contents of the map behind `.kconfig`. Not on Windows, and the value of the map is a datasec of variables (collection.go:715-722: anything else is an error).
-/
namespace Ebpf.KconfigMap
open Ebpf.Kconfig

/-- A variable of the section: name, offset and size from the datasec, and its type. `direct`: the type is not behind a typedef or a qualifier; `typ` is the
type without them. -/
structure KVar where
  name : Bytes
  off : BitVec 32
  size : BitVec 32
  direct : Bool
  typ : KTyp

/-- A configuration file: the lines the scanner yields, and whether it ends with an error. -/
structure File where
  lines : List Bytes
  readErr : Bool

/-- What is asked of the host. -/
structure World where
  /-- linux.KernelVersion -/
  version : Option Internal.Version
  /-- haveSyscallWrapper: `none` is an error other than ErrNotSupported. -/
  wrapper : Option Bool
  /-- linux.KernelRelease -/
  release : Option Bytes
  /-- os.Open -/
  file : Bytes → Option File

/-- collection.go:739,750: the type assertion to `*btf.Int`. -/
def KVar.int? (v : KVar) : Option IntType :=
  match v.direct, v.typ with
  | true, .int t => some t
  | _, _ => none

/-- The encoding of the type is `btf.Signed`, which selects the parser of numbers. -/
def KVar.signed (v : KVar) : Bool :=
  match v.typ with
  | .int t => t.enc = .signed
  | _ => false

/-- Writing through the Go slice `data[off:]`. -/
def writeFrom (data : Bytes) (off : Nat) (f : Bytes → Except Fail Bytes) : Except Fail Bytes :=
  if data.length < off then .error .panic
  else match f (data.drop off) with
    | .error e => .error e
    | .ok d => .ok (data.take off ++ d)

/-- Writing through the Go slice `data[lo:hi]`. -/
def writeSlice (data : Bytes) (lo hi : Nat) (f : Bytes → Except Fail Bytes) : Except Fail Bytes :=
  if hi < lo ∨ data.length < hi then .error .panic
  else match f ((data.drop lo).take (hi - lo)) with
    | .error e => .error e
    | .ok d => .ok (data.take lo ++ d ++ data.drop hi)

/-- `internal.NativeEndian.PutUint32`: panics if there is no room. -/
def putUint32 (bo : ByteOrder) (x : BitVec 32) (data : Bytes) : Except Fail Bytes :=
  if data.length < 4 then .error .panic else .ok (overwrite data (bo.put32 x))

/-- collection.go:738-747: LINUX_KERNEL_VERSION. -/
def putVersion (bo : ByteOrder) (w : World) (data : Bytes) (v : KVar) : Except Fail Bytes :=
  match v.int? with
  | none => .error .error
  | some t =>
    if t.size ≠ 4 then .error .error
    else match w.version with
      | none => .error .error
      | some kv => writeFrom data v.off.toNat (putUint32 bo kv.kernel)

/-- collection.go:749-763: LINUX_HAS_SYSCALL_WRAPPER. -/
def putWrapper (bo : ByteOrder) (w : World) (data : Bytes) (v : KVar) : Except Fail Bytes :=
  match v.int? with
  | none => .error .error
  | some t =>
    match w.wrapper with
    | none => .error .error
    | some b => writeFrom data v.off.toNat fun d => putInteger bo d t (if b then 1 else 0)

/-- collection.go:765-770: the map of options; a second variable of a name replaces the first one. -/
def addConfig (cs : List KVar) (v : KVar) : List KVar := cs.filter (fun c => c.name ≠ v.name) ++ [v]

/-- collection.go:732-772: the loop over the variables. -/
def collect (bo : ByteOrder) (w : World) : List KVar → Bytes → List KVar → Except Fail (Bytes × List KVar)
  | [], data, cs => .ok (data, cs)
  | v :: vs, data, cs =>
    if v.name = ascii "LINUX_KERNEL_VERSION" then
      match putVersion bo w data v with
      | .error e => .error e
      | .ok data => collect bo w vs data cs
    else if v.name = ascii "LINUX_HAS_SYSCALL_WRAPPER" then
      match putWrapper bo w data v with
      | .error e => .error e
      | .ok data => collect bo w vs data cs
    else collect bo w vs data (addConfig cs v)

/-- internal/linux/kconfig.go:13-31 `FindKConfig`. -/
def findKConfig (w : World) : Option File :=
  match w.release with
  | none => none
  | some r =>
    match w.file (ascii "/boot/config-" ++ r) with
    | some f => some f
    | none => w.file (ascii "/proc/config.gz")

/-- collection.go:792-802: the loop over the options. `num signed text` is the number the text denotes for `strconv`. The end of the slice is computed in 32
bits. -/
def fill (bo : ByteOrder) (num : Bool → Bytes → Option Int) (conf : StrMap) : List KVar → Bytes → Except Fail Bytes
  | [], data => .ok data
  | v :: vs, data =>
    match conf.lookup v.name with
    | none => .error .error
    | some text =>
      match writeSlice data v.off.toNat (v.off + v.size).toNat (fun d => putValue bo d v.typ text (num v.signed text)) with
      | .error e => .error e
      | .ok data => fill bo num conf vs data

/-- collection.go:714-808 `resolveKconfig`: the value put at key 0. `order` is the order in which Go goes through the map of options. -/
def resolveKconfig (bo : ByteOrder) (num : Bool → Bytes → Option Int) (w : World) (order : List KVar → List KVar) (size : BitVec 32) (vars : List KVar) :
    Except Fail Bytes :=
  match collect bo w vars (List.replicate size.toNat 0) [] with
  | .error e => .error e
  | .ok (data, cs) =>
    if cs.length > 0 then
      match findKConfig w with
      | none => .error .error
      | some f =>
        match parse f.lines f.readErr (some (cs.map (·.name))) with
        | none => .error .error
        | some conf => fill bo num conf (order cs) data
    else .ok data

end Ebpf.KconfigMap
