import Verif.Model.MapSpec
import Verif.Model.Platform
/-!
# Model of `createMap` and `handleMapCreateError` (`map.go`), `maybeFillObjName` (`syscalls.go`): what BPF_MAP_CREATE is told on Linux, and how its failure is reported

Messages keep the hint and what they wrap. What is closed and when is modelled in `Model/MapCreate`.
-/
namespace Ebpf.MapAttr
open Ebpf.MapSpec

/-- The outcome of a feature probe. -/
inductive Feat where
  | ok
  | notSupported
  | failed
deriving DecidableEq, Repr

/-- An error of `sys.MapCreate`: ErrTokenCapabilities, or an errno (internal/sys/token.go:49-66, syscall.go). -/
inductive KErr where
  | token
  | errno (n : Nat)
deriving DecidableEq, Repr

/-- internal/sys/types.go `MapCreateAttr`, the fields that are set. -/
structure Attr where
  name : Bytes
  type : BitVec 32
  keySize : BitVec 32
  valueSize : BitVec 32
  maxEntries : BitVec 32
  flags : BitVec 32
  numaNode : BitVec 32
  mapExtra : BitVec 64
  innerFd : BitVec 32 := 0
  btfFd : BitVec 32 := 0
  btfKey : BitVec 32 := 0
  btfValue : BitVec 32 := 0
  vmlinuxValue : BitVec 32 := 0
  valueObjFd : BitVec 32 := 0
deriving DecidableEq, Repr

/-- map.go:52-97 `MapSpec`, what `createMap` looks at; `extraOk`: Extra has only zeroes, `hasBTF`: Key or Value is set. -/
structure Spec where
  name : Bytes
  m : MSpec
  numaNode : BitVec 32
  mapExtra : BitVec 64
  extraOk : Bool
  hasBTF : Bool

/-- btf/marshal.go:711-737 `MarshalMapKV`: a handle (or none) with the IDs, ErrNotSupported, or another error. -/
inductive KV where
  | ok (handle : Option (BitVec 32)) (key value : BitVec 32)
  | notSupported
  | failed

/-- Everything `createMap` asks for. `target`: what `structOpsFindTarget` gives: the size of the type, its ID and the descriptor of its module. -/
structure Env where
  cpus : Option (BitVec 32)
  objName : Feat
  allowsDot : Feat
  kv : KV
  valueIsStruct : Bool
  target : Option (BitVec 32 × BitVec 32 × Option (BitVec 32))
  nestedMaps : Feat
  mutability : Feat
  mmapable : Feat
  innerMaps : Feat
  noPrealloc : Feat
  pageSize : BitVec 32
  create : Attr → Except KErr Nat

/-- Hints in messages. -/
inductive Hint where
  | none
  | memlock
  | zeroEntries
  | preallocIncompatible
  | preallocNeeded
  | ringSize
deriving DecidableEq, Repr

/-- Features named by errors. -/
inductive Feature where
  | nestedMaps | mutability | mmapable | innerMaps | noPrealloc
deriving DecidableEq, Repr

/-- What `handleMapCreateError` returns: the error of the system call with a hint, an error that wraps nothing, or that of a probe. -/
inductive Report where
  | cause (h : Hint)
  | unspecified
  | feature (f : Feature)
deriving DecidableEq, Repr

/-- Errors of `createMap`. -/
inductive Err where
  | extra | fields | platform | btf | structNoBTF | structValue | structTarget
  | create (e : KErr) (r : Report)
deriving DecidableEq, Repr

/-- EPERM. -/
def eperm : Nat := 1
/-- EINVAL. -/
def einval : Nat := 22
/-- internal/sys/syscall.go:13 ENOTSUPP. -/
def enotsupp : Nat := 524

/-- syscalls.go:35-52 `sanitizeName` with -1. (Bytes above 127 are parts of characters that are not allowed.) -/
def sanitize (name : Bytes) : Bytes :=
  name.filter fun c => (65 ≤ c.toNat && c.toNat ≤ 90) || (97 ≤ c.toNat && c.toNat ≤ 122) || (48 ≤ c.toNat && c.toNat ≤ 57) || c.toNat == 46 || c.toNat == 95

/-- internal/sys/syscall.go:139-143 `NewObjName`; BPF_OBJ_NAME_LEN is 16. -/
def newObjName (name : Bytes) : Bytes := name.take 15 ++ List.replicate (16 - (name.take 15).length) 0#8

/-- syscalls.go:54-65 `maybeFillObjName`. -/
def fillName (env : Env) (name : Bytes) : Bytes :=
  if env.objName = .notSupported then List.replicate 16 0#8
  else
    let n := sanitize name
    newObjName (if env.allowsDot = .notSupported then n.filter (fun c => c != 46#8) else n)

/-- types.go:180-189 `mustHaveNoPrealloc`. -/
def mustHaveNoPrealloc (t : BitVec 32) : Bool := t == 32 || t == 28 || t == 29 || t == 24 || t == 11

/-- types.go:192-199 `mustHaveZeroMaxEntries`. -/
def mustHaveZeroMaxEntries (t : BitVec 32) : Bool := t == 32 || t == 19 || t == 21 || t == 28 || t == 29 || t == 24

/-- internal/math.go:9-11 `IsPow`. -/
def isPow (n : BitVec 32) : Bool := n != 0 && (n &&& (n - 1)) == 0

/-- map.go:682-696: the hints for EINVAL. -/
def invalidHint (m : MSpec) : Option Report :=
  if m.maxEntries = 0 ∧ ¬ mustHaveZeroMaxEntries m.type then some (.cause .zeroEntries)
  else if m.type = 0 then some .unspecified
  else if m.flags &&& 1 ≠ 0 ∧ ¬ mustHaveNoPrealloc m.type then some (.cause .preallocIncompatible)
  else if m.flags &&& 1 = 0 ∧ mustHaveNoPrealloc m.type then some (.cause .preallocNeeded)
  else none

/-- map.go:698-723: the first feature that is used and whose probe fails. -/
def missing (env : Env) (m : MSpec) : Option Feature :=
  if canStoreMap m.type ∧ env.nestedMaps ≠ .ok then some .nestedMaps
  else if (m.flags &&& 128 ≠ 0 ∨ m.flags &&& 256 ≠ 0) ∧ env.mutability ≠ .ok then some .mutability
  else if m.flags &&& 1024 ≠ 0 ∧ env.mmapable ≠ .ok then some .mmapable
  else if m.flags &&& 4096 ≠ 0 ∧ env.innerMaps ≠ .ok then some .innerMaps
  else if m.flags &&& 1 ≠ 0 ∧ env.noPrealloc ≠ .ok then some .noPrealloc
  else none

/-- map.go:698-734: the rest of `handleMapCreateError`. -/
def lateReport (env : Env) (attr : Attr) (m : MSpec) (e : KErr) : Report :=
  match missing env m with
  | some f => .feature f
  | none =>
    if e = .errno einval ∧ (attr.type = 27 ∨ attr.type = 31) ∧ (attr.maxEntries.umod env.pageSize ≠ 0 ∨ ¬ isPow attr.maxEntries) then .cause .ringSize
    else .cause .none

/-- map.go:665-734 `handleMapCreateError` on Linux. -/
def handleError (env : Env) (attr : Attr) (m : MSpec) (e : KErr) : Report :=
  if e = .token then .cause .none
  else if e = .errno eperm then .cause .memlock
  else match (if e = .errno einval then invalidHint m else none) with
    | some r => r
    | none => lateReport env attr m e

/-- map.go:576-592: the attributes without BTF. -/
def plainAttr (env : Env) (s : Spec) (m : MSpec) (inner : Option (BitVec 32)) : Attr :=
  { name := fillName env s.name, type := (Platform.decodeConstant m.type).2, keySize := m.keySize, valueSize := m.valueSize, maxEntries := m.maxEntries,
    flags := m.flags, numaNode := s.numaNode, mapExtra := s.mapExtra, innerFd := inner.getD 0 }

/-- map.go:610-639: the part for struct_ops; `spec.ValueSize` is changed as well. -/
def structOps (env : Env) (handle : Bool) (a : Attr) (m : MSpec) : Except Err (Attr × MSpec) :=
  if ¬ handle then .error .structNoBTF
  else if ¬ env.valueIsStruct then .error .structValue
  else match env.target with
    | none => .error .structTarget
    | some (size, target, module?) =>
      let a := { a with valueSize := size, vmlinuxValue := target }
      let a := match module? with
        | some fd => { a with flags := a.flags ||| 32768, valueObjFd := fd }
        | none => a
      .ok ({ a with btfKey := 0, btfValue := 0 }, { m with valueSize := size })

/-- map.go:594-640: the attributes with BTF, and the spec. StructOpsMap is 26. -/
def withBTF (env : Env) (s : Spec) (a : Attr) (m : MSpec) : Except Err (Attr × MSpec) :=
  if ¬ s.hasBTF then .ok (a, m)
  else match env.kv with
    | .failed => .error .btf
    | .notSupported => if m.type = 26 then structOps env false a m else .ok (a, m)
    | .ok h key value =>
      let a := match h with
        | some fd => { a with btfFd := fd, btfKey := key, btfValue := value }
        | none => a
      if m.type = 26 then structOps env h.isSome a m else .ok (a, m)

/-- map.go:647-650: try again without BTF. -/
def withoutBTF (a : Attr) : Attr := { a with btfFd := 0, btfKey := 0, btfValue := 0 }

/-- map.go:642-654: the system calls, in order, and the descriptor or the error. -/
def calls (env : Env) (a : Attr) (m : MSpec) : List Attr × Except Err Nat :=
  match env.create a with
  | .ok fd => ([a], .ok fd)
  | .error e =>
    if (e = .errno enotsupp ∨ e = .errno einval) ∧ a.btfFd ≠ 0 then
      match env.create (withoutBTF a) with
      | .ok fd => ([a, withoutBTF a], .ok fd)
      | .error e => ([a, withoutBTF a], .error (.create e (handleError env (withoutBTF a) m e)))
    else ([a], .error (.create e (handleError env a m e)))

/-- map.go:551-655 `createMap` up to the descriptor: the system calls, in order, and the descriptor or the error. -/
def createMap (env : Env) (s : Spec) (inner : Option (BitVec 32)) : List Attr × Except Err Nat :=
  if ¬ s.extraOk then ([], .error .extra)
  else match (fixup env.cpus s.m).1 with
    | none => ([], .error .fields)
    | some m =>
      if (Platform.decodeConstant m.type).1 ≠ "linux" then ([], .error .platform)
      else match withBTF env s (plainAttr env s m inner) m with
        | .error e => ([], .error e)
        | .ok (a, m') => calls env a m'

end Ebpf.MapAttr
