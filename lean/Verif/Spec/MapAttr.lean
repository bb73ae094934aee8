import Verif.Model.MapAttr
/-!
# Specification: what the kernel is told about a new map, and how its refusal is reported
-/
namespace Ebpf.MapAttr.Spec
open Ebpf.MapSpec Ebpf.MapAttr

/-- Characters that may be in the name of an object: letters, digits, dot and underscore. -/
def Allowed (c : Byte) : Prop :=
  (0x41 ≤ c.toNat ∧ c.toNat ≤ 0x5a) ∨ (0x61 ≤ c.toNat ∧ c.toNat ≤ 0x7a) ∨ (0x30 ≤ c.toNat ∧ c.toNat ≤ 0x39) ∨ c = 0x2e#8 ∨ c = 0x5f#8

/-- The second list has those elements of the first that satisfy `P`, in order. -/
inductive Only (P : Byte → Prop) : Bytes → Bytes → Prop
  | nil : Only P [] []
  | keep {c a b} : P c → Only P a b → Only P (c :: a) (c :: b)
  | drop {c a b} : ¬ P c → Only P a b → Only P (c :: a) b

/-- The name in the attributes: 16 bytes, at most 15 from the name's allowed characters, the rest zero; no name if the kernel doesn't know names,
no dots if it doesn't know them. -/
def NameFor (objName allowsDot : Feat) (name b : Bytes) : Prop :=
  b.length = 16 ∧
  ((objName = .notSupported ∧ ∀ c ∈ b, c = 0#8) ∨
   (objName ≠ .notSupported ∧ ∃ n z, Only (fun c => Allowed c ∧ (c = 0x2e#8 → allowsDot ≠ .notSupported)) name n ∧ b = n.take 15 ++ z ∧ ∀ c ∈ z, c = 0#8))

/-- Size of the value, flags, BTF descriptor, IDs of key and value, ID of the kernel's type and descriptor of its module. -/
inductive Told (env : Env) (s : MapAttr.Spec) (m : MSpec) : BitVec 32 → BitVec 32 → BitVec 32 → BitVec 32 → BitVec 32 → BitVec 32 → BitVec 32 → Prop
  /-- There is no BTF, or the kernel doesn't know it. -/
  | plain : (s.hasBTF = false ∨ (m.type ≠ 26 ∧ (env.kv = .notSupported ∨ ∃ k v, env.kv = .ok none k v))) → Told env s m m.valueSize m.flags 0 0 0 0 0
  /-- Key and value have BTF. -/
  | btf {fd k v} : s.hasBTF = true → m.type ≠ 26 → env.kv = .ok (some fd) k v → Told env s m m.valueSize m.flags fd k v 0 0
  /-- struct_ops, with a type of vmlinux. -/
  | vmlinux {fd k v size tid} : s.hasBTF = true → m.type = 26 → env.kv = .ok (some fd) k v → env.valueIsStruct = true → env.target = some (size, tid, none) →
      Told env s m size m.flags fd 0 0 tid 0
  /-- struct_ops, with a type of a module. -/
  | inModule {fd k v size tid o} : s.hasBTF = true → m.type = 26 → env.kv = .ok (some fd) k v → env.valueIsStruct = true → env.target = some (size, tid, some o) →
      Told env s m size (m.flags ||| 0x8000#32) fd 0 0 tid o

/-- The attributes for a spec (after its magic fields have been set). -/
structure AttrFor (env : Env) (s : MapAttr.Spec) (m : MSpec) (inner : Option (BitVec 32)) (a : Attr) : Prop where
  name : NameFor env.objName env.allowsDot s.name a.name
  type : a.type = m.type
  keySize : a.keySize = m.keySize
  maxEntries : a.maxEntries = m.maxEntries
  numaNode : a.numaNode = s.numaNode
  mapExtra : a.mapExtra = s.mapExtra
  inner : a.innerFd = inner.getD 0
  told : Told env s m a.valueSize a.flags a.btfFd a.btfKey a.btfValue a.vmlinuxValue a.valueObjFd

/-- `b` is `a` without BTF of key and value. -/
def NoBTF (a b : Attr) : Prop := b = { a with btfFd := 0, btfKey := 0, btfValue := 0 }

/-- The kernel's answer is that it doesn't know something. -/
def Refused (e : KErr) : Prop := e = .errno 524 ∨ e = .errno 22

/-- The map is of a type whose number of entries is zero: local storage. -/
def StorageType (t : BitVec 32) : Prop := t = 19 ∨ t = 21 ∨ t = 24 ∨ t = 28 ∨ t = 29 ∨ t = 32

/-- The map is of a type that isn't preallocated: an LPM trie or local storage of other kinds. -/
def DynamicType (t : BitVec 32) : Prop := t = 11 ∨ t = 24 ∨ t = 28 ∨ t = 29 ∨ t = 32

/-- There is no need to ask the kernel: no entries, no type, or preallocation that isn't possible or can't be turned off. -/
def Doubtful (m : MSpec) : Prop :=
  (m.maxEntries = 0 ∧ ¬ StorageType m.type) ∨ m.type = 0 ∨ (m.flags.getLsbD 0 = true ∧ ¬ DynamicType m.type) ∨ (m.flags.getLsbD 0 = false ∧ DynamicType m.type)

/-- The error is reported without looking at features. -/
def Direct (m : MSpec) (e : KErr) : Prop := e = .token ∨ e = .errno 1 ∨ (e = .errno 22 ∧ Doubtful m)

/-- The spec makes use of the feature. -/
def Uses (m : MSpec) : Feature → Prop
  | .nestedMaps => m.type = 12 ∨ m.type = 13
  | .mutability => m.flags.getLsbD 7 = true ∨ m.flags.getLsbD 8 = true
  | .mmapable => m.flags.getLsbD 10 = true
  | .innerMaps => m.flags.getLsbD 12 = true
  | .noPrealloc => m.flags.getLsbD 0 = true

/-- The outcome of its probe. -/
def probe (env : Env) : Feature → Feat
  | .nestedMaps => env.nestedMaps
  | .mutability => env.mutability
  | .mmapable => env.mmapable
  | .innerMaps => env.innerMaps
  | .noPrealloc => env.noPrealloc

/-- The order of probes. -/
def order : List Feature := [.nestedMaps, .mutability, .mmapable, .innerMaps, .noPrealloc]

/-- This feature, and none before it, is used and missing. -/
def FirstMissing (env : Env) (m : MSpec) (f : Feature) : Prop :=
  ∃ a b, order = a ++ f :: b ∧ Uses m f ∧ probe env f ≠ .ok ∧ ∀ g ∈ a, Uses m g → probe env g = .ok

/-- No feature that is used is missing. -/
def NothingMissing (env : Env) (m : MSpec) : Prop := ∀ f, Uses m f → probe env f = .ok

/-- The size of a ring buffer: a multiple of the page size and a power of two. -/
def RingSize (n page : BitVec 32) : Prop := page.toNat ∣ n.toNat ∧ ∃ k, n.toNat = 2 ^ k

end Ebpf.MapAttr.Spec
