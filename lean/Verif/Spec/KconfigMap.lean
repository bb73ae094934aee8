import Verif.Model.KconfigMap
import Verif.Spec.Kconfig
import Verif.Spec.KernelInfo
/-!
# Specification: the value of the `.kconfig` map
-/
namespace Ebpf.KconfigMapSpec
open Ebpf.Kconfig Ebpf.KconfigMap Ebpf.Spec.Kconfig

/-- `n` bytes of zero. -/
def zeros (n : Nat) : Bytes := List.replicate n 0

/-- The bytes `s` of a variable of type `t` hold the value of an option which is written `text` in the configuration. `num signed text` is the number `text`
denotes. What the variable has beyond the value is zero. -/
inductive Means (bo : ByteOrder) (num : Bool → Bytes → Option Int) : KTyp → Bytes → Bytes → Prop
  /-- `y` and `n` in a `_Bool` -/
  | yes (r : Nat) : Means bo num (.int ⟨1, .bool⟩) [0x79#8] (1 :: zeros r)
  | no (r : Nat) : Means bo num (.int ⟨1, .bool⟩) [0x6e#8] (0 :: zeros r)
  /-- `n`, `y` and `m` in an `enum libbpf_tristate` -/
  | tri (name text s : Bytes) (n : Nat) : name = ascii "libbpf_tristate" → (text, n) ∈ [([0x6e#8], 0), ([0x79#8], 1), ([0x6d#8], 2)] →
      s.length = 4 → value bo s = n → Means bo num (.enum name) text s
  /-- A string without the quotes around it, cut if it is too long, in an array of characters -/
  | str (text t s : Bytes) (a b r : Nat) (c : IntType) (n : BitVec 32) : text = List.replicate a 0x22#8 ++ t ++ List.replicate b 0x22#8 → text.head? = some 0x22#8 →
      text.getLast? = some 0x22#8 → t.head? ≠ some 0x22#8 → t.getLast? ≠ some 0x22#8 → c.size = 1 → c.enc ≠ .bool →
      s = t.take (min n.toNat s.length) ++ zeros r → Means bo num (.array (some c) n) text s
  /-- A number in an integer -/
  | number (text w s : Bytes) (x : Int) (r : Nat) (t : IntType) : text ≠ [0x79#8] → text ≠ [0x6e#8] → text ≠ [0x6d#8] → text.head? ≠ some 0x22#8 →
      num (t.enc = .signed) text = some x → (t.size = 1 ∨ t.size = 2 ∨ t.size = 4 ∨ t.size = 8) → w.length = t.size.toNat → s = w ++ zeros r →
      (t.enc = .signed → signedValue bo w = x) → (t.enc ≠ .signed → (value bo w : Int) = x) → (t.enc = .bool → x ≤ 1) → Means bo num (.int t) text s

/-- The file with the configuration of the kernel: `/boot/config-` followed by the release, else `/proc/config.gz`. -/
def ConfigFile (w : World) (f : File) : Prop :=
  ∃ r, w.release = some r ∧ (w.file (ascii "/boot/config-" ++ r) = some f ∨
    (w.file (ascii "/boot/config-" ++ r) = none ∧ w.file (ascii "/proc/config.gz") = some f))

/-- The bytes of a variable. -/
def slice (data : Bytes) (v : KVar) : Bytes := (data.drop v.off.toNat).take v.size.toNat

/-- Is this one of the two variables which are not options? -/
def special (v : KVar) : Bool := v.name = ascii "LINUX_KERNEL_VERSION" || v.name = ascii "LINUX_HAS_SYSCALL_WRAPPER"

/-- The bytes `s` of the variable `v` are what they should be. -/
def Filled (bo : ByteOrder) (num : Bool → Bytes → Option Int) (w : World) (v : KVar) (s : Bytes) : Prop :=
  if v.name = ascii "LINUX_KERNEL_VERSION" then
    ∃ t kv x r, v.direct = true ∧ v.typ = .int t ∧ t.size = 4 ∧ w.version = some kv ∧ s = x ++ zeros r ∧ x.length = 4 ∧
      value bo x = KernelInfoSpec.linuxVersionCode kv.major.toNat kv.minor.toNat kv.patch.toNat
  else if v.name = ascii "LINUX_HAS_SYSCALL_WRAPPER" then
    ∃ t b x r, v.direct = true ∧ v.typ = .int t ∧ (t.size = 1 ∨ t.size = 2 ∨ t.size = 4 ∨ t.size = 8) ∧ w.wrapper = some b ∧ s = x ++ zeros r ∧
      x.length = t.size.toNat ∧ value bo x = if b then 1 else 0
  else ∃ f text, ConfigFile w f ∧ FirstAssignment f.lines v.name text ∧ Means bo num v.typ text s

/-- What the rest of the library and the compiler see to: the variables lie within the section and don't overlap, an integer is not larger than the variable, and
no two variables have the same name. -/
structure Layout (size : BitVec 32) (vars : List KVar) : Prop where
  inside : ∀ v ∈ vars, v.off.toNat + v.size.toNat ≤ size.toNat
  apart : vars.Pairwise fun v w => v.off.toNat + v.size.toNat ≤ w.off.toNat ∨ w.off.toNat + w.size.toNat ≤ v.off.toNat
  fits : ∀ v ∈ vars, ∀ t, v.typ = .int t → t.size.toNat ≤ v.size.toNat
  names : (vars.map (·.name)).Nodup

/-- The value of the map: all variables hold what they should, everything between them is zero. -/
structure Contents (bo : ByteOrder) (num : Bool → Bytes → Option Int) (w : World) (size : BitVec 32) (vars : List KVar) (data : Bytes) : Prop where
  length : data.length = size.toNat
  filled : ∀ v ∈ vars, Filled bo num w v (slice data v)
  rest : ∀ i, (∀ v ∈ vars, ¬ (v.off.toNat ≤ i ∧ i < v.off.toNat + v.size.toNat)) → i < size.toNat → data[i]? = some 0

/-- Lines are not longer than `bufio.Scanner` allows. -/
def ShortLines (w : World) : Prop := ∀ p f, w.file p = some f → ∀ l ∈ f.lines, l.length < 65536

/-- Major and minor version are below 256: they come from a version code. -/
def RealVersion (w : World) : Prop := ∀ kv, w.version = some kv → kv.major.toNat < 256 ∧ kv.minor.toNat < 256

/-- The file can be read, and every line which starts with `CONFIG_` assigns something. -/
def Readable (f : File) : Prop :=
  f.readErr = false ∧ ∀ l ∈ f.lines, ([0x43, 0x4f, 0x4e, 0x46, 0x49, 0x47, 0x5f] : Bytes) <+: l → ∃ k v, Assigns l k v ∧ v ≠ []

end Ebpf.KconfigMapSpec
