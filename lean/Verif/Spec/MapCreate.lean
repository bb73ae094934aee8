import Verif.Model.MapCreate
import Verif.Spec.MapSpec
/-!
# Specification: creating maps
-/
namespace Ebpf.MapCreateSpec
open Ebpf.MapCreate Ebpf.MapSpec Ebpf.MapSpec.Spec

/-- A state of the system: numbers not yet given out are unused, and everything refers to an object that exists. -/
structure Sane (s : St) : Prop where
  fds : ∀ n, s.nextFd ≤ n → s.fds n = none
  objs : ∀ n, s.nextObj ≤ n → s.objs n = none
  open_ : ∀ n o, s.fds n = some o → o < s.nextObj
  files : ∀ p o, s.files p = some o → o < s.nextObj

/-- The same, but for one more open descriptor. -/
def Opened (s s' : St) (fd o : Nat) : Prop := s.fds fd = none ∧ s'.fds fd = some o ∧ ∀ n, n ≠ fd → s'.fds n = s.fds n

/-- A map as the spec asks for, on a system with `n` CPUs. -/
def AsAsked (n : BitVec 32) (sp : MSpec) (a : MSpec) : Prop :=
  a.type = sp.type ∧ a.flags = sp.flags ∧ AsksFor n sp a.keySize a.valueSize a.maxEntries

/-- A map that may be used for the spec. -/
def MayBeUsed (n : BitVec 32) (sp : MSpec) (a : MSpec) : Prop :=
  a.type = sp.type ∧ FlagsMatch sp a.flags ∧ AsksFor n sp a.keySize a.valueSize a.maxEntries

/-- A map whose values are maps. -/
def MapInMap (sp : MSpec) : Prop := sp.type = 12 ∨ sp.type = 13 ∨ sp.type = 0x10000006 ∨ sp.type = 0x10000007

/-- The template for the values of a map in a map: a new, empty map as InnerMap asks for, other than `o` itself. -/
def Template (n : BitVec 32) (sp : Spec) (s s' : St) (o : Nat) (inner : Option Nat) : Prop :=
  (MapInMap sp.one.m → ∃ i t ob, sp.inner = some i ∧ inner = some t ∧ t ≠ o ∧ s.nextObj ≤ t ∧ s'.objs t = some ob ∧
    ob.isMap = true ∧ AsAsked n i.m ob.attr ∧ ob.contents = [] ∧ ob.frozen = false) ∧
  (¬ MapInMap sp.one.m → inner = none)

/-- `o` is a map that was pinned at this path before and suits the spec. -/
def Reused (n : BitVec 32) (sp : Spec) (pinPath : Option Nat) (s : St) (o : Nat) (ob : Obj) : Prop :=
  sp.pinning = .byName ∧ (∃ path, pinPath = some path ∧ s.files path = some o) ∧ s.objs o = some ob ∧ ob.isMap = true ∧ MayBeUsed n sp.one.m ob.attr

/-- `o` is a new, empty map, as the spec asks for; nothing was pinned at the path before. -/
def Fresh (n : BitVec 32) (sp : Spec) (pinPath : Option Nat) (s s' : St) (o : Nat) (ob : Obj) : Prop :=
  s.nextObj ≤ o ∧ (sp.pinning = .byName → ∃ path, pinPath = some path ∧ s.files path = none) ∧ ob.isMap = true ∧ AsAsked n sp.one.m ob.attr ∧
    ob.contents = [] ∧ ob.frozen = false ∧ Template n sp s s' o ob.inner

/-- The files are the same, except for a new one from another process. -/
def OnlyOthers (env : Env) (pinPath : Option Nat) (s s' : St) : Prop :=
  ∀ p, s'.files p = s.files p ∨ pinPath = some p ∧ s.files p = none ∧ s'.files p = env.race

/-- The map is pinned if the spec says so, and no other files are touched. -/
def Pinned (sp : Spec) (pinPath : Option Nat) (s s' : St) (m : Handle) (o : Nat) : Prop :=
  (sp.pinning = .byName → m.path = pinPath ∧ ∃ path, pinPath = some path ∧ s'.files path = some o ∧ ∀ p, p ≠ path → s'.files p = s.files p) ∧
  (sp.pinning ≠ .byName → m.path = none ∧ s'.files = s.files)

/-- The kernel accepts this map, at least without BTF. -/
def Accepts (e : CreateEnv) (sp : One) : Prop :=
  sp.extraOk = true ∧ (sp.btf = true → e.btf ≠ .fail) ∧ (e.first = none ∨ sp.btf = true ∧ e.btf = .ok ∧ e.first = some .retry ∧ e.second = none)

/-- The spec makes sense and the kernel goes along. -/
def Works (n : BitVec 32) (env : Env) (sp : Spec) : Prop :=
  Accepts env.outer sp.one ∧ (∃ a, AsAsked n sp.one.m a) ∧
  (MapInMap sp.one.m → sp.innerPinned = false ∧ ∃ i, sp.inner = some i ∧ Accepts env.inner i ∧ ∃ a, AsAsked n i.m a)

end Ebpf.MapCreateSpec
