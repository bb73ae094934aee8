import Verif.Model.AttachTarget
/-!
# Specification: attach targets in the kernel
-/
namespace Ebpf.AttachTargetSpec
open Ebpf.AttachTarget

/-- Every handle opened so far has been closed exactly once, except the one in `kept`. -/
def Balanced (st : St) (kept : Option Handle) : Prop :=
  ∀ h, (kept.map (·.n) = some h → h < st.opened) ∧ st.closed.count h = if h < st.opened ∧ kept.map (·.n) ≠ some h then 1 else 0

/-- A kernel whose BTF objects stay the same: `objs` in the order of their IDs. -/
structure Static (w : World) (objs : List (Nat × Info)) : Prop where
  sorted : objs.Pairwise fun a b => a.1 < b.1
  positive : ∀ o ∈ objs, 0 < o.1
  nextId : ∀ t i, w.nextId t i = match objs.find? (fun o => i < o.1) with
    | some o => .ok o.1
    | none => .error .notExist
  openId : ∀ t, ∀ o ∈ objs, w.openId t o.1 = .ok ()
  info : ∀ t, ∀ o ∈ objs, w.info t o.1 = .ok o.2

/-- The types of the kernel proper, and those of each module, by name and kind: nothing, or one type. -/
structure Kernel where
  core : Bytes → Kind → Option Found
  modules : List (Nat × Info × (Bytes → Kind → Option Found))

/-- What `TypeByName` answers for these types. -/
def answer (f : Bytes → Kind → Option Found) : Types := fun n k => match f n k with
  | some t => .ok t
  | none => .error .notFound

/-- The type of a name: that of the kernel proper if there is one, else that of the first module, by ID, that has it. With the ID of the module. -/
def resolve (k : Kernel) (n : Bytes) (kind : Kind) : Option (Found × Option Nat) :=
  match k.core n kind with
  | some t => some (t, none)
  | none => k.modules.findSome? fun m => (m.2.2 n kind).map fun t => (t, some m.1)

/-- The world is a static kernel with these types. Objects that are not modules (vmlinux, and BTF of programs) have other `Info`. -/
structure Holds (w : World) (k : Kernel) (objs : List (Nat × Info)) : Prop where
  static : Static w objs
  kernel : w.kernel = .ok (answer k.core)
  modules : k.modules.map (fun m => (m.1, m.2.1)) = objs.filter (fun o => o.2.isKernel && o.2.name ≠ [0x76#8, 0x6d#8, 0x6c#8, 0x69#8, 0x6e#8, 0x75#8, 0x78#8])
  types : ∀ m ∈ k.modules, w.module m.2.1.name = .ok (answer m.2.2)

/-- ASCII. -/
def ascii (s : String) : Bytes := s.toList.map fun c => BitVec.ofNat 8 c.toNat

/-- What the kernel calls the attach point of a program. -/
inductive TargetOf (name : Bytes) : ProgType → AttachType → Bytes → Kind → Prop where
  | structOps : TargetOf name .structOps .structOps name .struct
  | lsm : TargetOf name .lsm .lsmMac (ascii "bpf_lsm_" ++ name) .func
  | iter : TargetOf name .tracing .traceIter (ascii "bpf_iter_" ++ name) .func
  | fentry : TargetOf name .tracing .fentry name .func
  | fexit : TargetOf name .tracing .fexit name .func
  | modifyReturn : TargetOf name .tracing .modifyReturn name .func
  | rawTp : TargetOf name .tracing .rawTp (ascii "btf_trace_" ++ name) .typedef

end Ebpf.AttachTargetSpec
