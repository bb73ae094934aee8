import Verif.Base
/-!
# Model of rlimit/rlimit_linux.go

The kernel is modelled as far as RLIMIT_MEMLOCK and the creation of a map go.
-/
namespace Ebpf.Rlimit

/-- unix.Rlimit. -/
structure Lim where
  cur : Nat
  max : Nat
deriving DecidableEq

/-- unix.RLIM_INFINITY. -/
def infinity : Nat := 2 ^ 64 - 1

/-- The process: its RLIMIT_MEMLOCK, and how many descriptors it has open. -/
structure Proc where
  lim : Lim
  fds : Nat
deriving DecidableEq

/-- The kernel, and what it allows the process: whether memory is accounted to the cgroup, whether maps may be created (`unprivileged_bpf_disabled`, CAP_BPF), whether
a BPF token in use excludes arrays, whether the process has CAP_SYS_RESOURCE, whether creating a map fails for another reason. -/
structure Kernel where
  memcg : Bool
  mayCreate : Bool
  tokenDenies : Bool
  mayRaise : Bool
  failsOtherwise : Bool
deriving DecidableEq

/-- Setting a limit: prlimit(2), kernel/sys.c `do_prlimit`. -/
def setLimit (kn : Kernel) (new : Lim) (p : Proc) : Option Proc :=
  if new.cur ≤ new.max ∧ (new.max ≤ p.lim.max ∨ kn.mayRaise = true) then some { p with lim := new } else none

/-- Errors of creating a map. -/
inductive MapErr | token | eperm | other
deriving DecidableEq

/-- Creating an array of one element: BPF_MAP_CREATE. It needs memory; without cgroup accounting that counts against the limit. -/
def mapCreate (kn : Kernel) (p : Proc) : Except MapErr Unit × Proc :=
  if kn.tokenDenies then (.error .token, p)
  else if kn.mayCreate = false then (.error .eperm, p)
  else if kn.memcg = false ∧ p.lim.cur = 0 then (.error .eperm, p)
  else if kn.failsOtherwise then (.error .other, p)
  else (.ok (), { p with fds := p.fds + 1 })

/-- What is known about cgroup accounting: `haveMemcgAccounting`. -/
inductive Known | supported | unsupported | failed
deriving DecidableEq

/-- rlimit/rlimit_linux.go:41-98 `detectMemcgAccounting`. `env` is what other processes do to the limit between the first two calls. Reading the limit doesn't fail. -/
def detect (kn : Kernel) (env : Lim → Lim) (p : Proc) : Known × Proc :=
  let old := p.lim
  let p := { p with lim := env p.lim }
  let zero : Lim := ⟨0, old.max⟩
  match setLimit kn zero p with
  | none => (.failed, p)
  | some p1 =>
    let old := p.lim
    match mapCreate kn p1 with
    | (r, p2) =>
      match setLimit kn old p2 with
      | none => (.failed, p2)
      | some p3 =>
        match r with
        | .ok () => (.supported, { p3 with fds := p3.fds - 1 })
        | .error .token => (.supported, p3)
        | .error .eperm => (.unsupported, p3)
        | .error .other => (.failed, p3)

/-- rlimit/rlimit_linux.go:116-136 `RemoveMemlock`: true if it returns nil. -/
def removeMemlock (kn : Kernel) (known : Known) (p : Proc) : Bool × Proc :=
  match known with
  | .supported => (true, p)
  | .failed => (false, p)
  | .unsupported =>
    match setLimit kn ⟨infinity, infinity⟩ p with
    | none => (false, p)
    | some p => (true, p)

end Ebpf.Rlimit
