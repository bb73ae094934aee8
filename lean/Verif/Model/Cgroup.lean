/-!
# Model of attaching programs to cgroups (`link/cgroup.go`)

Descriptors are numbered in the order of their creation. What may fail is an input of each operation. The kernel's part is in `Spec/Cgroup.lean`, of which this
file only uses the interface `Kernel`.
-/
namespace Ebpf.Cgroup

/-- What a descriptor stands for. -/
inductive Obj where
  | cgroup (c : Nat)
  | prog (p : Nat)
  | link (l : Nat)
deriving DecidableEq

/-- Errors. `other`: any other than ErrNotSupported. -/
inductive Err where
  | notSupported
  | other
deriving DecidableEq

/-- The open descriptors of the process. -/
structure Fds where
  open_ : List (Nat × Obj)
  next : Nat

/-- A new descriptor. -/
def Fds.new (f : Fds) (o : Obj) : Fds × Nat := (⟨(f.next, o) :: f.open_, f.next + 1⟩, f.next)

/-- internal/sys/fd.go:96-107 `Close`. -/
def Fds.close (f : Fds) (fd : Nat) : Fds := ⟨f.open_.filter (fun x => x.1 != fd), f.next⟩

/-- What is behind a descriptor. -/
def Fds.get (f : Fds) (fd : Nat) : Option Obj := (f.open_.find? (fun x => x.1 == fd)).map (·.2)

/-- The system calls, on a state `κ` of the kernel; `none`: an error. -/
structure Kernel (κ : Type) where
  /-- BPF_PROG_ATTACH: cgroup, attach type, program, flags, program to replace. -/
  attach : κ → Nat → Nat → Nat → Nat → Option Nat → Option κ
  /-- BPF_PROG_DETACH. -/
  detach : κ → Nat → Nat → Nat → Option κ
  /-- BPF_LINK_CREATE: also the new link. -/
  linkCreate : κ → Nat → Nat → Nat → Option (κ × Nat)
  /-- BPF_LINK_UPDATE. -/
  linkUpdate : κ → Nat → Nat → Option κ
  /-- The last descriptor of a link is closed. -/
  linkRelease : κ → Nat → κ

/-- A feature test. -/
abbrev Feat := Except Err Unit

/-- What happens besides what the kernel state implies: tests of features, failures of opening, duplicating and attaching. -/
structure Env where
  path : Option Nat
  haveLink : Feat
  haveReplace : Feat
  haveProgAttach : Feat
  dupFails : Bool
  linkFails : Bool
  attachFails : Bool
  detachFails : Bool

/-- A Link: `linkCgroup` or `progAttachCgroup`. -/
inductive Handle where
  | link (fd : Nat)
  | emulated (cgroup current attach flags : Nat)
deriving DecidableEq

section
variable {κ : Type} (K : Kernel κ)

/-- The process and the kernel. -/
structure World (κ : Type) where
  fds : Fds
  kern : κ

/-- internal/sys/fd.go:109-119 `Dup`, prog.go:763-780 `Program.Clone` (without its BTF). -/
def clone (e : Env) (f : Fds) (prog : Nat) : Except Err (Fds × Nat) :=
  match f.get prog with
  | none => .error .other
  | some o => if e.dupFails then .error .other else .ok (f.new o)

/-- link/program.go:34-70 `RawAttachProgram` with descriptors. `replace`: a ReplaceProgram anchor. -/
def rawAttach (e : Env) (w : World κ) (target prog attach flags : Nat) (replace : Option Nat) : Except Err κ :=
  let res : Option κ :=
    if e.attachFails then none
    else
      match w.fds.get target, w.fds.get prog, replace with
      | some (.cgroup c), some (.prog p), none => K.attach w.kern c attach p flags none
      | some (.cgroup c), some (.prog p), some r =>
        match w.fds.get r with
        | some (.prog q) => K.attach w.kern c attach p (flags ||| 4) (some q)
        | _ => none
      | _, _, _ => none
  match res with
  | some k => .ok k
  | none =>
    match e.haveProgAttach with
    | .error x => .error x
    | .ok () => .error .other

/-- link/program.go:78-110 `RawDetachProgram` with descriptors. -/
def rawDetach (e : Env) (w : World κ) (target prog attach : Nat) : Option κ :=
  if e.detachFails then none
  else
    match w.fds.get target, w.fds.get prog with
    | some (.cgroup c), some (.prog p) => K.detach w.kern c attach p
    | _, _ => none

/-- cgroup.go:182-194 `newLinkCgroup`, link/link_other.go:32-64 `AttachRawLink`. -/
def newLinkCgroup (e : Env) (w : World κ) (cgroup attach prog : Nat) : Except Err (World κ × Handle) :=
  match e.haveLink with
  | .error x => .error x
  | .ok () =>
    match w.fds.get prog with
    | none => .error .other
    | some o =>
      if e.linkFails then .error .other
      else
        match w.fds.get cgroup, o with
        | some (.cgroup c), .prog p =>
          match K.linkCreate w.kern c attach p with
          | none => .error .other
          | some (k, l) =>
            let (f, fd) := w.fds.new (.link l)
            .ok (⟨f, k⟩, .link fd)
        | _, _ => .error .other

/-- cgroup.go:86-115 `newProgAttachCgroup`; what is left open with an error. -/
def newProgAttachCgroup (e : Env) (w : World κ) (cgroup attach prog flags : Nat) : World κ × Except Err Handle :=
  let err : Option Err := if flags &&& 2 > 0 then (match e.haveReplace with | .error x => some x | .ok () => none) else none
  match err with
  | some x => (w, .error x)
  | none =>
    match clone e w.fds prog with
    | .error x => (w, .error x)
    | .ok (f, c) =>
      match rawAttach K e ⟨f, w.kern⟩ cgroup c attach flags none with
      | .error x => (⟨f.close c, w.kern⟩, .error x)
      | .ok k => (⟨f, k⟩, .ok (.emulated cgroup c attach flags))

/-- cgroup.go:46-75 `AttachCgroup`. -/
def attachCgroup (e : Env) (w : World κ) (attach prog : Nat) : World κ × Except Err Handle :=
  match e.path with
  | none => (w, .error .other)
  | some c =>
    let (f, cgroup) := w.fds.new (.cgroup c)
    let w : World κ := ⟨f, w.kern⟩
    match newLinkCgroup K e w cgroup attach prog with
    | .ok (w, h) => (⟨w.fds.close cgroup, w.kern⟩, .ok h)
    | .error x =>
      let (w, r) := if x = .notSupported then newProgAttachCgroup K e w cgroup attach prog 2 else (w, .error x)
      let (w, r) := match r with
        | .error .notSupported => newProgAttachCgroup K e w cgroup attach prog 1
        | r => (w, r)
      match r with
      | .error x => (⟨w.fds.close cgroup, w.kern⟩, .error x)
      | .ok h => (w, .ok h)

/-- cgroup.go:117-129 `progAttachCgroup.Close`, link/link.go:153-155 `RawLink.Close` (not pinned); the error of detaching. -/
def close (e : Env) (w : World κ) : Handle → World κ × Bool
  | .link fd =>
    match w.fds.get fd with
    | some (.link l) => (⟨w.fds.close fd, K.linkRelease w.kern l⟩, true)
    | _ => (w, true)
  | .emulated cgroup current attach _ =>
    match rawDetach K e w cgroup current attach with
    | some k => (⟨(w.fds.close current).close cgroup, k⟩, true)
    | none => (⟨(w.fds.close current).close cgroup, w.kern⟩, false)

/-- cgroup.go:131-160 `progAttachCgroup.Update`, link/link.go:187-225 `RawLink.Update`. -/
def update (e : Env) (w : World κ) (h : Handle) (prog : Nat) : World κ × Handle × Bool :=
  match h with
  | .link fd =>
    match w.fds.get fd, w.fds.get prog with
    | some (.link l), some (.prog p) =>
      if e.linkFails then (w, h, false)
      else
        match K.linkUpdate w.kern l p with
        | some k => (⟨w.fds, k⟩, h, true)
        | none => (w, h, false)
    | _, _ => (w, h, false)
  | .emulated cgroup current attach flags =>
    match clone e w.fds prog with
    | .error _ => (w, h, false)
    | .ok (f, new) =>
      match rawAttach K e ⟨f, w.kern⟩ cgroup prog attach flags (if flags &&& 2 > 0 then some current else none) with
      | .error _ => (⟨f.close new, w.kern⟩, h, false)
      | .ok k => (⟨f.close current, k⟩, .emulated cgroup new attach flags, true)

end

end Ebpf.Cgroup
