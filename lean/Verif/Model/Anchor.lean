/-!
# Model of attaching several programs to one hook (`link/anchor.go`, `link/program.go`, `link/tcx.go`, `link/netkit.go`, `link/query.go`)

File descriptors are what `FD()` returns: -1 after Close.
-/
namespace Ebpf.Anchor

/-- Errors before any system call. -/
inductive Err where
  | closedFd
  | badTarget
  | flags
  | iface
deriving DecidableEq

/-- anchor.go:112-113: what an anchor refers to. `other`: a Link without file descriptor, or nil. -/
inductive Target where
  | prog (fd : Int)
  | progID (id : Nat)
  | link (fd : Int)
  | linkID (id : Nat)
  | other
deriving DecidableEq

/-- anchor.go:21-114: `firstAnchor`, `lastAnchor`, `anchor`. -/
inductive Anchor where
  | head
  | tail
  | at_ (t : Target) (position : Nat)
deriving DecidableEq

/-- anchor.go:11-15, internal/sys/syscall.go:164-171: BPF_F_REPLACE, BEFORE, AFTER, ID, LINK. -/
def anchorFlags : Nat := 4 ||| 8 ||| 16 ||| 32 ||| 8192

/-- anchor.go:42-44 `Head`. -/
def Head : Anchor := .head
/-- anchor.go:52-54 `Tail`. -/
def Tail : Anchor := .tail
/-- anchor.go:57-59 `BeforeLink`. -/
def BeforeLink (fd : Int) : Anchor := .at_ (.link fd) 8
/-- anchor.go:62-64 `AfterLink`. -/
def AfterLink (fd : Int) : Anchor := .at_ (.link fd) 16
/-- anchor.go:67-69 `BeforeLinkByID`. -/
def BeforeLinkByID (id : Nat) : Anchor := .at_ (.linkID id) 8
/-- anchor.go:72-74 `AfterLinkByID`. -/
def AfterLinkByID (id : Nat) : Anchor := .at_ (.linkID id) 16
/-- anchor.go:77-79 `BeforeProgram`. -/
def BeforeProgram (fd : Int) : Anchor := .at_ (.prog fd) 8
/-- anchor.go:82-84 `AfterProgram`. -/
def AfterProgram (fd : Int) : Anchor := .at_ (.prog fd) 16
/-- anchor.go:87-89 `ReplaceProgram`. -/
def ReplaceProgram (fd : Int) : Anchor := .at_ (.prog fd) 4
/-- anchor.go:92-94 `BeforeProgramByID`. -/
def BeforeProgramByID (id : Nat) : Anchor := .at_ (.progID id) 8
/-- anchor.go:97-99 `AfterProgramByID`. -/
def AfterProgramByID (id : Nat) : Anchor := .at_ (.progID id) 16
/-- anchor.go:102-104 `ReplaceProgramByID`. -/
def ReplaceProgramByID (id : Nat) : Anchor := .at_ (.progID id) 4

/-- `uint32(fd)`. -/
def u32 (fd : Int) : Nat := (fd % 2 ^ 32).toNat

/-- anchor.go:111-139 `anchor`: file descriptor or ID, and flags. -/
def anchor : Anchor → Except Err (Nat × Nat)
  | .head => .ok (0, 8)
  | .tail => .ok (0, 16)
  | .at_ (.prog fd) p => if fd < 0 then .error .closedFd else .ok (u32 fd, p ||| 0)
  | .at_ (.progID id) p => .ok (id, p ||| 32)
  | .at_ (.link fd) p => if fd < 0 then .error .closedFd else .ok (u32 fd, p ||| 8192)
  | .at_ (.linkID id) p => .ok (id, p ||| (8192 ||| 32))
  | .at_ .other _ => .error .badTarget

/-- program.go:13-28 `RawAttachProgramOptions`, tcx.go:15-28 `TCXOptions`. `target`: descriptor or interface; `prog`: Program.FD(). -/
structure Opts where
  target : Int
  prog : Int
  attach : Nat
  anchor : Option Anchor
  flags : Nat
  revision : Nat

/-- internal/sys/types.go `ProgAttachAttr`, `ProgDetachAttr`, `LinkCreateTcxAttr`, `LinkCreateNetkitAttr`. -/
structure Attr where
  target : Nat
  prog : Nat
  attach : Nat
  flags : Nat
  replace : Nat
  relative : Nat
  revision : Nat
deriving DecidableEq

/-- program.go:34-64 `RawAttachProgram`, up to the system call. -/
def rawAttach (o : Opts) : Except Err Attr :=
  if o.flags &&& anchorFlags ≠ 0 then .error .flags
  else
    let attr : Attr := ⟨u32 o.target, u32 o.prog, o.attach, o.flags, 0, 0, o.revision⟩
    match o.anchor with
    | none => .ok attr
    | some a =>
      match anchor a with
      | .error e => .error e
      | .ok (x, flags) =>
        if flags &&& 4 ≠ 0 then .ok { attr with flags := attr.flags ||| flags, replace := x }
        else .ok { attr with flags := attr.flags ||| flags, relative := x }

/-- program.go:80-103 `RawDetachProgram`, up to the system call. -/
def rawDetach (o : Opts) : Except Err Attr :=
  if o.flags &&& anchorFlags ≠ 0 then .error .flags
  else
    let attr : Attr := ⟨u32 o.target, u32 o.prog, o.attach, 0, 0, 0, o.revision⟩
    match o.anchor with
    | none => .ok attr
    | some a =>
      match anchor a with
      | .error e => .error e
      | .ok (x, flags) => .ok { attr with flags := attr.flags ||| flags, relative := x }

/-- tcx.go:30-60 `AttachTCX`, netkit.go:30-60 `AttachNetkit`, up to the system call. -/
def attachLink (o : Opts) : Except Err Attr :=
  if o.target < 0 then .error .iface
  else if o.flags &&& anchorFlags ≠ 0 then .error .flags
  else
    let attr : Attr := ⟨u32 o.target, u32 o.prog, o.attach, o.flags, 0, 0, o.revision⟩
    match o.anchor with
    | none => .ok attr
    | some a =>
      match anchor a with
      | .error e => .error e
      | .ok (x, flags) => .ok { attr with flags := attr.flags ||| flags, relative := x }

/-! ## Queries -/

/-- internal/sys/types.go `ProgQueryAttr`: what comes back. `progs`, `links`: memory behind the pointers. -/
structure Query where
  count : Nat
  revision : Nat
  progs : List Nat
  links : Option (List Nat)

/-- query.go:47-50 `AttachedProgram`. -/
structure Attached where
  id : Nat
  linkID : Nat
deriving DecidableEq

/-- query.go:66-117 `QueryPrograms`. `call i`: the i-th BPF_PROG_QUERY, given count and memory; `none`: slice bounds out of range. -/
def queryPrograms {ε : Type} (call : Nat → Query → Except ε Query) : Option (Except ε (List Attached × Nat)) :=
  match call 0 ⟨0, 0, [], none⟩ with
  | .error e => some (.error e)
  | .ok q =>
    if q.count = 0 then some (.ok ([], q.revision))
    else
      let haveLinks := q.revision ≠ 0
      match call 1 ⟨q.count, 0, List.replicate q.count 0, if haveLinks then some (List.replicate q.count 0) else none⟩ with
      | .error e => some (.error e)
      | .ok r =>
        if r.count > r.progs.length then none
        else some (.ok (((r.progs.take r.count).zipIdx).map (fun x => ⟨x.1, match r.links with | some l => l[x.2]?.getD 0 | none => 0⟩), r.revision))

end Ebpf.Anchor
