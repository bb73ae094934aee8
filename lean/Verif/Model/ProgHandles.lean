import Verif.Base
/-!
# Model of the descriptors of programs: `prog.go:240-530, 618-760, 775-830, 1328-1362`, `btf/handle.go:113-194`

The kernel has a table of open descriptors; a new descriptor is any number that isn't open (`pick`). What each step of loading a program computes is
modelled elsewhere (C11, C32, C58, C61-C64, C74, C76); here it is its outcome, and the descriptors it opens. `Program.Close` and `Handle.Close`
close the descriptor even if close(2) reports an error, as on Linux. Windows is not modelled.
-/
namespace Ebpf.ProgHandles

/-- What a descriptor refers to: a program, BTF, a map. -/
inductive K where
  | prog (pid : Nat)
  | btf (bid : Nat)
  | map (mid : Nat)
deriving DecidableEq

/-- The process: open descriptors; whether a number that wasn't open has been closed; for each attempt to load a program the descriptors passed and the
table at the time. -/
structure St where
  table : List (Nat × K)
  double : Bool
  loads : List (List (Nat × K) × List (Nat × K))

/-- internal/sys/fd.go:9-12 `FD`: `none` is closed. -/
abbrev FD := Option Nat

/-- prog.go:262-275 `Program`; `btf` is nil or a handle. `pid` is the program in the kernel (not part of the Go struct). -/
structure Program where
  fd : FD
  pid : Nat
  btf : Option FD
deriving DecidableEq

/-- Open a descriptor. -/
def openFd (pick : List Nat → Nat) (k : K) (s : St) : Nat × St :=
  (pick (s.table.map (·.1)), { s with table := (pick (s.table.map (·.1)), k) :: s.table })

/-- Open several, one after the other. -/
def openAll (pick : List Nat → Nat) : List K → St → List Nat × St
  | [], s => ([], s)
  | k :: ks, s =>
    let (fd, s) := openFd pick k s
    let (fds, s) := openAll pick ks s
    (fd :: fds, s)

/-- close(2). -/
def closeFd (fd : Nat) (s : St) : St :=
  { s with table := s.table.eraseP (·.1 == fd), double := s.double || !(s.table.any (·.1 == fd)) }

/-- Close several. -/
def closeAll : List Nat → St → St
  | [], s => s
  | fd :: fds, s => closeAll fds (closeFd fd s)

/-- internal/sys/fd_other.go:38-44 `FD.Close`. -/
def FD.close (fd : FD) (s : St) : St :=
  match fd with
  | none => s
  | some n => closeFd n s

/-- internal/sys/fd_other.go:46-59 `FD.Dup`; `ok`: fcntl succeeds. The duplicate refers to what the descriptor refers to. -/
def dup (pick : List Nat → Nat) (ok : Bool) (fd : FD) (s : St) : Option Nat × St :=
  match fd with
  | none => (none, s)
  | some n =>
    match s.table.lookup n with
    | none => (none, s)
    | some k => if ok then ((openFd pick k s).1, (openFd pick k s).2) else (none, s)

/-- prog.go:673-676, info.go: the ID of the BTF of the program a descriptor refers to; 0: none. `ok`: the system call succeeds. -/
def progInfo (progBtf : Nat → Nat) (ok : Bool) (fd : FD) (s : St) : Option Nat :=
  match fd with
  | none => none
  | some n =>
    match s.table.lookup n with
    | some (.prog pid) => if ok then some (progBtf pid) else none
    | _ => none

/-- btf/handle.go:196-199 `Handle.Info`: the ID. -/
def handleInfo (ok : Bool) (fd : FD) (s : St) : Option Nat :=
  match fd with
  | none => none
  | some n =>
    match s.table.lookup n with
    | some (.btf bid) => if ok then some bid else none
    | _ => none

/-- Which system calls succeed. -/
structure Calls where
  dup1 : Bool
  dup2 : Bool
  info : Bool
  byID : Bool
  hinfo : Bool

/-- btf/handle.go:120-139 `NewHandleFromID`. -/
def handleFromID (pick : List Nat → Nat) (c : Calls) (bid : Nat) (s : St) : Option Nat × St :=
  if c.byID then
    let (fd, s) := openFd pick (.btf bid) s
    if c.hinfo then (some fd, s) else (none, closeFd fd s)
  else (none, s)

/-- prog.go:691-707 `Program.Handle`. -/
def Program.handle (progBtf : Nat → Nat) (pick : List Nat → Nat) (c : Calls) (p : Program) (s : St) : Option Nat × St :=
  match p.btf with
  | some h => dup pick c.dup1 h s
  | none =>
    match progInfo progBtf c.info p.fd s with
    | none => (none, s)
    | some bid => if bid = 0 then (none, s) else handleFromID pick c bid s

/-- prog.go:719-749 `SetHandle`: the program afterwards and whether it succeeded. -/
def Program.setHandle (progBtf : Nat → Nat) (pick : List Nat → Nat) (c : Calls) (p : Program) (h : FD) (s : St) : Program × Bool × St :=
  match progInfo progBtf c.info p.fd s with
  | none => (p, false, s)
  | some bid =>
    match handleInfo c.hinfo h s with
    | none => (p, false, s)
    | some id =>
      if bid = 0 ∨ bid ≠ id then (p, false, s)
      else if p.btf.isSome then (p, true, s)
      else
        match dup pick c.dup1 h s with
        | (none, s) => (p, false, s)
        | (some d, s) => ({ p with btf := some (some d) }, true, s)

/-- prog.go:778-783: the clone of the handle. Cloning nil gives nil. -/
def cloneBtf (pick : List Nat → Nat) (c : Calls) (b : Option FD) (s : St) : Option (Option FD) × St :=
  match b with
  | none => (some none, s)
  | some h =>
    match dup pick c.dup1 h s with
    | (none, s) => (none, s)
    | (some d, s) => (some (some (some d)), s)

/-- btf/handle.go:165-171 `Handle.Close`, with nil. -/
def closeBtf (b : Option FD) (s : St) : St :=
  match b with
  | none => s
  | some h => h.close s

/-- prog.go:773-790 `Clone`. -/
def Program.clone (pick : List Nat → Nat) (c : Calls) (p : Program) (s : St) : Option Program × St :=
  match cloneBtf pick c p.btf s with
  | (none, s) => (none, s)
  | (some b, s) =>
    match dup pick c.dup2 p.fd s with
    | (none, s) => (none, closeBtf b s)
    | (some d, s) => (some ⟨some d, p.pid, b⟩, s)

/-- A handle after `Close`. -/
def closedBtf (b : Option FD) : Option FD := b.map fun _ => none

/-- prog.go:824-826, btf/handle.go:165-171: closing the handle closes a descriptor, so that an error can be reported. -/
def isOpen : Option FD → Bool
  | some (some _) => true
  | _ => false

/-- prog.go:819-829 `Close`; `err`: close(2) of the BTF handle reports an error. -/
def Program.close (err : Bool) (p : Program) (s : St) : Program × St :=
  if err && isOpen p.btf then ({ p with btf := closedBtf p.btf }, closeBtf p.btf s)
  else (⟨none, p.pid, closedBtf p.btf⟩, p.fd.close (closeBtf p.btf s))

/-- prog.go:640-648 `newProgramFromFD`; `info`: the system call succeeds. -/
def newProgramFromFD (info : Bool) (fd pid : Nat) (s : St) : Option Program × St :=
  if info then (some ⟨some fd, pid, none⟩, s) else (none, closeFd fd s)

/-- prog.go:629-638 `NewProgramFromID`. -/
def newProgramFromID (pick : List Nat → Nat) (byID info : Bool) (pid : Nat) (s : St) : Option Program × St :=
  if byID then
    let (fd, s) := openFd pick (.prog pid) s
    newProgramFromFD info fd pid s
  else (none, s)

/-! ## loading -/

/-- How the attach target is found: not needed; in a program (`recognized`: the kind of program can attach to functions of programs; `spec`, `type`: its BTF can be parsed and has the function);
in the kernel or a module (`none`: not found). -/
inductive Target where
  | none
  | prog (t : Program) (recognized spec type : Bool) (c : Calls)
  | kernel (found : Option (Option Nat))

/-- The outcome of each step of loading. `kconfig`: `none` an error, `some none` no map. `retries`: how often loading is repeated because of the log. -/
structure Env where
  prepared : Bool
  btf : Bool
  kconfig : Option (Option Nat)
  ksyms : Option (List Nat)
  validated : Bool
  kfuncs : Option (List Nat)
  marshaled : Bool
  target : Target
  retries : Nat
  accepted : Bool

/-- prog.go:1328-1362 `findTargetInProgram`: whether the type has been found. -/
def findTargetInProgram (progBtf : Nat → Nat) (pick : List Nat → Nat) (t : Program) (recognized spec type : Bool) (c : Calls) (s : St) : Bool × St :=
  if recognized then
    match t.handle progBtf pick c s with
    | (none, s) => (false, s)
    | (some h, s) => (spec && type, closeFd h s)
  else (false, s)

/-- prog.go:416-473: the attach target: whether it has been found, the descriptor of a module (to be closed) and the descriptors passed to the kernel. -/
def attachTarget (progBtf : Nat → Nat) (pick : List Nat → Nat) (t : Target) (s : St) : Option (Option Nat × List (Nat × K)) × St :=
  match t with
  | .none => (some (none, []), s)
  | .prog t r sp ty c =>
    match findTargetInProgram progBtf pick t r sp ty c s with
    | (false, s) => (none, s)
    | (true, s) => (some (none, t.fd.toList.map fun n => (n, .prog t.pid)), s)
  | .kernel none => (none, s)
  | .kernel (some none) => (some (none, []), s)
  | .kernel (some (some bid)) =>
    let (fd, s) := openFd pick (.btf bid) s
    (some (some fd, [(fd, .btf bid)]), s)

/-- One attempt. -/
def attempt (used : List (Nat × K)) (s : St) : St := { s with loads := s.loads ++ [(used, s.table)] }

/-- Several attempts. -/
def attempts (used : List (Nat × K)) : Nat → St → St
  | 0, s => attempt used s
  | n + 1, s => attempts used n (attempt used s)

/-- prog.go:362-376: load the BTF, if there is any. -/
def loadBtf (progBtf : Nat → Nat) (pick : List Nat → Nat) (pid : Nat) (e : Env) (s : St) : Option (Option Nat) × St :=
  if progBtf pid = 0 then (some none, s)
  else if e.btf then
    let (fd, s) := openFd pick (.btf (progBtf pid)) s
    (some (some fd), s)
  else (none, s)

/-- prog.go:480-520: the system calls; `used`: descriptors passed to the kernel. -/
def load (pick : List Nat → Nat) (pid : Nat) (btf : Option Nat) (used : List (Nat × K)) (e : Env) (s : St) : Option Program × St :=
  let s := attempts used e.retries s
  if e.accepted then
    let (fd, s) := openFd pick (.prog pid) s
    (some ⟨some fd, pid, btf.map some⟩, s)
  else (none, s)

/-- prog.go:416-520: from finding the attach target on, and closing the module. -/
def finish (progBtf : Nat → Nat) (pick : List Nat → Nat) (pid : Nat) (btf : Option Nat) (used : List (Nat × K)) (e : Env) (s : St) : Option Program × St :=
  match attachTarget progBtf pick e.target s with
  | (none, s) => (none, s)
  | (some (module_, us), s) =>
    match load pick pid btf (used ++ us) e s with
    | (p, s) => (p, closeAll module_.toList s)

/-- prog.go:395-414: kernel functions, and encoding. -/
def withKfuncs (progBtf : Nat → Nat) (pick : List Nat → Nat) (pid : Nat) (btf : Option Nat) (used : List (Nat × K)) (e : Env) (s : St) : Option Program × St :=
  match e.kfuncs with
  | none => (none, s)
  | some bids =>
    match openAll pick (bids.map .btf) s with
    | (fds, s) =>
      if e.marshaled then
        match finish progBtf pick pid btf (used ++ fds.zip (bids.map .btf)) e s with
        | (p, s) => (p, closeAll fds s)
      else (none, closeAll fds s)

/-- prog.go:383-394: kernel variables, and validation. -/
def withKsyms (progBtf : Nat → Nat) (pick : List Nat → Nat) (pid : Nat) (btf : Option Nat) (used : List (Nat × K)) (e : Env) (s : St) : Option Program × St :=
  match e.ksyms with
  | none => (none, s)
  | some bids =>
    match openAll pick (bids.map .btf) s with
    | (fds, s) =>
      if e.validated then
        match withKfuncs progBtf pick pid btf (used ++ fds.zip (bids.map .btf)) e s with
        | (p, s) => (p, closeAll fds s)
      else (none, closeAll fds s)

/-- prog.go:377-382: the map of kconfig variables. -/
def withKconfig (progBtf : Nat → Nat) (pick : List Nat → Nat) (pid : Nat) (btf : Option Nat) (used : List (Nat × K)) (e : Env) (s : St) : Option Program × St :=
  match e.kconfig with
  | none => (none, s)
  | some m =>
    match openAll pick (m.toList.map .map) s with
    | (fds, s) =>
      match withKsyms progBtf pick pid btf (used ++ fds.zip (m.toList.map .map)) e s with
      | (p, s) => (p, closeAll fds s)

/-- prog.go:370-374: the handle is closed unless the program has it. -/
def keepBtf (btf : Option Nat) (r : Option Program × St) : Option Program × St :=
  match r with
  | (none, s) => (none, closeAll btf.toList s)
  | (some p, s) => if p.btf = btf.map some then (some p, s) else (some p, closeAll btf.toList s)

/-- prog.go:284-523 `newProgram`: the program the kernel would create is `pid`, with the BTF `progBtf pid`. `prepared`: everything up to the first descriptor succeeds. -/
def newProgram (progBtf : Nat → Nat) (pick : List Nat → Nat) (pid : Nat) (e : Env) (s : St) : Option Program × St :=
  if e.prepared then
    match loadBtf progBtf pick pid e s with
    | (none, s) => (none, s)
    | (some btf, s) => keepBtf btf (withKconfig progBtf pick pid btf (btf.toList.map fun fd => (fd, .btf (progBtf pid))) e s)
  else (none, s)

/-! ## histories -/

/-- Operations of the user: programs and handles are numbered in the order in which they were obtained. -/
inductive Op where
  | load (pid : Nat) (e : Env)
  | fromID (pid : Nat) (byID info : Bool)
  | handle (i : Nat) (c : Calls)
  | setHandle (i j : Nat) (c : Calls)
  | clone (i : Nat) (c : Calls)
  | closeProg (i : Nat) (err : Bool)
  | closeHandle (j : Nat)

/-- What the user has. -/
structure World where
  st : St
  progs : List Program
  handles : List FD

/-- A program that has been obtained. -/
def World.addProg (w : World) : Option Program × St → World
  | (none, s) => { w with st := s }
  | (some p, s) => { w with st := s, progs := w.progs ++ [p] }

/-- A handle that has been obtained. -/
def World.addHandle (w : World) : Option Nat × St → World
  | (none, s) => { w with st := s }
  | (some h, s) => { w with st := s, handles := w.handles ++ [some h] }

/-- One operation; those on objects that don't exist do nothing. -/
def step (progBtf : Nat → Nat) (pick : List Nat → Nat) (w : World) : Op → World
  | .load pid e => w.addProg (newProgram progBtf pick pid e w.st)
  | .fromID pid byID info => w.addProg (newProgramFromID pick byID info pid w.st)
  | .handle i c =>
    match w.progs[i]? with
    | none => w
    | some p => w.addHandle (p.handle progBtf pick c w.st)
  | .setHandle i j c =>
    match w.progs[i]?, w.handles[j]? with
    | some p, some h => { w with st := (p.setHandle progBtf pick c h w.st).2.2, progs := w.progs.set i (p.setHandle progBtf pick c h w.st).1 }
    | _, _ => w
  | .clone i c =>
    match w.progs[i]? with
    | none => w
    | some p => w.addProg (p.clone pick c w.st)
  | .closeProg i err =>
    match w.progs[i]? with
    | none => w
    | some p => { w with st := (p.close err w.st).2, progs := w.progs.set i (p.close err w.st).1 }
  | .closeHandle j =>
    match w.handles[j]? with
    | none => w
    | some h => { w with st := h.close w.st, handles := w.handles.set j none }

/-- A history. -/
def run (progBtf : Nat → Nat) (pick : List Nat → Nat) (w : World) (ops : List Op) : World := ops.foldl (step progBtf pick) w

end Ebpf.ProgHandles
