/-!
# Model of links: getting hold of existing ones and iterating over all (`link/link.go`, `link/link_other.go`)

Time passes with every system call; other processes create and remove links in between.
-/
namespace Ebpf.LinkIter

/-- What the kernel answers, at each moment: the IDs of all links in ascending order, their types, whether a system call fails (with an error other than
"no such link"), and what is pinned: nothing, a link, another object. -/
structure Kern where
  ids : Nat → List Nat
  typ : Nat → Nat → Nat
  fail : Nat → Option Nat
  pin : Nat → Option (Option Nat)

/-- Errors: `noent` wraps os.ErrNotExist, `errno` wraps an error of the kernel, `info` is an error described by its text only (`%s`). -/
inductive E where
  | noent
  | errno (n : Nat)
  | info
  | invalid
  | notLink
deriving DecidableEq

/-- The process: the time, its descriptors for links and other objects (`none`), a number no descriptor has had yet,
and whether it has closed a descriptor that wasn't open. -/
structure S where
  t : Nat
  fds : List (Nat × Option Nat)
  next : Nat
  bad : Bool

/-- The types of links in package link. -/
inductive Class where
  | rawTracepoint
  | tracing
  | linkCgroup
  | iter
  | netNs
  | kprobeMulti
  | uprobeMulti
  | perfEvent
  | tcx
  | netfilter
  | netkit
  | xdp
  | structOps
  | raw
deriving DecidableEq

/-- A Link: its Go type and descriptor. -/
structure Lnk where
  cls : Class
  fd : Nat
deriving DecidableEq

/-- unix.Close. -/
def close (s : S) (fd : Nat) : S :=
  if s.fds.any (fun x => x.1 == fd) then { s with fds := s.fds.filter (fun x => x.1 != fd) } else { s with bad := true }

/-- A new descriptor. -/
def openFd (s : S) (o : Option Nat) : S × Nat := ({ s with t := s.t + 1, fds := (s.next, o) :: s.fds, next := s.next + 1 }, s.next)

/-- The system call has been made. -/
def tick (s : S) : S := { s with t := s.t + 1 }

/-- BPF_LINK_GET_NEXT_ID. -/
def getNextId (k : Kern) (s : S) (id : Nat) : S × Except E Nat :=
  match k.fail s.t with
  | some e => (tick s, .error (.errno e))
  | none =>
    match (k.ids s.t).find? (fun x => id < x) with
    | none => (tick s, .error .noent)
    | some x => (tick s, .ok x)

/-- BPF_LINK_GET_FD_BY_ID. -/
def getFdById (k : Kern) (s : S) (id : Nat) : S × Except E Nat :=
  match k.fail s.t with
  | some e => (tick s, .error (.errno e))
  | none =>
    if (k.ids s.t).contains id then
      match openFd s (some id) with
      | (s, fd) => (s, .ok fd)
    else (tick s, .error .noent)

/-- link/link.go:256-275 `RawLink.Info`: the type of the link. -/
def info (k : Kern) (s : S) (fd : Nat) : S × Except E Nat :=
  match k.fail s.t with
  | some _ => (tick s, .error .info)
  | none =>
    match s.fds.lookup fd with
    | some (some id) => (tick s, .ok (k.typ s.t id))
    | _ => (tick s, .error .info)

/-- link/link_other.go:82-111: the Go type for a kind of link. -/
def classOf (t : Nat) : Class :=
  match t with
  | 1 => .rawTracepoint
  | 2 => .tracing
  | 3 => .linkCgroup
  | 4 => .iter
  | 5 => .netNs
  | 6 => .xdp
  | 7 => .perfEvent
  | 8 => .kprobeMulti
  | 9 => .structOps
  | 10 => .netfilter
  | 11 => .tcx
  | 12 => .uprobeMulti
  | 13 => .netkit
  | _ => .raw

/-- link/link_other.go:66-111 `wrapRawLink`. -/
def wrapRawLink (k : Kern) (s : S) (fd : Nat) : S × Except E Lnk :=
  match info k s fd with
  | (s, .error e) => (close s fd, .error e)
  | (s, .ok t) => (s, .ok ⟨classOf t, fd⟩)

/-- link/link.go:62-69 `NewFromFD`, internal/sys/fd_other.go:23-36 `NewFD` (for a descriptor other than 0). -/
def newFromFD (k : Kern) (s : S) (fd : Option Nat) : S × Except E Lnk :=
  match fd with
  | none => (s, .error .invalid)
  | some fd => wrapRawLink k s fd

/-- link/link.go:74-82 `NewFromID`. -/
def newFromID (k : Kern) (s : S) (id : Nat) : S × Except E Lnk :=
  match getFdById k s id with
  | (s, .error e) => (s, .error e)
  | (s, .ok fd) => wrapRawLink k s fd

/-- link/link.go:87-94, 129-144 `LoadPinnedLink`, `loadPinnedRawLink`. -/
def loadPinned (k : Kern) (s : S) : S × Except E Lnk :=
  match k.fail s.t, k.pin s.t with
  | some e, _ => (tick s, .error (.errno e))
  | none, none => (tick s, .error .noent)
  | none, some o =>
    match openFd s o with
    | (s, fd) => if o.isNone then (close s fd, .error .notLink) else wrapRawLink k s fd

/-- link/link.go:278-285 `Iterator`. -/
structure It where
  id : Nat
  link : Option Lnk
  err : Option E

/-- link/link.go:293-318: the loop of `Next`: the ID and the link, or the error if there is one. `none`: more than `n` rounds. -/
def nextLoop (k : Kern) : Nat → S → Nat → Option (S × Except (Option E) (Nat × Lnk))
  | 0, _, _ => none
  | n + 1, s, id =>
    match getNextId k s id with
    | (s, .error .noent) => some (s, .error none)
    | (s, .error e) => some (s, .error (some e))
    | (s, .ok id) =>
      match newFromID k s id with
      | (s, .error .noent) => nextLoop k n s id
      | (s, .error e) => some (s, .error (some e))
      | (s, .ok l) => some (s, .ok (id, l))

/-- Close the iterator's link, if there is one. -/
def closeLink (s : S) (l : Option Lnk) : S :=
  match l with
  | some l => close s l.fd
  | none => s

/-- link/link.go:290-327 `Next`. -/
def next (k : Kern) (fuel : Nat) (s : S) (it : It) : Option (S × It × Bool) :=
  match nextLoop k fuel s it.id with
  | none => none
  | some (s, .ok (id, l)) => some (closeLink s it.link, ⟨id, some l, it.err⟩, true)
  | some (s, .error none) => some (closeLink s it.link, ⟨it.id, none, it.err⟩, false)
  | some (s, .error (some e)) => some (closeLink s it.link, ⟨it.id, none, some e⟩, false)

/-- link/link.go:332-336 `Take`. -/
def take (it : It) : It × Option Lnk := ({ it with link := none }, it.link)

/-- link/link.go:343-347 `Close`. -/
def iterClose (s : S) (it : It) : S := closeLink s it.link

end Ebpf.LinkIter
