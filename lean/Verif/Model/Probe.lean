import Verif.Model.Tracefs
/-!
# Model of attaching kprobes and uprobes: `link/kprobe.go`, `link/uprobe.go:333-388`, `link/perf_event.go`, `internal/tracefs/kprobe.go:255-372`

The kernel is arbitrary; its calls are numbered by a clock. Resources are trace events, perf events and links; each is identified by the
number of its creation. Resolving the address of a uprobe is C69, sys.FD is C43. Errors keep only what errors.Is distinguishes. Finalizers are left
out: a trace event or descriptor that is not closed explicitly counts as open.
-/
namespace Ebpf.Probe
open Ebpf.Tracefs

/-- Errors by what errors.Is finds in them. -/
inductive Err where
  | notExist
  | inval
  | notSupported
  | ilseq
  | range
  | exist
  | invalidInput
  | invalidMaxActive
  | invalidName
  | closed
  | other (n : Nat)
deriving DecidableEq

/-- unix.PerfEventAttr as far as it is used, with pid and cpu. -/
inductive PerfAttr where
  | pmu (type config : BitVec 64) (target : Bytes) (offset : Nat) (pid cpu : Int)
  | tracepoint (id : Nat) (pid cpu : Int)
deriving DecidableEq

/-- Something that exists in the kernel. -/
inductive Res where
  | event (uprobe : Bool) (command : Bytes)
  | perf (attr : PerfAttr)
  | link (perf : Nat) (cookie : Nat)
deriving DecidableEq

/-- The kernel. `retBit` is the position read from format/retprobe. -/
structure World where
  pmuType : Bool → Except Err (BitVec 64)
  retBit : Bool → Except Err Nat
  perfOpen : Nat → PerfAttr → Except Err Unit
  eventId : Nat → Bytes → Bytes → Except Err Nat
  openEvents : Nat → Except Err Unit
  write : Nat → Bytes → Except Err Unit
  random : Nat → Except Err Bytes
  linkSupported : Bool
  linkCreate : Nat → Nat → Nat → Except Err Unit
  setBpf : Nat → Nat → Except Err Unit
  enable : Nat → Nat → Except Err Unit
  closeFd : Nat → Except Err Unit
  prefix_ : Bytes

/-- The clock, everything created so far, and the numbers of what has been closed or removed. -/
structure St where
  clock : Nat
  res : List Res
  closed : List Nat

/-- The time passes. -/
def St.tick (st : St) : St := { st with clock := st.clock + 1 }

/-- Something is created. -/
def St.create (st : St) (r : Res) : St := { st with clock := st.clock + 1, res := st.res ++ [r] }

/-- Something is closed. -/
def St.close (st : St) (n : Nat) : St := { st with clock := st.clock + 1, closed := n :: st.closed }

/-- internal/tracefs/kprobe.go:36-42 `ProbeArgs`. -/
structure ProbeArgs where
  uprobe : Bool
  symbol : Bytes
  group : Bytes
  path : Bytes
  offset : Nat
  refCtrOffset : Nat
  pid : Int
  maxActive : Int
  ret : Bool

/-- The part that the text depends on. -/
def ProbeArgs.text (a : ProbeArgs) : Args := ⟨a.uprobe, a.symbol, a.group, a.path, a.offset, a.refCtrOffset, a.maxActive, a.ret⟩

/-- internal/tracefs/kprobe.go:237-246 `Event`; `live` is `id != 0`. -/
structure Event where
  n : Nat
  uprobe : Bool
  group : Bytes
  name : Bytes
  id : Nat
  live : Bool

/-- link/perf_event.go:52-59 `perfEvent`; `live` is an open descriptor. -/
structure PerfEvent where
  n : Nat
  event : Option Event
  live : Bool

/-- internal/tracefs/kprobe.go:202-224 `EventID`. -/
def eventID (w : World) (t : Nat) (group name : Bytes) : Except Err Nat :=
  if validIdentifier group = false ∨ validIdentifier name = false then .error .invalidName
  else w.eventId t group name

/-- internal/tracefs/kprobe.go:374-389 `removeEvent`. -/
def removeEvent (w : World) (n : Nat) (text : Bytes) (st : St) : Except Err Unit × St :=
  match w.openEvents st.clock with
  | .error e => (.error e, st.tick)
  | .ok () =>
    match w.write st.tick.clock text with
    | .error e => (.error e, st.tick.tick)
    | .ok () => (.ok (), st.tick.close n)

/-- internal/tracefs/kprobe.go:361-372 `Event.Close`. -/
def closeEvent (w : World) (e : Event) (st : St) : Except Err Unit × Event × St :=
  if e.live = false then (.error .closed, e, st)
  else
    let r := removeEvent w e.n (removal e.group e.name) st
    (r.1, { e with live := false }, r.2)

/-- internal/tracefs/kprobe.go:264-271: is it certain that there is no such event yet? -/
def checkFree (w : World) (t : Nat) (group name : Bytes) : Except Err Unit :=
  match eventID w t group name with
  | .ok _ => .error .exist
  | .error .notExist => .ok ()
  | .error e => .error e

/-- internal/tracefs/kprobe.go:326-341: how errors of the write are reported. -/
def writeErr : Err → Err
  | .ilseq => .notExist
  | .range => .notExist
  | e => e

/-- internal/tracefs/kprobe.go:351-352: removal of the event under the name old kernels give it, "kprobes/r_SYMBOL_OFFSET". -/
def spurious (a : ProbeArgs) : Bytes :=
  removal [0x6b#8, 0x70#8, 0x72#8, 0x6f#8, 0x62#8, 0x65#8, 0x73#8] ([0x72#8, 0x5f#8] ++ a.symbol ++ [0x5f#8] ++ dec a.offset)

/-- internal/tracefs/kprobe.go:346-361: after the write. -/
def finishEvent (w : World) (a : ProbeArgs) (name : Bytes) (n : Nat) (st : St) : Except Err Event × St :=
  match eventID w st.clock a.group name with
  | .ok id => (.ok ⟨n, a.uprobe, a.group, name, id, id ≠ 0⟩, st.tick)
  | .error e =>
    if a.maxActive ≠ 0 ∧ e = .notExist then
      match removeEvent w n (spurious a) st.tick with
      | (.error e, st) => (.error e, st)
      | (.ok (), st) => (.error .notSupported, st)
    else (.error e, st.tick)

/-- internal/tracefs/kprobe.go:255-361 `NewEvent`. -/
def newEvent (w : World) (a : ProbeArgs) (st : St) : Except Err Event × St :=
  let name := sanitizeIdentifier a.symbol
  match checkFree w st.clock a.group name with
  | .error e => (.error e, st.tick)
  | .ok () =>
    match w.openEvents st.tick.clock with
    | .error e => (.error e, st.tick.tick)
    | .ok () =>
      match command a.text with
      | none => (.error .invalidMaxActive, st.tick.tick)
      | some text =>
        match w.write st.tick.tick.clock text with
        | .error e => (.error (writeErr e), st.tick.tick.tick)
        | .ok () => finishEvent w a name st.res.length (st.tick.tick.create (.event a.uprobe text))

/-- link/perf_event.go:66-77 `perfEvent.Close`. -/
def closePerf (w : World) (p : PerfEvent) (st : St) : Except Err Unit × PerfEvent × St :=
  if p.live = false then (.error .closed, p, st)
  else
    match w.closeFd st.clock with
    | .error e => (.error e, { p with live := false }, st.close p.n)
    | .ok () =>
      match p.event with
      | none => (.ok (), { p with live := false }, st.close p.n)
      | some ev =>
        let r := closeEvent w ev (st.close p.n)
        (r.1, ⟨p.n, some r.2.1, false⟩, r.2.2)

/-- `cpu`, link/kprobe.go:307-310. -/
def cpuFor (pid : Int) : Int := if pid ≠ -1 then -1 else 0

/-- link/kprobe.go:230-302: the attributes of a perf event of the PMU. -/
def pmuAttr (w : World) (a : ProbeArgs) (type : BitVec 64) : Except Err PerfAttr :=
  match if a.ret then w.retBit a.uprobe else .ok 0 with
  | .error e => .error e
  | .ok bit =>
    let config := if a.ret then 1#64 <<< bit else 0#64
    if a.uprobe then .ok (.pmu type (config ||| (BitVec.ofNat 64 a.refCtrOffset <<< 32)) a.path a.offset a.pid (cpuFor a.pid))
    else .ok (.pmu type config a.symbol a.offset a.pid (cpuFor a.pid))

/-- link/kprobe.go:314-333: how errors of perf_event_open are reported. -/
def openErr (a : ProbeArgs) : Err → Err
  | .inval => if 0x2e#8 ∈ a.symbol then .notSupported else .inval
  | .ilseq => .notExist
  | e => e

/-- link/kprobe.go:217-347 `pmuProbe`. -/
def pmuProbe (w : World) (a : ProbeArgs) (st : St) : Except Err PerfEvent × St :=
  match w.pmuType a.uprobe with
  | .error .notExist => (.error .notSupported, st.tick)
  | .error e => (.error e, st.tick)
  | .ok type =>
    if a.maxActive ≠ 0 then (.error .notSupported, st.tick)
    else
      match pmuAttr w a type with
      | .error e => (.error e, st.tick)
      | .ok attr =>
        match w.perfOpen st.tick.clock attr with
        | .error e => (.error (openErr a e), st.tick.tick)
        | .ok () => (.ok ⟨st.res.length, none, true⟩, st.tick.create (.perf attr))

/-- "ebpf". -/
def defaultGroup : Bytes := [0x65#8, 0x62#8, 0x70#8, 0x66#8]

/-- link/kprobe.go:355-386 `tracefsProbe`. -/
def tracefsProbe (w : World) (a : ProbeArgs) (st : St) : Except Err PerfEvent × St :=
  match w.random st.clock with
  | .error e => (.error e, st.tick)
  | .ok random =>
    match randomGroup (if a.group ≠ [] then a.group else defaultGroup) random with
    | none => (.error .invalidInput, st.tick)
    | some group =>
      match newEvent w { a with group := group } st.tick with
      | (.error e, st) => (.error e, st)
      | (.ok ev, st) =>
        match w.perfOpen st.clock (.tracepoint ev.id a.pid (cpuFor a.pid)) with
        | .error e => (.error e, (closeEvent w ev st.tick).2.2)
        | .ok () => (.ok ⟨st.res.length, some ev, true⟩, st.create (.perf (.tracepoint ev.id a.pid (cpuFor a.pid))))

/-- link/kprobe.go:193-198, 206-211: try again with the prefix of the platform. -/
def withPrefix (w : World) (f : ProbeArgs → St → Except Err PerfEvent × St) (a : ProbeArgs) (st : St) : Except Err PerfEvent × St :=
  match f a st with
  | (.ok p, st) => (.ok p, st)
  | (.error e, st) =>
    if (e = .notExist ∨ e = .inval) ∧ w.prefix_ ≠ [] then f { a with symbol := w.prefix_ ++ a.symbol } st else (.error e, st)

/-- link/kprobe.go:163-215 `kprobe`, for a program of the right type. -/
def kprobe (w : World) (a : ProbeArgs) (st : St) : Except Err PerfEvent × St :=
  if validSymbol a.symbol = false then (.error .invalidInput, st)
  else
    match withPrefix w (pmuProbe w) a st with
    | (.ok p, st) => (.ok p, st)
    | (.error .notSupported, st) => withPrefix w (tracefsProbe w) a st
    | (.error e, st) => (.error e, st)

/-- link/uprobe.go:369-388: the end of `uprobe`. -/
def uprobe (w : World) (a : ProbeArgs) (st : St) : Except Err PerfEvent × St :=
  match pmuProbe w a st with
  | (.ok p, st) => (.ok p, st)
  | (.error .notSupported, st) => tracefsProbe w a st
  | (.error e, st) => (.error e, st)

/-- link/tracepoint.go:45-56: the part of `Tracepoint` before attaching. -/
def tracepoint (w : World) (group name : Bytes) (st : St) : Except Err PerfEvent × St :=
  if group = [] ∨ name = [] then (.error .invalidInput, st)
  else
    match eventID w st.clock group name with
    | .error e => (.error e, st.tick)
    | .ok id =>
      match w.perfOpen st.tick.clock (.tracepoint id (-1) (cpuFor (-1))) with
      | .error e => (.error e, st.tick.tick)
      | .ok () => (.ok ⟨st.res.length, none, true⟩, st.tick.create (.perf (.tracepoint id (-1) (cpuFor (-1)))))

/-- A link: `perfEventLink` with its descriptor, or `perfEventIoctl`. -/
structure Link where
  link : Option Nat
  linkLive : Bool
  perf : PerfEvent

/-- link/perf_event.go:296-343 `attachPerfEvent`, for an open program. -/
def attach (w : World) (p : PerfEvent) (cookie : Nat) (st : St) : Except Err Link × St :=
  if w.linkSupported then
    match w.linkCreate st.clock p.n cookie with
    | .error e => (.error e, st.tick)
    | .ok () => (.ok ⟨some st.res.length, true, p⟩, st.create (.link p.n cookie))
  else if cookie ≠ 0 then (.error .notSupported, st)
  else
    match w.setBpf st.clock p.n with
    | .error e => (.error e, st.tick)
    | .ok () =>
      match w.enable st.tick.clock p.n with
      | .error e => (.error e, st.tick.tick)
      | .ok () => (.ok ⟨none, false, p⟩, st.tick.tick)

/-- link/kprobe.go:84-99 `Kprobe`, `Kretprobe`, link/uprobe.go:276-326 `Uprobe`, `Uretprobe`, link/tracepoint.go:58-70 `Tracepoint`: open, attach, and close if that fails. -/
def attachProbe (w : World) (open_ : St → Except Err PerfEvent × St) (cookie : Nat) (st : St) : Except Err Link × St :=
  match open_ st with
  | (.error e, st) => (.error e, st)
  | (.ok p, st) =>
    match attach w p cookie st with
    | (.ok l, st) => (.ok l, st)
    | (.error e, st) => (.error e, (closePerf w p st).2.2)

/-- link/perf_event.go:100-115 `perfEventLink.Close`, and that of `perfEventIoctl`. -/
def closeLink (w : World) (l : Link) (st : St) : Except Err Unit × Link × St :=
  match l.link with
  | none =>
    let r := closePerf w l.perf st
    (r.1, { l with perf := r.2.1 }, r.2.2)
  | some n =>
    if l.linkLive = false then (.error .closed, l, st)
    else
      match w.closeFd st.clock with
      | .error e => (.error e, { l with linkLive := false }, st.close n)
      | .ok () =>
        let r := closePerf w l.perf (st.close n)
        (r.1, ⟨some n, false, r.2.1⟩, r.2.2)

end Ebpf.Probe
