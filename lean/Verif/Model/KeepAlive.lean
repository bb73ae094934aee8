import Verif.Spec.KeepAlive
/-!
# Model: which references the library holds while it is in the kernel  (property C93)

For each API function that hands descriptor numbers to the kernel, the order
in which it uses Go references and enters the kernel.  What the function does
with other values is left out.

Simplifications (all definitions of this file):
* Functions called with the same reference are inlined; their own uses are
  merged into one `use`.  Uses of a reference before its number is copied are
  merged as well.
* System calls without a descriptor of ours, and feature probes, are left out.
* Descriptors made inside the function are part of the world from the start:
  they cannot be collected before they exist because they are used later.
* Linux only.
-/
namespace Ebpf.KeepAlive

/-- The references in play. The first group are the arguments (or receivers) of
API functions, the second group are made by the library itself.
(/repo/map.go:1037, link/program.go:14-28, link/link.go:194-198,
link/iter.go:15-26, prog.go:287-525, map.go:394-663, perf/reader.go:189-264) -/
inductive Ref
  -- arguments
  | map | value | prog | anchor | target | link | newProg | oldProg | cursor | spec | reader
  -- reachable from an argument only
  | specMap | events | array
  -- made by the library
  | btf | kconfig | ksyms | kfuncs | module | template | perfEvent | cgroup | clone | made
  | loader | programs
deriving DecidableEq, Repr

/-- All references. (enumeration of `Ref`, no code) -/
def allRefs : List Ref :=
  [.map, .value, .prog, .anchor, .target, .link, .newProg, .oldProg, .cursor, .spec, .reader,
   .specMap, .events, .array,
   .btf, .kconfig, .ksyms, .kfuncs, .module, .template, .perfEvent, .cgroup, .clone, .made,
   .loader, .programs]

/-- Which descriptors can be reached from a reference. A cursor refers to the
map it belongs to once the first lookup has started (map.go:1352); a program
spec refers to its attach target (prog.go ProgramSpec.AttachTarget) and, via its
instructions, to the maps associated with them (asm/instruction.go:930-960);
a collection loader refers to its maps and programs (collection.go:380-392);
a perf reader to its array and events (perf/reader.go:240-252); a legacy cgroup
link to its cgroup and its clone of the program (link/cgroup.go:77-82). -/
def points (r d : Ref) : Bool :=
  r == d ||
  match r, d with
  | .cursor, .map => true
  | .spec, .target => true
  | .spec, .specMap => true
  | .loader, .map => true
  | .loader, .programs => true
  | .reader, .events => true
  | .reader, .array => true
  | .link, .cgroup => true
  | .link, .clone => true
  | _, _ => false

/-- The modelled functions. (one constructor per function, see `body`) -/
inductive Api
  | mapLookup | mapLookupPerCPU | mapLookupAndDelete | mapLookupAndDeletePerCPU | mapLookupBytes
  | mapUpdate | mapDelete | mapNextKey | mapBatchLookup | mapBatchLookupPerCPU | mapBatchUpdate
  | mapBatchDelete | mapMemory | mapClone | mapPin | mapFreeze | mapInfo
  | newMap | newProgram | populateStructOps
  | progRun | progBindMap | progInfo | progStats | progClone | progPin
  | rawAttachProgram | rawDetachProgram
  | linkUpdateArgs | linkDetach | linkInfo | linkPin
  | attachIter | iterOpen | attachFreplace | attachTracing | attachRawTracepoint | attachRawLink
  | attachCgroup | cgroupClose | cgroupUpdate
  | kprobeMulti | uprobeMulti | attachNetfilter | attachStructOps
  | kprobeLink | kprobeIoctl | attachSocketFilter | attachTCX | attachNetkit
  | newRingbufReader | newPerfReader | perfResume
deriving DecidableEq, Repr

abbrev B := Body Ref

/-- Nothing is left to do and nothing is returned. -/
def fin : B := .ret []

/-- map.go:851-862 and 917-937: the size of the buffer and the key are taken
from `m`, the number is copied, and on success `m.unmarshalValue` follows. -/
def mapLookup : B :=
  .use [.map] <| .call [.map] <| .branch fin <| .use [.map] fin

/-- map.go:905-915: `m.valueSize` is read after the lookup. -/
def mapLookupPerCPU : B :=
  .use [.map] <| .call [.map] <| .branch fin <| .use [.map] fin

/-- map.go:878-888 and 993-1011. -/
def mapLookupAndDelete : B :=
  .use [.map] <| .call [.map] <| .branch fin <| .use [.map] fin

/-- map.go:939-949. -/
def mapLookupAndDeletePerCPU : B :=
  .use [.map] <| .call [.map] <| .branch fin <| .use [.map] fin

/-- map.go:893-903: nothing of `m` is used after the lookup. -/
def mapLookupBytes : B :=
  .use [.map] <| .call [.map] <| .branch fin fin

/-- map.go:1037-1077, with a `*Map` or `*Program` as the value: marshalMap
(map.go:1763-1775) copies its number into the buffer passed to the kernel. -/
def mapUpdate : B :=
  .use [.map, .value] <| .use [.map] <| .call [.map, .value] <| .branch fin fin

/-- map.go:1082-1097. -/
def mapDelete : B :=
  .use [.map] <| .call [.map] <| .branch fin fin

/-- map.go:1136-1176: on old kernels a first key is guessed by up to four
lookups (map.go:1185-1228), each of which uses `m`, and the call is repeated
with the number copied before the first attempt. The attempts are unrolled. -/
def mapNextKey : B :=
  let again : B := .call [.map] <| .branch fin fin
  let guess (k : B) : B := .use [.map] <| .call [.map] <| .branch again k
  .use [.map] <| .call [.map] <|
    .branch fin <| .branch fin <| guess <| guess <| guess <| guess fin

/-- map.go:1283-1310 and 1335-1388: `cursor.m = m` on the first lookup; neither
is used after the call. -/
def mapBatchLookup : B :=
  .use [.map, .cursor] <| .call [.map] <| .branch fin fin

/-- map.go:1312-1333: `m.valueSize` is read afterwards. -/
def mapBatchLookupPerCPU : B :=
  .use [.map, .cursor] <| .call [.map] <| .branch fin <| .use [.map] fin

/-- map.go:1394-1454. -/
def mapBatchUpdate : B :=
  .use [.map] <| .call [.map] <| .branch fin fin

/-- map.go:1456-1486. -/
def mapBatchDelete : B :=
  .use [.map] <| .call [.map] <| .branch fin fin

/-- map.go:475-497: the mapping is stored in `m.memory` afterwards. -/
def mapMemory : B :=
  .use [.map] <| .call [.map] <| .branch fin <| .use [.map] fin

/-- map.go:1542-1564 with internal/sys/fd_other.go:46-59: the fields of `m` are
copied after its descriptor was duplicated. -/
def mapClone : B :=
  .use [.map] <| .call [.map] <| .branch fin <| .use [.map] <| .ret [.made]

/-- internal/sys/pinning_other.go:16-56: `defer runtime.KeepAlive(fd)`. -/
def pin (r : Ref) : B :=
  .use [r] <| .branch fin <|
    .branch (.call [r] <| .use [r] <| .branch fin <| .use [r] fin) <|
      .branch (.use [r] fin) <| .use [r] <| .call [r] <| .use [r] <| .branch fin <| .use [r] fin

/-- map.go:1575-1581. -/
def mapPin : B := pin .map

/-- map.go:1604-1616. -/
def mapFreeze : B :=
  .use [.map] <| .call [.map] <| .branch fin fin

/-- internal/sys/syscall.go:123-132: `runtime.KeepAlive(fd)` follows the call. -/
def objInfo (r : Ref) (k : B) : B :=
  .use [r] <| .call [r] <| .use [r] k

/-- info.go:97-137 and 885-900: after the info call the number is copied into
the path of a file in /proc, and `fd` is not used again. -/
def mapInfo : B :=
  objInfo .map <| .branch fin <| .use [.map] <| .call [.map] <| .branch fin fin

/-- map.go:394-470 and 551-663 for a map of maps with BTF: the template and the
BTF handle are closed by deferred calls. The second attempt is without BTF. -/
def newMap : B :=
  let closing : B := .use [.btf] <| .use [.module] <| .use [.template] fin
  let done : B := .use [.made, .btf] <| .use [.module] <| .use [.template] <| .ret [.made]
  .use [.template] <| .use [.btf] <| .use [.module] <|
    .call [.template, .btf, .module] <|
    .branch done <| .branch closing <| .call [.template, .module] <| .branch done closing

/-- prog.go:287-525: BTF, module, kconfig, ksym and kfunc handles are closed by
deferred calls, `defer runtime.KeepAlive(spec.AttachTarget)`, and the spec, whose
instructions refer to the maps, is used by the success and the error path. -/
def newProgram : B :=
  let fds : List Ref := [.specMap, .btf, .kconfig, .ksyms, .kfuncs, .target, .module]
  let deferred (k : B) : B :=
    .use [.module] <| .use [.target] <| .use [.kfuncs] <| .use [.ksyms] <| .use [.kconfig] <|
    .use [.btf] k
  .use [.spec] <| .use [.btf] <| .use [.kconfig] <| .use [.ksyms] <| .use [.kfuncs] <|
    .use [.target] <| .use [.module] <|
    .call fds <| .branch (.use [.spec, .btf] <| deferred <| .ret [.made]) <|
      .branch (deferred fin) <| .use [.spec] <| deferred fin

/-- collection.go:560-617 and 623-710: the descriptors of the programs are part
of the value; `runtime.KeepAlive(cl.programs)` follows the update. The map is
finalized afterwards. -/
def populateStructOps : B :=
  .use [.loader, .map, .programs] <| .use [.map] <| .call [.map, .programs] <|
    .branch fin <| .use [.programs] <| .use [.map] <| .ret [.loader]

/-- prog.go:986-1093: a failed run may report `p.Type()`. -/
def progRun : B :=
  .use [.prog] <| .call [.prog] <| .branch fin <| .branch (.use [.prog] fin) fin

/-- prog.go:1162-1169. -/
def progBindMap : B :=
  .use [.prog] <| .use [.map] <| .call [.prog, .map] fin

/-- prog.go:675-677 and info.go:353-510: two more info calls follow the access
to /proc. -/
def progInfo : B :=
  objInfo .prog <| .branch fin <| .use [.prog] <| .call [.prog] <| .branch fin <|
    .branch (objInfo .prog <| .branch fin <| objInfo .prog fin) <|
      .branch (objInfo .prog fin) fin

/-- prog.go:683-685 and info.go:242-253. -/
def progStats : B := objInfo .prog <| .branch fin fin

/-- prog.go:763-780. -/
def progClone : B :=
  .use [.prog] <| .call [.prog] <| .branch fin <| .use [.prog] <| .ret [.made]

/-- prog.go:790-796. -/
def progPin : B := pin .prog

/-- link/program.go:34-70: `runtime.KeepAlive(opts.Program)` on success, nothing
for the anchor. `failed` and `ok` are what the caller does next. -/
def rawAttach (p a : Ref) (failed ok : B) : B :=
  .use [p] <| .use [a] <| .call [p, a] <| .branch failed <| .use [p] ok

/-- link/program.go:34-70. -/
def rawAttachProgram : B := rawAttach .prog .anchor fin fin

/-- link/program.go:78-108: no `runtime.KeepAlive`. -/
def rawDetachProgram : B :=
  .use [.prog] <| .use [.anchor] <| .call [.prog, .anchor] <| .branch fin fin

/-- link/link.go:201-225. -/
def linkUpdateArgs : B :=
  .use [.newProg] <| .use [.oldProg] <| .use [.link] <|
    .call [.link, .newProg, .oldProg] <| .branch fin fin

/-- link/link.go:228-243. -/
def linkDetach : B :=
  .use [.link] <| .call [.link] <| .branch fin fin

/-- link/link.go:249-262. -/
def linkInfo : B := objInfo .link <| .branch fin fin

/-- link/link.go:164-170. -/
def linkPin : B := pin .link

/-- link/iter.go:29-60. -/
def attachIter : B :=
  .use [.prog] <| .use [.map] <| .call [.prog, .map] <| .branch fin <| .ret [.made]

/-- link/iter.go:84-95. -/
def iterOpen : B :=
  .use [.link] <| .call [.link] <| .branch fin <| .ret [.made]

/-- link/link_other.go:32-64 with `p` as `opts.Program` and the numbers in
`targets` as `opts.Target`. -/
def rawLink (p : Ref) (targets : List Ref) (failed ok : B) : B :=
  .use [p] <| .call (p :: targets) <| .branch failed ok

/-- link/tracing.go:51-105: the number of the target program is copied before
AttachRawLink is called. The BTF handle of the target is closed in the end. -/
def attachFreplace : B :=
  .use [.prog] <| .use [.target] <| .use [.btf] <|
    rawLink .prog [.target] (.use [.btf] fin) (.use [.btf] <| .ret [.made])

/-- link/tracing.go:134-192: `program.FD()` is called again if the first way of
attaching is refused; the link is asked for its type. -/
def attachTracing : B :=
  let checked : B := objInfo .made <| .branch (.use [.made] fin) <| .ret [.made]
  let legacy : B := .branch fin <| .use [.prog] <| .call [.prog] <| .branch fin checked
  .use [.prog] <| .branch legacy <| .use [.prog] <| .call [.prog] <|
    .branch checked <| .branch fin legacy

/-- link/raw_tracepoint.go:23-51. -/
def attachRawTracepoint : B :=
  .use [.prog] <| .call [.prog] <| .branch fin <| .branch fin <| .ret [.made]

/-- link/link_other.go:32-64; also AttachXDP (link/xdp.go:40-61) and AttachNetNs
(link/netns.go:18-39), which use the program before and the link after. -/
def attachRawLink : B := rawLink .prog [] fin (.ret [.made])

/-- link/cgroup.go:45-75 and 90-115: a link is tried first, then the program is
cloned (prog.go:763-780) and the clone is attached, in two modes. The cgroup is closed by a deferred call
unless the returned link keeps it. -/
def attachCgroup : B :=
  let legacy (more : B) : B :=
    .use [.prog] <| .call [.prog] <| .branch (.use [.cgroup] fin) <|
      .use [.prog] <| .use [.clone] <| .call [.clone, .cgroup] <|
      .branch (.use [.clone] more) <| .use [.clone] <| .ret [.clone, .cgroup]
  let closing : B := .use [.cgroup] fin
  .use [.cgroup] <| rawLink .prog [.cgroup]
    (.branch closing <| legacy <| .branch closing <| legacy closing)
    (.use [.cgroup] <| .ret [.made])

/-- link/cgroup.go:117-130: the program and the cgroup of the link are closed by
deferred calls. -/
def cgroupClose : B :=
  .use [.link] <| .use [.cgroup] <| .use [.clone] <| .call [.clone, .cgroup] <|
    .branch (.use [.clone, .cgroup] fin) (.use [.clone, .cgroup] fin)

/-- link/cgroup.go:132-160: the program is cloned, attached in place of the
current one, and the link is changed. -/
def cgroupUpdate : B :=
  .use [.prog] <| .call [.prog] <| .branch fin <|
    .use [.link] <| .use [.prog] <| .use [.link] <| .call [.prog, .clone, .cgroup] <|
    .branch (.use [.made] fin) <| .use [.prog] <| .use [.link] fin

/-- link/kprobe_multi.go:74-144. -/
def kprobeMulti : B :=
  .use [.prog] <| .call [.prog] <| .branch (.ret [.made]) fin

/-- link/uprobe_multi.go:53-117. -/
def uprobeMulti : B :=
  .use [.prog] <| .call [.prog] <| .branch (.ret [.made]) fin

/-- link/netfilter.go:58-88. -/
def attachNetfilter : B :=
  .use [.prog] <| .call [.prog] <| .branch fin <| .ret [.made]

/-- link/struct_ops.go:24-51. -/
def attachStructOps : B :=
  .use [.map] <| .call [.map] <| .branch fin <| .ret [.made]

/-- link/kprobe.go:115-130 and link/perf_event.go:281-298, 318-330: the perf
event is part of the link, or closed if attaching fails. -/
def kprobeLink : B :=
  .use [.prog] <| .use [.perfEvent] <| .call [.prog, .perfEvent] <|
    .branch (.use [.perfEvent] fin) <| .ret [.made, .perfEvent]

/-- link/perf_event.go:300-313: two ioctls, the program is an argument of the
first. -/
def kprobeIoctl : B :=
  .use [.perfEvent] <| .use [.prog] <| .call [.perfEvent, .prog] <|
    .branch (.use [.perfEvent] fin) <|
    .use [.perfEvent] <| .call [.perfEvent] <|
    .branch (.use [.perfEvent] fin) <| .ret [.perfEvent]

/-- link/socket_filter.go:13-26: the closure is not used after it was called. -/
def attachSocketFilter : B :=
  .use [.prog] <| .call [.prog] <| .branch fin fin

/-- link/tcx.go:29-67: `runtime.KeepAlive` for the program and the anchor. -/
def attachTCX : B :=
  .use [.prog] <| .use [.anchor] <| .call [.prog, .anchor] <|
    .use [.prog] <| .use [.anchor] <| .branch fin <| .ret [.made]

/-- link/netkit.go:29-67: `runtime.KeepAlive` for the program and the anchor. -/
def attachNetkit : B :=
  .use [.prog] <| .use [.anchor] <| .call [.prog, .anchor] <|
    .use [.prog] <| .use [.anchor] <| .branch fin <| .ret [.made]

/-- ringbuf/raw_reader.go:63-89, reader_other.go:21-36 and ring_other.go:25-59:
the map is added to the poller and mapped twice. -/
def newRingbufReader : B :=
  .use [.map] <| .call [.map] <| .branch fin <|
    .use [.map] <| .call [.map] <| .branch fin <| .call [.map] <| .branch fin <| .ret [.made]

/-- perf/reader.go:431-452 for one event: `fd` is part of the error. -/
def resume (failed ok : B) : B :=
  .use [.reader] <| .use [.events] <| .call [.array, .events] <|
    .branch (.use [.events] failed) <| .use [.reader] ok

/-- perf/reader.go:189-264 and perf/ring.go:28-82 for one event: the event is
closed if there is an error and part of the reader otherwise; the array given
by the caller is cloned. -/
def newPerfReader : B :=
  let failed : B := .use [.events] fin
  .use [.map] <| .use [.events] <| .call [.events] <| .branch failed <|
    .use [.events] <| .call [.events] <| .branch failed <|
    .use [.events] <| .call [.events] <| .branch failed <|
    .use [.map] <| .call [.map] <| .branch failed <| .use [.map] <| .use [.array] <|
    resume failed (.ret [.reader])

/-- perf/reader.go:431-452. -/
def perfResume : B := resume fin fin

/-- The body of each function. -/
def body : Api → B
  | .mapLookup => mapLookup
  | .mapLookupPerCPU => mapLookupPerCPU
  | .mapLookupAndDelete => mapLookupAndDelete
  | .mapLookupAndDeletePerCPU => mapLookupAndDeletePerCPU
  | .mapLookupBytes => mapLookupBytes
  | .mapUpdate => mapUpdate
  | .mapDelete => mapDelete
  | .mapNextKey => mapNextKey
  | .mapBatchLookup => mapBatchLookup
  | .mapBatchLookupPerCPU => mapBatchLookupPerCPU
  | .mapBatchUpdate => mapBatchUpdate
  | .mapBatchDelete => mapBatchDelete
  | .mapMemory => mapMemory
  | .mapClone => mapClone
  | .mapPin => mapPin
  | .mapFreeze => mapFreeze
  | .mapInfo => mapInfo
  | .newMap => newMap
  | .newProgram => newProgram
  | .populateStructOps => populateStructOps
  | .progRun => progRun
  | .progBindMap => progBindMap
  | .progInfo => progInfo
  | .progStats => progStats
  | .progClone => progClone
  | .progPin => progPin
  | .rawAttachProgram => rawAttachProgram
  | .rawDetachProgram => rawDetachProgram
  | .linkUpdateArgs => linkUpdateArgs
  | .linkDetach => linkDetach
  | .linkInfo => linkInfo
  | .linkPin => linkPin
  | .attachIter => attachIter
  | .iterOpen => iterOpen
  | .attachFreplace => attachFreplace
  | .attachTracing => attachTracing
  | .attachRawTracepoint => attachRawTracepoint
  | .attachRawLink => attachRawLink
  | .attachCgroup => attachCgroup
  | .cgroupClose => cgroupClose
  | .cgroupUpdate => cgroupUpdate
  | .kprobeMulti => kprobeMulti
  | .uprobeMulti => uprobeMulti
  | .attachNetfilter => attachNetfilter
  | .attachStructOps => attachStructOps
  | .kprobeLink => kprobeLink
  | .kprobeIoctl => kprobeIoctl
  | .attachSocketFilter => attachSocketFilter
  | .attachTCX => attachTCX
  | .attachNetkit => attachNetkit
  | .newRingbufReader => newRingbufReader
  | .newPerfReader => newPerfReader
  | .perfResume => perfResume

/-- The references that are arguments or receivers of API functions, which the
caller may go on holding. (the signatures cited above) -/
def isArgument : Ref → Bool
  | .map | .value | .prog | .anchor | .target | .link | .newProg | .oldProg | .cursor | .spec
  | .reader => true
  | _ => false

end Ebpf.KeepAlive
