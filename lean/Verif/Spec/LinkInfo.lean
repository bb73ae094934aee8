import Verif.Base
/-!
# Specification: what is known about a link

What a link is to the kernel, how the kernel answers BPF_OBJ_GET_INFO_BY_FD for one (struct bpf_link_info of
include/uapi/linux/bpf.h, and the fill_link_info functions of kernel/bpf/syscall.c and kernel/trace/bpf_trace.c), and what
`link.Info` should tell the user about it.

The kernel's answer is described by the offsets of struct bpf_link_info; all sizes are counts of elements (bytes of a string,
64-bit words of an array). The kernel never writes more elements behind a pointer than the length passed with it.
-/
namespace Ebpf.LinkInfoSpec

/-- Errors of the kernel. -/
def EINVAL : Nat := 22
def ENOSPC : Nat := 28
def ENAMETOOLONG : Nat := 36

/-- A pointer: the buffer it points to, and its size. -/
structure Buf where
  id : Nat
  size : Nat
deriving DecidableEq

/-- The struct bpf_link_info passed in: the pointer at an offset, and the number at an offset. -/
structure Req where
  ptr : Nat → Option Buf
  num : Nat → Nat

/-- The struct bpf_link_info passed back: the numbers, and what was written behind the pointer at an offset. -/
structure Rep where
  num : Nat → Nat
  wrote : Nat → List Nat

/-- What a perf event is attached to. -/
inductive Perf where
  | kprobe (ret : Bool) (function : List Nat) (offset address missed : Nat)
  | uprobe (ret : Bool) (file : List Nat) (offset cookie refCtr : Nat)
  | tracepoint (name : List Nat) (cookie : Nat)
  | event (config type cookie : Nat)
deriving DecidableEq

/-- One place a uprobe_multi link is attached to. -/
structure Place where
  offset : Nat
  cookie : Nat
  refCtr : Nat
deriving DecidableEq

/-- What a link is. A kprobe_multi link created without cookies has none. -/
inductive Kind where
  | rawTracepoint (name : List Nat)
  | tracing (attach obj btf : Nat)
  | cgroup (cgroup attach : Nat)
  | iter (target : List Nat)
  | netns (inode attach : Nat)
  | xdp (ifindex : Nat)
  | perf (p : Perf)
  | kprobeMulti (addrs : List Nat) (cookies : Option (List Nat)) (flags missed : Nat)
  | netfilter (pf hook priority flags : Nat)
  | tcx (ifindex attach : Nat)
  | uprobeMulti (path : List Nat) (places : List Place) (flags : Nat) (pid : Option Nat)
  | netkit (ifindex attach : Nat)
  | other (type : Nat)
deriving DecidableEq

/-- A link. -/
structure Link where
  id : Nat
  prog : Nat
  kind : Kind
deriving DecidableEq

/-- enum bpf_link_type. -/
def Kind.type : Kind → Nat
  | .rawTracepoint _ => 1
  | .tracing .. => 2
  | .cgroup .. => 3
  | .iter _ => 4
  | .netns .. => 5
  | .xdp _ => 6
  | .perf _ => 7
  | .kprobeMulti .. => 8
  | .netfilter .. => 10
  | .tcx .. => 11
  | .uprobeMulti .. => 12
  | .netkit .. => 13
  | .other t => t

/-- enum bpf_perf_event_type. -/
def Perf.type : Perf → Nat
  | .uprobe false .. => 1
  | .uprobe true .. => 2
  | .kprobe false .. => 3
  | .kprobe true .. => 4
  | .tracepoint .. => 5
  | .event .. => 6

/-- The link types that have their own part of struct bpf_link_info. -/
def known : List Nat := [1, 2, 3, 4, 5, 6, 7, 8, 10, 11, 12, 13]

/-- A link as the kernel can have it: names are not empty of meaning after a NUL, a kprobe_multi link has a place and as many cookies as
addresses, a uprobe_multi link has a place and a path no longer than PATH_MAX allows, other links have another type. -/
def Link.Wf (l : Link) : Prop :=
  match l.kind with
  | .rawTracepoint n => 0 ∉ n
  | .iter n => 0 ∉ n
  | .perf (.kprobe _ n _ _ _) => 0 ∉ n
  | .perf (.uprobe _ n _ _ _) => 0 ∉ n
  | .perf (.tracepoint n _) => 0 ∉ n
  | .kprobeMulti as cs _ _ => as ≠ [] ∧ ∀ c, cs = some c → c.length = as.length
  | .uprobeMulti p ps _ pid => 0 ∉ p ∧ p.length < 4096 ∧ ps ≠ [] ∧ ∀ n, pid = some n → 0 < n
  | .other t => t ∉ known
  | _ => True

/-- What the running kernel can tell: whether perf event links have infos (since 6.6), whether their name length is told without a
buffer, whether kprobe_multi links have infos (6.6) and their cookies (6.9), whether uprobe_multi links have infos (6.8), whether the
process may see kernel addresses, and whether the process a uprobe_multi link is limited to is visible to the caller (alive, in its PID
namespace). -/
structure Features where
  perf : Bool
  perfLen : Bool
  kmulti : Bool
  kcookies : Bool
  umulti : Bool
  addrs : Bool
  pidSeen : Bool

/-- Replace the number at an offset. -/
def put (f : Nat → Nat) (o v : Nat) : Nat → Nat := fun x => if x = o then v else f x

/-- Write behind one pointer. -/
def wr (o : Nat) (l : List Nat) (w : Nat → List Nat) : Nat → List Nat := fun x => if x = o then l else w x

/-- Copy a string behind the pointer at `po`, whose length is at `lo` (bpf_copy_to_user and its callers): both or none must be given; the
length is told (with `told`), and a short buffer is an error. -/
def fillName (told : Bool) (po lo : Nat) (name : List Nat) (q : Req) (r : Rep) : Except Nat Rep :=
  if (q.num lo == 0) != (q.ptr po).isNone then .error EINVAL
  else if (q.ptr po).isNone then .ok { r with num := if told then put r.num lo (name.length + 1) else r.num }
  else if name.length + 1 ≤ q.num lo then
    .ok { num := if told then put r.num lo (name.length + 1) else r.num, wrote := wr po (name ++ [0]) r.wrote }
  else .error ENOSPC

/-- bpf_perf_link_fill_link_info. -/
def fillPerf (f : Features) (p : Perf) (q : Req) (r : Rep) : Except Nat Rep :=
  if !f.perf then .ok r
  else
    let r := { r with num := put r.num 16 p.type }
    match p with
    | .kprobe _ n off addr missed =>
      fillName f.perfLen 24 32 n q { r with num := put (put (put r.num 36 off) 40 addr) 48 missed }
    | .uprobe _ n off cookie ref =>
      fillName f.perfLen 24 32 n q { r with num := put (put (put r.num 36 off) 40 cookie) 48 ref }
    | .tracepoint n cookie => fillName f.perfLen 24 32 n q { r with num := put r.num 40 cookie }
    | .event config type cookie => .ok { r with num := put (put (put r.num 24 config) 32 type) 40 cookie }

/-- bpf_kprobe_multi_link_fill_link_info. -/
def fillKmulti (f : Features) (as : List Nat) (cs : Option (List Nat)) (flags missed : Nat) (q : Req) (r : Rep) : Except Nat Rep :=
  if !f.kmulti then .ok r
  else if (q.num 24 == 0) != (q.ptr 16).isNone then .error EINVAL
  else if f.kcookies && (q.ptr 40).isSome && q.num 24 == 0 then .error EINVAL
  else
    let num := put (put (put r.num 24 as.length) 28 flags) 32 missed
    if (q.ptr 16).isNone then .ok { r with num := num }
    else if q.num 24 < as.length then .error ENOSPC
    else
      let w := wr 16 (if f.addrs then as else as.map fun _ => 0) r.wrote
      .ok { num := num,
            wrote := if f.kcookies && (q.ptr 40).isSome then wr 40 (cs.getD (as.map fun _ => 0)) w else w }

/-- What is written behind one of the array pointers of a uprobe_multi link. -/
def wrIf (q : Req) (o : Nat) (l : List Nat) (w : Nat → List Nat) : Nat → List Nat :=
  if (q.ptr o).isSome then wr o l w else w

/-- bpf_uprobe_multi_link_fill_link_info. -/
def fillUmulti (f : Features) (path : List Nat) (ps : List Place) (flags : Nat) (pid : Option Nat) (q : Req) (r : Rep) : Except Nat Rep :=
  if !f.umulti then .ok r
  else if (q.num 48 == 0) != (q.ptr 16).isNone then .error EINVAL
  else if ((q.ptr 24).isSome || (q.ptr 32).isSome || (q.ptr 40).isSome) && q.num 52 == 0 then .error EINVAL
  else if (if q.num 48 = 0 then 4096 else min (q.num 48) 4096) < path.length + 1 then .error ENAMETOOLONG
  else
    let num := put (put (put (put r.num 48 (path.length + 1)) 52 ps.length) 56 flags) 60 (if f.pidSeen then pid.getD 0 else 0)
    let w := wrIf q 16 (path ++ [0]) r.wrote
    if (q.ptr 24).isNone && (q.ptr 32).isNone && (q.ptr 40).isNone then .ok { num := num, wrote := w }
    else if q.num 52 < ps.length then .error ENOSPC
    else .ok { num := num,
               wrote := wrIf q 24 (ps.map (·.offset)) (wrIf q 32 (ps.map (·.refCtr)) (wrIf q 40 (ps.map (·.cookie)) w)) }

/-- bpf_link_get_info_by_fd: the answer of the kernel about a link. -/
def answer (f : Features) (l : Link) (q : Req) : Except Nat Rep :=
  let r : Rep := { num := put (put (put q.num 0 l.kind.type) 4 l.id) 8 l.prog, wrote := fun _ => [] }
  match l.kind with
  | .rawTracepoint n => fillName true 16 24 n q r
  | .tracing a o b => .ok { r with num := put (put (put r.num 16 a) 20 o) 24 b }
  | .cgroup c a => .ok { r with num := put (put r.num 16 c) 24 a }
  | .iter n => fillName true 16 24 n q r
  | .netns i a => .ok { r with num := put (put r.num 16 i) 20 a }
  | .xdp i => .ok { r with num := put r.num 16 i }
  | .perf p => fillPerf f p q r
  | .kprobeMulti as cs fl m => fillKmulti f as cs fl m q r
  | .netfilter pf h p fl => .ok { r with num := put (put (put (put r.num 16 pf) 20 h) 24 p) 28 fl }
  | .tcx i a => .ok { r with num := put (put r.num 16 i) 20 a }
  | .uprobeMulti p ps fl pid => fillUmulti f p ps fl pid q r
  | .netkit i a => .ok { r with num := put (put r.num 16 i) 20 a }
  | .other _ => .ok r

/-! ## What the user is told -/

/-- PerfEventInfo's specific part. -/
inductive PerfExtra where
  | kprobe (address missed : Nat) (function : List Nat) (offset : Nat)
  | uprobe (file : List Nat) (offset cookie refCtr : Nat)
  | tracepoint (name : List Nat) (cookie : Nat)
  | event (config type cookie : Nat)
  | none
deriving DecidableEq

/-- The type specific part of link.Info, as seen through its accessors: `Addresses`, `Offsets` and `Pid` are `none` when not available. -/
inductive Extra where
  | rawTracepoint (name : List Nat)
  | tracing (attach obj btf : Nat)
  | cgroup (cgroup attach : Nat)
  | iter (target : List Nat)
  | netns (inode attach : Nat)
  | xdp (ifindex : Nat)
  | perf (type : Nat) (p : PerfExtra)
  | kprobeMulti (count flags missed : Nat) (addresses : Option (List (Nat × Nat)))
  | netfilter (pf hook priority flags : Nat)
  | tcx (ifindex attach : Nat)
  | uprobeMulti (count flags missed : Nat) (file : List Nat) (offsets : Option (List Place)) (pid : Option Nat)
  | netkit (ifindex attach : Nat)
  | none
deriving DecidableEq

/-- link.Info. -/
structure Info where
  type : Nat
  id : Nat
  prog : Nat
  extra : Extra
deriving DecidableEq

/-- What there is to know about a perf event. -/
def Perf.extra : Perf → PerfExtra
  | .kprobe _ n off addr missed => .kprobe addr missed n off
  | .uprobe _ n off cookie ref => .uprobe n off cookie ref
  | .tracepoint n cookie => .tracepoint n cookie
  | .event config type cookie => .event config type cookie

/-- What there is to know about a link; kernel addresses are zero for a process that must not see them. -/
def Kind.extra (showAddrs : Bool) : Kind → Extra
  | .rawTracepoint n => .rawTracepoint n
  | .tracing a o b => .tracing a o b
  | .cgroup c a => .cgroup c a
  | .iter n => .iter n
  | .netns i a => .netns i a
  | .xdp i => .xdp i
  | .perf p => .perf p.type p.extra
  | .kprobeMulti as cs fl m =>
    .kprobeMulti as.length fl m
      (some ((if showAddrs then as else List.replicate as.length 0).zip (cs.getD (List.replicate as.length 0))))
  | .netfilter pf h p fl => .netfilter pf h p fl
  | .tcx i a => .tcx i a
  | .uprobeMulti p ps fl pid => .uprobeMulti ps.length fl 0 p (some ps) pid
  | .netkit i a => .netkit i a
  | .other _ => .none

/-- The info the user should get. -/
def report (showAddrs : Bool) (l : Link) : Info := ⟨l.kind.type, l.id, l.prog, l.kind.extra showAddrs⟩

/-- A kernel that tells everything. -/
def Features.Modern (f : Features) : Prop :=
  f.perf = true ∧ f.perfLen = true ∧ f.kmulti = true ∧ f.kcookies = true ∧ f.umulti = true ∧ f.pidSeen = true

/-- What an older kernel leaves out: a kernel without perf event infos says nothing about them; one that doesn't tell the length of
names leaves them empty; one without multi link infos leaves these empty, without places; one without cookies leaves them zero; a
process that isn't visible is not told. -/
def Kind.told (f : Features) (k : Kind) : Extra :=
  match k with
  | .perf p =>
    if f.perf = false then .perf 0 .none
    else if f.perfLen = true then .perf p.type p.extra
    else .perf p.type (match p with
      | .kprobe _ _ off addr missed => .kprobe addr missed [] off
      | .uprobe _ _ off cookie ref => .uprobe [] off cookie ref
      | .tracepoint _ cookie => .tracepoint [] cookie
      | .event config type cookie => .event config type cookie)
  | .kprobeMulti as cs fl m =>
    if f.kmulti = false then .kprobeMulti 0 0 0 none
    else if f.kcookies = true then Kind.extra f.addrs (.kprobeMulti as cs fl m)
    else Kind.extra f.addrs (.kprobeMulti as none fl m)
  | .uprobeMulti p ps fl pid =>
    if f.umulti = false then .uprobeMulti 0 0 0 [] none none
    else Kind.extra f.addrs (.uprobeMulti p ps fl (if f.pidSeen then pid else none))
  | k => k.extra f.addrs

/-- The number of places a multi link has, and the kind of a perf event: these don't change while a link exists. -/
def Kind.shape : Kind → Nat
  | .perf p => p.type
  | .kprobeMulti as _ _ _ => as.length
  | .uprobeMulti _ ps _ _ => ps.length
  | _ => 0

/-- The name the kernel copies for a link. -/
def Kind.name : Kind → List Nat
  | .rawTracepoint n => n
  | .iter n => n
  | .perf (.kprobe _ n _ _ _) => n
  | .perf (.uprobe _ n _ _ _) => n
  | .perf (.tracepoint n _) => n
  | .uprobeMulti p _ _ _ => p
  | _ => []

end Ebpf.LinkInfoSpec
