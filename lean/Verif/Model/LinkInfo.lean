import Verif.Spec.LinkInfo
/-!
# Model of the Info methods of links

link/perf_event.go, kprobe_multi.go, uprobe_multi.go, raw_tracepoint.go, iter.go, tracing.go, cgroup.go, netns.go, tcx.go, xdp.go,
netkit.go, netfilter.go, link.go and the accessors of link_other.go. The info structs of internal/sys/types.go:1600-1803 are modelled by
the offsets of their fields, the kernel by its answer to the n-th query. Buffers are lists; a kernel that writes more than a buffer
holds yields `corrupt`. Simplified: the text of errors, and the width of numbers.
-/
namespace Ebpf.LinkInfo
open LinkInfoSpec (Buf Req Rep Info Extra PerfExtra Place)

/-- An error the caller can unwrap (%w), one formatted as text (%s), or memory overwritten by the kernel. -/
inductive Err where
  | wrapped (e : Nat)
  | text (e : Nat)
  | corrupt
deriving DecidableEq

/-- The kernel: its answer to the n-th query about the link. -/
abbrev Kernel := Nat → Req → Except Nat Rep

/-- The zero info struct. -/
def zero : Req := { ptr := fun _ => none, num := fun _ => 0 }

/-- sys.SlicePointer (internal/sys/ptr.go:41-44, 15-21): nil for an empty slice. -/
def slicePointer (id : Nat) (buf : List Nat) : Option Buf := if buf.length = 0 then none else some ⟨id, buf.length⟩

/-- What a buffer holds after the kernel wrote to it. -/
def fill (buf w : List Nat) : Except Err (List Nat) :=
  if w.length ≤ buf.length then .ok (w ++ buf.drop w.length) else .error .corrupt

/-- A buffer after a query: the kernel wrote to it if one of the struct's pointers points to it. -/
def after (q : Req) (r : Rep) (id : Nat) (buf : List Nat) : Except Err (List Nat) :=
  match [16, 24, 32, 40].find? fun o => (q.ptr o).any (·.id == id) with
  | some o => fill buf (r.wrote o)
  | none => .ok buf

/-- unix.ByteSliceToString (internal/unix/types_linux.go:191-193): up to the first NUL. -/
def byteSliceToString (b : List Nat) : List Nat := b.takeWhile (· != 0)

/-- queryInfoWithString (link/perf_event.go:134-159), for a pointer at `po` with its length at `lo`. The first query's struct, filled, is
the second's with the pointer set. -/
def queryInfoWithString (K : Kernel) (po lo : Nat) : Except Err (List Nat × (Nat → Nat)) :=
  match K 0 zero with
  | .error e => .error (.wrapped e)
  | .ok r1 =>
    let stringData := List.replicate (r1.num lo) 0
    let q : Req := { ptr := fun o => if o = po then slicePointer 0 stringData else none, num := r1.num }
    match K 1 q with
    | .error e => .error (.text e)
    | .ok r2 =>
      match after q r2 0 stringData with
      | .error e => .error e
      | .ok b => .ok (byteSliceToString b, r2.num)

/-- The common fields of every Info: Type, Id and ProgId. -/
def common (num : Nat → Nat) (extra : Extra) : Info := ⟨num 0, num 4, num 8, extra⟩

/-- Errors of queryInfoWithString formatted once more with %s (link/perf_event.go:171-173, 183-185). -/
def asText : Err → Err
  | .wrapped e => .text e
  | e => e

/-- The type specific part of perfEventLink.Info (link/perf_event.go:167-217): 3 and 4 are kprobes, 1 and 2 uprobes, 5 tracepoints, 6 events. -/
def perfExtra (K : Kernel) (type : Nat) : Except Err PerfExtra :=
  if type = 3 ∨ type = 4 then
    match queryInfoWithString K 24 32 with
    | .error e => .error (asText e)
    | .ok (name, num) => .ok (.kprobe (num 40) (num 48) name (num 36))
  else if type = 1 ∨ type = 2 then
    match queryInfoWithString K 24 32 with
    | .error e => .error (asText e)
    | .ok (name, num) => .ok (.uprobe name (num 36) (num 40) (num 48))
  else if type = 5 then
    match queryInfoWithString K 24 32 with
    | .error e => .error e
    | .ok (name, num) => .ok (.tracepoint name (num 40))
  else if type = 6 then
    match K 0 zero with
    | .error e => .error (.text e)
    | .ok r => .ok (.event (r.num 24) (r.num 32) (r.num 40))
  else .ok .none

/-- perfEventLink.Info (link/perf_event.go:161-230). -/
def perfInfo (K : Kernel) : Except Err Info :=
  match K 0 zero with
  | .error e => .error (.text e)
  | .ok r =>
    match perfExtra (fun i => K (i + 1)) (r.num 16) with
    | .error e => .error e
    | .ok x => .ok (common r.num (.perf (r.num 16) x))

/-- KprobeMultiInfo.Addresses (link/link_other.go:172-185); a nil slice is `none`. -/
def addresses (addrs cookies : Option (List Nat)) : Option (List (Nat × Nat)) :=
  match addrs with
  | none => none
  | some as => if as.length ≠ (cookies.getD []).length then none else some (as.zip (cookies.getD []))

/-- A buffer whose pointer in the filled info struct is nil is dropped (link/kprobe_multi.go:171-176, uprobe_multi.go:202-213). -/
def orNil (ptr : Option Buf) (buf : List Nat) : Option (List Nat) := if ptr.isNone then none else some buf

/-- kprobeMultiLink.Info (link/kprobe_multi.go:156-191), with the addresses read through the accessor. -/
def kprobeMultiInfo (K : Kernel) : Except Err Info :=
  match K 0 zero with
  | .error e => .error (.wrapped e)
  | .ok r1 =>
    let addrs := List.replicate (r1.num 24) 0
    let cookies := List.replicate (r1.num 24) 0
    let q : Req :=
      { ptr := fun o => if o = 16 then slicePointer 0 addrs else if o = 40 then slicePointer 1 cookies else none,
        num := fun o => if o = 24 then addrs.length else 0 }
    match K 1 q with
    | .error e => .error (.wrapped e)
    | .ok r2 =>
      match after q r2 0 addrs, after q r2 1 cookies with
      | .ok addrs, .ok cookies =>
        .ok (common r2.num (.kprobeMulti (r2.num 24) (r2.num 28) (r2.num 32)
          (addresses (orNil (q.ptr 16) addrs) (orNil (q.ptr 40) cookies))))
      | _, _ => .error .corrupt

/-- UprobeMultiInfo.Offsets (link/link_other.go:214-227). -/
def offsets (offs cookies refs : Option (List Nat)) : Option (List Place) :=
  match offs with
  | none => none
  | some os =>
    if (cookies.getD []).length ≠ os.length ∨ (refs.getD []).length ≠ os.length then none
    else some ((os.zip ((cookies.getD []).zip (refs.getD []))).map fun x => ⟨x.1, x.2.1, x.2.2⟩)

/-- UprobeMultiInfo.Pid (link/link_other.go:229-234). -/
def pid (n : Nat) : Option Nat := if n > 0 then some n else none

/-- uprobeMultiLink.Info (link/uprobe_multi.go:178-232); Missed is never set. -/
def uprobeMultiInfo (K : Kernel) : Except Err Info :=
  match K 0 zero with
  | .error e => .error (.text e)
  | .ok r1 =>
    let path := List.replicate (r1.num 48) 0
    let refs := List.replicate (r1.num 52) 0
    let addrs := List.replicate (r1.num 52) 0
    let cookies := List.replicate (r1.num 52) 0
    let q : Req :=
      { ptr := fun o =>
          if o = 16 then slicePointer 0 path else if o = 24 then slicePointer 1 addrs
          else if o = 32 then slicePointer 2 refs else if o = 40 then slicePointer 3 cookies else none,
        num := fun o => if o = 48 then path.length else if o = 52 then addrs.length else 0 }
    match K 1 q with
    | .error e => .error (.text e)
    | .ok r2 =>
      match after q r2 0 path, after q r2 1 addrs, after q r2 2 refs, after q r2 3 cookies with
      | .ok path, .ok addrs, .ok refs, .ok cookies =>
        .ok (common r2.num (.uprobeMulti (r2.num 52) (r2.num 56) 0
          (byteSliceToString ((orNil (q.ptr 16) path).getD []))
          (offsets (orNil (q.ptr 24) addrs) (orNil (q.ptr 40) cookies) (orNil (q.ptr 32) refs)) (pid (r2.num 60))))
      | _, _, _, _ => .error .corrupt

/-- rawTracepoint.Info (link/raw_tracepoint.go:95-110). -/
def rawTracepointInfo (K : Kernel) : Except Err Info :=
  match queryInfoWithString K 16 24 with
  | .error e => .error e
  | .ok (name, num) => .ok (common num (.rawTracepoint name))

/-- Iter.Info (link/iter.go:67-79). -/
def iterInfo (K : Kernel) : Except Err Info :=
  match queryInfoWithString K 16 24 with
  | .error e => .error e
  | .ok (name, num) => .ok (common num (.iter name))

/-- The Info methods that make a single query; `extra` picks the fields. -/
def simpleInfo (K : Kernel) (extra : (Nat → Nat) → Extra) : Except Err Info :=
  match K 0 zero with
  | .error e => .error (.text e)
  | .ok r => .ok (common r.num (extra r.num))

/-- tracing.Info (link/tracing.go:23-40). -/
def tracingExtra (num : Nat → Nat) : Extra := .tracing (num 16) (num 20) (num 24)

/-- linkCgroup.Info (link/cgroup.go:198-214). -/
def cgroupExtra (num : Nat → Nat) : Extra := .cgroup (num 16) (num 24)

/-- NetNsLink.Info (link/netns.go:41-57). -/
def netnsExtra (num : Nat → Nat) : Extra := .netns (num 16) (num 20)

/-- tcxLink.Info (link/tcx.go:75-91). -/
def tcxExtra (num : Nat → Nat) : Extra := .tcx (num 16) (num 20)

/-- xdpLink.Info (link/xdp.go:67-82). -/
def xdpExtra (num : Nat → Nat) : Extra := .xdp (num 16)

/-- netkitLink.Info (link/netkit.go:75-91). -/
def netkitExtra (num : Nat → Nat) : Extra := .netkit (num 16) (num 20)

/-- netfilterLink.Info (link/netfilter.go:94-112). -/
def netfilterExtra (num : Nat → Nat) : Extra := .netfilter (num 16) (num 20) (num 24) (num 28)

/-- The link type a raw link is wrapped in by wrapRawLink (link/link_other.go:66-111), as the Info method it has; struct_ops links and unknown
ones have RawLink's (link/link.go:249-262). -/
def infoMethod (type : Nat) (K : Kernel) : Except Err Info :=
  match type with
  | 1 => rawTracepointInfo K
  | 2 => simpleInfo K tracingExtra
  | 3 => simpleInfo K cgroupExtra
  | 4 => iterInfo K
  | 5 => simpleInfo K netnsExtra
  | 6 => simpleInfo K xdpExtra
  | 7 => perfInfo K
  | 8 => kprobeMultiInfo K
  | 10 => simpleInfo K netfilterExtra
  | 11 => simpleInfo K tcxExtra
  | 12 => uprobeMultiInfo K
  | 13 => simpleInfo K netkitExtra
  | _ => simpleInfo K fun _ => .none

/-- Opening a link (NewFromID, NewFromFD or LoadPinnedLink: link/link.go:58-91, wrapRawLink in link_other.go:66-111) and asking for its Info. The first query is RawLink.Info's. -/
def openInfo (K : Kernel) : Except Err Info :=
  match simpleInfo K fun _ => .none with
  | .error e => .error e
  | .ok i => infoMethod i.type fun n => K (n + 1)

end Ebpf.LinkInfo
