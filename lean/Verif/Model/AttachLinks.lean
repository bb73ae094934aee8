/-!
# Model of creating links (`link/link_other.go`, `tracing.go`, `raw_tracepoint.go`, `kprobe_multi.go`, `uprobe_multi.go`, `xdp.go`, `netns.go`, `netfilter.go`, `iter.go`, `struct_ops.go`)

Constants are Linux's. Arrays are passed by a pointer and a count; a nil pointer is `none`.
-/
namespace Ebpf.AttachLinks

/-- What user space passes to the kernel: BPF_LINK_CREATE in its variants, and BPF_RAW_TRACEPOINT_OPEN. -/
inductive Req where
  | link (prog target attach flags btf : Nat)
  | tracing (prog attach cookie : Nat)
  | rawTp (name : Option String) (prog : Nat)
  | kprobeMulti (prog attach flags count : Nat) (syms : Option (List String)) (addrs : Option (List Nat)) (cookies : Option (List Nat))
  | uprobeMulti (prog attach : Nat) (path : String) (flags count : Nat) (offsets : List Nat) (refCtrs cookies : Option (List Nat)) (pid : Nat)
  | netfilter (prog attach flags pf hook : Nat) (priority : Int) (nfFlags : Nat)
  | iter (prog attach : Nat) (map : Nat)
deriving DecidableEq

/-- Errors. `sys n`: wraps errno `n`. -/
inductive E where
  | sys (n : Nat)
  | notSupported
  | notExist
  | closed
  | invalid
  | other
deriving DecidableEq

/-- The kernel at each moment: does a request fail, does BPF_OBJ_GET_INFO_BY_FD fail, what do feature tests say, what type has the link. -/
structure Kern where
  fail : Nat → Req → Option Nat
  infoFails : Nat → Bool
  feature : Nat → Option E
  linkType : Nat → Nat

/-- The process: the time, requests with their success, open descriptors of links, a new number. -/
structure W where
  t : Nat
  log : List (Req × Bool)
  fds : List Nat
  next : Nat

/-- Types of links, as far as these functions tell them apart, with their descriptor. -/
inductive Lnk where
  | raw (fd : Nat)
  | tracing (fd : Nat)
  | rawTracepoint (fd : Nat)
  | simpleRawTracepoint (fd : Nat)
  | xdp (fd : Nat)
  | netNs (fd : Nat)
  | kprobeMulti (fd : Nat)
  | uprobeMulti (fd : Nat)
  | netfilter (fd : Nat)
  | iter (fd : Nat)
  | structOps (fd : Nat)
deriving DecidableEq

/-- A program or map: its descriptor, if not closed, and its type. -/
structure Obj where
  fd : Option Nat
  typ : Nat

/-- The system call creating a link. -/
def create (k : Kern) (w : W) (r : Req) : W × Except Nat Nat :=
  match k.fail w.t r with
  | some e => ({ w with t := w.t + 1, log := w.log ++ [(r, false)] }, .error e)
  | none => ({ t := w.t + 1, log := w.log ++ [(r, true)], fds := w.next :: w.fds, next := w.next + 1 }, .ok w.next)

/-- `(*sys.FD).Close`. -/
def close (w : W) (fd : Nat) : W := { w with fds := w.fds.filter (fun x => x != fd) }

/-- uint32(fd): a closed descriptor is -1. -/
def ufd (f : Option Nat) : Nat :=
  match f with
  | some n => n
  | none => 4294967295

/-- link/link_other.go:32-64 `AttachRawLink`. `target`: `none` if negative. (The platform of the attach type, a constant here, is the subject of C66.) -/
def attachRawLink (k : Kern) (w : W) (target : Option Nat) (prog : Obj) (attach btf flags : Nat) : W × Except E Nat :=
  match k.feature w.t with
  | some e => ({ w with t := w.t + 1 }, .error e)
  | none =>
    let w := { w with t := w.t + 1 }
    match target with
    | none => (w, .error .closed)
    | some target =>
      match prog.fd with
      | none => (w, .error .closed)
      | some p =>
        match create k w (.link p target attach flags btf) with
        | (w, .error e) => (w, .error (.sys e))
        | (w, .ok fd) => (w, .ok fd)

/-- link/xdp.go:40-61 `AttachXDP`. -/
def attachXDP (k : Kern) (w : W) (prog : Obj) (iface : Int) (flags : Nat) : W × Except E Lnk :=
  if prog.typ ≠ 6 then (w, .error .other)
  else if iface < 1 then (w, .error .other)
  else
    match attachRawLink k w (some iface.toNat) prog 37 0 flags with
    | (w, .error e) => (w, .error e)
    | (w, .ok fd) => (w, .ok (.xdp fd))

/-- link/netns.go:18-39 `AttachNetNs`. -/
def attachNetNs (k : Kern) (w : W) (ns : Option Nat) (prog : Obj) : W × Except E Lnk :=
  match (if prog.typ = 22 then some 17 else if prog.typ = 30 then some 36 else none) with
  | none => (w, .error .other)
  | some attach =>
    match attachRawLink k w ns prog attach 0 0 with
    | (w, .error e) => (w, .error e)
    | (w, .ok fd) => (w, .ok (.netNs fd))

/-- link/tracing.go:96-104: the result of `AttachFreplace`. -/
def freplaceResult (r : W × Except E Nat) : W × Except E Lnk :=
  match r with
  | (w, .error e) => if e = .sys 524 then (w, .error .notSupported) else (w, .error e)
  | (w, .ok fd) => (w, .ok (.tracing fd))

/-- link/tracing.go:51-105 `AttachFreplace`. `target`: the program and what its BTF says about the name: an error or the ID of the function. -/
def attachFreplace (k : Kern) (w : W) (target : Option (Obj × Except E Nat)) (name : String) (prog : Option Obj) : W × Except E Lnk :=
  if (name == "") != target.isNone then (w, .error .invalid)
  else
    match prog with
    | none => (w, .error .invalid)
    | some prog =>
      if prog.typ ≠ 28 then (w, .error .invalid)
      else
        match target with
        | none => freplaceResult (attachRawLink k w (some 0) prog 0 0 0)
        | some (_, .error e) => (w, .error e)
        | some (t, .ok id) => freplaceResult (attachRawLink k w t.fd prog 0 id 0)

/-- link/tracing.go:179-191: which kind of link it is. -/
def tracingLink (k : Kern) (w : W) (fd : Nat) : W × Except E Lnk :=
  if k.infoFails w.t then (close { w with t := w.t + 1 } fd, .error .other)
  else if k.linkType fd = 1 then ({ w with t := w.t + 1 }, .ok (.rawTracepoint fd))
  else ({ w with t := w.t + 1 }, .ok (.tracing fd))

/-- link/tracing.go:159-173: attach with RawTracepointOpen. -/
def attachNoLink (k : Kern) (w : W) (p cookie : Nat) : W × Except E Lnk :=
  if cookie > 0 then (w, .error .notSupported)
  else
    match create k w (.rawTp none p) with
    | (w, .error 524) => (w, .error .notSupported)
    | (w, .error e) => (w, .error (.sys e))
    | (w, .ok fd) => tracingLink k w fd

/-- link/tracing.go:134-192 `attachBTFID`. -/
def attachBTFID (k : Kern) (w : W) (prog : Obj) (at_ cookie : Nat) : W × Except E Lnk :=
  match prog.fd with
  | none => (w, .error .closed)
  | some p =>
    if [24, 25, 23, 26, 27].contains at_ then
      match create k w (.tracing p at_ cookie) with
      | (w, .ok fd) => tracingLink k w fd
      | (w, .error e) =>
        if e ≠ 22 ∧ e ≠ 524 then (w, .error (.sys e))
        else attachNoLink k w p cookie
    else if at_ = 0 then attachNoLink k w p cookie
    else (w, .error .other)

/-- link/tracing.go:197-210 `AttachTracing`. -/
def attachTracing (k : Kern) (w : W) (prog : Obj) (at_ cookie : Nat) : W × Except E Lnk :=
  if prog.typ ≠ 26 then (w, .error .other)
  else if ![24, 25, 26, 23, 0].contains at_ then (w, .error .other)
  else attachBTFID k w prog at_ cookie

/-- link/tracing.go:214-220 `AttachLSM`. -/
def attachLSM (k : Kern) (w : W) (prog : Obj) (cookie : Nat) : W × Except E Lnk :=
  if prog.typ ≠ 29 then (w, .error .other) else attachBTFID k w prog 27 cookie

/-- link/raw_tracepoint.go:23-51 `AttachRawTracepoint`. -/
def attachRawTracepoint (k : Kern) (w : W) (name : String) (prog : Obj) : W × Except E Lnk :=
  if prog.typ ≠ 17 ∧ prog.typ ≠ 24 then (w, .error .other)
  else
    match prog.fd with
    | none => (w, .error .closed)
    | some p =>
      match create k w (.rawTp (some name) p) with
      | (w, .error e) => (w, .error (.sys e))
      | (w, .ok fd) =>
        match k.feature w.t with
        | some .notSupported => ({ w with t := w.t + 1 }, .ok (.simpleRawTracepoint fd))
        | some e => ({ w with t := w.t + 1 }, .error e)
        | none => ({ w with t := w.t + 1 }, .ok (.rawTracepoint fd))

/-- link/kprobe_multi.go:123-143: the error of KprobeMulti. -/
def multiErr (k : Kern) (w : W) (e : Nat) : W × Except E Lnk :=
  if e = 3 then (w, .error .notExist)
  else
    match k.feature w.t with
    | some x => ({ w with t := w.t + 1 }, .error x)
    | none => ({ w with t := w.t + 1 }, .error (.sys e))

/-- link/kprobe_multi.go:74-144 `kprobeMulti`. Go's lengths are converted to 32 bits. -/
def kprobeMulti (k : Kern) (w : W) (prog : Option Obj) (symbols : List String) (addresses cookies : List Nat) (session : Bool) (flags : Nat) : W × Except E Lnk :=
  match prog with
  | none => (w, .error .other)
  | some prog =>
    let syms := symbols.length % 2 ^ 32
    let addrs := addresses.length % 2 ^ 32
    let cks := cookies.length % 2 ^ 32
    if syms = 0 ∧ addrs = 0 then (w, .error .invalid)
    else if syms ≠ 0 ∧ addrs ≠ 0 then (w, .error .invalid)
    else if cks > 0 ∧ cks ≠ syms ∧ cks ≠ addrs then (w, .error .invalid)
    else
      match create k w (.kprobeMulti (ufd prog.fd) (if session then 56 else 42) flags (if syms ≠ 0 then syms else addrs)
          (if syms ≠ 0 then some symbols else none) (if syms ≠ 0 then none else some addresses) (if cks ≠ 0 then some cookies else none)) with
      | (w, .ok fd) => (w, .ok (.kprobeMulti fd))
      | (w, .error e) => multiErr k w e

/-- link/uprobe_multi.go:141-163: the loop of `addresses`. `addr`: link/uprobe.go:196-227 `address`. Slices are lists, `none` if nil. -/
def addressLoop (addr : String → Nat → Nat → Except E Nat) (symbols : Option (List String)) (addresses offsets : Option (List Nat)) : Nat → Nat → Except E (List Nat)
  | _, 0 => .ok []
  | i, n + 1 =>
    match addr ((symbols.getD []).getD i "") ((addresses.getD []).getD i 0) ((offsets.getD []).getD i 0) with
    | .error e => .error e
    | .ok a =>
      match addressLoop addr symbols addresses offsets (i + 1) n with
      | .error e => .error e
      | .ok r => .ok (a :: r)

/-- link/uprobe_multi.go:119-166 `addresses`. -/
def addresses (addr : String → Nat → Nat → Except E Nat) (symbols : Option (List String)) (addrs offsets : Option (List Nat)) : Except E (List Nat) :=
  let n := if (symbols.getD []).length = 0 then (addrs.getD []).length else (symbols.getD []).length
  if n = 0 then .error .invalid
  else if symbols.isSome ∧ (symbols.getD []).length ≠ n then .error .invalid
  else if addrs.isSome ∧ (addrs.getD []).length ≠ n then .error .invalid
  else if offsets.isSome ∧ (offsets.getD []).length ≠ n then .error .invalid
  else addressLoop addr symbols addrs offsets 0 n

/-- link/uprobe_multi.go:99-114: the error of UprobeMulti. -/
def uprobeErr (k : Kern) (w : W) (e : Nat) : W × Except E Lnk :=
  if e = 3 then (w, .error .notExist)
  else if e = 22 then (w, .error (.sys e))
  else
    match k.feature w.t with
    | some x => ({ w with t := w.t + 1 }, .error x)
    | none => ({ w with t := w.t + 1 }, .error (.sys e))

/-- link/uprobe_multi.go:53-117 `uprobeMulti`. -/
def uprobeMulti (k : Kern) (w : W) (path : String) (addr : String → Nat → Nat → Except E Nat) (symbols : Option (List String)) (prog : Option Obj)
    (addrs offsets : Option (List Nat)) (refCtrs cookies : List Nat) (pid flags : Nat) : W × Except E Lnk :=
  match prog with
  | none => (w, .error .other)
  | some prog =>
    match addresses addr symbols addrs offsets with
    | .error e => (w, .error e)
    | .ok as =>
      if as.length = 0 then (w, .error .invalid)
      else if refCtrs.length > 0 ∧ refCtrs.length ≠ as.length then (w, .error .invalid)
      else if cookies.length > 0 ∧ cookies.length ≠ as.length then (w, .error .invalid)
      else
        match create k w (.uprobeMulti (ufd prog.fd) 48 path flags (as.length % 2 ^ 32) as
            (if refCtrs.length ≠ 0 then some refCtrs else none) (if cookies.length ≠ 0 then some cookies else none) pid) with
        | (w, .ok fd) => (w, .ok (.uprobeMulti fd))
        | (w, .error e) => uprobeErr k w e

/-- link/netfilter.go:58-88 `AttachNetfilter`. -/
def attachNetfilter (k : Kern) (w : W) (prog : Option Obj) (pf hook : Nat) (priority : Int) (flags nfFlags : Nat) : W × Except E Lnk :=
  match prog with
  | none => (w, .error .other)
  | some prog =>
    if prog.typ ≠ 32 then (w, .error .other)
    else
      match prog.fd with
      | none => (w, .error .closed)
      | some p =>
        match create k w (.netfilter p 45 flags pf hook priority nfFlags) with
        | (w, .error e) => (w, .error (.sys e))
        | (w, .ok fd) => (w, .ok (.netfilter fd))

/-- link/iter.go:51-59: create the link of an iterator. -/
def iterCreate (k : Kern) (w : W) (p m : Nat) : W × Except E Lnk :=
  match create k w (.iter p 28 m) with
  | (w, .ok fd) => (w, .ok (.iter fd))
  | (w, .error e) =>
    match k.feature w.t with
    | some x => ({ w with t := w.t + 1 }, .error x)
    | none => ({ w with t := w.t + 1 }, .error (.sys e))

/-- link/iter.go:29-60 `AttachIter`. Map descriptor 0: no map. -/
def attachIter (k : Kern) (w : W) (prog : Obj) (map : Option Obj) : W × Except E Lnk :=
  match prog.fd with
  | none => (w, .error .closed)
  | some p =>
    match map with
    | none => iterCreate k w p 0
    | some m =>
      match m.fd with
      | none => (w, .error .closed)
      | some m => iterCreate k w p m

/-- link/struct_ops.go:24-51 `AttachStructOps`. -/
def attachStructOps (k : Kern) (w : W) (map : Option Obj) : W × Except E Lnk :=
  match map with
  | none => (w, .error .other)
  | some m =>
    if m.typ ≠ 26 then (w, .error .other)
    else
      match m.fd with
      | none => (w, .error .closed)
      | some p =>
        match create k w (.link p 0 44 0 0) with
        | (w, .error e) => (w, .error (.sys e))
        | (w, .ok fd) => (w, .ok (.structOps fd))

end Ebpf.AttachLinks
