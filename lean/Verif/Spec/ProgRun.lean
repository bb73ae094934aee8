import Verif.Base
/-!
# Specification: Linux's BPF_PROG_TEST_RUN

`union bpf_attr`'s `test` part and what Linux does with it (net/bpf/test_run.c): `bpf_test_run`, `bpf_test_finish`, `bpf_ctx_finish`, `bpf_prog_test_run_syscall`.
-/
namespace Ebpf.ProgRun

/-- A place in the memory of the process. -/
inductive Buf where
  | dataIn | dataOut | ctxIn | ctxOut
deriving DecidableEq

/-- The memory allocated at each place. -/
abbrev Mem := Buf → List Byte

/-- The arguments of the system call; a pointer may be nil. -/
structure Attr where
  progFd : Nat
  retval : BitVec 32
  dataSizeIn : BitVec 32
  dataSizeOut : BitVec 32
  dataIn : Option Buf
  dataOut : Option Buf
  repeats : BitVec 32
  duration : BitVec 32
  ctxSizeIn : BitVec 32
  ctxSizeOut : BitVec 32
  ctxIn : Option Buf
  ctxOut : Option Buf
  flags : BitVec 32
  cpu : BitVec 32
  batch : BitVec 32

/-- What is to be run. -/
structure Req where
  prog : Nat
  data : List Byte
  ctx : List Byte
  repeats : BitVec 32
  flags : BitVec 32
  cpu : BitVec 32
  batch : BitVec 32

/-- The last run of the program: its return value, the average duration, data and context after it. -/
structure Res where
  ret : BitVec 32
  dur : BitVec 32
  data : List Byte
  ctx : List Byte

/-- A kernel. -/
structure Kernel where
  /-- Since 4.20 output is clamped to the size given, and there are contexts (5.2). -/
  clamps : Bool
  /-- Since 5.14 signals are looked at only if there is something left to run. -/
  doneFirst : Bool
  /-- There is a way to run programs of this type. -/
  runnable : Nat → Bool
  /-- Programs of type BPF_PROG_TYPE_SYSCALL. -/
  isSyscall : Nat → Bool
  /-- What running programs at a time leads to: an error of any kind, or a result. -/
  outcome : Nat → Req → Except Nat Res
  /-- Is a signal pending during the system call at this time? -/
  signal : Nat → Bool

/-- Read from memory. -/
def readBuf (m : Mem) (p : Option Buf) (n : Nat) : Option (List Byte) :=
  match p with
  | none => some []
  | some b => if n ≤ (m b).length then some ((m b).take n) else none

/-- Write to memory, as far as it is allocated. -/
def writeBuf (m : Mem) (b : Buf) (l : List Byte) : Mem :=
  fun x => if x = b then l.take (m b).length ++ (m b).drop l.length else m x

/-- A process during system calls: its memory, whether the kernel wrote to memory that isn't allocated, and the time. -/
structure World where
  mem : Mem
  overrun : Bool := false
  time : Nat := 0

/-- Copy to user space. -/
def copyOut (w : World) (p : Option Buf) (l : List Byte) : World :=
  match p with
  | none => w
  | some b => { w with mem := writeBuf w.mem b l, overrun := w.overrun || decide (l.length > (w.mem b).length) }

def EINTR : Nat := 4
def EFAULT : Nat := 14
def EINVAL : Nat := 22
def ENOSPC : Nat := 28
def ENOTSUPP : Nat := 524

/-- `bpf_ctx_finish`. -/
def finishCtx (w : World) (a : Attr) (r : Res) : World × Attr × Option Nat :=
  match a.ctxOut with
  | none => (w, a, none)
  | some _ =>
    let n := if r.ctx.length > a.ctxSizeOut.toNat then a.ctxSizeOut.toNat else r.ctx.length
    (copyOut w a.ctxOut (r.ctx.take n), { a with ctxSizeOut := BitVec.ofNat 32 r.ctx.length }, if r.ctx.length > a.ctxSizeOut.toNat then some ENOSPC else none)

/-- `bpf_test_finish`, then `bpf_ctx_finish`. -/
def finish (k : Kernel) (w : World) (a : Attr) (r : Res) : World × Attr × Option Nat :=
  let clamped := k.clamps && a.dataSizeOut != 0 && decide (r.data.length > a.dataSizeOut.toNat)
  let n := if clamped then a.dataSizeOut.toNat else r.data.length
  let w1 := copyOut w a.dataOut (r.data.take n)
  let a1 := { a with dataSizeOut := BitVec.ofNat 32 r.data.length, retval := r.ret, duration := r.dur }
  if clamped then (w1, a1, some ENOSPC) else finishCtx w1 a1 r

/-- `bpf_prog_test_run_syscall`: the context is read and written in place. -/
def finishSyscall (w : World) (a : Attr) (r : Res) : World × Attr × Option Nat :=
  (copyOut w a.ctxIn (r.ctx.take a.ctxSizeIn.toNat), { a with retval := r.ret }, none)

/-- The request made by the arguments. -/
def reqOf (a : Attr) (data ctx : List Byte) : Req := ⟨a.progFd, data, ctx, a.repeats, a.flags, a.cpu, a.batch⟩

/-- Arguments the kernel doesn't know, or refuses. -/
def refused (k : Kernel) (a : Attr) : Bool :=
  (!k.clamps && (a.ctxIn.isSome || a.ctxOut.isSome)) ||
  (k.isSyscall a.progFd && (a.dataIn.isSome || a.dataOut.isSome || a.ctxOut.isSome || a.repeats != 0 || a.flags != 0))

/-- The system call. The error is `none` if it succeeded. -/
def testRun (k : Kernel) (w : World) (a : Attr) : World × Attr × Option Nat :=
  let w' := { w with time := w.time + 1 }
  if !k.runnable a.progFd then (w', a, some ENOTSUPP)
  else if refused k a then (w', a, some EINVAL)
  else
    match readBuf w.mem a.dataIn a.dataSizeIn.toNat, readBuf w.mem a.ctxIn a.ctxSizeIn.toNat with
    | some data, some ctx =>
      match k.outcome w.time (reqOf a data ctx) with
      | .error e => (w', a, some e)
      | .ok r =>
        if k.isSyscall a.progFd then finishSyscall w' a r
        else if k.signal w.time && (!k.doneFirst || decide (a.repeats.toNat > 1)) then (w', a, some EINTR)
        else finish k w' a r
    | _, _ => (w', a, some EFAULT)

end Ebpf.ProgRun
