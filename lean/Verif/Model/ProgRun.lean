import Verif.Spec.ProgRun
/-!
# Model of running programs: prog.go `Run`, `Test`, `Benchmark`, `run`

A context is modelled by its native encoding (encoding/binary, the subject of C53), or nothing if it has none. `Reset` is modelled by counting its calls. The wrapper sys.BPF is the subject of C84.
Windows isn't modelled.
-/
namespace Ebpf.ProgRun

/-- prog.go:837 `DataOut`, a slice: memory of its capacity, and its length. -/
structure Slice where
  mem : List Byte
  len : Nat

/-- prog.go:840 `ContextOut`: what `binary.Size` returns (`none` for -1), and whether `binary.Read` accepts it: whether it is a pointer or slice. -/
structure CtxOut where
  size : Option Nat
  readable : Bool

/-- prog.go:830-865 `RunOptions`. A context is `some none` if it can't be encoded. -/
structure RunOptions where
  data : List Byte := []
  dataOut : Option Slice := none
  context : Option (Option (List Byte)) := none
  contextOut : Option CtxOut := none
  repeats : BitVec 32 := 0
  flags : BitVec 32 := 0
  cpu : BitVec 32 := 0
  batch : BitVec 32 := 0

/-- A program: its descriptor and whether its type is Syscall. -/
structure Prog where
  fd : Nat
  syscall : Bool

/-- Errors, and the panics of `run` and `make`. -/
inductive RunErr where
  | tooLong | probe | context | mismatch | notSupported | sys (e : Nat) | decode
  | panicSize | panicOverrun
deriving DecidableEq

/-- What a run gives: return value and duration; `DataOut` as it is left in the options; what `ContextOut` is decoded from. -/
structure Result where
  ret : BitVec 32
  dur : BitVec 32
  dataOut : Option (List Byte)
  contextOut : Option (List Byte)
deriving DecidableEq

/-- internal/sys/ptr.go:14-20 `UnsafeSlicePointer`: nil for empty slices. -/
def slicePtr (b : Buf) (len : Nat) : Option Buf := if len = 0 then none else some b

/-- prog.go:995-1002: `ctxIn`, nil if there is no context. -/
def ctxInOf (o : RunOptions) : Except RunErr (Option (List Byte)) :=
  match o.context with
  | none => .ok none
  | some none => .error .context
  | some (some b) => .ok (some b)

/-- prog.go:1004-1006: `ctxOut`; `make` panics for negative sizes. -/
def ctxOutOf (o : RunOptions) : Except RunErr (Option Nat) :=
  match o.contextOut with
  | none => .ok none
  | some c =>
    match c.size with
    | none => .error .panicSize
    | some n => .ok (some n)

/-- prog.go:837: the length of DataOut. -/
def outLen (o : RunOptions) : Nat :=
  match o.dataOut with
  | none => 0
  | some s => s.len

/-- The memory before the system call. -/
def memOf (o : RunOptions) (ctxIn : Option (List Byte)) (ctxOut : Option Nat) : Mem
  | .dataIn => o.data
  | .dataOut =>
    match o.dataOut with
    | none => []
    | some s => s.mem
  | .ctxIn => ctxIn.getD []
  | .ctxOut => List.replicate (ctxOut.getD 0) 0

/-- prog.go:1012-1026: the arguments. -/
def attrOf (p : Prog) (o : RunOptions) (ctxIn : Option (List Byte)) (ctxOut : Option Nat) : Attr where
  progFd := p.fd
  retval := 0
  dataSizeIn := BitVec.ofNat 32 o.data.length
  dataSizeOut := BitVec.ofNat 32 (outLen o)
  dataIn := slicePtr .dataIn o.data.length
  dataOut := slicePtr .dataOut (outLen o)
  repeats := o.repeats
  duration := 0
  ctxSizeIn := BitVec.ofNat 32 (ctxIn.getD []).length
  ctxSizeOut := BitVec.ofNat 32 (ctxOut.getD 0)
  ctxIn := slicePtr .ctxIn (ctxIn.getD []).length
  ctxOut := slicePtr .ctxOut (ctxOut.getD 0)
  flags := o.flags
  cpu := o.cpu
  batch := o.batch

/-- prog.go:1028-1036: the context of Syscall programs is read and written in place. Gives the arguments and the place the context is found at afterwards. -/
def shield (p : Prog) (a : Attr) (ctxIn : Option (List Byte)) (ctxOut : Option Nat) : Except RunErr (Attr × Buf) :=
  match p.syscall, ctxIn, ctxOut with
  | true, some i, some n => if i.length ≠ n then .error .mismatch else .ok ({ a with ctxOut := none, ctxSizeOut := 0 }, .ctxIn)
  | _, _, _ => .ok (a, .ctxOut)

/-- How the loop at prog.go:1038-1071 ends. -/
inductive LoopEnd where
  | done (a : Attr)
  | failed (e : RunErr)

/-- prog.go:1038-1071: repeat while interrupted. `none`: not finished after `fuel` calls. The number counts calls of `Reset`. -/
def loop (k : Kernel) : Nat → World → Attr → Nat → Option (World × Nat × LoopEnd)
  | 0, _, _, _ => none
  | fuel + 1, w, a, resets =>
    match testRun k w a with
    | (w, a, none) => some (w, resets, .done a)
    | (w, a, some e) =>
      if e = EINTR then
        if a.repeats.toNat ≤ 1 then some (w, resets, .done a)
        else loop k fuel w a (resets + 1)
      else if e = ENOTSUPP then some (w, resets, .failed .notSupported)
      else some (w, resets, .failed (.sys e))

/-- prog.go:1073-1080: the data. -/
def dataResult (w : World) (a : Attr) (o : RunOptions) : Except RunErr (Option (List Byte)) :=
  match o.dataOut with
  | none => .ok none
  | some _ => if a.dataSizeOut.toNat > (w.mem .dataOut).length then .error .panicOverrun else .ok (some ((w.mem .dataOut).take a.dataSizeOut.toNat))

/-- prog.go:1082-1087: the context. -/
def ctxResult (w : World) (place : Buf) (o : RunOptions) : Except RunErr (Option (List Byte)) :=
  match o.contextOut with
  | none => .ok none
  | some c => if c.readable then .ok (some (w.mem place)) else .error .decode

/-- prog.go:1073-1091: after the loop. -/
def collect (w : World) (a : Attr) (place : Buf) (o : RunOptions) : Except RunErr Result :=
  match dataResult w a o with
  | .error e => .error e
  | .ok d =>
    match ctxResult w place o with
    | .error e => .error e
    | .ok c => .ok ⟨a.retval, a.duration, d, c⟩

/-- prog.go:986-1092 `run`. `probe`: does haveProgRun report an error? The result is preceded by the number of calls of `Reset` and by whether the kernel wrote where it shouldn't. -/
def run (k : Kernel) (time : Nat) (p : Prog) (probe : Bool) (o : RunOptions) (fuel : Nat) : Option (Nat × Bool × Except RunErr Result) :=
  if o.data.length > 2 ^ 32 - 1 then some (0, false, .error .tooLong)
  else if probe then some (0, false, .error .probe)
  else
    match ctxInOf o with
    | .error e => some (0, false, .error e)
    | .ok ctxIn =>
      match ctxOutOf o with
      | .error e => some (0, false, .error e)
      | .ok ctxOut =>
        match shield p (attrOf p o ctxIn ctxOut) ctxIn ctxOut with
        | .error e => some (0, false, .error e)
        | .ok (a, place) =>
          match loop k fuel { mem := memOf o ctxIn ctxOut, time := time } a 0 with
          | none => none
          | some (w, resets, .failed e) => some (resets, w.overrun, .error e)
          | some (w, resets, .done a) => some (resets, w.overrun, collect w a place o)

/-- prog.go:873-895 `Test`: the options. -/
def testOptions (input : List Byte) : RunOptions :=
  { data := input, dataOut := if input.length > 0 then some ⟨List.replicate (input.length + 258) 0, input.length + 258⟩ else none, repeats := 1 }

/-- prog.go:873-895 `Test`. -/
def test (k : Kernel) (time : Nat) (p : Prog) (probe : Bool) (input : List Byte) (fuel : Nat) : Option (Nat × Bool × Except RunErr Result) :=
  run k time p probe (testOptions input) fuel

/-- prog.go:920-936 `Benchmark`, on a platform with 64 bits. -/
def benchmark (k : Kernel) (time : Nat) (p : Prog) (probe : Bool) (input : List Byte) (repeats : Int) (fuel : Nat) : Option (Nat × Bool × Except RunErr Result) :=
  if (BitVec.ofInt 64 repeats).toNat > 2 ^ 32 - 1 then some (0, false, .error .tooLong)
  else run k time p probe { data := input, repeats := BitVec.ofInt 32 repeats } fuel

end Ebpf.ProgRun
