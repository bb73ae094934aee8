import Verif.Base
/-!
# Model of opening and closing readers: perf/reader.go:185-299, perf/ring.go:28-128, ringbuf/raw_reader.go:60-86, ringbuf/ring_other.go:24-77,
ringbuf/reader_other.go:21-38, internal/epoll/poller.go:40-117

Only resources and what they are made with; reading is modelled in `Ebpf.Perf` and `Ebpf.Ringbuf`. Linux, 64 bit.
-/
namespace Ebpf.OpenReader

/-- What a system call returns. -/
inductive Ans | ok | enodev | err
deriving DecidableEq

/-- The arguments of perf_event_open(2), perf/ring.go:104-127. -/
structure Attr where
  typ : Nat
  config : Nat
  sampleType : Nat
  wakeup : BitVec 32
  watermark : Bool
  writeBackward : Bool
  cpu : Nat
deriving DecidableEq

/-- A descriptor or a mapping. `perfMap`: of the event with this handle, length, writable. `ringMap`: offset, length, writable. `array`: a copy of the caller's descriptor. -/
inductive Obj
  | epoll | eventfd | array
  | event (a : Attr)
  | perfMap (event : Nat) (len : Nat) (writable : Bool)
  | ringMap (off len : Nat) (writable : Bool)
deriving DecidableEq

/-- The process: what is open (handles are never reused), which descriptors are non-blocking and polled, and the contents of the perf event array. -/
structure K where
  next : Nat
  live : List (Nat × Obj)
  nonblock : List Nat
  polled : List Nat
  array : List (Nat × Nat)

/-- The answers of the kernel to each call made while opening a reader. -/
structure Kernel where
  epollCreate : Ans
  eventfd : Nat → Ans
  epollAdd : Nat → Ans
  perfEventOpen : Nat → Ans
  setNonblock : Nat → Ans
  mmap : Nat → Ans
  addEvent : Nat → Ans
  dup : Ans
  put : Nat → Ans
  pageSize : Nat

/-- Errors, as far as callers tell them apart. -/
inductive Err | badArgument | enodev | other
deriving DecidableEq

/-- A call creating an object. -/
def create (a : Ans) (o : Obj) (k : K) : Except Err Nat × K :=
  match a with
  | .ok => (.ok k.next, { k with next := k.next + 1, live := (k.next, o) :: k.live })
  | .enodev => (.error .enodev, k)
  | .err => (.error .other, k)

/-- close(2) or munmap(2). -/
def release (h : Nat) (k : K) : K := { k with live := k.live.filter fun p => p.1 ≠ h }

/-! ## Poller -/

/-- internal/epoll/poller.go:28-38 `Poller`. -/
structure Poller where
  epoll : Nat
  closeEvent : Nat
  flushEvent : Nat
deriving DecidableEq

/-- internal/epoll/poller.go:124-152 `Add`: the error doesn't wrap the cause. -/
def pollerAdd (a : Ans) (h : Nat) (k : K) : Option Err × K :=
  match a with
  | .ok => (none, { k with polled := h :: k.polled })
  | _ => (some .other, k)

/-- internal/epoll/poller.go:87-117 `Close` of a poller nobody else uses: waking up `Wait` doesn't fail. -/
def pollerClose (p : Poller) (k : K) : K := release p.flushEvent (release p.closeEvent (release p.epoll k))

/-- internal/epoll/poller.go:40-80 `New`. The deferred functions run in reverse order. -/
def pollerNew (kn : Kernel) (k : K) : Except Err Poller × K :=
  match create kn.epollCreate .epoll k with
  | (.error _, k) => (.error .other, k)
  | (.ok ep, k) =>
    match create (kn.eventfd 0) .eventfd k with
    | (.error _, k) => (.error .other, release ep k)
    | (.ok c, k) =>
      match create (kn.eventfd 1) .eventfd k with
      | (.error _, k) => (.error .other, release ep (release c k))
      | (.ok f, k) =>
        match pollerAdd (kn.epollAdd 0) c k with
        | (some e, k) => (.error e, release ep (release c (release f k)))
        | (none, k) =>
          match pollerAdd (kn.epollAdd 1) f k with
          | (some e, k) => (.error e, release ep (release c (release f k)))
          | (none, k) => (.ok ⟨ep, c, f⟩, k)

/-! ## Perf -/

/-- perf/reader.go:167-181 `ReaderOptions`. -/
structure Opts where
  wakeupEvents : Int
  watermark : Int
  overwritable : Bool

/-- perf/ring.go:82-95 `perfBufferSize`. `Pow(2, Ceil(Log2(n)))` is computed on integers: the floating point functions are exact enough below 2^40 pages. -/
def perfBufferSize (pageSize perCPUBuffer : Nat) : Nat :=
  let nPages := (perCPUBuffer + pageSize - 1) / pageSize
  let nPages := if nPages ≤ 1 then 1 else 2 ^ (Nat.log2 (nPages - 1) + 1)
  (nPages + 1) * pageSize

/-- perf/ring.go:104-125: the attributes. PERF_TYPE_SOFTWARE = 1, PERF_COUNT_SW_BPF_OUTPUT = 10, PERF_SAMPLE_RAW = 0x400. -/
def eventAttr (cpu : Nat) (opts : Opts) : Attr :=
  let wakeup : Int := if opts.wakeupEvents > 0 then opts.wakeupEvents else if opts.watermark = 0 then 1 else opts.watermark
  { typ := 1, config := 10, sampleType := 0x400, wakeup := BitVec.ofInt 32 wakeup, watermark := !decide (opts.wakeupEvents > 0),
    writeBackward := opts.overwritable, cpu }

/-- A perf ring: CPU, event and mapping. -/
structure Ring where
  cpu : Nat
  event : Nat
  mmap : Nat
deriving DecidableEq

/-- perf/ring.go:28-80 `newPerfEventRing`. Errors of mmap don't wrap the cause; fcntl doesn't fail with ENODEV. `sys.NewFD` is the identity: descriptor 0 is in use. -/
def newPerfEventRing (kn : Kernel) (cpu : Nat) (perCPUBuffer : Nat) (opts : Opts) (k : K) : Except Err Ring × K :=
  if opts.watermark ≥ perCPUBuffer then (.error .badArgument, k)
  else match create (kn.perfEventOpen cpu) (.event (eventAttr cpu opts)) k with
    | (.error e, k) => (.error e, k)
    | (.ok fd, k) =>
      match kn.setNonblock cpu with
      | .ok =>
        let k := { k with nonblock := fd :: k.nonblock }
        match create (kn.mmap cpu) (.perfMap fd (perfBufferSize kn.pageSize perCPUBuffer) (!opts.overwritable)) k with
        | (.error _, k) => (.error .other, release fd k)
        | (.ok m, k) => (.ok ⟨cpu, fd, m⟩, k)
      | _ => (.error .other, release fd k)

/-- Closing rings in the reverse order, as deferred: perf/reader.go:227-228. -/
def closeRings : List Ring → K → K
  | [], k => k
  | r :: rs, k => release r.event (release r.mmap (closeRings rs k))

/-- perf/reader.go:216-239: the loop over the CPUs from `cpu`, `n` of them. The rings in order. -/
def ringLoop (kn : Kernel) (perCPUBuffer : Nat) (opts : Opts) : Nat → Nat → K → Except Err (List Ring) × K
  | 0, _, k => (.ok [], k)
  | n + 1, cpu, k =>
    match newPerfEventRing kn cpu perCPUBuffer opts k with
    | (.error .enodev, k) => ringLoop kn perCPUBuffer opts n (cpu + 1) k
    | (.error .badArgument, k) => (.error .badArgument, k)
    | (.error .other, k) => (.error .other, k)
    | (.ok r, k) =>
      match pollerAdd (kn.addEvent cpu) r.event k with
      | (some e, k) => (.error e, closeRings [r] k)
      | (none, k) =>
        match ringLoop kn perCPUBuffer opts n (cpu + 1) k with
        | (.error e, k) => (.error e, closeRings [r] k)
        | (.ok rs, k) => (.ok (r :: rs), k)

/-- perf/reader.go:137-163 `Reader`. -/
structure Reader where
  poller : Poller
  array : Nat
  rings : List Ring
deriving DecidableEq

/-- perf/reader.go:431-452 `Resume`: the i-th event at index `i`. -/
def resume (kn : Kernel) : Nat → List Ring → K → Option Err × K
  | _, [], k => (none, k)
  | i, r :: rs, k =>
    match kn.put i with
    | .ok => resume kn (i + 1) rs { k with array := (i, r.event) :: k.array }
    | _ => (some .other, k)

/-- perf/reader.go:195-265 `NewReaderWithOptions` for an array of `nCPU` entries. -/
def newPerfReader (kn : Kernel) (nCPU : Nat) (perCPUBuffer : Int) (opts : Opts) (k : K) : Except Err Reader × K :=
  if perCPUBuffer < 1 then (.error .badArgument, k)
  else if opts.wakeupEvents > 0 ∧ opts.watermark > 0 then (.error .badArgument, k)
  else match pollerNew kn k with
    | (.error e, k) => (.error e, k)
    | (.ok p, k) =>
      match ringLoop kn perCPUBuffer.toNat opts nCPU 0 k with
      | (.error e, k) => (.error e, pollerClose p k)
      | (.ok rings, k) =>
        match create kn.dup .array k with
        | (.error _, k) => (.error .other, pollerClose p (closeRings rings k))
        | (.ok array, k) =>
          match resume kn 0 rings k with
          | (some e, k) => (.error e, pollerClose p (closeRings rings k))
          | (none, k) => (.ok ⟨p, array, rings⟩, k)

/-- perf/reader.go:287-289: all mappings. -/
def unmapAll : List Ring → K → K
  | [], k => k
  | r :: rs, k => unmapAll rs (release r.mmap k)

/-- perf/reader.go:290-292: all events. -/
def closeEvents : List Ring → K → K
  | [], k => k
  | r :: rs, k => closeEvents rs (release r.event k)

/-- perf/reader.go:273-299 `Close`. -/
def perfClose (pr : Reader) (k : K) : K := release pr.array (closeEvents pr.rings (unmapAll pr.rings (pollerClose pr.poller k)))

/-! ## Ring buffer -/

/-- internal/math.go:9-11 `IsPow`. -/
def isPow (n : Nat) : Bool := n != 0 && (n &&& (n - 1)) == 0

/-- ringbuf/raw_reader.go:14-29 `RawReader`: the poller, the consumer page, the producer page and the data pages, the size. -/
structure RawReader where
  poller : Poller
  cons : Nat
  prod : Nat
  bufferSize : Nat
deriving DecidableEq

/-- ringbuf/ring_other.go:24-64 `newRingBufEventRing`: consumer and producer mappings. The usable size is half of what follows the first page (ringbuf/ring.go:36-50). -/
def newRingBufEventRing (kn : Kernel) (size : Nat) (k : K) : Except Err (Nat × Nat × Nat) × K :=
  match create (kn.mmap 0) (.ringMap 0 kn.pageSize true) k with
  | (.error _, k) => (.error .other, k)
  | (.ok cons, k) =>
    let len := kn.pageSize + 2 * size
    match create (kn.mmap 1) (.ringMap kn.pageSize len false) k with
    | (.error _, k) => (.error .other, release cons k)
    | (.ok prod, k) => (.ok (cons, prod, (len - kn.pageSize) / 2), k)

/-- ringbuf/raw_reader.go:60-86 `NewRawReader` and ringbuf/reader_other.go:21-38 `newPoller`. `mapFD` is the handle of the map. -/
def newRawReader (kn : Kernel) (isRingbuf : Bool) (mapFD maxEntries : Nat) (k : K) : Except Err RawReader × K :=
  if isRingbuf = false then (.error .badArgument, k)
  else if maxEntries = 0 ∨ isPow maxEntries = false then (.error .badArgument, k)
  else match pollerNew kn k with
    | (.error e, k) => (.error e, k)
    | (.ok p, k) =>
      match pollerAdd (kn.addEvent 0) mapFD k with
      | (some e, k) => (.error e, pollerClose p k)
      | (none, k) =>
        match newRingBufEventRing kn maxEntries k with
        | (.error _, k) => (.error .other, pollerClose p k)
        | (.ok (cons, prod, size), k) => (.ok ⟨p, cons, prod, size⟩, k)

/-- ringbuf/raw_reader.go:109-126 `Close` and ringbuf/ring_other.go:66-77 `close`. -/
def rawClose (r : RawReader) (k : K) : K := release r.cons (release r.prod (pollerClose r.poller k))

end Ebpf.OpenReader
