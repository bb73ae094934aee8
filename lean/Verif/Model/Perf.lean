import Verif.Base
/-! # Model of `perf/ring.go` and `perf/reader.go` -/
namespace Ebpf.Perf

/-- Errors of the reading functions, as far as callers tell them apart. -/
inductive Err where
  | eof
  | unexpectedEOF
  | eor                     -- errEOR
  | headerErr               -- "read perf event header: ..." (formatted with %v, hides its cause)
  | lostErr                 -- "can't read lost records header: ..." (%v)
  | sampleEOF               -- "read sample...: %w" wrapping io.EOF
  | sampleUnexpectedEOF     -- wrapping io.ErrUnexpectedEOF
  | unknown (ty : BitVec 32)
deriving DecidableEq

/-- `forwardReader` (perf/ring.go:142-147) with `pos` = tail and `limit` = head, or `reverseReader`
(perf/ring.go:205-215) with `pos` = read and `limit` = tail. Their `Read` methods are the same code up to these names. -/
structure Cursor where
  pos : BitVec 64
  limit : BitVec 64
  cap : Nat
  ring : Nat → Byte

/-- `mask` (perf/ring.go:155, 220). -/
def Cursor.mask (c : Cursor) : BitVec 64 := BitVec.ofNat 64 (c.cap - 1)

/-- perf/ring.go:179-202 and 280-303 `Read` into a buffer of `n` bytes: the bytes copied, whether io.EOF is
returned, the advanced reader. `none`: slice bounds panic (negative length). -/
def Cursor.read (c : Cursor) (n : Nat) : Option (Bytes × Bool × Cursor) :=
  let start := (c.pos &&& c.mask).toNat
  let n := if n > c.cap - start then c.cap - start else n
  let remainder := (c.limit - c.pos).toInt
  if remainder < 0 then none
  else
    let n := if (n : Int) > remainder then remainder.toNat else n
    let pos := c.pos + BitVec.ofNat 64 n
    some ((List.range n).map fun j => c.ring (start + j), pos == c.limit, { c with pos := pos })

/-- `io.ReadFull` (Go standard library, `io.ReadAtLeast`): keep reading until the buffer is full or an error
occurs. `acc` is what has been read so far. -/
def Cursor.readFull : Nat → Cursor → Nat → Bytes → Option (Except Err Bytes × Cursor)
  | 0, _, _, _ => none
  | fuel + 1, c, n, acc =>
    if n = 0 then some (.ok acc, c)
    else
      match c.read n with
      | none => none
      | some (bs, eof, c') =>
        if bs.length = n then some (.ok (acc ++ bs), c')
        else if eof then some (.error (if acc ++ bs = [] then .eof else .unexpectedEOF), c')
        else Cursor.readFull fuel c' (n - bs.length) (acc ++ bs)

/-- `io.ReadFull` with enough fuel for any progress of at least one byte per call. -/
def Cursor.full (c : Cursor) (n : Nat) : Option (Except Err Bytes × Cursor) := Cursor.readFull (n + 1) c n []

def PERF_RECORD_LOST : BitVec 32 := 2#32
def PERF_RECORD_SAMPLE : BitVec 32 := 9#32

/-- `Record` (perf/reader.go:38-54) without CPU and Remaining, which `readRecordFromRing` sets. -/
inductive Record where
  | sample (raw : Bytes)
  | lost (n : BitVec 64)
deriving DecidableEq

/-- perf/reader.go:113-133 `readRawSample`. -/
def readRawSample (bo : ByteOrder) (c : Cursor) : Option (Except Err Bytes × Cursor) :=
  match c.full 4 with
  | none => none
  | some (.error .eof, c) => some (.error .sampleEOF, c)
  | some (.error _, c) => some (.error .sampleUnexpectedEOF, c)
  | some (.ok bs, c) =>
    match bo.get32l bs with
    | none => none
    | some (size, _) =>
      match c.full size.toNat with
      | none => none
      | some (.error .eof, c) => some (.error .sampleEOF, c)
      | some (.error _, c) => some (.error .sampleUnexpectedEOF, c)
      | some (.ok data, c) => some (.ok data, c)

/-- perf/reader.go:91-104 `readLostRecords`. -/
def readLostRecords (bo : ByteOrder) (c : Cursor) : Option (Except Err (BitVec 64) × Cursor) :=
  match c.full 16 with
  | none => none
  | some (.error _, c) => some (.error .lostErr, c)
  | some (.ok bs, c) =>
    match bs with
    | [_, _, _, _, _, _, _, _, a, b, d, e, f, g, h, i] => some (.ok (bo.get64 a b d e f g h i), c)
    | _ => none

/-- perf/reader.go:59-89 `readRecord`. -/
def readRecord (bo : ByteOrder) (c : Cursor) : Option (Except Err Record × Cursor) :=
  match c.full 8 with
  | none => none
  | some (.error .eof, c) => some (.error .eor, c)
  | some (.error _, c) => some (.error .headerErr, c)
  | some (.ok bs, c) =>
    match bo.get32l bs with
    | none => none
    | some (ty, _) =>
      if ty = PERF_RECORD_LOST then
        match readLostRecords bo c with
        | none => none
        | some (.error e, c) => some (.error e, c)
        | some (.ok n, c) => some (.ok (.lost n), c)
      else if ty = PERF_RECORD_SAMPLE then
        match readRawSample bo c with
        | none => none
        | some (.error e, c) => some (.error e, c)
        | some (.ok raw, c) => some (.ok (.sample raw), c)
      else some (.error (.unknown ty), c)

/-- perf/reader.go:493-503 `readRecordFromRing`: in overwritable mode a record cut off at the end ends the ring. -/
def readRecordFromRing (bo : ByteOrder) (overwritable : Bool) (c : Cursor) : Option (Except Err Record × Cursor) :=
  match readRecord bo c with
  | none => none
  | some (.error e, c) =>
    if overwritable ∧ (e = .eof ∨ e = .unexpectedEOF ∨ e = .sampleEOF ∨ e = .sampleUnexpectedEOF) then some (.error .eor, c)
    else some (.error e, c)
  | some (.ok r, c) => some (.ok r, c)

/-- perf/ring.go:166-168 `remaining` of the forward reader. -/
def Cursor.remaining (c : Cursor) : BitVec 64 := (c.limit - c.pos) &&& c.mask

/-- perf/ring.go:228-262 `reverseReader.loadHead`: `head` is the position of the previous call. Returns the new
head and the cursor. -/
def loadHeadReverse (cap : Nat) (ring : Nat → Byte) (head dataHead : BitVec 64) : BitVec 64 × Cursor :=
  let tail := if head - dataHead > BitVec.ofNat 64 cap then dataHead + BitVec.ofNat 64 cap else head
  (dataHead, ⟨dataHead, tail, cap, ring⟩)

/-- Call `readRecordFromRing` until it reports an error; the records and the error. `none`: panic or out of fuel. -/
def readAll (bo : ByteOrder) (overwritable : Bool) : Nat → Cursor → Option (List Record × Err × Cursor)
  | 0, _ => none
  | fuel + 1, c =>
    match readRecordFromRing bo overwritable c with
    | none => none
    | some (.error e, c) => some ([], e, c)
    | some (.ok r, c) =>
      match readAll bo overwritable fuel c with
      | none => none
      | some (rs, e, c) => some (r :: rs, e, c)

/-! ## Pause and Resume -/

/-- The per-CPU events of a Reader, in `eventFds`/`rings` order: CPU and file descriptor. -/
abbrev Events := List (Nat × Nat)

/-- perf/reader.go:205-231: one ring per CPU below `nCPU`, offline CPUs are skipped. `fdOf` is the descriptor
perf_event_open returns for a CPU. -/
def openRings (nCPU : Nat) (online : Nat → Bool) (fdOf : Nat → Nat) : Events :=
  ((List.range nCPU).filter online).map fun cpu => (cpu, fdOf cpu)

/-- Contents of the PERF_EVENT_ARRAY map: descriptor stored at an index. -/
abbrev Array' := Nat → Option Nat

def Array'.put (a : Array') (i fd : Nat) : Array' := fun j => if j = i then some fd else a j
def Array'.delete (a : Array') (i : Nat) : Array' := fun j => if j = i then none else a j

/-- perf/reader.go:447-470 `Resume`: `array.Put(uint32(i), fd)` for the i-th element of `eventFds` (`start` counts). -/
def resume : Nat → Events → Array' → Array'
  | _, [], a => a
  | i, (_, fd) :: es, a => resume (i + 1) es (a.put i fd)

/-- perf/reader.go:422-441 `Pause`: `array.Delete(uint32(i))` for each index of `eventFds`. -/
def pause : Nat → Events → Array' → Array'
  | _, [], a => a
  | i, _ :: es, a => pause (i + 1) es (a.delete i)

end Ebpf.Perf
