import Verif.Model.Perf
/-! # Interleavings of the perf reader with the kernel, and the `ReadInto` loop -/
namespace Ebpf.Perf

/-- A forward ring shared with the kernel. Ghosts: `base`, the position of the first byte; `stream`, all bytes
ever produced; `got`, all bytes ever read. Positions are unbounded naturals here; the shared words hold them
modulo 2^64 (`At` in Spec/Perf.lean). -/
structure KSt where
  cap : Nat
  mem : Nat → Byte
  base : Nat
  stream : Bytes
  pub : Nat                -- data_tail
  cur : Cursor             -- forwardReader
  got : Bytes

/-- data_head. -/
def KSt.head (s : KSt) : Nat := s.base + s.stream.length

/-- Store bytes at a logical position. -/
def store (cap : Nat) (mem : Nat → Byte) (p : Nat) : Bytes → (Nat → Byte)
  | [] => mem
  | b :: bs => store cap (fun i => if i = p % cap then b else mem i) (p + 1) bs

inductive KStep : KSt → KSt → Prop where
  /-- The kernel appends bytes if they fit in front of data_tail, leaving a gap (kernel/events/ring_buffer.c). -/
  | produce (s : KSt) (bs : Bytes) (h : s.head + bs.length < s.pub + s.cap) :
      KStep s { s with mem := store s.cap s.mem s.head bs, stream := s.stream ++ bs,
                       cur := { s.cur with ring := store s.cap s.mem s.head bs } }
  /-- perf/ring.go:158-160 `loadHead`. -/
  | loadHead (s : KSt) : KStep s { s with cur := { s.cur with limit := BitVec.ofNat 64 s.head } }
  /-- perf/ring.go:179-202 `Read`. -/
  | read (s : KSt) (n : Nat) (bs : Bytes) (eof : Bool) (c' : Cursor) (h : s.cur.read n = some (bs, eof, c')) :
      KStep s { s with cur := c', got := s.got ++ bs }
  /-- perf/ring.go:170-174 `writeTail`. -/
  | writeTail (s : KSt) (p : Nat) (h : s.cur.pos = BitVec.ofNat 64 p) (hp : p = s.base + s.got.length) :
      KStep s { s with pub := p }

/-- An empty ring of `2^k` bytes at position `base`. -/
inductive KReach (k base : Nat) (mem : Nat → Byte) : KSt → Prop where
  | init : KReach k base mem ⟨2 ^ k, mem, base, [], base, ⟨BitVec.ofNat 64 base, BitVec.ofNat 64 base, 2 ^ k, mem⟩, []⟩
  | step {s s' : KSt} : KReach k base mem s → KStep s s' → KReach k base mem s'

/-! ## ReadInto -/

/-- What `Wait` returns. -/
inductive WRes where
  | ready
  | deadline
  | flushed
  | other
deriving DecidableEq

/-- One per-CPU ring, by counts of records: produced by the kernel, visible since the last `loadHead`, read. -/
structure RingCnt where
  produced : Nat
  loaded : Nat
  read : Nat
deriving DecidableEq

/-- Result of one `ReadInto` call. -/
inductive RRes where
  | record (ring : Nat)
  | pending (e : WRes) (marks : List Nat) (reads : List Nat)   -- ghosts: produced when interrupted, read now
  | mustBePaused
  | waitErr
deriving DecidableEq

inductive RCtl where
  | out
  | loop
  | waiting
  | woken          -- Wait returned nil, or a drain error which is now in pendingErr
deriving DecidableEq

/-- The Reader (perf/reader.go:137-163). `marks`, `log` are ghosts. -/
structure PR where
  rings : List RingCnt
  epollRings : List Nat
  pendingErr : Option WRes
  overwritable : Bool
  paused : Bool
  ctl : RCtl
  marks : List Nat
  log : List RRes

def RingCnt.load (r : RingCnt) : RingCnt := { r with loaded := r.produced }

/-- perf/reader.go:339-415 `ReadInto`, interleaved with the kernel and Pause/Resume. -/
inductive PStep : PR → PR → Prop where
  | produce (s : PR) (i : Nat) (r : RingCnt) (h : s.rings[i]? = some r) :
      PStep s { s with rings := s.rings.set i { r with produced := r.produced + 1 } }
  /-- Pause and Resume need only `pauseMu`, which is free outside ReadInto and during Wait. -/
  | pauseResume (s : PR) (b : Bool) (h : s.ctl = .out ∨ s.ctl = .waiting) : PStep s { s with paused := b }
  | call (s : PR) (h : s.ctl = .out) (hp : s.overwritable = true → s.paused = true) : PStep s { s with ctl := .loop }
  | callRefused (s : PR) (h : s.ctl = .out) (hp : s.overwritable = true) (hq : s.paused = false) :
      PStep s { s with log := s.log ++ [.mustBePaused] }
  | pending (s : PR) (e : WRes) (h : s.ctl = .loop) (he : s.epollRings = []) (hp : s.pendingErr = some e) :
      PStep s { s with pendingErr := none, ctl := .out, log := s.log ++ [.pending e s.marks (s.rings.map (·.read))] }
  | wait (s : PR) (h : s.ctl = .loop) (he : s.epollRings = []) (hp : s.pendingErr = none) : PStep s { s with ctl := .waiting }
  | woken (s : PR) (h : s.ctl = .waiting) : PStep s { s with ctl := .woken }
  | interrupted (s : PR) (e : WRes) (h : s.ctl = .waiting) (he : e = .deadline ∨ e = .flushed) :
      PStep s { s with ctl := .woken, pendingErr := some e, marks := s.rings.map (·.produced) }
  | waitErr (s : PR) (h : s.ctl = .waiting) : PStep s { s with ctl := .out, log := s.log ++ [.waitErr] }
  | recheck (s : PR) (h : s.ctl = .woken) (ho : s.overwritable = true) (hp : s.paused = false) :
      PStep s { s with ctl := .out, log := s.log ++ [.mustBePaused] }
  | loadAll (s : PR) (h : s.ctl = .woken) (hp : s.overwritable = true → s.paused = true) :
      PStep s { s with ctl := .loop, rings := s.rings.map RingCnt.load, epollRings := List.range s.rings.length }
  /-- `readRecordFromRing` on the last element: a record, or end of ring. -/
  | record (s : PR) (i : Nat) (r : RingCnt) (er : List Nat) (h : s.ctl = .loop) (he : s.epollRings = er ++ [i])
      (hr : s.rings[i]? = some r) (hl : r.read < r.loaded) :
      PStep s { s with rings := s.rings.set i { r with read := r.read + 1 }, ctl := .out, log := s.log ++ [.record i] }
  | endOfRing (s : PR) (i : Nat) (r : RingCnt) (er : List Nat) (h : s.ctl = .loop) (he : s.epollRings = er ++ [i])
      (hr : s.rings[i]? = some r) (hl : r.loaded ≤ r.read) :
      PStep s { s with epollRings := er }

/-- A reader over `n` empty rings. -/
inductive PReach (n : Nat) (ow : Bool) : PR → Prop where
  | init : PReach n ow ⟨List.replicate n ⟨0, 0, 0⟩, [], none, ow, false, .out, [], []⟩
  | step {s s' : PR} : PReach n ow s → PStep s s' → PReach n ow s'

end Ebpf.Perf
