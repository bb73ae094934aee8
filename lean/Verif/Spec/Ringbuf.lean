import Verif.Model.Ringbuf
/-! # The kernel side of a BPF ring buffer and its interleaving with one reader

`kernel/bpf/ringbuf.c`: a producer reserves space (header with the busy bit, then the producer position
is advanced), the BPF program fills the payload, and commit or discard clears the busy bit. Any number
of producers run concurrently; they may commit in any order. Reservation fails unless everything not
yet released by the consumer position still fits. -/
namespace Ebpf.Ringbuf

inductive Status where
  | busy
  | ready
  | discarded
deriving DecidableEq

/-- A record as the producer sees it. `payload` is the contents at commit. -/
structure Rec where
  len : Nat
  status : Status
  payload : Bytes
deriving DecidableEq

/-- Space a record takes in the ring: 8 byte header, payload rounded up to 8 bytes. -/
def Rec.space (r : Rec) : Nat := 8 + (r.len + 7) / 8 * 8

/-- Header length field of a record. -/
def Rec.header (r : Rec) : BitVec 32 :=
  match r.status with
  | .busy => BitVec.ofNat 32 r.len ||| BUSY
  | .ready => BitVec.ofNat 32 r.len
  | .discarded => BitVec.ofNat 32 r.len ||| DISCARD

/-- Reader program counter. -/
inductive PC where
  | idle
  | loaded (prod : BitVec 64)        -- producer position read
  | got (s : Slice)                  -- sample returned, not yet looked at
  | failed                           -- an error other than end of ring, or a panic
deriving DecidableEq

/-- Ring, positions in shared memory, reader. Ghosts: `recs` (all records ever reserved, in order),
`base` (position of the first), `pub`/`rd` (records released / read), `delivered`. -/
structure St where
  ring : Ring
  prodPos : BitVec 64
  consPos : BitVec 64
  localCons : BitVec 64
  pc : PC
  base : Nat
  recs : List Rec
  pub : Nat
  rd : Nat
  delivered : List Bytes

/-- Logical position at which record `i` starts (or would start). -/
def St.pos (s : St) (i : Nat) : Nat := s.base + ((s.recs.take i).map Rec.space).sum

/-- Write one byte at a logical position. -/
def Ring.put (r : Ring) (p : Nat) (b : Byte) : Ring := { r with mem := fun i => if i = p % r.size then b else r.mem i }

/-- Write a header length field at a logical position. -/
def Ring.putLen (bo : ByteOrder) (r : Ring) (p : Nat) (x : BitVec 32) : Ring :=
  match bo.put32 x with
  | [a, b, c, d] => (((r.put p a).put (p + 1) b).put (p + 2) c).put (p + 3) d
  | _ => r

/-- State after reserving `len` bytes: header with the busy bit and four more header bytes `pg` written, then
the producer position advanced. -/
def St.reserved (bo : ByteOrder) (s : St) (len : Nat) (pg : Byte × Byte × Byte × Byte) : St :=
  { s with
    ring := ((((s.ring.putLen bo (s.pos s.recs.length) (Rec.mk len .busy []).header).put (s.pos s.recs.length + 4) pg.1).put
      (s.pos s.recs.length + 5) pg.2.1).put (s.pos s.recs.length + 6) pg.2.2.1).put (s.pos s.recs.length + 7) pg.2.2.2
    recs := s.recs ++ [⟨len, .busy, []⟩]
    prodPos := BitVec.ofNat 64 (s.pos s.recs.length + (Rec.mk len .busy []).space) }

/-- Record `i` as it is after committing: what the ring holds at that moment is its payload. -/
def St.finished (s : St) (i : Nat) (r : Rec) (discard : Bool) : Rec :=
  ⟨r.len, if discard then .discarded else .ready,
    (List.range r.len).map fun j => s.ring.mem ((s.pos i + 8 + j) % s.ring.size)⟩

/-- One step of the system. -/
inductive Step (bo : ByteOrder) (mask : BitVec 64) : St → St → Prop where
  /-- `__bpf_ringbuf_reserve`: the record must fit into what the consumer has released. The four bytes after
  the length (page offset) are arbitrary. -/
  | reserve (s : St) (len : Nat) (pg : Byte × Byte × Byte × Byte) (hlen : len < 2 ^ 30)
      (hfit : s.pos s.recs.length + (Rec.mk len .busy []).space - s.pos s.pub ≤ s.ring.size) :
      Step bo mask s (s.reserved bo len pg)
  /-- The BPF program writes into its reserved, uncommitted sample. -/
  | fill (s : St) (i j : Nat) (r : Rec) (b : Byte) (hr : s.recs[i]? = some r) (hb : r.status = .busy) (hj : j < r.len) :
      Step bo mask s { s with ring := s.ring.put (s.pos i + 8 + j) b }
  /-- `bpf_ringbuf_commit`: submit or discard. -/
  | commit (s : St) (i : Nat) (r : Rec) (discard : Bool) (hr : s.recs[i]? = some r) (hb : r.status = .busy) :
      Step bo mask s { s with ring := s.ring.putLen bo (s.pos i) (s.finished i r discard).header, recs := s.recs.set i (s.finished i r discard) }
  /-- Reader: load the producer position. -/
  | load (s : St) (hpc : s.pc = .idle) : Step bo mask s { s with pc := .loaded s.prodPos }
  /-- Reader: nothing to read (then waits, or returns; ringbuf/raw_reader.go:155-187). -/
  | endOfRing (s : St) (prod : BitVec 64) (hpc : s.pc = .loaded prod) (h : readFirst mask prod s.localCons = .endOfRing) :
      Step bo mask s { s with pc := .idle }
  | badFirst (s : St) (prod : BitVec 64) (hpc : s.pc = .loaded prod) (h : readFirst mask prod s.localCons = .unexpectedEOF) :
      Step bo mask s { s with pc := .failed }
  /-- Reader: load the header; not busy; a sample. -/
  | sample (s : St) (prod : BitVec 64) (start : Nat) (sl : Slice) (rem lc : BitVec 64) (hpc : s.pc = .loaded prod)
      (h1 : readFirst mask prod s.localCons = .header start)
      (h2 : readSecond s.ring.size mask prod s.localCons (loadLen bo s.ring start) = .sample sl rem lc) :
      Step bo mask s { s with pc := .got sl, localCons := lc, rd := s.rd + 1 }
  | discarded (s : St) (prod : BitVec 64) (start : Nat) (rem lc : BitVec 64) (hpc : s.pc = .loaded prod)
      (h1 : readFirst mask prod s.localCons = .header start)
      (h2 : readSecond s.ring.size mask prod s.localCons (loadLen bo s.ring start) = .discarded rem lc) :
      Step bo mask s { s with pc := .idle, localCons := lc, rd := s.rd + 1 }
  | badSecond (s : St) (prod : BitVec 64) (start : Nat) (hpc : s.pc = .loaded prod)
      (h1 : readFirst mask prod s.localCons = .header start)
      (h2 : readSecond s.ring.size mask prod s.localCons (loadLen bo s.ring start) = .unexpectedEOF ∨
        readSecond s.ring.size mask prod s.localCons (loadLen bo s.ring start) = .panic) :
      Step bo mask s { s with pc := .failed }
  /-- Reader: the sample bytes are copied out (ringbuf/reader.go:142), any time after `ReadSample` returned. -/
  | copy (s : St) (sl : Slice) (hpc : s.pc = .got sl) :
      Step bo mask s { s with pc := .idle, delivered := s.delivered ++ [sl.bytes s.ring] }
  /-- Reader: `commit` (ringbuf/ring.go:59-61), any time between reads; `Reader` does it after each
  sample, a `RawReader` user possibly after several. -/
  | publish (s : St) (hpc : s.pc = .idle) : Step bo mask s { s with consPos := s.localCons, pub := s.rd }

/-- An empty ring of `2^k` bytes at an arbitrary position. -/
def St.init (k base : Nat) (mem : Nat → Byte) : St :=
  ⟨⟨2 ^ k, mem⟩, BitVec.ofNat 64 base, BitVec.ofNat 64 base, BitVec.ofNat 64 base, .idle, base, [], 0, 0, []⟩

/-- States reachable from an empty ring of `2^k` bytes. -/
inductive Reach (bo : ByteOrder) (k base : Nat) (mem : Nat → Byte) : St → Prop where
  | init : Reach bo k base mem (St.init k base mem)
  | step {s s' : St} : Reach bo k base mem s → Step bo (BitVec.ofNat 64 (2 ^ k - 1)) s s' → Reach bo k base mem s'

/-- Payloads of the committed records among `rs`, in order. -/
def committed (rs : List Rec) : List Bytes := (rs.filter fun r => r.status == .ready).map Rec.payload

end Ebpf.Ringbuf
