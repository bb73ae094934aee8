import Verif.Spec.Ringbuf
/-! # Model of `ringbuf/raw_reader.go`: the `ReadSample` loop and the `Close` protocol -/
namespace Ebpf.RingReader
open Ringbuf

/-- What `poller.Wait` can return (internal/epoll/poller.go:152-212). -/
inductive WaitRes where
  | ready
  | deadline
  | flushed
  | closed
  | other
deriving DecidableEq

/-- Errors a read returns that are kept in `drainErr`. -/
def WaitRes.drains : WaitRes → Bool
  | .deadline => true
  | .flushed => true
  | _ => false

/-- Where the reading goroutine is in `Lease.ReadSample`. -/
inductive Ctl where
  | out            -- not in ReadSample
  | trying         -- about to call or in ring.readSample()
  | waiting        -- in poller.Wait
deriving DecidableEq

/-- An error return of `ReadSample`: the error, and (ghosts) how many records had been reserved when `Wait`
was interrupted and how many have been read. -/
structure Ret where
  err : WaitRes
  mark : Nat
  rd : Nat
deriving DecidableEq

/-- The ring system of `Spec/Ringbuf.lean` plus the control state of the reader. `mark`, `rets`, `ints` are ghosts:
`ints` lists the interruptions of `Wait` in order. -/
structure Sys where
  ring : St
  drainErr : Option WaitRes
  ctl : Ctl
  mark : Nat
  rets : List Ret
  ints : List WaitRes

/-- ringbuf/raw_reader.go:155-187 `Lease.ReadSample`, interleaved with everything else. -/
inductive RStep (bo : ByteOrder) (mask : BitVec 64) : Sys → Sys → Prop where
  /-- Producers: any step of the ring that leaves the reader's part alone. -/
  | producer (s : Sys) (r' : St) (h : Step bo mask s.ring r') (h1 : r'.pc = s.ring.pc) (h2 : r'.rd = s.ring.rd)
      (h3 : r'.pub = s.ring.pub) (h4 : r'.delivered = s.ring.delivered) : RStep bo mask s { s with ring := r' }
  /-- Call `ReadSample`. -/
  | call (s : Sys) (hc : s.ctl = .out) (hp : s.ring.pc = .idle) : RStep bo mask s { s with ctl := .trying }
  | load (s : Sys) (hc : s.ctl = .trying) (hp : s.ring.pc = .idle) :
      RStep bo mask s { s with ring := { s.ring with pc := .loaded s.ring.prodPos } }
  /-- `readSample` returned nil: `ReadSample` returns (data or nil). -/
  | success (s : Sys) (r' : St) (hc : s.ctl = .trying) (h : Step bo mask s.ring r') (hr : r'.rd = s.ring.rd + 1) :
      RStep bo mask s { s with ring := r', ctl := .out }
  /-- `errEOR` with `drainErr` set: clear it and return it. -/
  | drained (s : Sys) (prod : BitVec 64) (e : WaitRes) (hc : s.ctl = .trying) (hp : s.ring.pc = .loaded prod)
      (h : readFirst mask prod s.ring.localCons = .endOfRing) (hd : s.drainErr = some e) :
      RStep bo mask s { s with ring := { s.ring with pc := .idle }, ctl := .out, drainErr := none,
                               rets := s.rets ++ [⟨e, s.mark, s.ring.rd⟩] }
  /-- `errEOR` without `drainErr`: wait. -/
  | empty (s : Sys) (prod : BitVec 64) (hc : s.ctl = .trying) (hp : s.ring.pc = .loaded prod)
      (h : readFirst mask prod s.ring.localCons = .endOfRing) (hd : s.drainErr = none) :
      RStep bo mask s { s with ring := { s.ring with pc := .idle }, ctl := .waiting }
  | woken (s : Sys) (hc : s.ctl = .waiting) : RStep bo mask s { s with ctl := .trying }
  | interrupted (s : Sys) (w : WaitRes) (hc : s.ctl = .waiting) (hw : w.drains = true) :
      RStep bo mask s { s with ctl := .trying, drainErr := some w, mark := s.ring.recs.length, ints := s.ints ++ [w] }
  | failed (s : Sys) (w : WaitRes) (hc : s.ctl = .waiting) (hw : w = .closed ∨ w = .other) : RStep bo mask s { s with ctl := .out }
  /-- Outside `ReadSample` the user copies the sample and commits. -/
  | user (s : Sys) (r' : St) (hc : s.ctl = .out) (h : Step bo mask s.ring r') (hr : r'.rd = s.ring.rd)
      (hp : r'.pc = .idle) (hp' : s.ring.pc = .idle ∨ ∃ sl, s.ring.pc = .got sl) : RStep bo mask s { s with ring := r' }

inductive RReach (bo : ByteOrder) (k base : Nat) (mem : Nat → Byte) : Sys → Prop where
  | init : RReach bo k base mem ⟨St.init k base mem, none, .out, 0, [], []⟩
  | step {s s' : Sys} : RReach bo k base mem s → RStep bo (BitVec.ofNat 64 (2 ^ k - 1)) s s' → RReach bo k base mem s'

/-! ## The close protocol -/

/-- Where a goroutine calling `WithLease` is. -/
inductive LPC where
  | start
  | gotInflight       -- CAS on inflight succeeded
  | refused           -- closed: about to leave()
  | inside            -- running the callback: may touch ring memory
  | leaving           -- callback returned: about to leave()
  | done (err : Option Bool)   -- none: ran; some true: ErrClosed; some false: errConcurrent
deriving DecidableEq

/-- Where a goroutine calling `Close` is. -/
inductive CPC where
  | start
  | won               -- CAS on closed succeeded
  | pollerClosed      -- spinning on inflight
  | unmap             -- saw inflight = false
  | done (err : Bool)
deriving DecidableEq

/-- The reader's flags, whether the ring is mapped, and every goroutine. -/
structure CSys where
  inflight : Bool
  closed : Bool
  mapped : Bool
  unmaps : Nat
  leases : List LPC
  closers : List CPC

/-- One atomic step of some goroutine (ringbuf/raw_reader.go:43-58, 97-104, 111-126). -/
inductive CStep : CSys → CSys → Prop where
  /-- A new `WithLease` call. -/
  | newLease (s : CSys) : CStep s { s with leases := s.leases ++ [.start] }
  | newCloser (s : CSys) : CStep s { s with closers := s.closers ++ [.start] }
  /-- `inflight.CompareAndSwap(false, true)`. -/
  | casOk (s : CSys) (i : Nat) (h : s.leases[i]? = some .start) (hf : s.inflight = false) :
      CStep s { s with inflight := true, leases := s.leases.set i .gotInflight }
  | casFail (s : CSys) (i : Nat) (h : s.leases[i]? = some .start) (hf : s.inflight = true) :
      CStep s { s with leases := s.leases.set i (.done (some false)) }
  /-- `closed.Load()`. -/
  | checkOpen (s : CSys) (i : Nat) (h : s.leases[i]? = some .gotInflight) (hc : s.closed = false) :
      CStep s { s with leases := s.leases.set i .inside }
  | checkClosed (s : CSys) (i : Nat) (h : s.leases[i]? = some .gotInflight) (hc : s.closed = true) :
      CStep s { s with leases := s.leases.set i .refused }
  | refuse (s : CSys) (i : Nat) (h : s.leases[i]? = some .refused) :
      CStep s { s with inflight := false, leases := s.leases.set i (.done (some true)) }
  /-- The callback returns. -/
  | ret (s : CSys) (i : Nat) (h : s.leases[i]? = some .inside) : CStep s { s with leases := s.leases.set i .leaving }
  | leave (s : CSys) (i : Nat) (h : s.leases[i]? = some .leaving) :
      CStep s { s with inflight := false, leases := s.leases.set i (.done none) }
  /-- `closed.CompareAndSwap(false, true)`. -/
  | closeWin (s : CSys) (j : Nat) (h : s.closers[j]? = some .start) (hc : s.closed = false) :
      CStep s { s with closed := true, closers := s.closers.set j .won }
  | closeLose (s : CSys) (j : Nat) (h : s.closers[j]? = some .start) (hc : s.closed = true) :
      CStep s { s with closers := s.closers.set j (.done false) }
  /-- `poller.Close()` succeeds or fails. -/
  | pollerOk (s : CSys) (j : Nat) (h : s.closers[j]? = some .won) : CStep s { s with closers := s.closers.set j .pollerClosed }
  | pollerErr (s : CSys) (j : Nat) (h : s.closers[j]? = some .won) : CStep s { s with closers := s.closers.set j (.done true) }
  /-- `inflight.Load()` is false. -/
  | idle (s : CSys) (j : Nat) (h : s.closers[j]? = some .pollerClosed) (hf : s.inflight = false) :
      CStep s { s with closers := s.closers.set j .unmap }
  /-- `ring.close()`. -/
  | unmap (s : CSys) (j : Nat) (h : s.closers[j]? = some .unmap) :
      CStep s { s with mapped := false, unmaps := s.unmaps + 1, closers := s.closers.set j (.done false) }

inductive CReach : CSys → Prop where
  | init : CReach ⟨false, false, true, 0, [], []⟩
  | step {s s' : CSys} : CReach s → CStep s s' → CReach s'

end Ebpf.RingReader
