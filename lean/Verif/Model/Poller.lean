import Verif.Base
/-!
# Model of `internal/epoll/poller.go`

Any number of goroutines call Wait, Close, Flush and Add. A goroutine is where it is in the source; a step runs it up to the next point at which another
goroutine could be noticed: taking a mutex, a system call. Unlocking and returning are one step. The kernel answers epoll_wait as it likes, see
`Verif.Spec.Poller`. Writing to an eventfd succeeds (its counter does not reach 2^64). The two eventfds and the descriptors added are told apart by
their numbers in Go, by constructors here. The finalizer is left out.
-/
namespace Ebpf.Poller

/-- What epoll_wait reports: one of the two eventfds, or a descriptor that was added with this id. -/
inductive Ev where
  | close
  | flush
  | data (id : Nat)
deriving DecidableEq

/-- Results, by what errors.Is finds in them. -/
inductive Res where
  | ok
  | closed
  | flushed
  | deadline
  | unsupported
  | other (n : Nat)
deriving DecidableEq

/-- Where a goroutine is. `deadline`: a deadline was given. -/
inductive Pc where
  | wait0 (deadline : Bool)
  | wait1 (deadline : Bool)
  | wait2 (deadline : Bool)
  | wait3 (events : List Ev)
  | waitDone (n : List Ev) (r : Res)
  | close0
  | close1
  | close2
  | close3
  | close4
  | closeDone (r : Res)
  | flush0
  | flush1
  | flushDone (r : Res)
  | add0 (id : Nat)
  | add1 (id : Nat)
  | addDone (id : Nat) (r : Res)
deriving DecidableEq

/-- internal/epoll/poller.go:28-38 `Poller` and the kernel's objects. `epoll`: epollFd != -1. `closeEv`, `flushEv`: not nil. `closeCnt`, `flushCnt` are the counters of the
eventfds, `added` the ids in the epoll set, `closes` how often each descriptor was closed. `bad`: something that must not happen did, namely using a descriptor after
it was closed, a nil eventFd, or reading an eventfd whose counter is 0 (which blocks while the lock is held). -/
structure Shared where
  epollMu : Option Nat
  eventMu : Option Nat
  epoll : Bool
  closeEv : Bool
  flushEv : Bool
  closeCnt : Nat
  flushCnt : Nat
  added : List Nat
  closes : Nat × Nat × Nat
  bad : Bool

/-- What the kernel answers. -/
inductive Answer where
  | none
  | eintr
  | timeout
  | err (n : Nat)
  | events (l : List Ev)
deriving DecidableEq

/-- internal/epoll/poller.go:189-207: the loop over the events. The events that remain, whether the close event was met, and how often the flush event was read before that. -/
def scan : List Ev → List Ev × Bool × Nat
  | [] => ([], false, 0)
  | .close :: _ => ([], true, 0)
  | .flush :: es => ((scan es).1, (scan es).2.1, (scan es).2.2 + 1)
  | .data id :: es => (.data id :: (scan es).1, (scan es).2.1, (scan es).2.2)

/-- internal/epoll/poller.go:190-210: the rest of `Wait` after epoll_wait. -/
def finishWait (s : Shared) (l : List Ev) : Shared × Pc :=
  let r := scan l
  let bad := s.bad || !s.closeEv || (r.2.2 ≠ 0 && (!s.flushEv || s.flushCnt = 0)) || 1 < r.2.2
  let s := { s with epollMu := none, flushCnt := if r.2.2 ≠ 0 then 0 else s.flushCnt, bad := bad }
  if r.2.1 then (s, .waitDone [] .closed)
  else if r.2.2 ≠ 0 then (s, .waitDone r.1 .flushed)
  else (s, .waitDone r.1 .ok)

/-- internal/epoll/poller.go:172-188: a call of epoll_wait. -/
def epollWait (s : Shared) (d : Bool) : Answer → Option (Shared × Pc)
  | .none => none
  | .eintr => some ({ s with bad := s.bad || !s.epoll }, .wait2 d)
  | .err n => some ({ s with epollMu := none, bad := s.bad || !s.epoll }, .waitDone [] (.other n))
  | .timeout => some ({ s with epollMu := none, bad := s.bad || !s.epoll }, .waitDone [] .deadline)
  | .events l => some ({ s with bad := s.bad || !s.epoll }, .wait3 l)

/-- internal/epoll/poller.go:100-117: the end of `Close`, with both locks. -/
def closeAll (s : Shared) : Shared :=
  { s with
    epollMu := none, eventMu := none,
    closes := (s.closes.1 + (if s.epoll then 1 else 0), s.closes.2.1 + (if s.closeEv then 1 else 0), s.closes.2.2 + (if s.flushEv then 1 else 0)),
    epoll := false, closeEv := false, flushEv := false }

/-- internal/epoll/poller.go:87-244: one step of goroutine `i`, `none` if it is blocked or has returned. -/
def act (s : Shared) (i : Nat) (a : Answer) : Pc → Option (Shared × Pc)
  | .wait0 d => if s.epollMu = none then some ({ s with epollMu := some i }, .wait1 d) else none
  | .wait1 d => if s.epoll = false then some ({ s with epollMu := none }, .waitDone [] .closed) else some (s, .wait2 d)
  | .wait2 d => epollWait s d a
  | .wait3 l => some (finishWait s l)
  | .waitDone _ _ => none
  | .close0 => if s.eventMu = none then some ({ s with eventMu := some i }, .close1) else none
  | .close1 =>
    if s.closeEv = false then some ({ s with eventMu := none }, .closeDone .closed)
    else some ({ s with eventMu := none, closeCnt := s.closeCnt + 1 }, .close2)
  | .close2 => if s.epollMu = none then some ({ s with epollMu := some i }, .close3) else none
  | .close3 => if s.eventMu = none then some ({ s with eventMu := some i }, .close4) else none
  | .close4 => some (closeAll s, .closeDone .ok)
  | .closeDone _ => none
  | .flush0 => if s.eventMu = none then some ({ s with eventMu := some i }, .flush1) else none
  | .flush1 =>
    if s.flushEv = false then some ({ s with eventMu := none }, .flushDone .closed)
    else some ({ s with eventMu := none, flushCnt := s.flushCnt + 1 }, .flushDone .ok)
  | .flushDone _ => none
  | .add0 id => if 0x7fffffff < id then some (s, .addDone id .unsupported) else if s.epollMu = none then some ({ s with epollMu := some i }, .add1 id) else none
  | .add1 id =>
    if s.epoll = false then some ({ s with epollMu := none }, .addDone id .closed)
    else match a with
      | .err n => some ({ s with epollMu := none }, .addDone id (.other n))
      | _ => some ({ s with epollMu := none, added := id :: s.added }, .addDone id .ok)
  | .addDone _ _ => none

/-- The poller and all goroutines. -/
structure St where
  shared : Shared
  threads : List Pc

/-- internal/epoll/poller.go:40-80 `New`: `fails k` is whether the k-th of its five system calls fails. The result, and the descriptors closed: 0 epoll, 1 and 2 the eventfds. -/
def new (fails : Nat → Bool) : Bool × List Nat × List Nat :=
  if fails 0 then (false, [], [])
  else if fails 1 then (false, [0], [0])
  else if fails 2 then (false, [0, 1], [1, 0])
  else if fails 3 then (false, [0, 1, 2], [2, 1, 0])
  else if fails 4 then (false, [0, 1, 2], [2, 1, 0])
  else (true, [0, 1, 2], [])

end Ebpf.Poller
