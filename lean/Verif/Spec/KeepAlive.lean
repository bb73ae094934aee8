/-!
# Specification: descriptor numbers, the collector and other threads  (property C93)

Every descriptor object of the library is closed by the garbage collector once
nothing refers to it any more (`runtime.AddCleanup` in internal/sys/fd.go:23-29).
A function of the library that copies the *number* out of such an object and
then enters the kernel races with that: the number may be closed, and reused
for something else by another thread, before the kernel looks at it.

This file says what the executions of such a function are.  Nothing here
depends on the model of the library.

* `Body` is the body of a function, reduced to what the collector and the
  kernel see: the moments at which Go references are used, and the moments at
  which descriptor numbers (copied before) are handed to the kernel.
* `Step` is one step of an execution: the function moves on, the collector
  closes a descriptor nothing refers to any more, another thread opens a file
  (the kernel gives it any unused number) or closes one of its own.
* A reference is alive as long as some path through the rest of the function
  uses it, which is the most the Go specification promises, or as long as the
  caller holds it.
-/
namespace Ebpf.KeepAlive

/-- What is left to do of a function. `R` names the Go references in play. -/
inductive Body (R : Type)
  /-- The function returns these references to its caller. -/
  | ret (keeps : List R)
  /-- The references are used: fields are read, methods are called,
  `runtime.KeepAlive`. -/
  | use (refs : List R) (next : Body R)
  /-- The kernel is entered, possibly repeatedly, with the numbers of these
  descriptors. The numbers are already copied, so this is not a use. -/
  | call (fds : List R) (next : Body R)
  /-- The function goes one way or the other. -/
  | branch (left right : Body R)
deriving DecidableEq

variable {R : Type}

/-- One step of the function itself. A call may be repeated, which leaves the
body as it is, so repetition needs no step of its own. -/
inductive Moves : Body R → Body R → Prop
  | use (rs k) : Moves (.use rs k) k
  | call (ds k) : Moves (.call ds k) k
  | left (a b) : Moves (.branch a b) a
  | right (a b) : Moves (.branch a b) b

/-- Some path through the rest of the function uses the reference. -/
inductive UsedLater (r : R) : Body R → Prop
  | ret (keeps) : r ∈ keeps → UsedLater r (.ret keeps)
  | here (rs k) : r ∈ rs → UsedLater r (.use rs k)
  | later (b k) : Moves b k → UsedLater r k → UsedLater r b

/-- The process the function runs in: the number and the open file each
descriptor object stands for, and which objects can be reached from a reference
by following pointers. -/
structure World (R : Type) where
  num : R → Nat
  file : R → Nat

/-- A moment of an execution. -/
structure State (R : Type) where
  /-- What is left to do. -/
  body : Body R
  /-- The descriptor table of the process. -/
  table : Nat → Option Nat
  /-- The descriptors closed by the collector. -/
  gone : R → Prop

/-- The descriptor table with one entry changed. -/
def put (t : Nat → Option Nat) (n : Nat) (v : Option Nat) : Nat → Option Nat :=
  fun i => if i = n then v else t i

/-- One step of an execution. `points r d` says that `d` can be reached from
`r`; `held` are the references the caller keeps using after the call. -/
inductive Step (points : R → R → Bool) (held : R → Bool) (w : World R) :
    State R → State R → Prop
  | run (s k) : Moves s.body k → Step points held w s { s with body := k }
  /-- The collector closes a descriptor nothing refers to. -/
  | collect (s d) : ¬ s.gone d →
      (∀ r, points r d = true → ¬ UsedLater r s.body ∧ held r = false) →
      Step points held w s
        { s with table := put s.table (w.num d) none, gone := fun x => x = d ∨ s.gone x }
  /-- Another thread opens a file and gets an unused number. -/
  | reopen (s n f) : s.table n = none →
      Step points held w s { s with table := put s.table n (some f) }
  /-- Another thread closes a descriptor that is not one of ours. -/
  | close (s n) : (∀ d, ¬ s.gone d → w.num d ≠ n) →
      Step points held w s { s with table := put s.table n none }

/-- Zero or more steps. -/
inductive Steps (points : R → R → Bool) (held : R → Bool) (w : World R) :
    State R → State R → Prop
  | refl (s) : Steps points held w s s
  | tail (s t u) : Steps points held w s t → Step points held w t u → Steps points held w s u

/-- An execution starts with every descriptor open and nothing collected. -/
structure Starts (w : World R) (b : Body R) (s : State R) : Prop where
  body : s.body = b
  opened : ∀ d, s.table (w.num d) = some (w.file d)
  fresh : ∀ d, ¬ s.gone d
  /-- No two objects share a descriptor number. -/
  inj : ∀ d e, w.num d = w.num e → d = e

/-- In some execution the function is about to hand the kernel the number of
`d` while that number stands for the file `f` (`none`: for nothing). -/
def Hands (points : R → R → Bool) (held : R → Bool) (b : Body R) (d : R)
    (w : World R) (f : Option Nat) : Prop :=
  ∃ s t ds k, Starts w b s ∧ Steps points held w s t ∧ t.body = .call ds k ∧ d ∈ ds ∧
    t.table (w.num d) = f

/-- Whatever the collector and other threads do, each number handed to the
kernel stands for the object it was taken from. -/
def NeverWrong (points : R → R → Bool) (held : R → Bool) (b : Body R) : Prop :=
  ∀ d w f, Hands points held b d w f → f = some (w.file d)

end Ebpf.KeepAlive
