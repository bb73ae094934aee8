import Verif.Base
/-! # Model of `internal/feature.go`, `FeatureTest.execute`, as an interleaving transition system

Any number of goroutines (`Nat`) call `execute` on one `FeatureTest`. Every lock operation, every
access to the shared fields and the probe itself are separate steps.
`sync.RWMutex` is modelled by its specification: `RLock` is possible while nobody holds the write
lock, `Lock` while nobody holds any lock. -/
namespace Ebpf.Feature

/-- What the probe function `Fn` reports (internal/feature.go:68-76). -/
inductive Outcome where
  | supported
  | unsupported
  | inconclusive (e : Nat)
deriving DecidableEq

/-- What `execute` returns. -/
inductive Ret where
  | nil                     -- feature available
  | notSupported            -- *UnsupportedFeatureError
  | probeError (e : Nat)    -- "detect support for ..."
  | badVersion              -- NewVersion failed (feature.go:136-138)
deriving DecidableEq

/-- Where a goroutine is inside `execute` (line numbers of internal/feature.go). -/
inductive PC where
  | idle
  | entered                          -- 112, before RLock
  | rlocked                          -- 113, holds the read lock
  | peeked (done : Bool) (r : Ret)   -- 114, holds the read lock
  | unlocked (done : Bool) (r : Ret) -- 116
  | wlocked                          -- 120-124, holds the write lock
  | running                          -- 128, inside Fn, holds the write lock
  | leaving (r : Ret)                -- deferred Unlock pending, holds the write lock
  | returning (r : Ret)              -- about to return r
deriving DecidableEq

/-- Observable events. -/
inductive Ev where
  | call (t : Nat)
  | start (t : Nat)                  -- Fn is called
  | fin (t : Nat) (o : Outcome)      -- Fn returned
  | ret (t : Nat) (r : Ret)
deriving DecidableEq

/-- Shared fields `done`, `result` (feature.go:63-65), the program counters and the event log
(latest first). -/
structure State where
  done : Bool
  result : Ret
  pc : Nat → PC
  log : List Ev

/-- A fresh `FeatureTest`. -/
def init : State := ⟨false, .nil, fun _ => .idle, []⟩

def PC.reader : PC → Bool
  | .rlocked | .peeked .. => true
  | _ => false

def PC.writer : PC → Bool
  | .wlocked | .running | .leaving _ => true
  | _ => false

/-- Update one program counter. -/
def set (pc : Nat → PC) (t : Nat) (p : PC) : Nat → PC := fun u => if u = t then p else pc u

/-- One step of one goroutine; `verOk` says whether `ft.Version` parses. -/
inductive Step (verOk : Bool) : State → State → Prop where
  | call (s : State) (t : Nat) (h : s.pc t = .idle) :
      Step verOk s { s with pc := set s.pc t .entered, log := .call t :: s.log }
  -- feature.go:113
  | rlock (s : State) (t : Nat) (h : s.pc t = .entered) (hw : ∀ u, (s.pc u).writer = false) :
      Step verOk s { s with pc := set s.pc t .rlocked }
  -- feature.go:114
  | peek (s : State) (t : Nat) (h : s.pc t = .rlocked) :
      Step verOk s { s with pc := set s.pc t (.peeked s.done s.result) }
  -- feature.go:115
  | runlock (s : State) (t : Nat) (d : Bool) (r : Ret) (h : s.pc t = .peeked d r) :
      Step verOk s { s with pc := set s.pc t (.unlocked d r) }
  -- feature.go:117-119
  | hit (s : State) (t : Nat) (r : Ret) (h : s.pc t = .unlocked true r) :
      Step verOk s { s with pc := set s.pc t (.returning r) }
  -- feature.go:121
  | lock (s : State) (t : Nat) (r : Ret) (h : s.pc t = .unlocked false r)
      (hl : ∀ u, (s.pc u).writer = false ∧ (s.pc u).reader = false) :
      Step verOk s { s with pc := set s.pc t .wlocked }
  -- feature.go:126-128
  | recheckHit (s : State) (t : Nat) (h : s.pc t = .wlocked) (hd : s.done = true) :
      Step verOk s { s with pc := set s.pc t (.leaving s.result) }
  -- feature.go:130
  | start (s : State) (t : Nat) (h : s.pc t = .wlocked) (hd : s.done = false) :
      Step verOk s { s with pc := set s.pc t .running, log := .start t :: s.log }
  -- feature.go:131-134
  | finSupported (s : State) (t : Nat) (h : s.pc t = .running) :
      Step verOk s { s with done := true, pc := set s.pc t (.leaving .nil), log := .fin t .supported :: s.log }
  -- feature.go:136-152
  | finUnsupported (s : State) (t : Nat) (h : s.pc t = .running) :
      Step verOk s (if verOk then
          { s with done := true, result := .notSupported, pc := set s.pc t (.leaving .notSupported),
                   log := .fin t .unsupported :: s.log }
        else { s with pc := set s.pc t (.leaving .badVersion), log := .fin t .unsupported :: s.log })
  -- feature.go:154-158
  | finInconclusive (s : State) (t : Nat) (e : Nat) (h : s.pc t = .running) :
      Step verOk s { s with pc := set s.pc t (.leaving (.probeError e)), log := .fin t (.inconclusive e) :: s.log }
  -- feature.go:122 (deferred)
  | unlock (s : State) (t : Nat) (r : Ret) (h : s.pc t = .leaving r) :
      Step verOk s { s with pc := set s.pc t (.returning r) }
  | ret (s : State) (t : Nat) (r : Ret) (h : s.pc t = .returning r) :
      Step verOk s { s with pc := set s.pc t .idle, log := .ret t r :: s.log }

/-- States reachable by any interleaving. -/
inductive Reach (verOk : Bool) : State → Prop where
  | init : Reach verOk init
  | step (s s' : State) : Reach verOk s → Step verOk s s' → Reach verOk s'

end Ebpf.Feature
