import Verif.Model.KernelInfo
/-! # Model of the tables shared by goroutines: `ReadUint64FromFileOnce` (internal/io.go) and `FeatureCache` (internal/feature.go)

Any number of goroutines (`Nat`) use one table. Every operation on the lock, every access to the map and the computation of a value are separate steps.
`sync.RWMutex` is modelled by its specification: `RLock` is possible while nobody holds the write lock, `Lock` while nobody holds any lock. -/
namespace Ebpf.OnceCache
open Ebpf.KernelInfo

/-- Why a number isn't read (internal/io.go:74-85): the file can't be read, for the reason given, or it isn't in the format. -/
inductive Err where
  | os (e : Nat)
  | parse
deriving DecidableEq

/-- fmt/scan.go `advance` for the text of a format before its first verb; the text has neither spaces nor `%`. -/
def literals : Bytes → Bytes → Option Bytes
  | [], b => some b
  | l :: ls, b =>
    match literal l b with
    | none => none
    | some r => literals ls r

/-- fmt/scan.go `scanUint` for `%d` into a uint64: numbers which don't fit are errors. -/
def scanUint64 (b : Bytes) : Option (BitVec 64 × Bytes) :=
  match skipSpace b with
  | none => none
  | some b =>
    match scanDigits b with
    | none => none
    | some (n, r) => if n < 2 ^ 64 then some (BitVec.ofNat 64 n, r) else none

/-- internal/io.go:78-87, `Fscanf(data, format, &value)` where the format is `text` followed by `%d` and a newline (the formats of link/kprobe.go:231, 246
and of internal/tracefs/kprobe.go:215). -/
def parseUint64 (text data : Bytes) : Option (BitVec 64) :=
  match literals text data with
  | none => none
  | some r =>
    match scanUint64 r with
    | none => none
    | some (v, r) => if newlineOrEnd r then some v else none

/-- internal/io.go:71-88 `ReadUint64FromFile`, given what `os.ReadFile` gave. -/
def readUint64 (text : Bytes) (file : Except Nat Bytes) : Except Err (BitVec 64) :=
  match file with
  | .error e => .error (.os e)
  | .ok data =>
    match parseUint64 text data with
    | none => .error .parse
    | some v => .ok v

/-- internal/io.go:90-92 `uint64FromFileKey`: the text of the format and the path. -/
abbrev Key := Bytes × Bytes

/-- What `ReadUint64FromFileOnce` returns. -/
abbrev Ret := Except Err (BitVec 64)

/-- Where a goroutine is inside `ReadUint64FromFileOnce` (line numbers of internal/io.go). -/
inductive PC where
  | idle
  | entered (k : Key)                             -- 104, before RLock
  | rlocked (k : Key)                             -- 106, holds the read lock
  | peeked (k : Key) (o : Option (BitVec 64))     -- 106-110, holds the read lock
  | missed (k : Key)                              -- 113, holds nothing
  | got (k : Key) (v : BitVec 64)                 -- 118, before Lock
  | wlocked (k : Key) (v : BitVec 64)             -- 121, holds the write lock
  | storing (k : Key) (v : BitVec 64)             -- 126, holds the write lock
  | leaving (k : Key) (v : BitVec 64)             -- deferred Unlock pending, holds the write lock
  | returning (k : Key) (r : Ret)                 -- about to return r

/-- Observable events: calls, reads of files with what they gave, returns. -/
inductive Ev where
  | call (t : Nat) (k : Key)
  | read (t : Nat) (k : Key) (file : Except Nat Bytes)
  | ret (t : Nat) (k : Key) (r : Ret)

/-- `uint64FromFileCache.values` (internal/io.go:94-99), the program counters and the event log (latest first). -/
structure State where
  cache : Key → Option (BitVec 64)
  pc : Nat → PC
  log : List Ev

/-- internal/io.go:97-99: the table is empty at the start of the program. -/
def init : State := ⟨fun _ => none, fun _ => .idle, []⟩

/-- The goroutine holds the read lock (internal/io.go:106-111). -/
def PC.reader : PC → Bool
  | .rlocked .. | .peeked .. => true
  | _ => false

/-- The goroutine holds the write lock (internal/io.go:118-127). -/
def PC.writer : PC → Bool
  | .wlocked .. | .storing .. | .leaving .. => true
  | _ => false

/-- Update one program counter (not in the code: the state of goroutines). -/
def setPC {α : Type} (pc : Nat → α) (t : Nat) (p : α) : Nat → α := fun u => if u = t then p else pc u

/-- `values[key] = value` (internal/io.go:126; internal/feature.go:226). -/
def store {κ : Type} [DecidableEq κ] {α : Type} (m : κ → Option α) (k : κ) (v : α) : κ → Option α := fun j => if j = k then some v else m j

/-- One step of one goroutine within internal/io.go:102-128. What a file contains may be different at every read. -/
inductive Step : State → State → Prop where
  | call (s : State) (t : Nat) (k : Key) (h : s.pc t = .idle) :
      Step s { s with pc := setPC s.pc t (.entered k), log := .call t k :: s.log }
  -- io.go:106
  | rlock (s : State) (t : Nat) (k : Key) (h : s.pc t = .entered k) (hw : ∀ u, (s.pc u).writer = false) :
      Step s { s with pc := setPC s.pc t (.rlocked k) }
  -- io.go:107
  | peek (s : State) (t : Nat) (k : Key) (h : s.pc t = .rlocked k) :
      Step s { s with pc := setPC s.pc t (.peeked k (s.cache k)) }
  -- io.go:108-109
  | hit (s : State) (t : Nat) (k : Key) (v : BitVec 64) (h : s.pc t = .peeked k (some v)) :
      Step s { s with pc := setPC s.pc t (.returning k (.ok v)) }
  -- io.go:111
  | miss (s : State) (t : Nat) (k : Key) (h : s.pc t = .peeked k none) :
      Step s { s with pc := setPC s.pc t (.missed k) }
  -- io.go:113-116
  | read (s : State) (t : Nat) (k : Key) (file : Except Nat Bytes) (h : s.pc t = .missed k) :
      Step s { s with
        pc := setPC s.pc t (match readUint64 k.1 file with
          | .error e => .returning k (.error e)
          | .ok v => .got k v)
        log := .read t k file :: s.log }
  -- io.go:118
  | lock (s : State) (t : Nat) (k : Key) (v : BitVec 64) (h : s.pc t = .got k v)
      (hl : ∀ u, (s.pc u).writer = false ∧ (s.pc u).reader = false) :
      Step s { s with pc := setPC s.pc t (.wlocked k v) }
  -- io.go:121-124
  | recheck (s : State) (t : Nat) (k : Key) (v : BitVec 64) (h : s.pc t = .wlocked k v) :
      Step s { s with pc := setPC s.pc t (match s.cache k with
        | some w => .leaving k w
        | none => .storing k v) }
  -- io.go:126-127
  | store (s : State) (t : Nat) (k : Key) (v : BitVec 64) (h : s.pc t = .storing k v) :
      Step s { s with cache := store s.cache k v, pc := setPC s.pc t (.leaving k v) }
  -- io.go:119 (deferred)
  | unlock (s : State) (t : Nat) (k : Key) (v : BitVec 64) (h : s.pc t = .leaving k v) :
      Step s { s with pc := setPC s.pc t (.returning k (.ok v)) }
  | ret (s : State) (t : Nat) (k : Key) (r : Ret) (h : s.pc t = .returning k r) :
      Step s { s with pc := setPC s.pc t .idle, log := .ret t k r :: s.log }

/-- States reachable by any interleaving of the steps of internal/io.go:102-128. -/
inductive Reach : State → Prop where
  | init : Reach init
  | step (s s' : State) : Reach s → Step s s' → Reach s'

/-! ## FeatureCache -/

namespace Probes

/-- Where a goroutine is inside `retrieve` (line numbers of internal/feature.go). Keys are numbers; tests are named by the order in which they were made. -/
inductive PC where
  | idle
  | entered (k : Nat)                     -- 208, before RLock
  | rlocked (k : Nat)                     -- 209, holds the read lock
  | peeked (k : Nat) (o : Option Nat)     -- 210, holds the read lock
  | missed (k : Nat)                      -- 217, before Lock
  | wlocked (k : Nat)                     -- 220, holds the write lock
  | making (k : Nat)                      -- 224, inside newTest, holds the write lock
  | storing (k : Nat) (f : Nat)           -- 225, holds the write lock
  | leaving (k : Nat) (f : Nat)           -- deferred Unlock pending, holds the write lock
  | returning (k : Nat) (f : Nat)         -- about to return f

/-- Observable events. -/
inductive Ev where
  | call (t k : Nat)
  | start (t k : Nat)          -- newTest(k) is called
  | made (t k f : Nat)         -- newTest(k) returned the test f
  | ret (t k f : Nat)
deriving DecidableEq

/-- `FeatureCache.features` (internal/feature.go:187-191), the number of tests made so far, the program counters and the event log (latest first). -/
structure State where
  features : Nat → Option Nat
  next : Nat
  pc : Nat → PC
  log : List Ev

/-- internal/feature.go:193-198 `NewFeatureCache`. -/
def init : State := ⟨fun _ => none, 0, fun _ => .idle, []⟩

/-- The goroutine holds the read lock (internal/feature.go:209-211). -/
def PC.reader : PC → Bool
  | .rlocked .. | .peeked .. => true
  | _ => false

/-- The goroutine holds the write lock (internal/feature.go:217-227). -/
def PC.writer : PC → Bool
  | .wlocked .. | .making .. | .storing .. | .leaving .. => true
  | _ => false

/-- One step of one goroutine within internal/feature.go:208-228. `newTest` gives a new test each time. -/
inductive Step : State → State → Prop where
  | call (s : State) (t k : Nat) (h : s.pc t = .idle) :
      Step s { s with pc := setPC s.pc t (.entered k), log := .call t k :: s.log }
  -- feature.go:209
  | rlock (s : State) (t k : Nat) (h : s.pc t = .entered k) (hw : ∀ u, (s.pc u).writer = false) :
      Step s { s with pc := setPC s.pc t (.rlocked k) }
  -- feature.go:210
  | peek (s : State) (t k : Nat) (h : s.pc t = .rlocked k) :
      Step s { s with pc := setPC s.pc t (.peeked k (s.features k)) }
  -- feature.go:211-215
  | hit (s : State) (t k f : Nat) (h : s.pc t = .peeked k (some f)) :
      Step s { s with pc := setPC s.pc t (.returning k f) }
  -- feature.go:211
  | miss (s : State) (t k : Nat) (h : s.pc t = .peeked k none) :
      Step s { s with pc := setPC s.pc t (.missed k) }
  -- feature.go:217
  | lock (s : State) (t k : Nat) (h : s.pc t = .missed k) (hl : ∀ u, (s.pc u).writer = false ∧ (s.pc u).reader = false) :
      Step s { s with pc := setPC s.pc t (.wlocked k) }
  -- feature.go:220-222
  | recheckHit (s : State) (t k f : Nat) (h : s.pc t = .wlocked k) (hf : s.features k = some f) :
      Step s { s with pc := setPC s.pc t (.leaving k f) }
  -- feature.go:224
  | start (s : State) (t k : Nat) (h : s.pc t = .wlocked k) (hf : s.features k = none) :
      Step s { s with pc := setPC s.pc t (.making k), log := .start t k :: s.log }
  -- feature.go:224
  | make (s : State) (t k : Nat) (h : s.pc t = .making k) :
      Step s { s with next := s.next + 1, pc := setPC s.pc t (.storing k s.next), log := .made t k s.next :: s.log }
  -- feature.go:225-226
  | store (s : State) (t k f : Nat) (h : s.pc t = .storing k f) :
      Step s { s with features := store s.features k f, pc := setPC s.pc t (.leaving k f) }
  -- feature.go:218 (deferred)
  | unlock (s : State) (t k f : Nat) (h : s.pc t = .leaving k f) :
      Step s { s with pc := setPC s.pc t (.returning k f) }
  | ret (s : State) (t k f : Nat) (h : s.pc t = .returning k f) :
      Step s { s with pc := setPC s.pc t .idle, log := .ret t k f :: s.log }

/-- States reachable by any interleaving of the steps of internal/feature.go:208-228. -/
inductive Reach : State → Prop where
  | init : Reach init
  | step (s s' : State) : Reach s → Step s s' → Reach s'

end Probes
end Ebpf.OnceCache
