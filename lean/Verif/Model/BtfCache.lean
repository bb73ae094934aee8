import Verif.Base
/-!
# Model of concurrent use of `btf.Spec` and `btf.Cache`: `btf/unmarshal.go:180-300`, `btf/btf.go:242-306, 344-420`, `btf/kernel.go:140-228`

Any number of goroutines (`Nat`). `sync.Mutex` and `sync.RWMutex` are modelled by their specification. A decoder is known by a number; `base d`
is the base of a split decoder. Only which maps are touched under which locks is modelled, not what is decoded (that is C26, C56).
-/
namespace Ebpf.BtfCache

/-! ## specs -/

/-- Where a goroutine is. -/
inductive PC where
  /-- not using a spec -/
  | idle
  /-- unmarshal.go:264-291: in `TypeByID` (or `TypesByName`) of `d`, holding `d.mu`, in `inflateType` of `cur`: `cur.types` and `cur.typeIDs` are
  read and written, the latter on every return -/
  | inflating (d cur : Nat)
  /-- unmarshal.go:226-235: in `TypeID` of `d`, holding `d.mu`, reading `d.typeIDs` -/
  | reading (d : Nat)
  /-- unmarshal.go:193-202: in `copy` of `d`, holding `d.mu`, reading `d.types` -/
  | copying (d : Nat)
  /-- unmarshal.go:205, 193-202: in `copy` of the base `b` of `d`, holding both locks, reading `b.types` -/
  | copyingBase (d b : Nat)
  /-- btf.go:378, 413, 242-306: in `fixupDatasec` for a Datasec of the spec `d`, holding no lock: `elf.fixups` is read and written, and so are the
  Datasec's size and offsets -/
  | fixing (d : Nat)
  /-- btf.go:357-362: in `Spec.Copy` of `d`, after the decoder has been copied, holding no lock: `elf.fixups` is read -/
  | copyingElf (d : Nat)
deriving DecidableEq

/-- What is shared: the maps of a decoder, or `elfData.fixups` of the spec (known by its decoder). -/
inductive Res where
  | maps (d : Nat)
  | fixups (d : Nat)
deriving DecidableEq

/-- The locks held. -/
def PC.holds : PC → Nat → Bool
  | .idle, _ => false
  | .inflating d _, x => x == d
  | .reading d, x => x == d
  | .copying d, x => x == d
  | .copyingBase d b, x => x == d || x == b
  | .fixing _, _ => false
  | .copyingElf _, _ => false

/-- What is accessed, and whether it is written. -/
def PC.access : PC → Option (Res × Bool)
  | .idle => none
  | .inflating _ cur => some (.maps cur, true)
  | .reading d => some (.maps d, false)
  | .copying d => some (.maps d, false)
  | .copyingBase _ b => some (.maps b, false)
  | .fixing d => some (.fixups d, true)
  | .copyingElf d => some (.fixups d, false)

/-- Update one program counter. -/
def set (pc : Nat → PC) (t : Nat) (p : PC) : Nat → PC := fun u => if u = t then p else pc u

/-- Steps of goroutines that use the specs for which `used` holds; those for which `elf` does were read from an ELF. -/
inductive Step (base : Nat → Option Nat) (elf : Nat → Bool) (used : Nat → Prop) : (Nat → PC) → (Nat → PC) → Prop where
  /-- unmarshal.go:264-268 -/
  | lookup {pc t d} : used d → pc t = .idle → (∀ u, (pc u).holds d = false) → Step base elf used pc (set pc t (.inflating d d))
  /-- unmarshal.go:291-293: the base is entered without taking its lock -/
  | enterBase {pc t d b} : pc t = .inflating d d → base d = some b → Step base elf used pc (set pc t (.inflating d b))
  /-- return from `d.base.inflateType` -/
  | leaveBase {pc t d b} : pc t = .inflating d b → Step base elf used pc (set pc t (.inflating d d))
  | lookupDone {pc t d} : pc t = .inflating d d → Step base elf used pc (set pc t .idle)
  /-- unmarshal.go:232-233 -/
  | typeID {pc t d} : used d → pc t = .idle → (∀ u, (pc u).holds d = false) → Step base elf used pc (set pc t (.reading d))
  | typeIDDone {pc t d} : pc t = .reading d → Step base elf used pc (set pc t .idle)
  /-- unmarshal.go:193-194 -/
  | copy {pc t d} : used d → pc t = .idle → (∀ u, (pc u).holds d = false) → Step base elf used pc (set pc t (.copying d))
  /-- unmarshal.go:205, 193: the lock of the base is taken -/
  | copyBase {pc t d b} : pc t = .copying d → base d = some b → (∀ u, (pc u).holds b = false) → Step base elf used pc (set pc t (.copyingBase d b))
  | copyBaseDone {pc t d b} : pc t = .copyingBase d b → Step base elf used pc (set pc t (.copying d))
  | copyDone {pc t d} : pc t = .copying d → Step base elf used pc (set pc t .idle)
  /-- btf.go:373-378, 413: the type found is a Datasec, which is fixed up after the lock was released -/
  | lookupFix {pc t d} : pc t = .inflating d d → elf d = true → Step base elf used pc (set pc t (.fixing d))
  | fixDone {pc t d} : pc t = .fixing d → Step base elf used pc (set pc t .idle)
  /-- btf.go:352-362 -/
  | copyElf {pc t d} : pc t = .copying d → elf d = true → Step base elf used pc (set pc t (.copyingElf d))
  | copyElfDone {pc t d} : pc t = .copyingElf d → Step base elf used pc (set pc t .idle)

/-- Program counters that can be reached. -/
inductive Reach (base : Nat → Option Nat) (elf : Nat → Bool) (used : Nat → Prop) : (Nat → PC) → Prop where
  | init : Reach base elf used fun _ => .idle
  | step {pc pc'} : Reach base elf used pc → Step base elf used pc pc' → Reach base elf used pc'

/-! ## the cache -/

/-- What is asked of a cache: `Kernel()`, or `Module(name)`. -/
inductive Req where
  | kernel
  | module (name : Nat)
deriving DecidableEq

/-- Where a goroutine is in `Kernel` or `Module`; the lines are those of btf/kernel.go. -/
inductive CPC where
  | idle
  /-- 162, 190: before `RLock` -/
  | entered (r : Req)
  /-- 163-166, 191-194: holding the read lock, before looking -/
  | rlocked (r : Req)
  /-- 164, 167; 192, 195: having looked, read lock still held -/
  | peeked (r : Req) (found : Option Nat)
  /-- 167-169, 195-197: nothing found, no lock -/
  | missed (r : Req)
  /-- 170-171, 198-199: holding the write lock -/
  | wlocked (r : Req)
  /-- 207-210: in `Module`, the base has been got, holding the write lock -/
  | based (name base : Nat)
  /-- about to unlock and return a spec, holding the write lock; `none` is an error -/
  | leaving (r : Req) (spec : Option Nat)
deriving DecidableEq

/-- Does it hold the read lock. -/
def CPC.reader : CPC → Bool
  | .rlocked _ => true
  | .peeked _ _ => true
  | _ => false

/-- Does it hold the write lock. -/
def CPC.writer : CPC → Bool
  | .wlocked _ => true
  | .based _ _ => true
  | .leaving _ _ => true
  | _ => false

/-- btf/kernel.go:143-148 `Cache`, the specs loaded so far (their number is the next spec; `baseOf` are their bases), and what was returned. `loadedModules` is left out. -/
structure CState where
  kernelTypes : Option Nat
  moduleTypes : Nat → Option Nat
  nextSpec : Nat
  baseOf : Nat → Option Nat
  pc : Nat → CPC
  returned : List (Req × Nat)

/-- btf/kernel.go:154-156 `NewCache`; no spec has been loaded. -/
def CState.init : CState := ⟨none, fun _ => none, 0, fun _ => none, fun _ => .idle, []⟩

/-- What the cache holds for a request. -/
def CState.lookup (s : CState) : Req → Option Nat
  | .kernel => s.kernelTypes
  | .module n => s.moduleTypes n

/-- Update one program counter. -/
def cset (pc : Nat → CPC) (t : Nat) (p : CPC) : Nat → CPC := fun u => if u = t then p else pc u

/-- Steps of the cache. -/
inductive CStep : CState → CState → Prop where
  | call {s t r} : s.pc t = .idle → CStep s { s with pc := cset s.pc t (.entered r) }
  /-- 162, 190 -/
  | rlock {s t r} : s.pc t = .entered r → (∀ u, (s.pc u).writer = false) → CStep s { s with pc := cset s.pc t (.rlocked r) }
  /-- 163-164, 191 -/
  | peek {s t r} : s.pc t = .rlocked r → CStep s { s with pc := cset s.pc t (.peeked r (s.lookup r)) }
  /-- 165-166, 192-193: `RUnlock` and return -/
  | hit {s t r x} : s.pc t = .peeked r (some x) → CStep s { s with pc := cset s.pc t .idle, returned := (r, x) :: s.returned }
  /-- 168, 195 -/
  | miss {s t r} : s.pc t = .peeked r none → CStep s { s with pc := cset s.pc t (.missed r) }
  /-- 170, 197 -/
  | lock {s t r} : s.pc t = .missed r → (∀ u, (s.pc u).writer = false ∧ (s.pc u).reader = false) → CStep s { s with pc := cset s.pc t (.wlocked r) }
  /-- 176-178, 200-202: somebody else has loaded it -/
  | recheck {s t r x} : s.pc t = .wlocked r → s.lookup r = some x → CStep s { s with pc := cset s.pc t (.leaving r (some x)) }
  /-- 180-182: `LoadKernelSpec` -/
  | loadKernel {s t} : s.pc t = .wlocked .kernel → s.kernelTypes = none →
      CStep s { s with pc := cset s.pc t (.leaving .kernel (some s.nextSpec)), kernelTypes := some s.nextSpec, nextSpec := s.nextSpec + 1 }
  /-- 180-182: `LoadKernelSpec` fails and `kernelTypes` is set to nil -/
  | loadKernelFails {s t} : s.pc t = .wlocked .kernel → s.kernelTypes = none → CStep s { s with pc := cset s.pc t (.leaving .kernel none), kernelTypes := none }
  /-- 208, 176-178 -/
  | baseHit {s t n x} : s.pc t = .wlocked (.module n) → s.moduleTypes n = none → s.kernelTypes = some x → CStep s { s with pc := cset s.pc t (.based n x) }
  /-- 208, 180-182 -/
  | baseLoad {s t n} : s.pc t = .wlocked (.module n) → s.moduleTypes n = none → s.kernelTypes = none →
      CStep s { s with pc := cset s.pc t (.based n s.nextSpec), kernelTypes := some s.nextSpec, nextSpec := s.nextSpec + 1 }
  /-- 209-211 -/
  | baseFails {s t n} : s.pc t = .wlocked (.module n) → s.moduleTypes n = none → s.kernelTypes = none → CStep s { s with pc := cset s.pc t (.leaving (.module n) none), kernelTypes := none }
  /-- 213, 218 -/
  | loadModule {s t n b} : s.pc t = .based n b →
      CStep s { s with
        pc := cset s.pc t (.leaving (.module n) (some s.nextSpec)), moduleTypes := fun m => if m = n then some s.nextSpec else s.moduleTypes m
        baseOf := fun x => if x = s.nextSpec then some b else s.baseOf x, nextSpec := s.nextSpec + 1 }
  /-- 214-216 -/
  | loadModuleFails {s t n b} : s.pc t = .based n b → CStep s { s with pc := cset s.pc t (.leaving (.module n) none) }
  /-- 171, 198: the deferred `Unlock`, and return -/
  | unlock {s t r x} : s.pc t = .leaving r (some x) → CStep s { s with pc := cset s.pc t .idle, returned := (r, x) :: s.returned }
  | unlockErr {s t r} : s.pc t = .leaving r none → CStep s { s with pc := cset s.pc t .idle }

/-- States that can be reached. -/
inductive CReach : CState → Prop where
  | init : CReach CState.init
  | step {s s'} : CReach s → CStep s s' → CReach s'

end Ebpf.BtfCache
