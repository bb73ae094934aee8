import Verif.Model.OpenReader
/-! # Specification of C96: opening readers -/
namespace Ebpf.OpenSpec
open Ebpf.OpenReader

/-- Handles of open objects have been handed out. -/
def Wf (k : K) : Prop := ∀ p ∈ k.live, p.1 < k.next

/-- The same descriptors and mappings are open. -/
def SameOpen (k k' : K) : Prop := ∀ p, p ∈ k'.live ↔ p ∈ k.live

/-- What is open in `k'` but not in `k` is exactly `new`; all of it is new. -/
def Opened (k k' : K) (new : List (Nat × Obj)) : Prop :=
  (∀ p, p ∈ k'.live ↔ p ∈ k.live ∨ p ∈ new) ∧ (∀ p ∈ new, k.next ≤ p.1) ∧ (new.map (·.1)).Nodup

/-- A perf mapping of a metadata page and the least power of two of pages which holds `buffer` bytes. -/
def RightSize (page buffer len : Nat) : Prop :=
  ∃ n, len = page + 2 ^ n * page ∧ buffer ≤ 2 ^ n * page ∧ ∀ m, buffer ≤ 2 ^ m * page → n ≤ m

/-- A software event for bpf_perf_event_output on this CPU, which wakes the reader after `WakeupEvents` events, or else after `Watermark` bytes, or else after the first byte. -/
def RightEvent (cpu : Nat) (opts : Opts) (a : Attr) : Prop :=
  a.typ = 1 ∧ a.config = 10 ∧ a.sampleType = 0x400 ∧ a.cpu = cpu ∧ a.writeBackward = opts.overwritable ∧
  (0 < opts.wakeupEvents → a.watermark = false ∧ (a.wakeup.toNat : Int) = opts.wakeupEvents) ∧
  (opts.wakeupEvents ≤ 0 → a.watermark = true ∧ (0 < opts.watermark → (a.wakeup.toNat : Int) = opts.watermark) ∧ (opts.watermark = 0 → a.wakeup = 1))

/-- The three descriptors of a poller. -/
def pollerObjs (p : Poller) : List (Nat × Obj) := [(p.epoll, .epoll), (p.closeEvent, .eventfd), (p.flushEvent, .eventfd)]

/-- A ring: the event, and its mapping, writable unless the ring is overwritable. -/
def RingObjs (page buffer : Nat) (opts : Opts) (r : Ring) (objs : List (Nat × Obj)) : Prop :=
  ∃ a len, objs = [(r.event, .event a), (r.mmap, .perfMap r.event len (!opts.overwritable))] ∧ RightEvent r.cpu opts a ∧ RightSize page buffer len

/-- The CPUs of `nCPU` which are online, in order. -/
def online (kn : Kernel) (nCPU : Nat) : List Nat := (List.range nCPU).filter fun c => kn.perfEventOpen c ≠ .enodev

/-- Acceptable arguments of a perf reader. -/
def GoodPerfArgs (buffer : Int) (opts : Opts) : Prop := 1 ≤ buffer ∧ opts.watermark < buffer ∧ ¬ (0 < opts.wakeupEvents ∧ 0 < opts.watermark)

/-- The kernel grants everything, except that CPUs may be offline. -/
def Grants (kn : Kernel) (nCPU : Nat) : Prop :=
  kn.epollCreate = .ok ∧ kn.eventfd 0 = .ok ∧ kn.eventfd 1 = .ok ∧ kn.epollAdd 0 = .ok ∧ kn.epollAdd 1 = .ok ∧ kn.dup = .ok ∧ (∀ i < nCPU, kn.put i = .ok) ∧
  ∀ c < nCPU, kn.perfEventOpen c ≠ .err ∧ kn.setNonblock c = .ok ∧ kn.mmap c = .ok ∧ kn.addEvent c = .ok

end Ebpf.OpenSpec
