import Verif.Model.Poller
/-!
# Specification: epoll, and what callers of a poller may rely on
-/
namespace Ebpf.PollerSpec
open Ebpf.Poller

/-- What epoll_wait may answer in a state: an error, an interruption, a timeout if a deadline was given, or a list of distinct descriptors that are ready. An eventfd is ready if its counter is not 0,
other descriptors of the set may be ready at any time. -/
def Answers (s : Shared) (d : Bool) : Answer → Prop
  | .none => False
  | .eintr => True
  | .err _ => True
  | .timeout => d = true
  | .events l => l ≠ [] ∧ l.Nodup ∧ (Ev.close ∈ l → 0 < s.closeCnt) ∧ (Ev.flush ∈ l → 0 < s.flushCnt) ∧ ∀ id, Ev.data id ∈ l → id ∈ s.added

/-- The kernel's answer at a point of the program. -/
def Kernel (s : Shared) (a : Answer) : Pc → Prop
  | .wait2 d => Answers s d a
  | _ => True

/-- A goroutine takes a step, or a new one starts. -/
inductive Step : St → St → Prop where
  | run {s : Shared} {ts : List Pc} {s' : Shared} {pc' : Pc} (i : Nat) (pc : Pc) (a : Answer) : ts[i]? = some pc → Kernel s a pc → act s i a pc = some (s', pc') → Step ⟨s, ts⟩ ⟨s', ts.set i pc'⟩
  | start {s : Shared} {ts : List Pc} (pc : Pc) : ((∃ d, pc = .wait0 d) ∨ pc = .close0 ∨ pc = .flush0 ∨ ∃ id, pc = .add0 id) → Step ⟨s, ts⟩ ⟨s, ts ++ [pc]⟩

/-- A poller that was just made. -/
def fresh : Shared := ⟨none, none, true, true, true, 0, 0, [], (0, 0, 0), false⟩

/-- All histories. -/
inductive Reachable : St → Prop where
  | init : Reachable ⟨fresh, []⟩
  | step {s s' : St} : Reachable s → Step s s' → Reachable s'

/-- Several steps. -/
inductive Steps : St → St → Prop where
  | refl {s : St} : Steps s s
  | step {s s' s'' : St} : Steps s s' → Step s' s'' → Steps s s''

/-- The call has returned. -/
def returned : Pc → Bool
  | .waitDone _ _ => true
  | .closeDone _ => true
  | .flushDone _ => true
  | .addDone _ _ => true
  | _ => false

/-- A call of Close, finished or not. -/
def isClose : Pc → Bool
  | .close0 => true
  | .close1 => true
  | .close2 => true
  | .close3 => true
  | .close4 => true
  | .closeDone _ => true
  | _ => false

/-- The goroutine cannot go on. In epoll_wait that is the case as long as neither eventfd is ready, since nobody knows when other descriptors will be. -/
def Blocked (s : Shared) (i : Nat) : Pc → Prop
  | .wait2 _ => s.closeCnt = 0 ∧ s.flushCnt = 0
  | pc => ∀ a, act s i a pc = none

/-- Nobody can go on. -/
def Stuck (s : St) : Prop := ∀ i pc, s.threads[i]? = some pc → Blocked s.shared i pc

/-- A number of steps of the goroutines there are, not counting restarts of interrupted system calls. -/
inductive Runs : Nat → St → St → Prop where
  | refl {s : St} : Runs 0 s s
  | run {n : Nat} {st : St} {s : Shared} {ts : List Pc} {s' : Shared} {pc' : Pc} (i : Nat) (pc : Pc) (a : Answer) :
    Runs n st ⟨s, ts⟩ → ts[i]? = some pc → Kernel s a pc → act s i a pc = some (s', pc') → Runs (n + if pc' = pc then 0 else 1) st ⟨s', ts.set i pc'⟩

/-- A Wait that returned ErrFlushed. -/
def flushedWait : Pc → Bool
  | .waitDone _ .flushed => true
  | _ => false

/-- A Wait that returned ErrClosed. -/
def closedWait : Pc → Bool
  | .waitDone _ .closed => true
  | _ => false

/-- A Flush that succeeded. -/
def flushOk : Pc → Bool
  | .flushDone .ok => true
  | _ => false

end Ebpf.PollerSpec
