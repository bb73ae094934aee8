import Verif.Model.Probe
/-!
# Specification: what a probe link owns and traces
-/
namespace Ebpf.ProbeSpec
open Ebpf.Probe

/-- What a trace event holds while it is in use. -/
def eventHolds (e : Event) : List Nat := if e.live then [e.n] else []

/-- What a perf event holds. -/
def perfHolds (p : PerfEvent) : List Nat :=
  (if p.live then [p.n] else []) ++ (match p.event with
    | some e => eventHolds e
    | none => [])

/-- What a link holds. -/
def linkHolds (l : Link) : List Nat :=
  (match l.link with
    | some n => if l.linkLive then [n] else []
    | none => []) ++ perfHolds l.perf

/-- From `st` to `st'`, nothing that existed before was closed, and everything created in between was closed exactly once, but for what is in `kept`, which was not closed. -/
structure Creates (st st' : St) (kept : List Nat) : Prop where
  grows : st.res.length ≤ st'.res.length
  same : ∀ n, n < st.res.length → st'.res[n]? = st.res[n]?
  nodup : kept.Nodup
  new : ∀ n ∈ kept, st.res.length ≤ n ∧ n < st'.res.length
  closed : ∀ n, st'.closed.count n = st.closed.count n + if st.res.length ≤ n ∧ n < st'.res.length ∧ n ∉ kept then 1 else 0

/-- From `st` to `st'`, nothing was created and exactly `gone` was closed, each once. -/
structure Closes (st st' : St) (gone : List Nat) : Prop where
  res : st'.res = st.res
  closed : ∀ n, st'.closed.count n = st.closed.count n + gone.count n

/-- A kernel on which cleaning up works: descriptors can be closed, events removed, and the ID of an event that was just created can be read and is not 0 (or, on old kernels, does not exist because of maxactive). -/
structure Reliable (w : World) : Prop where
  close : ∀ t, w.closeFd t = .ok ()
  events : ∀ t, w.openEvents t = .ok ()
  remove : ∀ t g n, w.write t (Tracefs.removal g n) = .ok ()
  id : ∀ t (a : ProbeArgs) text, Tracefs.command a.text = some text → w.write t text = .ok () →
    (∃ id, id ≠ 0 ∧ w.eventId (t + 1) a.group (Tracefs.sanitizeIdentifier a.symbol) = .ok id) ∨
    (a.maxActive ≠ 0 ∧ w.eventId (t + 1) a.group (Tracefs.sanitizeIdentifier a.symbol) = .error .notExist)

/-- The perf event is on the probe described by `a`: directly, if there is no maximum of active instances, with the symbol and offset, return bit and reference counter where Linux expects them; or through a trace event created for it. -/
def Traces (w : World) (st : St) (p : PerfEvent) (a : ProbeArgs) : Prop :=
  (∃ type bit config, a.maxActive = 0 ∧ w.pmuType a.uprobe = .ok type ∧ (a.ret = true → w.retBit a.uprobe = .ok bit) ∧ config = (if a.ret then 1#64 <<< bit else 0#64) ∧ p.event = none ∧
    st.res[p.n]? = some (.perf (.pmu type (config ||| (if a.uprobe then BitVec.ofNat 64 a.refCtrOffset <<< 32 else 0#64)) (if a.uprobe then a.path else a.symbol) a.offset a.pid
      (if a.pid = -1 then 0 else -1)))) ∨
  (∃ ev text t group pre random, p.event = some ev ∧ Tracefs.randomGroup pre random = some group ∧ (a.group ≠ [] → pre = a.group) ∧
    Tracefs.command { a.text with group := group } = some text ∧ st.res[ev.n]? = some (.event a.uprobe text) ∧
    w.eventId t group (Tracefs.sanitizeIdentifier a.symbol) = .ok ev.id ∧ st.res[p.n]? = some (.perf (.tracepoint ev.id a.pid (if a.pid = -1 then 0 else -1))))

/-- What a program can do with probes: attach, successfully or not, and close links, any of them, any number of times. -/
inductive Step (w : World) : St × List Link → St × List Link → Prop where
  | attached {st links st' l} (open_ : St → Except Err PerfEvent × St) (cookie : Nat) :
    ((∃ a, open_ = kprobe w a) ∨ (∃ a, open_ = uprobe w a) ∨ (∃ g n, open_ = tracepoint w g n)) → attachProbe w open_ cookie st = (.ok l, st') → Step w (st, links) (st', l :: links)
  | failed {st links st' e} (open_ : St → Except Err PerfEvent × St) (cookie : Nat) :
    ((∃ a, open_ = kprobe w a) ∨ (∃ a, open_ = uprobe w a) ∨ (∃ g n, open_ = tracepoint w g n)) → attachProbe w open_ cookie st = (.error e, st') → Step w (st, links) (st', links)
  | closed {st pre l post r l' st'} : closeLink w l st = (r, l', st') → Step w (st, pre ++ l :: post) (st', pre ++ l' :: post)

/-- Histories from an empty state. -/
inductive Reachable (w : World) (t : Nat) : St × List Link → Prop where
  | init : Reachable w t (⟨t, [], []⟩, [])
  | step {s s'} : Reachable w t s → Step w s s' → Reachable w t s'

end Ebpf.ProbeSpec
