import Verif.Model.LinkIter
/-!
# Specification: links in the kernel, and a program using an Iterator
-/
namespace Ebpf.LinkIterSpec
open Ebpf.LinkIter

/-- include/uapi/linux/bpf.h, enum bpf_link_type, from 0. -/
def linux : List Class := [.raw, .rawTracepoint, .tracing, .linkCgroup, .iter, .netNs, .xdp, .perfEvent, .kprobeMulti, .structOps, .netfilter, .tcx, .uprobeMulti, .netkit]

/-- The Go type for a link; links of types without one are `RawLink`s. -/
def goType (t : Nat) : Class := linux.getD t .raw

/-- The kernel lists IDs in ascending order. -/
def Sorted (k : Kern) : Prop := ∀ t, (k.ids t).Pairwise (· < ·)

/-- The descriptors of a process are different, and it has made no mistake yet. -/
def Fine (s : S) : Prop := (s.fds.map (·.1)).Nodup ∧ (∀ x ∈ s.fds, x.1 < s.next) ∧ s.bad = false

/-- What a program may do with an Iterator: go on, take the link, close a link taken earlier. -/
inductive Op where
  | next
  | take
  | drop

/-- A program using an Iterator: `seen` are the links it was shown, in order; `finished`: the last Next was false, without an error. -/
structure H where
  s : S
  it : It
  taken : List Lnk
  seen : List (Nat × Lnk)
  finished : Bool

/-- One step of the program. -/
def step (k : Kern) (fuel : Nat) (h : H) (o : Op) : Option H :=
  match o with
  | .next =>
    match next k fuel h.s h.it with
    | none => none
    | some (s, it, true) => some { h with s := s, it := it, seen := h.seen ++ (it.link.map (fun l => (it.id, l))).toList, finished := false }
    | some (s, it, false) => some { h with s := s, it := it, finished := it.err.isNone }
  | .take => match take h.it with | (it, l) => some { h with it := it, taken := l.toList ++ h.taken }
  | .drop => match h.taken with | [] => some h | l :: r => some { h with s := close h.s l.fd, taken := r }

/-- The program. -/
def run (k : Kern) (fuel : Nat) : H → List Op → Option H
  | h, [] => some h
  | h, o :: r => (step k fuel h o).bind (fun h => run k fuel h r)

/-- It begins with a new Iterator. -/
def start (s : S) : H := ⟨s, ⟨0, none, none⟩, [], [], false⟩

/-- The link exists at all times between two moments. -/
def Lasting (k : Kern) (t t' : Nat) (id : Nat) : Prop := ∀ u, t ≤ u → u < t' → id ∈ k.ids u

/-- What opening a link does: a new descriptor for the link and nothing else. -/
def Opened (k : Kern) (s s' : S) (l : Lnk) (id : Nat) : Prop :=
  s'.fds = (l.fd, some id) :: s.fds ∧ l.fd = s.next ∧ s'.next = s.next + 1 ∧ s'.bad = s.bad ∧
  ∃ u, s.t ≤ u ∧ u < s'.t ∧ l.cls = goType (k.typ u id)

/-- The descriptors the program has because of the Iterator. -/
def owned (h : H) : List Lnk := h.taken ++ h.it.link.toList

end Ebpf.LinkIterSpec
