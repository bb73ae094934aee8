import Verif.Model.AttachLinks
/-!
# Specification: what Linux attaches when asked to create a link
-/
namespace Ebpf.AttachLinksSpec
open Ebpf.AttachLinks

/-- A function in the kernel, by name or address. -/
inductive Point where
  | sym (s : String)
  | addr (a : Nat)
deriving DecidableEq

/-- Where a program is attached. -/
inductive Hook where
  /-- A target (a descriptor or network interface), an attach type, flags and a function of the target. -/
  | target (t attach flags btf : Nat)
  /-- The function the program was loaded for, with a cookie. -/
  | own (cookie : Nat)
  | rawTracepoint (name : String)
  /-- Functions, each with a cookie. -/
  | kprobes (points : List (Point × Nat)) (ret session : Bool)
  /-- Offsets in a file, each with the offset of a reference counter and a cookie. -/
  | uprobes (path : String) (points : List (Nat × Nat × Nat)) (ret : Bool) (pid : Nat)
  | netfilter (pf hook : Nat) (priority : Int) (flags nfFlags : Nat)
  | iter (map : Option Nat)
deriving DecidableEq

/-- The first `n` elements of an array in user space; zeros without an array. `none`: the kernel would read past the end of the array. -/
def fetch (n : Nat) (a : Option (List Nat)) : Option (List Nat) :=
  match a with
  | none => some (List.replicate n 0)
  | some l => if n ≤ l.length then some (l.take n) else none

/-- Which program a request attaches, and where; `none` if Linux refuses it (or it is not defined what it does).
`own`: the attach type a program was loaded with. (kernel/bpf/syscall.c, kernel/trace/bpf_trace.c) -/
def meaning (own : Nat → Nat) (r : Req) : Option (Nat × Hook) :=
  match r with
  | .link p t a fl b => some (p, .target t a fl b)
  | .tracing p a c => if own p = a then some (p, .own c) else none
  | .rawTp none p => some (p, .own 0)
  | .rawTp (some n) p => some (p, .rawTracepoint n)
  | .kprobeMulti p a fl n (some s) none cks =>
    (match fetch n cks with
    | some c => if 0 < n ∧ n ≤ s.length ∧ fl < 2 ∧ (a = 42 ∨ a = 56) then some (p, .kprobes (((s.take n).map .sym).zip c) (fl == 1) (a == 56)) else none
    | none => none)
  | .kprobeMulti p a fl n none (some s) cks =>
    (match fetch n cks with
    | some c => if 0 < n ∧ n ≤ s.length ∧ fl < 2 ∧ (a = 42 ∨ a = 56) then some (p, .kprobes (((s.take n).map .addr).zip c) (fl == 1) (a == 56)) else none
    | none => none)
  | .kprobeMulti .. => none
  | .uprobeMulti p a path fl n offs refs cks pid =>
    (match fetch n refs, fetch n cks with
    | some rs, some c => if 0 < n ∧ n ≤ offs.length ∧ fl < 2 ∧ a = 48 then some (p, .uprobes path ((offs.take n).zip (rs.zip c)) (fl == 1) pid) else none
    | _, _ => none)
  | .netfilter p a fl pf h pr nf => if a = 45 then some (p, .netfilter pf h pr fl nf) else none
  | .iter p a m => if a = 28 then some (p, .iter (if m = 0 then none else some m)) else none

/-- Linux accepts only what it understands. -/
def Consistent (own : Nat → Nat) (k : Kern) : Prop := ∀ t r, k.fail t r = none → (meaning own r).isSome

/-- Descriptor numbers are not used twice. -/
def Fine (w : W) : Prop := ∀ x ∈ w.fds, x < w.next

/-- The descriptor of a link. -/
def fdOf : Lnk → Nat
  | .raw f | .tracing f | .rawTracepoint f | .simpleRawTracepoint f | .xdp f | .netNs f | .kprobeMulti f | .uprobeMulti f | .netfilter f | .iter f | .structOps f => f

/-- Exactly one request was accepted, for program `p` and hook `h`, and the link has its descriptor, which is new; nothing else is open. -/
def Created (own : Nat → Nat) (w w' : W) (l : Lnk) (p : Nat) (h : Hook) : Prop :=
  ∃ tried r, w'.log = w.log ++ tried ++ [(r, true)] ∧ (∀ x ∈ tried, x.2 = false) ∧ meaning own r = some (p, h) ∧ w'.fds = fdOf l :: w.fds ∧ fdOf l ∉ w.fds

end Ebpf.AttachLinksSpec
