import Verif.Model.Cgroup
/-!
# Specification: programs of cgroups

First Linux (kernel/bpf/cgroup.c, since 5.5), then what a Link is to mean. The hierarchy of cgroups is not part of it.
-/
namespace Ebpf.CgroupSpec
open Ebpf.Cgroup

/-- An attached program, by a link or not. -/
structure Ent where
  prog : Nat
  link : Option Nat
deriving DecidableEq

/-- One attach type of one cgroup: the programs and the flags they were attached with. -/
structure Hook where
  ents : List Ent
  flags : Nat
deriving DecidableEq

/-- All hooks and the number of the next link. -/
structure Kern where
  hook : Nat → Nat → Hook
  nextLink : Nat

/-- Change one hook. -/
def Kern.set (k : Kern) (c t : Nat) (h : Hook) : Kern := { k with hook := fun c' t' => if c' = c ∧ t' = t then h else k.hook c' t' }

/-- Replace the first entry like this. -/
def replaceFirst (f : Ent → Bool) (n : Ent) : List Ent → Option (List Ent)
  | [] => none
  | e :: r => if f e then some (n :: r) else (replaceFirst f n r).map (e :: ·)

/-- Remove the first entry like this. -/
def removeFirst (f : Ent → Bool) : List Ent → Option (List Ent)
  | [] => none
  | e :: r => if f e then some r else (removeFirst f r).map (e :: ·)

/-- `__cgroup_bpf_attach`. Flags: 1 override, 2 multi, 4 replace. -/
def hookAttach (h : Hook) (n : Ent) (flags : Nat) (replace : Option Nat) : Option Hook :=
  if (flags.testBit 0 ∧ flags.testBit 1) ∨ (flags.testBit 2 ∧ flags.testBit 1 = false) then none
  else if h.ents ≠ [] ∧ h.flags ≠ flags &&& 3 then none
  else if h.ents.length ≥ 64 then none
  else if flags.testBit 1 then
    if n.link = none ∧ h.ents.any (fun e => e.prog == n.prog && e.link.isNone) ∧ replace ≠ some n.prog then none
    else
      match replace with
      | some q => (replaceFirst (fun e => e.prog == q && e.link.isNone) n h.ents).map (⟨·, flags &&& 3⟩)
      | none => some ⟨h.ents ++ [n], flags &&& 3⟩
  else some ⟨n :: h.ents.drop 1, flags &&& 3⟩

/-- `__cgroup_bpf_detach` with a program: without multi whatever is attached is detached. -/
def hookDetach (h : Hook) (p : Nat) : Option Hook :=
  if h.flags.testBit 1 then (removeFirst (fun e => e.prog == p && e.link.isNone) h.ents).map (⟨·, h.flags⟩)
  else
    match h.ents with
    | [] => none
    | ⟨_, some _⟩ :: _ => none
    | ⟨_, none⟩ :: r => some ⟨r, h.flags⟩

/-- The system calls. -/
def linux : Kernel Kern where
  attach k c t p flags replace := (hookAttach (k.hook c t) ⟨p, none⟩ flags replace).map (k.set c t)
  detach k c t p := (hookDetach (k.hook c t) p).map (k.set c t)
  linkCreate k c t p := (hookAttach (k.hook c t) ⟨p, some k.nextLink⟩ 2 none).map (fun h => ({ k.set c t h with nextLink := k.nextLink + 1 }, k.nextLink))
  linkUpdate k l p :=
    some { k with hook := fun c t => { k.hook c t with ents := (k.hook c t).ents.map (fun e => if e.link = some l then { e with prog := p } else e) } }
  linkRelease k l := { k with hook := fun c t => { k.hook c t with ents := (k.hook c t).ents.filter (fun e => e.link != some l) } }

/-! ## What a Link means -/

/-- The entry a Link stands for: the cgroup, attach type and entry. -/
inductive Holds (f : Fds) (k : Kern) : Handle → Nat → Nat → Ent → Prop
  | link (fd l c t p : Nat) : f.get fd = some (.link l) → ⟨p, some l⟩ ∈ (k.hook c t).ents → Holds f k (.link fd) c t ⟨p, some l⟩
  | emulated (cg cur c t p : Nat) : f.get cg = some (.cgroup c) → f.get cur = some (.prog p) → ⟨p, none⟩ ∈ (k.hook c t).ents → (k.hook c t).flags = 2 →
      Holds f k (.emulated cg cur t 2) c t ⟨p, none⟩

/-- The descriptors a Link owns. -/
def owned : Handle → List Nat
  | .link fd => [fd]
  | .emulated cg cur _ _ => [cur, cg]

/-- The descriptor table is one. -/
structure FWf (f : Fds) : Prop where
  fresh : ∀ x ∈ f.open_, x.1 < f.next
  nodup : (f.open_.map (·.1)).Nodup

/-- The state of the kernel is one: a program is attached once, a link is in one place. -/
structure KWf (k : Kern) : Prop where
  nodup : ∀ c t, (k.hook c t).ents.Nodup
  fresh : ∀ c t, ∀ e ∈ (k.hook c t).ents, ∀ l, e.link = some l → l < k.nextLink
  unique : ∀ c t c' t' e e' l, e ∈ (k.hook c t).ents → e' ∈ (k.hook c' t').ents → e.link = some l → e'.link = some l → c = c' ∧ t = t' ∧ e = e'
  multi : ∀ c t, ∀ e ∈ (k.hook c t).ents, e.link ≠ none → (k.hook c t).flags = 2

/-- Linux since 5.5: there are links, or at least programs can be replaced. -/
def Modern (e : Env) : Prop := e.haveLink ≠ .error .notSupported ∨ (e.haveReplace = .ok () ∧ e.haveProgAttach = .ok ())

end Ebpf.CgroupSpec
