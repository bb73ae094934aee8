import Verif.Model.Anchor
/-!
# Specification: several programs on one hook

First the intended meaning, then what Linux does (kernel/bpf/mprog.c, kernel/bpf/tcx.c, drivers/net/netkit.c).
-/
namespace Ebpf.AnchorSpec
open Ebpf.Anchor

/-- An attached program and the link that holds it. -/
structure Ent where
  prog : Nat
  link : Option Nat
deriving DecidableEq

/-- Where to attach. -/
inductive Where where
  | head
  | tail
  | before (e : Ent → Bool)
  | after (e : Ent → Bool)
  | replace (e : Ent → Bool)

/-- In front of the first entry like this. -/
def before (p : Ent → Bool) (n : Ent) : List Ent → Option (List Ent)
  | [] => none
  | e :: r => if p e then some (n :: e :: r) else (before p n r).map (e :: ·)

/-- After the first entry like this. -/
def after (p : Ent → Bool) (n : Ent) : List Ent → Option (List Ent)
  | [] => none
  | e :: r => if p e then some (e :: n :: r) else (after p n r).map (e :: ·)

/-- Instead of the first entry like this. -/
def replace (p : Ent → Bool) (n : Ent) : List Ent → Option (List Ent)
  | [] => none
  | e :: r => if p e then some (n :: r) else (replace p n r).map (e :: ·)

/-- The list afterwards; `none`: there is no such place. -/
def place (w : Where) (n : Ent) (l : List Ent) : Option (List Ent) :=
  match w with
  | .head => some (n :: l)
  | .tail => some (l ++ [n])
  | .before p => before p n l
  | .after p => after p n l
  | .replace p => replace p n l

/-! ## Linux -/

/-- An object behind a descriptor. -/
inductive Obj where
  | prog (id : Nat)
  | link (id : Nat)
deriving DecidableEq

/-- Descriptors, existing programs (of the right type), and the program of each link. -/
structure Kern where
  fd : Nat → Option Obj
  prog : Nat → Bool
  link : Nat → Option Nat

/-- A program by descriptor. -/
def Kern.progFd (k : Kern) (fd : Nat) : Option Nat :=
  match k.fd fd with
  | some (.prog p) => some p
  | _ => none

/-- A link by descriptor, with its program. -/
def Kern.linkFd (k : Kern) (fd : Nat) : Option (Nat × Nat) :=
  match k.fd fd with
  | some (.link l) => (k.link l).map (fun p => (p, l))
  | _ => none

/-- `bpf_mprog_tuple_relative`: program and link; `none`: error; `some none`: no relative. -/
def relative (k : Kern) (x flags : Nat) : Option (Option (Nat × Option Nat)) :=
  if flags.testBit 13 then
    if flags.testBit 5 then (k.link x).map (fun p => some (p, some x))
    else (k.linkFd x).map (fun (p, l) => some (p, some l))
  else if flags.testBit 5 = false ∧ x = 0 then some none
  else if flags.testBit 5 then (if x ≠ 0 ∧ k.prog x then some (some (x, none)) else none)
  else (k.progFd x).map (fun p => some (p, none))

/-- Does the entry match the tuple? -/
def matches_ (t : Nat × Option Nat) (e : Ent) : Bool := t.1 == e.prog && (t.2.isNone || t.2 == e.link)

/-- The index of the first match. -/
def index (t : Nat × Option Nat) (l : List Ent) : Option Nat := l.findIdx? (matches_ t)

/-- `bpf_mprog_pos_before`; `none`: -ENOENT. -/
def posBefore (l : List Ent) : Option (Nat × Option Nat) → Option Int
  | none => some (-1)
  | some t => (index t l).map (fun (i : Nat) => ((i : Int) - 1))

/-- `bpf_mprog_pos_after`. -/
def posAfter (l : List Ent) : Option (Nat × Option Nat) → Option Int
  | none => some l.length
  | some t => (index t l).map (fun (i : Nat) => ((i : Int) + 1))

/-- `bpf_mprog_pos_exact`. -/
def posExact (prog : Option Nat) (link : Option Nat) (l : List Ent) : Option Int :=
  match l.findIdx? (fun e => prog == some e.prog) with
  | some i => if (l[i]?.map Ent.link) = some link then some i else none
  | none => none

/-- One constraint on the position; `none` inside: not known yet. -/
def constrain (want : Bool) (pos : Option Int) (idx : Option Int) : Option (Option Int) :=
  if want then
    match pos with
    | none => none
    | some t =>
      match idx with
      | none => some (some t)
      | some i => if t = i then some (some t) else none
  else some idx

/-- `bpf_mprog_insert`. -/
def ins (l : List Ent) (n : Ent) (idx : Int) (before_ : Bool) : List Ent :=
  let i := if idx = l.length then idx.toNat else if before_ then (idx + 1).toNat else idx.toNat
  l.take i ++ n :: l.drop i

/-- The position from flags: `bpf_mprog_attach`. -/
def position (l : List Ent) (r : Option (Nat × Option Nat)) (flags : Nat) (idx : Option Int) : Option (Int × Nat) :=
  (constrain (flags.testBit 3) (posBefore l r) idx).bind fun idx =>
  (constrain (flags.testBit 4) (posAfter l r) idx).bind fun idx =>
  match idx with
  | some i => some (i, flags)
  | none => if r.isSome ∨ flags ≠ 0 then none else some (l.length, 16)

/-- `bpf_mprog_attach`; `none`: an error. -/
def mprogAttach (k : Kern) (l : List Ent) (rev : Nat) (new : Nat) (link : Option Nat) (old : Option Nat) (flags x revision : Nat) : Option (List Ent) :=
  if revision ≠ 0 ∧ revision ≠ rev then none
  else if l.any (fun e => e.prog == new) then none
  else
    (relative k x (flags &&& (2 ^ 32 - 1 - 4))).bind fun r =>
    if flags.testBit 2 then
      (posExact old link l).bind fun i =>
      (position l r flags (some i)).map fun (i, _) => l.set i.toNat ⟨new, link⟩
    else if l.length = 64 then none
    else
      (position l r flags none).bind fun (i, flags) => if i ≥ 64 then none else some (ins l ⟨new, link⟩ i (flags.testBit 3))

/-- BPF_PROG_ATTACH on tcx and netkit. -/
def progAttach (k : Kern) (l : List Ent) (rev : Nat) (a : Attr) : Option (List Ent) :=
  if a.flags &&& (2 ^ 32 - 1 - (4 + 8 + 16 + 32 + 8192)) ≠ 0 then none
  else
    (k.progFd a.prog).bind fun new =>
    if a.flags.testBit 2 then (k.progFd a.replace).bind fun old => mprogAttach k l rev new none (some old) a.flags a.relative a.revision
    else mprogAttach k l rev new none none a.flags a.relative a.revision

/-- BPF_LINK_CREATE on tcx and netkit, for a new link. -/
def linkAttach (k : Kern) (l : List Ent) (rev : Nat) (link : Nat) (a : Attr) : Option (List Ent) :=
  (k.progFd a.prog).bind fun new => mprogAttach k l rev new (some link) none a.flags a.relative a.revision

/-- BPF_PROG_DETACH with a program on tcx and netkit: `bpf_mprog_detach`. -/
def progDetach (k : Kern) (l : List Ent) (rev : Nat) (a : Attr) : Option (List Ent) :=
  if a.flags.testBit 2 ∨ a.flags &&& (2 ^ 32 - 1 - (4 + 8 + 16 + 32 + 8192)) ≠ 0 ∨ (a.revision ≠ 0 ∧ a.revision ≠ rev) then none
  else
    (k.progFd a.prog).bind fun p =>
    (relative k a.relative a.flags).bind fun r =>
    (posExact (some p) none l).bind fun i =>
    (position l r a.flags (some i)).map fun (i, _) => l.eraseIdx i.toNat

/-- BPF_PROG_QUERY: an error if there is too little memory. `rev = 0`: a hook without revisions and links. -/
def query (l : List Ent) (rev : Nat) (q : Query) : Except Unit Query :=
  if q.count = 0 ∨ q.progs = [] then .ok { q with count := l.length, revision := rev }
  else if q.count < l.length then .error ()
  else .ok ⟨l.length, rev, l.map Ent.prog ++ q.progs.drop l.length, q.links.map (fun m => l.map (fun e => e.link.getD 0) ++ m.drop l.length)⟩

end Ebpf.AnchorSpec
