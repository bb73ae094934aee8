import Verif.Model.PinWalk
/-!
# What a walk over pins is
-/
namespace Ebpf.PinWalk.Spec

open Ebpf.PinWalk

mutual
/-- The node `m` is found at the path below `n`. -/
inductive At : Node → Path → Node → Prop
  | here (n : Node) : At n [] n
  | inside (r : Bool) (es : Entries) (x : Name) (p : Path) (m : Node) : AtEntry es x p m → At (.dir r es) (x :: p) m
/-- The node `m` is found at the path below the entry of the given name. -/
inductive AtEntry : Entries → Name → Path → Node → Prop
  | first (x : Name) (n : Node) (es : Entries) (p : Path) (m : Node) : At n p m → AtEntry (.cons x n es) x p m
  | later (y : Name) (n : Node) (es : Entries) (x : Name) (p : Path) (m : Node) : AtEntry es x p m → AtEntry (.cons y n es) x p m
end

/-- The names in a directory. -/
def names : Entries → List Name
  | .nil => []
  | .cons x _ es => x :: names es

mutual
/-- The names in each directory differ. -/
inductive Proper : Node → Prop
  | file (f : File) : Proper (.file f)
  | dir (r : Bool) (es : Entries) : (names es).Nodup → ProperEntries es → Proper (.dir r es)
/-- … for all entries. -/
inductive ProperEntries : Entries → Prop
  | nil : ProperEntries .nil
  | cons (x : Name) (n : Node) (es : Entries) : Proper n → ProperEntries es → ProperEntries (.cons x n es)
end

/-- Lexical order: where two paths first differ the first has the smaller name. -/
def Before (p q : Path) : Prop := ∃ c a b x y, p = c ++ a :: x ∧ q = c ++ b :: y ∧ a < b

/-- The name Linux gives to descriptors of an object, with or without the prefix of anonymous inodes. -/
inductive Shown : Kind → List Char → Prop
  | map : Shown .map "bpf-map".toList
  | prog : Shown .prog "bpf-prog".toList
  | link : Shown .link "bpf-link".toList
  | anonMap : Shown .map ("anon_inode:".toList ++ "bpf-map".toList)
  | anonProg : Shown .prog ("anon_inode:".toList ++ "bpf-prog".toList)
  | anonLink : Shown .link ("anon_inode:".toList ++ "bpf-link".toList)

/-- The file is an object of this type that can be opened. -/
def Loadable (cpus : Bool) (f : File) (k : Kind) : Prop :=
  f.objGet = true ∧ (∃ s, f.fdLink = some s ∧ Shown k s) ∧ f.infoOk = true ∧ (k = .map → f.perCPU = true → cpus = true)

/-- The descriptor was handed out and the loop body called `Take`. -/
def Taken (body : List Ev → Reply) (t : List Ev) (fd : Nat) : Prop :=
  ∃ a o b, t = a ++ Ev.yielded o :: b ∧ o.fd = fd ∧ (body (a ++ [Ev.yielded o])).take = true

/-- The descriptor was closed. -/
def Closed (t : List Ev) (fd : Nat) : Prop := ∃ w, Ev.closed w fd ∈ t

/-- The paths handed to the loop body. -/
def paths (t : List Ev) : List Path := t.filterMap (fun | .yielded o => some o.path | _ => none)

/-- The file system of the root is a BPF file system, on machines of either width. -/
def OnBpf : Magic → Prop
  | .w32 b => b.toNat = 0xcafe4a11
  | .w64 b => b.toNat = 0xcafe4a11

/-- The root is a directory of a BPF file system; `r` tells whether it can be read. -/
def Opens (root : Root) (r : Bool) (es : Entries) : Prop := (∃ m, root.statfs = some m ∧ OnBpf m) ∧ root.dir = some (r, es)

/-- The loop body left the loop at the object at path `q`. -/
def LeftAt (body : List Ev → Reply) (t : List Ev) (q : Path) : Prop :=
  ∃ a o b, t = a ++ Ev.yielded o :: b ∧ o.path = q ∧ (body (a ++ [Ev.yielded o])).flow ≠ .next

/-- There is something at path `q` that can't be loaded, or a directory that can't be read. -/
def BadEntry (cpus : Bool) (n : Node) (q : Path) : Prop :=
  (∃ f, At n q (.file f) ∧ ∀ k, ¬ Loadable cpus f k) ∨ ∃ es, At n q (.dir false es)

end Ebpf.PinWalk.Spec
