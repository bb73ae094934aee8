import Verif.Model.ProgHandles
/-!
# Specification: who owns which descriptor
-/
namespace Ebpf.ProgHandles.Spec

/-- The descriptors a program owns. -/
def ownedBy (p : Program) : List Nat := p.fd.toList ++ match p.btf with
  | some (some h) => [h]
  | _ => []

/-- The descriptors owned by the user's programs and handles. -/
def owners (w : World) : List Nat := w.progs.flatMap ownedBy ++ w.handles.flatMap Option.toList

/-- Every open descriptor that isn't one of `base` (the others of the process) is owned by exactly one program or handle, and each program and handle refers to what it should. -/
structure Owned (progBtf : Nat → Nat) (base : List (Nat × K)) (w : World) : Prop where
  distinct : (w.st.table.map (·.1)).Nodup
  exact : (w.st.table.map (·.1)).Perm (owners w ++ base.map (·.1))
  foreign : ∀ x ∈ base, x ∈ w.st.table
  progs : ∀ p ∈ w.progs, ∀ fd, p.fd = some fd → (fd, .prog p.pid) ∈ w.st.table
  btfs : ∀ p ∈ w.progs, ∀ fd, p.btf = some (some fd) → (fd, .btf (progBtf p.pid)) ∈ w.st.table ∧ progBtf p.pid ≠ 0
  handles : ∀ fd, some fd ∈ w.handles → ∃ bid, (fd, .btf bid) ∈ w.st.table
  single : w.st.double = false
  passed : ∀ l ∈ w.st.loads, ∀ x ∈ l.1, x ∈ l.2

/-- New descriptors aren't open. -/
def Fresh (pick : List Nat → Nat) : Prop := ∀ l, pick l ∉ l

/-- What is passed to the kernel for an attach target. -/
def targetKinds : Target → List K
  | .prog t _ _ _ _ => t.fd.toList.map fun _ => .prog t.pid
  | .kernel (some (some bid)) => [.btf bid]
  | _ => []

/-- `Program.Handle` can succeed. -/
def HasHandle (progBtf : Nat → Nat) (c : Calls) (p : Program) : Prop :=
  match p.btf with
  | some (some _) => c.dup1 = true
  | some none => False
  | none => p.fd ≠ none ∧ c.info = true ∧ progBtf p.pid ≠ 0 ∧ c.byID = true ∧ c.hinfo = true

/-- The attach target can be found. -/
def Found (progBtf : Nat → Nat) : Target → Prop
  | .none => True
  | .prog t r sp ty c => r = true ∧ sp = true ∧ ty = true ∧ HasHandle progBtf c t
  | .kernel found => found ≠ none

/-- What the kernel must be given to load a program: its BTF, the map of kconfig variables, the modules of kernel variables and of kernel functions, the attach target. -/
def passes (progBtf : Nat → Nat) (pid : Nat) (e : Env) : List K :=
  (if progBtf pid = 0 then [] else [.btf (progBtf pid)]) ++ (((e.kconfig.getD none).toList.map .map) ++ (((e.ksyms.getD []).map .btf) ++ (((e.kfuncs.getD []).map .btf) ++ targetKinds e.target)))

/-- All steps of loading succeed. -/
def Succeeds (progBtf : Nat → Nat) (pid : Nat) (e : Env) : Prop :=
  e.prepared = true ∧ (progBtf pid = 0 ∨ e.btf = true) ∧ (∃ m, e.kconfig = some m) ∧ (∃ l, e.ksyms = some l) ∧ e.validated = true ∧ (∃ l, e.kfuncs = some l) ∧
  e.marshaled = true ∧ Found progBtf e.target ∧ e.accepted = true

/-- A program whose descriptors are as they should be. -/
def Intact (progBtf : Nat → Nat) (p : Program) (table : List (Nat × K)) : Prop :=
  (∀ fd, p.fd = some fd → (fd, .prog p.pid) ∈ table) ∧ ∀ fd, p.btf = some (some fd) → (fd, .btf (progBtf p.pid)) ∈ table

/-- The programs a user attaches to are his own. -/
def Uses (w : World) : Op → Prop
  | .load _ e => ∀ t r sp ty c, e.target = .prog t r sp ty c → t ∈ w.progs
  | _ => True

/-- A history in which this is always so. -/
def Legal (progBtf : Nat → Nat) (pick : List Nat → Nat) : World → List Op → Prop
  | _, [] => True
  | w, op :: ops => Uses w op ∧ Legal progBtf pick (step progBtf pick w op) ops

/-- A loaded program, and the descriptors opened for it. -/
def Loaded (progBtf : Nat → Nat) (pid : Nat) (p : Program) (before after : List (Nat × K)) : Prop :=
  ∃ fd, fd ∉ before.map (·.1) ∧
    ((progBtf pid = 0 ∧ p = ⟨some fd, pid, none⟩ ∧ after = (fd, .prog pid) :: before) ∨
     (progBtf pid ≠ 0 ∧ ∃ h, h ∉ before.map (·.1) ∧ fd ≠ h ∧ p = ⟨some fd, pid, some (some h)⟩ ∧ after = (fd, .prog pid) :: (h, .btf (progBtf pid)) :: before))

/-- The entries of the table for the descriptor of a program. -/
def fe (fd : FD) (pid : Nat) : List (Nat × K) := fd.toList.map fun n => (n, .prog pid)

/-- The entries for its BTF. -/
def be (progBtf : Nat → Nat) (b : Option FD) (pid : Nat) : List (Nat × K) := match b with
  | some (some h) => [(h, .btf (progBtf pid))]
  | _ => []

/-- The entries for a program. -/
def pe (progBtf : Nat → Nat) (p : Program) : List (Nat × K) := fe p.fd p.pid ++ be progBtf p.btf p.pid

end Ebpf.ProgHandles.Spec
