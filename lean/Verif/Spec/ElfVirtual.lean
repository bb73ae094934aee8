import Verif.Model.ElfVirtual
/-!
# Specification: what an object declares in `.struct_ops.link`, `.kconfig` and `.ksyms`
-/
namespace Ebpf.ElfVirtual.Spec
open Ebpf.StructOps

/-- `n` typedefs and qualifiers lead from the first to the second type. -/
inductive Strips : Nat → Ty → Ty → Prop
  | refl (t : Ty) : Strips 0 t t
  | qual {n : Nat} {t u : Ty} : Strips n t u → Strips (n + 1) (.qual t) u
  | typedef {n : Nat} {t u : Ty} : Strips n t u → Strips (n + 1) (.typedef t) u

/-- A variable of a section: its name, its type, where it is. -/
structure Decl where
  name : Bytes
  st : Struct
  off : Nat

/-- The entry of the Datasec declares the variable: up to 32 typedefs and qualifiers are looked through. -/
def Declares (v : VarSecinfo) (d : Decl) : Prop :=
  ∃ n m t, n ≤ 32 ∧ m ≤ 32 ∧ Strips n v.type (.var d.name t) ∧ Strips m t (.struct d.st) ∧ d.off = v.offset

/-- All entries are declarations of variables, in this order. -/
inductive AllDeclare : List VarSecinfo → List Decl → Prop
  | nil : AllDeclare [] []
  | cons {v : VarSecinfo} {d : Decl} {vs : List VarSecinfo} {ds : List Decl} : Declares v d → AllDeclare vs ds → AllDeclare (v :: vs) (d :: ds)

/-- The map of a variable: BPF_MAP_TYPE_STRUCT_OPS is 26. Its content are the bytes of the variable. -/
def mapOf (data : Bytes) (flags : Nat) (d : Decl) : Bytes × MapSpec :=
  (d.name, ⟨d.name, 26, 4, d.st.size, 1, flags, .struct d.st, [(0, (data.drop d.off).take d.st.size)]⟩)

/-- The function pointers of a variable: the symbol at a member, and `type:member`. -/
def pointers (relocs : Nat → Option Bytes) (d : Decl) : List (Bytes × Bytes) :=
  d.st.members.filterMap fun m => (relocs (d.off + m.offset)).map fun s => (s, d.st.name ++ [0x3a#8] ++ m.name)

/-- The value of the last pair with this key, if there is one. -/
def lastOr (k old : Bytes) : List (Bytes × Bytes) → Bytes
  | [] => old
  | (s, to) :: r => lastOr k (if s = k then to else old) r

/-- The program after the function pointers have been assigned. -/
def assigned (ptrs : List (Bytes × Bytes)) (p : Prog) : Prog := { p with attachTo := lastOr p.name p.attachTo ptrs }

/-- What loading one section with these declarations does. -/
structure Loads (data : Bytes) (flags : Nat) (relocs : Nat → Option Bytes) (ds : List Decl) (s s' : St) : Prop where
  inside : ∀ d ∈ ds, d.off + d.st.size ≤ data.length
  distinct : (ds.map Decl.name).Nodup
  fresh : ∀ d ∈ ds, ∀ m ∈ s.maps, m.1 ≠ d.name
  maps : s'.maps = s.maps ++ ds.map (mapOf data flags)
  programs : ∀ x ∈ ds.flatMap (pointers relocs), ∃ p ∈ s.progs, p.name = x.1 ∧ p.structOps = true
  assigned : s'.progs = s.progs.map (assigned (ds.flatMap (pointers relocs)))

/-- The bytes of `.struct_ops.link`. -/
def linkName : Bytes := ".struct_ops.link".toList.map fun c => BitVec.ofNat 8 c.toNat

/-- Loading all sections, one after the other; BPF_F_LINK is 8192. -/
inductive LoadsAll (btf : Option (Bytes → Lookup)) : List Sec → St → St → Prop
  | nil (s : St) : LoadsAll btf [] s s
  | cons {sec : Sec} {secs : List Sec} {s s' s'' : St} {data : Bytes} {f : Bytes → Lookup} {ds : Datasec} {decls : List Decl} :
    sec.data = some data → btf = some f → f sec.name = .found ds → AllDeclare ds.vars decls → Loads data 8192 sec.relocs decls s s' →
    LoadsAll btf secs s' s'' → LoadsAll btf (sec :: secs) s s''

/-- The type is a struct of that name, behind at most 32 typedefs and qualifiers. -/
def IsStruct (t : Ty) (st : Struct) : Prop := ∃ k, k ≤ 32 ∧ Strips k t (.struct st)

/-- The bytes of a name. -/
def nameOf (s : String) : Bytes := s.toList.map fun c => BitVec.ofNat 8 c.toNat

/-- The last entry of that name in the list of (name, type). -/
def lastNamed (n : Bytes) : List (Bytes × Ty) → Option Ty
  | [] => none
  | (k, t) :: r => match lastNamed n r with
    | some u => some u
    | none => if k = n then some t else none

/-- The functions declared in `.ksyms`. -/
def funcs (vs : List VarSecinfo) : List (Bytes × Ty) := vs.filterMap fun v => match v.type with
  | .func n => some (n, .func n)
  | _ => none

/-- The variables declared in `.ksyms`. -/
def vars (vs : List VarSecinfo) : List (Bytes × Ty) := vs.filterMap fun v => match v.type with
  | .var n t => some (n, .var n t)
  | _ => none

/-- Is an entry of `.ksyms` a function or a variable? -/
def funcOrVar (v : VarSecinfo) : Prop := (∃ n, v.type = .func n) ∨ ∃ n t, v.type = .var n t

/-- Descriptors that are open after the events. -/
def stillOpen : List Ev → List Nat → List Nat
  | [], l => l
  | .opened fd :: r, l => stillOpen r (fd :: l)
  | .closed fd :: r, l => stillOpen r (l.erase fd)
  | .create _ :: r, l => stillOpen r l

/-- The system calls made. -/
def creates : List Ev → List Attr
  | [] => []
  | .create a :: r => a :: creates r
  | _ :: r => creates r

end Ebpf.ElfVirtual.Spec
