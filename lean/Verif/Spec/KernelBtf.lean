import Verif.Model.KernelBtf
/-!
# Where BTF comes from
-/
namespace Ebpf.KernelBtf.Spec

open Ebpf.KernelBtf

/-- A symbol that counts: in a section and within 32 bits. -/
def Counts (s : Sym) : Prop := s.sec.toNat < 0xff00 ∧ s.value.toNat < 2 ^ 32

/-- A section whose size counts. -/
def Sized (s : Sec) : Prop := s.name ≠ ".BTF".toList ∧ (s.typ = .progbits ∨ s.typ = .nobits)

/-- The last element of the list satisfying p. -/
def Last {α : Type} (l : List α) (p : α → Prop) (x : α) : Prop := ∃ a b, l = a ++ x :: b ∧ p x ∧ ∀ y ∈ b, ¬ p y

/-- The sizes are those of the last sections of each name. -/
def SizesOf (e : Elf) (m : Name → Option (BitVec 32)) : Prop :=
  ∀ n v, m n = some v ↔ ∃ s, Last e.sections (fun s => s.name = n ∧ Sized s) s ∧ v.toNat = s.size.toNat

/-- The symbol is of this name in a section of that name. -/
def At (e : Elf) (sec n : Name) (s : Sym) : Prop := Counts s ∧ s.name = n ∧ ∃ x, e.sections[s.sec.toNat]? = some x ∧ x.name = sec

/-- The offsets are those of the last symbols of each name in sections of each name. -/
def OffsetsOf (e : Elf) (l : List Sym) (m : Name → Name → Option (BitVec 32)) : Prop :=
  ∀ sec n v, m sec n = some v ↔ ∃ s, Last l (At e sec n) s ∧ v.toNat = s.value.toNat

/-- An ELF whose BTF can be loaded, what it is decoded from. -/
def ElfSpec (env : Env) (e : Elf) (s : Spec) : Prop :=
  (∀ x ∈ e.sections, Sized x → x.size.toNat < 2 ^ 32) ∧
  (∃ b, Last e.sections (fun x => x.name = ".BTF".toList) b ∧ b.data = some s.raw) ∧
  env.decode s.raw none = some e.big ∧ s.base = none ∧
  ∃ l d, e.symbols = some l ∧ (∀ y ∈ l, Counts y → y.sec.toNat < e.sections.length) ∧ s.elf = some d ∧ SizesOf e d.sizes ∧ OffsetsOf e l d.offsets

/-- What a file gives: BTF of an ELF, or else as it is. -/
def FileSpec (env : Env) (f : File) (s : Spec) : Prop :=
  (∃ e, env.elf f.content = some e ∧ ElfSpec env e s) ∨
  (env.elf f.content = none ∧ f.readOk = true ∧ s.raw = f.content ∧ s.base = none ∧ s.elf = none ∧ ∃ o, env.decode f.content none = some o)

/-- The file is the first of the list that can't be said not to exist. -/
def First (env : Env) (l : List Name) (p : Name) : Prop :=
  ∃ a b, l = a ++ p :: b ∧ (∀ q ∈ a, env.fopen q = .error .notExist) ∧ env.fopen p ≠ .error .notExist

/-- The places a vmlinux is looked for. -/
def Places (r : Name) : List Name :=
  [ "/boot/vmlinux-".toList ++ r,
    "/lib/modules/".toList ++ r ++ "/vmlinux-".toList ++ r,
    "/lib/modules/".toList ++ r ++ "/build/vmlinux".toList,
    "/usr/lib/modules/".toList ++ r ++ "/kernel/vmlinux".toList,
    "/usr/lib/debug/boot/vmlinux-".toList ++ r,
    "/usr/lib/debug/boot/vmlinux-".toList ++ r ++ ".debug".toList,
    "/usr/lib/debug/lib/modules/".toList ++ r ++ "/vmlinux".toList ]

/-- The kernel's own BTF. -/
def Own : Name := "/sys/kernel/btf/vmlinux".toList

/-- Every file opened is closed once, after it was opened; a mapping is unmapped, or becomes the spec's. -/
inductive Tidy : List Ev → Prop
  | nil : Tidy []
  | file (p : Name) (t u : List Ev) : Tidy t → Tidy u → Tidy (.opened p :: t ++ .closed p :: u)
  | freed (t : List Ev) : Tidy t → Tidy (.mapped :: .unmapped :: t)
  | kept (t : List Ev) : Tidy t → Tidy (.mapped :: .owned :: t)

/-- Sorted names. -/
def SortedNames : List Name → Prop
  | [] => True
  | a :: l => (∀ b ∈ l, a ≤ b) ∧ SortedNames l

end Ebpf.KernelBtf.Spec
