import Verif.Model.ElfMaps
/-!
# Which maps an object defines by structs
-/
namespace Ebpf.ElfMaps.Spec

open Ebpf.ElfMaps

/-- Four bytes as a number in a byte order. -/
def word (big : Bool) (a b c d : BitVec 8) : Nat :=
  if big then ((a.toNat * 256 + b.toNat) * 256 + c.toNat) * 256 + d.toNat
  else ((d.toNat * 256 + c.toNat) * 256 + b.toNat) * 256 + a.toNat

/-- A section of maps: its name begins with maps. -/
def Maps (sec : Sec) : Prop := ∃ r, sec.name = "maps".toList ++ r

/-- The symbol can stand for a map: it has a name and is an object, or has no type. -/
def Named (s : Sym) : Prop := s.name ≠ [] ∧ (s.typ = .notype ∨ s.typ = .object)

/-- The symbol defines a map in the section: no later one of the table is at the same place. -/
def Defines (o : Obj) (sec : Sec) (s : Sym) : Prop :=
  o.sections[s.sec]? = some sec ∧ Maps sec ∧ Named s ∧
    ∃ a b, o.symbols = a ++ s :: b ∧ ∀ t ∈ b, Named t → t.sec = s.sec → t.value ≠ s.value

/-- The bytes of a symbol: as far as the file has them. -/
def BytesOf (sec : Sec) (s : Sym) (b : Bytes) : Prop := b = (sec.data.drop s.value.toNat).take s.size.toNat

/-- The symbol lies within the section and has the five fields. -/
def Fits (sec : Sec) (s : Sym) : Prop :=
  s.value.toNat < 2 ^ 32 ∧ s.size.toNat < 2 ^ 32 ∧ s.value.toNat + s.size.toNat ≤ sec.size.toNat ∧ ∃ b, BytesOf sec s b ∧ 20 ≤ b.length

/-- BTF has only variables in the section. -/
def OnlyVars (o : Obj) (sec : Sec) : Prop := ∀ ds, o.btf sec.name = some ds → none ∉ ds

/-- The object can be loaded. -/
structure Good (o : Obj) : Prop where
  secs : ∀ i sec, o.sections[i]? = some sec → Maps sec → sec.direct = true ∧ OnlyVars o sec ∧ ∃ s, s.sec = i ∧ Defines o sec s
  fits : ∀ sec s, Defines o sec s → Fits sec s
  names : ∀ sec s sec' s', Defines o sec s → Defines o sec' s' → s.name = s'.name → s = s'

/-- The tags of a variable of BTF: the last one of this name. -/
def TagsOf (o : Obj) (sec : Sec) (n : Name) (tags : List Name) : Prop :=
  (∃ ds a b, o.btf sec.name = some ds ∧ ds = a ++ some (n, tags) :: b ∧ ∀ t, some (n, t) ∉ b) ∨
  (tags = [] ∧ ∀ ds t, o.btf sec.name = some ds → some (n, t) ∉ ds)

/-- A character allowed in the name of a map. -/
def Allowed (c : Char) : Prop :=
  (65 ≤ c.toNat ∧ c.toNat ≤ 90) ∨ (97 ≤ c.toNat ∧ c.toNat ≤ 122) ∨ (48 ≤ c.toNat ∧ c.toNat ≤ 57) ∨ c = '.' ∨ c = '_'

/-- The name without other characters. -/
inductive Sanitized : Name → Name → Prop
  | nil : Sanitized [] []
  | keep (c : Char) (n m : Name) : Allowed c → Sanitized n m → Sanitized (c :: n) (c :: m)
  | drop (c : Char) (n m : Name) : ¬ Allowed c → Sanitized n m → Sanitized (c :: n) m

/-- The spec is what the bytes of the symbol say. -/
def Describes (o : Obj) (sec : Sec) (s : Sym) (m : MapSpec) : Prop :=
  ∃ a0 a1 a2 a3 b0 b1 b2 b3 c0 c1 c2 c3 d0 d1 d2 d3 e0 e1 e2 e3 rest,
    BytesOf sec s ([a0, a1, a2, a3, b0, b1, b2, b3, c0, c1, c2, c3, d0, d1, d2, d3, e0, e1, e2, e3] ++ rest) ∧
    m.typ.toNat = word o.big a0 a1 a2 a3 ∧ m.keySize.toNat = word o.big b0 b1 b2 b3 ∧ m.valueSize.toNat = word o.big c0 c1 c2 c3 ∧
    m.maxEntries.toNat = word o.big d0 d1 d2 d3 ∧ m.flags.toNat = word o.big e0 e1 e2 e3 ∧
    (rest = [] → m.extra = none) ∧ (rest ≠ [] → m.extra = some rest) ∧
    Sanitized s.name m.name ∧ TagsOf o sec s.name m.tags

/-- The same sections, each with the same symbols in another order. -/
inductive Shuffled : List (Sec × List Sym) → List (Sec × List Sym) → Prop
  | nil : Shuffled [] []
  | cons (sec : Sec) (xs ys : List Sym) (l m : List (Sec × List Sym)) : xs.Perm ys → Shuffled l m → Shuffled ((sec, xs) :: l) ((sec, ys) :: m)

/-- An order in which the sections of maps and their symbols may be visited. -/
def Visit (o : Obj) (l : List (Sec × List Sym)) : Prop := ∃ m, Shuffled l m ∧ m.Perm (mapSections o)

/-- The last section whose name begins so. -/
def LastNamed (o : Obj) (p : Name) (sec : Sec) : Prop :=
  ∃ a b r, o.sections = a ++ sec :: b ∧ sec.name = p ++ r ∧ ∀ t ∈ b, ∀ r, t.name ≠ p ++ r

/-- No section's name begins so. -/
def NoneNamed (o : Obj) (p : Name) : Prop := ∀ t ∈ o.sections, ∀ r, t.name ≠ p ++ r

/-- The name begins so. -/
def Begins (n p : Name) : Prop := ∃ r, n = p ++ r

/-- A name with a meaning of its own. -/
def Reserved (n : Name) : Prop :=
  Begins n "license".toList ∨ Begins n "version".toList ∨ Begins n "maps".toList ∨ n = ".maps".toList ∨
  n = ".bss".toList ∨ Begins n ".data".toList ∨ Begins n ".rodata".toList

/-- A section of data: .bss, .data…, .rodata…. -/
def DataSec (s : Sec) : Prop := s.name = ".bss".toList ∨ Begins s.name ".data".toList ∨ Begins s.name ".rodata".toList

/-- A section of programs: code, of which there is some, under a name without a meaning of its own. -/
def ProgSec (s : Sec) : Prop := ¬ Reserved s.name ∧ s.typ = .progbits ∧ s.size.toNat ≠ 0 ∧ s.exec = true

/-- The old kind of struct_ops, which isn't supported. -/
def OldOps (s : Sec) : Prop := s.name = ".struct_ops".toList ∧ s.typ = .progbits ∧ s.size.toNat ≠ 0 ∧ s.exec = false

/-- The bytes without zeros at the end. -/
def Trimmed (b t : Bytes) : Prop := ∃ k, b = t ++ List.replicate k 0#8 ∧ t.getLast? ≠ some 0#8

/-- The license of an object: the last section of the name; none is the empty one. -/
def License (o : Obj) (l : Bytes) : Prop :=
  (∃ sec, LastNamed o "license".toList sec ∧ sec.data.length = sec.size.toNat ∧ Trimmed sec.data l) ∨ (NoneNamed o "license".toList ∧ l = [])

/-- The version of an object; none is 0. -/
def Version (o : Obj) (v : BitVec 32) : Prop :=
  (∃ sec a b c d r, LastNamed o "version".toList sec ∧ sec.data = a :: b :: c :: d :: r ∧ v.toNat = word o.big a b c d) ∨
  (NoneNamed o "version".toList ∧ v.toNat = 0)

end Ebpf.ElfMaps.Spec
