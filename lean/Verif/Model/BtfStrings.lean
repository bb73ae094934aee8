import Verif.Model.Memory
/-!
# Model of `btf/strings.go`

Strings are byte lists. A string table has at most one base: the base of split BTF is never itself split
(btf/unmarshal.go:54-56), so `base.bytes` is a plain table. The lookup cache is modelled by `lookupCached`.
The builder's Go map is an association list with unique keys; its iteration order is arbitrary, so encoding takes the
entries as any permutation.
-/
namespace Ebpf.Btf
open Ebpf.Memory (copyAt)

/-- btf/strings.go:16-22 `stringTable`; `base` are the bytes of the base table. -/
structure StrTab where
  base : Option Bytes
  bytes : Bytes
deriving DecidableEq

/-- btf/strings.go:40-60 `newStringTable`; `none` = error. -/
def newStringTable (bytes : Bytes) (base : Option Bytes) : Option StrTab :=
  let first : BitVec 32 := BitVec.ofNat 32 (base.getD []).length
  match bytes.getLast? with
  | none => some ⟨base, bytes⟩
  | some l =>
    if l ≠ 0 then none
    else if first = 0 ∧ bytes.head? ≠ some 0 then none
    else some ⟨base, bytes⟩

/-- Go `bytes.IndexByte(b, 0)`, giving the bytes before the NUL. -/
def untilNul : Bytes → Option Bytes
  | [] => none
  | b :: bs => if b = 0 then some [] else (untilNul bs).map (b :: ·)

/-- btf/strings.go:90-104: the part of `lookupSlow` concerning one table. -/
def lookupIn (b : Bytes) (off : BitVec 32) : Option Bytes :=
  if off > BitVec.ofNat 32 b.length then none
  else if off > 0 ∧ b[off.toNat - 1]? ≠ some 0 then none
  else untilNul (b.drop off.toNat)

/-- btf/strings.go:81-104 `lookupSlow`. -/
def StrTab.lookupSlow (st : StrTab) (off : BitVec 32) : Option Bytes :=
  match st.base with
  | none => lookupIn st.bytes off
  | some b =>
    if off < BitVec.ofNat 32 b.length then lookupIn b off
    else lookupIn st.bytes (off - BitVec.ofNat 32 b.length)

/-- btf/strings.go:62-70 `Lookup` and 72-79 `LookupBytes`. -/
def StrTab.lookup (st : StrTab) (off : BitVec 32) : Option Bytes :=
  if off = 0 then some [] else st.lookupSlow off

/-- btf/strings.go:108-131 `LookupCached`: result and new cache. -/
def StrTab.lookupCached (st : StrTab) (cache : List (BitVec 32 × Bytes)) (off : BitVec 32) :
    Option Bytes × List (BitVec 32 × Bytes) :=
  if off = 0 then (some [], cache)
  else match cache.lookup off with
    | some s => (some s, cache)
    | none =>
      match st.lookup off with
      | none => (none, cache)
      | some s => (some s, (off, s) :: cache)

/-- btf/strings.go:134-137 `stringTableBuilder`. -/
structure Builder where
  length : BitVec 32
  strings : List (Bytes × BitVec 32)

/-- btf/strings.go:173-178 `append`; the string is not in the map yet. -/
def Builder.append (b : Builder) (s : Bytes) : BitVec 32 × Builder :=
  (b.length, ⟨b.length + (BitVec.ofNat 32 s.length + 1), (s, b.length) :: b.strings⟩)

/-- btf/strings.go:142-156 `newStringTableBuilder`. -/
def Builder.new : Builder := ((⟨0, []⟩ : Builder).append []).2

/-- btf/strings.go:161-171 `Add`; `none` = error. -/
def Builder.add (b : Builder) (s : Bytes) : Option (BitVec 32 × Builder) :=
  if 0#8 ∈ s then none
  else match b.strings.lookup s with
    | some off => some (off, b)
    | none => some (b.append s)

/-- A history of `Add` calls; the offsets returned. -/
def Builder.addAll : Builder → List Bytes → Option (List (BitVec 32) × Builder)
  | b, [] => some ([], b)
  | b, s :: ss =>
    match b.add s with
    | none => none
    | some (o, b) =>
      match Builder.addAll b ss with
      | none => none
      | some (os, b) => some (o :: os, b)

/-- btf/strings.go:198-206 `AppendEncoded`: the appended bytes; `entries` is the map in iteration order. -/
def encodeStrings (length : BitVec 32) (entries : List (Bytes × BitVec 32)) : Bytes :=
  entries.foldl (fun buf e => (copyAt buf e.2.toNat e.1).1) (List.replicate length.toNat 0)

end Ebpf.Btf
