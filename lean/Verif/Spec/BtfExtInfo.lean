import Verif.Model.BtfExtInfo
/-!
# Specification: func and line info, and the layout of `.BTF.ext`
-/
namespace Ebpf.BtfSpec
open Ebpf.Btf
variable {R : Type}

/-- The raw offsets at which instructions of the given widths start, the first one at `o`. -/
def starts : Nat → List Nat → List Nat
  | _, [] => []
  | o, w :: ws => o :: starts (o + w) ws

/-- The line an instruction is shown with: comments have no location. -/
def shownLine : Source → Line
  | .line l => l
  | .comment s => { file := [], text := s, number := 0, column := 0 }

/-- A line that fits the kernel's encoding: 22 bits for the line number, 10 bits for the column, no NUL in the strings. -/
def LineFits (l : Line) : Prop := l.number.toNat < 2 ^ 22 ∧ l.column.toNat < 2 ^ 10 ∧ 0#8 ∉ l.file ∧ 0#8 ∉ l.text

/-! ## `.BTF.ext` -/

/-- `struct bpf_func_info` with a byte offset. -/
def encFunc (bo : ByteOrder) (off id : BitVec 32) : Bytes := bo.put32 off ++ bo.put32 id

/-- Four words: `struct bpf_line_info` or `struct bpf_core_relo`. -/
def enc4 (bo : ByteOrder) (a b c d : BitVec 32) : Bytes := bo.put32 a ++ bo.put32 b ++ bo.put32 c ++ bo.put32 d

/-- `struct btf_ext_info_sec`: name, number of records, records. -/
def encSec {α : Type} (bo : ByteOrder) (enc : α → Bytes) (s : BitVec 32 × List α) : Bytes :=
  bo.put32 s.1 ++ bo.put32 (BitVec.ofNat 32 s.2.length) ++ (s.2.map enc).flatten

/-- The record size followed by the sections. -/
def encPart {α : Type} (bo : ByteOrder) (size : BitVec 32) (enc : α → Bytes) (ss : List (BitVec 32 × List α)) : Bytes :=
  bo.put32 size ++ (ss.map (encSec bo enc)).flatten

/-- `struct btf_ext_header` with the fields for CO-RE, then the three parts. -/
def encExt (bo : ByteOrder) (f l c : Bytes) : Bytes :=
  bo.put16 0xeB9F ++ [1, 0] ++ bo.put32 32 ++ enc4 bo 0 (BitVec.ofNat 32 f.length) (BitVec.ofNat 32 f.length) (BitVec.ofNat 32 l.length) ++
  bo.put32 (BitVec.ofNat 32 (f.length + l.length)) ++ bo.put32 (BitVec.ofNat 32 c.length) ++ f ++ l ++ c

/-- `struct btf_ext_header` as it was before CO-RE, then two parts. -/
def encExtOld (bo : ByteOrder) (f l : Bytes) : Bytes :=
  bo.put16 0xeB9F ++ [1, 0] ++ bo.put32 24 ++ enc4 bo 0 (BitVec.ofNat 32 f.length) (BitVec.ofNat 32 f.length) (BitVec.ofNat 32 l.length) ++ f ++ l

/-- The sections `ss` (name offset and records) are valid and mean `out` (name and records): names and sections aren't empty, all records are
`ok`. -/
inductive Decodes {α : Type} (look : BitVec 32 → Option Bytes) (ok : α → Prop) : List (BitVec 32 × List α) → List (Bytes × List α) → Prop
  | nil : Decodes look ok [] []
  | cons {off : BitVec 32} {name : Bytes} {rs : List α} {ss : List (BitVec 32 × List α)} {out : List (Bytes × List α)} :
      look off = some name → name ≠ [] → rs ≠ [] → rs.length < 2 ^ 32 → (∀ r ∈ rs, ok r) → Decodes look ok ss out →
      Decodes look ok ((off, rs) :: ss) ((name, rs) :: out)

/-- The offset is in bytes, eight for an instruction. -/
def encFuncRec (bo : ByteOrder) (r : FuncRec) : Bytes := encFunc bo (r.insnOff * 8) r.typeID

/-- The offset is in bytes. -/
def encLineRec (bo : ByteOrder) (r : LineRec) : Bytes := enc4 bo (r.insnOff * 8) r.fileOff r.lineOff r.lineCol

/-- The offset is in bytes. -/
def encReloRec (bo : ByteOrder) (r : ReloRec) : Bytes := enc4 bo (r.insnOff * 8) r.typeID r.accessOff r.kind

/-- An instruction offset whose byte offset is a 32 bit number. -/
def OffFits (off : BitVec 32) : Prop := off.toNat < 2 ^ 29

/-- The bytes are the given func or line infos. An empty list of sections may have any record size from 4 to 256. -/
def IsPart {α : Type} (bo : ByteOrder) (look : BitVec 32 → Option Bytes) (size : BitVec 32) (enc : α → Bytes) (ok : α → Prop) (bs : Bytes)
    (out : List (Bytes × List α)) : Prop :=
  (∃ ss, bs = encPart bo size enc ss ∧ Decodes look ok ss out) ∨ out = [] ∧ ∃ n : BitVec 32, 4 ≤ n.toNat ∧ n.toNat ≤ 256 ∧ bs = bo.put32 n

/-- `len` bytes at `off`, as far as there are any. -/
def slice (bs : Bytes) (off len : Nat) : Bytes := (bs.drop off).take len

/-! ## Accessors -/

/-- Decimal digits and their value. -/
def IsDec (s : Bytes) (n : Nat) : Prop :=
  s ≠ [] ∧ (∀ c ∈ s, 0x30 ≤ c.toNat ∧ c.toNat ≤ 0x39) ∧ n = s.foldl (fun a c => a * 10 + (c.toNat - 0x30)) 0

/-- Parts separated by colons. -/
def joinColon : List Bytes → Bytes
  | [] => []
  | [s] => s
  | s :: ss => s ++ 0x3a :: joinColon ss

end Ebpf.BtfSpec
