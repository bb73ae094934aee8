import Verif.Model.Program
/-!
# Model of `asm/instruction.go`: maps by symbol, symbols, references and tags of `Instructions`

A map is what its `FD()` gives. Go maps are association lists with distinct keys; errors keep only their kind.
-/
namespace Ebpf.Asm.Assoc
open Ebpf.Asm OpCode

/-- The errors of `AssociateMap`. -/
inductive Err where
  /-- "empty symbol" -/
  | empty
  /-- "not a load from a map" -/
  | notLoad
  /-- ErrUnreferencedSymbol -/
  | unreferenced
deriving DecidableEq, Repr

/-- asm/instruction.go:235-244 `Instruction.AssociateMap`. -/
def associateOne (i : PIns) (m : Int) : Option PIns :=
  if i.ins.isLoadFromMap then some { i with ref := "", map := some m } else none

/-- asm/instruction.go:624-636: the loop of `Instructions.AssociateMap`. The instructions as they are afterwards, and `found` or the error. -/
def loop (sym : String) (m : Int) : List PIns → Bool → List PIns × Except Err Bool
  | [], found => ([], .ok found)
  | i :: r, found =>
    if i.ref ≠ sym then (i :: (loop sym m r found).1, (loop sym m r found).2)
    else match associateOne i m with
      | none => (i :: r, .error .notLoad)
      | some j => (j :: (loop sym m r true).1, (loop sym m r true).2)

/-- asm/instruction.go:619-643 `Instructions.AssociateMap`: the instructions as they are afterwards, and the error. -/
def associateMap (sym : String) (m : Int) (p : List PIns) : List PIns × Option Err :=
  if sym = "" then (p, some .empty)
  else match loop sym m p false with
    | (q, .error e) => (q, some e)
    | (q, .ok found) => if found then (q, none) else (q, some .unreferenced)

/-- asm/instruction.go:647-663 `SymbolOffsets`, from instruction `n` on; `none` is the error for a duplicate symbol. -/
def symbolIndices : List PIns → Nat → List (String × Nat) → Option (List (String × Nat))
  | [], _, acc => some acc
  | i :: r, n, acc =>
    if i.sym = "" then symbolIndices r (n + 1) acc
    else if (acc.lookup i.sym).isSome then none
    else symbolIndices r (n + 1) ((i.sym, n) :: acc)

/-- `offsets[ref] = append(offsets[ref], n)`. -/
def addRef (ref : String) (n : Nat) : List (String × List Nat) → List (String × List Nat)
  | [] => [(ref, [n])]
  | (k, l) :: r => if k = ref then (k, l ++ [n]) :: r else (k, l) :: addRef ref n r

/-- asm/instruction.go:697-709 `ReferenceOffsets`, from instruction `n` on. -/
def referenceOffsets : List PIns → Nat → List (String × List Nat) → List (String × List Nat)
  | [], _, acc => acc
  | i :: r, n, acc => if i.ref = "" then referenceOffsets r (n + 1) acc else referenceOffsets r (n + 1) (addRef i.ref n acc)

/-- asm/instruction.go:593-598 `Name`. -/
def name : List PIns → String
  | [] => ""
  | i :: _ => i.sym

/-- encoding/hex `EncodeToString`. -/
def hexDigit (n : Nat) : Byte := if n < 10 then BitVec.ofNat 8 (48 + n) else BitVec.ofNat 8 (87 + n)

/-- encoding/hex `EncodeToString`. -/
def hex (b : Bytes) : Bytes := b.flatMap fun c => [hexDigit (c.toNat / 16), hexDigit (c.toNat % 16)]

/-- asm/instruction.go:824-846 `tagSha1`, `tagSha256`: `h` is the hash function; BPF_TAG_SIZE is 8. -/
def tagWith (h : Bytes → Bytes) (native : String) (bo : ByteOrder) (p : List PIns) : Except AsmErr Bytes :=
  match hashInput native bo (p.map (·.ins)) with
  | .error e => .error e
  | .ok b => .ok (hex ((h b).take 8))

/-- asm/instruction.go:800-804 `Tag`. -/
def tag (sha1 : Bytes → Bytes) (native : String) (bo : ByteOrder) (p : List PIns) : Except AsmErr Bytes := tagWith sha1 native bo p

/-- asm/instruction.go:807-822 `HasTag`. -/
def hasTag (sha1 sha256 : Bytes → Bytes) (native : String) (bo : ByteOrder) (p : List PIns) (t : Bytes) : Except AsmErr Bool :=
  match tagWith sha256 native bo p with
  | .error e => .error e
  | .ok a =>
    if t = a then .ok true
    else match tagWith sha1 native bo p with
      | .error e => .error e
      | .ok b => .ok (t = b)

end Ebpf.Asm.Assoc
