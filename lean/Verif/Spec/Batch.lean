import Verif.Model.Batch
/-!
# Specification: batched iteration
-/
namespace Ebpf.BatchSpec
open Ebpf.Batch

variable {σ E : Type}

/-- A kernel that iterates over the elements `es` of a map. `At s t p`: in state `s` a call with this cursor continues after the first `p` elements. -/
structure Iterates (k : σ → Req → σ × Reply E) (m : MapRef) (es : List E) (At : σ → Option Bytes → Nat → Prop) : Prop where
  reply : ∀ s r p, r.map = m.id → r.outLen = max m.keySize 4 → At s r.inBatch p → p ≤ es.length → 0 < r.count →
    -- some elements, at most as many as asked for, and a cursor behind them
    ((k s r).2.err = none ∧ 0 < (k s r).2.elems.length ∧ (k s r).2.elems.length ≤ r.count ∧ p + (k s r).2.elems.length ≤ es.length ∧
      (k s r).2.elems = (es.drop p).take (k s r).2.elems.length ∧
      ∃ t, (k s r).2.out = some t ∧ ∀ old : Bytes, old.length = max m.keySize 4 → At (k s r).1 (some (t.take old.length ++ old.drop t.length)) (p + (k s r).2.elems.length)) ∨
    -- the rest
    ((k s r).2.err = some .enoent ∧ (k s r).2.elems = es.drop p) ∨
    -- the batch is too small
    ((k s r).2.err = some .enospc ∧ ∃ t, (k s r).2.out = some t ∧ ∀ old : Bytes, old.length = max m.keySize 4 → At (k s r).1 (some (t.take old.length ++ old.drop t.length)) p) ∨
    -- a failure in the middle that has no effect
    (r.inBatch ≠ none ∧ (k s r).2.out = none ∧ At (k s r).1 r.inBatch p ∧ ((k s r).2.err = some .other ∨ (k s r).2.err = some .efault))

/-! ### Linux -/

/-- The index in a cursor. -/
def index (t : Bytes) : Nat :=
  match t with
  | a :: b :: c :: d :: _ => (ByteOrder.get32 .little a b c d).toNat
  | _ => 0

/-- `array_map_get_next_key` from the cursor. -/
def arrayStart (len : Nat) (t : Option Bytes) : Nat :=
  match t with
  | none => 0
  | some t => if index t ≥ len then 0 else index t + 1

/-- The bucket to start with. -/
def htabStart (t : Option Bytes) : Nat :=
  match t with
  | none => 0
  | some t => index t

/-- kernel/bpf/syscall.c `generic_map_lookup_batch` for an array: the cursor is the last key. -/
def arrayKernel (es : List E) (s : Unit) (r : Req) : Unit × Reply E :=
  let p := arrayStart es.length r.inBatch
  let n := min r.count (es.length - p)
  (s, ⟨(es.drop p).take n, if n = 0 then none else some (ByteOrder.put32 .little (BitVec.ofNat 32 (p + n - 1))), if n < r.count then some .enoent else none⟩)

/-- kernel/bpf/hashtab.c `__htab_map_lookup_and_delete_batch`: whole buckets while there is room. `none_`: nothing found so far. -/
def htabLoop : Nat → List (List E) → Nat → Bool → List E × Nat × Option Errno
  | b, [], _, _ => ([], b, some .enoent)
  | b, x :: xs, room, none_ =>
    if x.length > room then ([], b, if none_ then some .enospc else none)
    else
      let r := htabLoop (b + 1) xs (room - x.length) (none_ && x.isEmpty)
      (x ++ r.1, r.2)

/-- The same with its cursor, the number of a bucket; deleting empties the buckets that were copied. -/
def htabKernel (s : List (List E)) (r : Req) : List (List E) × Reply E :=
  let b := htabStart r.inBatch
  let x := htabLoop b (s.drop b) r.count true
  (if r.delete then s.take b ++ List.replicate (x.2.1 - b) [] ++ s.drop x.2.1 else s, ⟨x.1, some (ByteOrder.put32 .little (BitVec.ofNat 32 x.2.1)), x.2.2⟩)

end Ebpf.BatchSpec
