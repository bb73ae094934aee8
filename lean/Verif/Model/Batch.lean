import Verif.Base
/-!
# Model of batched map operations, `map.go:1245-1510`, and of `nextKey`, `map.go:1104-1240`

Keys and values are elements of a type `E` (encoding them is C12, C53); the kernel is any state machine.
-/
namespace Ebpf.Batch

/-- What a `*Map` is for these calls: which map, map.go:318-336. -/
structure MapRef where
  id : Nat
  keySize : Nat
  fullValueSize : Nat
  perCPU : Bool
deriving DecidableEq

/-- Errors of the system call. -/
inductive Errno where
  | enoent
  | enospc
  | efault
  | other
deriving DecidableEq

/-- `sys.MapLookupBatchAttr`; buffers by their length, except for the cursor read. -/
structure Req where
  map : Nat
  delete : Bool
  keysLen : Nat
  valuesLen : Nat
  count : Nat
  inBatch : Option Bytes
  outLen : Nat

/-- What the kernel does: elements copied to the front of the buffers (`attr.Count` is their number), bytes written to `OutBatch`, error. -/
structure Reply (E : Type) where
  elems : List E
  out : Option Bytes
  err : Option Errno

/-- map.go:1277-1281 `MapBatchCursor`. -/
structure Cursor where
  m : Option Nat
  opaque_ : Option Bytes

/-- Errors returned. -/
inductive Err where
  | notExist
  | noSpace
  | sys
  | unsupported
  | cursor
  | decode
  | lengths
deriving DecidableEq

variable {σ E : Type}

/-- The kernel writes to the front of a buffer. -/
def overlay (t old : Bytes) : Bytes := t.take old.length ++ old.drop t.length

/-- map.go:1342 `cursorLen`. -/
def cursorLen (m : MapRef) : Nat := max m.keySize 4

/-- map.go:1344-1355: `cursor.opaque` when the system call is made. -/
def cursorBuf (m : MapRef) (c : Cursor) : Bytes :=
  match c.opaque_ with
  | none => List.replicate (cursorLen m) 0#8
  | some b => b

/-- map.go:1357-1374: the system call. -/
def request (m : MapRef) (delete : Bool) (c : Cursor) (count : Nat) : Req :=
  ⟨m.id, delete, count * m.keySize, count * m.fullValueSize, count, c.opaque_, (cursorBuf m c).length⟩

/-- map.go:1344-1355: is this the first use, or is it the same map? -/
def cursorFits (m : MapRef) (c : Cursor) : Bool :=
  match c.opaque_ with
  | none => true
  | some _ => c.m = some m.id

/-- The cursor after the system call. -/
def cursorAfter (m : MapRef) (c : Cursor) (r : Reply E) : Cursor :=
  ⟨some m.id, some (match r.out with | some t => overlay t (cursorBuf m c) | none => cursorBuf m c)⟩

/-- map.go:1335-1388 `batchLookupCmd`: state, cursor, elements found in the buffers, error. `keysOk`: keyBuf.Unmarshal succeeds; `have_`: `haveBatchAPI`. -/
def batchLookupCmd (k : σ → Req → σ × Reply E) (have_ keysOk : Bool) (m : MapRef) (delete : Bool) (c : Cursor) (count : Nat) (s : σ) : σ × Cursor × List E × Option Err :=
  if cursorFits m c = false then (s, c, [], some .cursor)
  else
    let r := k s (request m delete c count)
    let c' := cursorAfter m c r.2
    match r.2.err with
    | none => if keysOk then (r.1, c', r.2.elems, none) else (r.1, c', [], some .decode)
    | some .enoent => if keysOk then (r.1, c', r.2.elems, some .notExist) else (r.1, c', [], some .decode)
    | some e => if have_ then (r.1, c', [], some (if e = .enospc then .noSpace else .sys)) else (r.1, c', [], some .unsupported)

/-- map.go:1283-1333 `batchLookup` and `batchLookupPerCPU`, for slices of these lengths. `valsOk`: decoding the values succeeds. -/
def batchLookup (k : σ → Req → σ × Reply E) (have_ keysOk valsOk : Bool) (m : MapRef) (delete : Bool) (c : Cursor) (keysLen valuesLen : Nat) (s : σ) : σ × Cursor × List E × Option Err :=
  if m.perCPU = false ∧ keysLen ≠ valuesLen then (s, c, [], some .lengths)
  else
    match batchLookupCmd k have_ keysOk m delete c keysLen s with
    | (s, c, es, none) => if valsOk then (s, c, es, none) else (s, c, [], some .decode)
    | (s, c, es, some .notExist) => if valsOk then (s, c, es, some .notExist) else (s, c, [], some .decode)
    | (s, c, _, some e) => (s, c, [], some e)

/-- A user calling it with slices of these lengths, one call after the other, until ErrKeyNotExist: state, cursor, all elements received, the errors. -/
def iterate (k : σ → Req → σ × Reply E) (m : MapRef) (delete : Bool) : List Nat → Cursor → σ → σ × Cursor × List E × List (Option Err)
  | [], c, s => (s, c, [], [])
  | n :: ns, c, s =>
    match batchLookup k true true true m delete c n n s with
    | (s, c, es, some .notExist) => (s, c, es, [some .notExist])
    | (s, c, es, e) =>
      let r := iterate k m delete ns c s
      (r.1, r.2.1, es ++ r.2.2.1, e :: r.2.2.2)

/-- A call of a user: map, deleting or not, lengths of the slices, whether they can be decoded. -/
structure Call where
  m : MapRef
  delete : Bool
  keysLen : Nat
  valuesLen : Nat
  have_ : Bool
  keysOk : Bool
  valsOk : Bool

/-- A user calling it with one cursor for any maps: the system calls made. -/
def requests (k : σ → Req → σ × Reply E) : List Call → Cursor → σ → List (MapRef × Req)
  | [], _, _ => []
  | a :: r, c, s =>
    let x := batchLookup k a.have_ a.keysOk a.valsOk a.m a.delete c a.keysLen a.valuesLen s
    if (a.m.perCPU = false ∧ a.keysLen ≠ a.valuesLen) ∨ cursorFits a.m c = false then requests k r x.2.1 x.1
    else (a.m, request a.m a.delete c a.keysLen) :: requests k r x.2.1 x.1

/-- map.go:1412-1438, 1456-1486 `batchUpdate`, `BatchDelete`: what the kernel left in `attr.Count`, if it wrote there, and its error. -/
def batchCountResult (have_ : Bool) (count : Nat) (written : Option Nat) (err : Option Errno) : Nat × Option Err :=
  match err with
  | none => (written.getD count, none)
  | some e => if have_ then (written.getD count, some (if e = .enoent then .notExist else .sys)) else (0, some .unsupported)

/-! ### The first key on old kernels -/

/-- map.go:1196-1230: the four guesses. -/
def guesses (keySize : Nat) (rand : Bytes) : List Bytes := [List.replicate keySize 0x00#8, List.replicate keySize 0xff#8, List.replicate keySize 0x55#8, rand]

/-- map.go:1196-1237 `guessNonExistentKey`: the first guess whose lookup says ErrKeyNotExist. -/
def guess (lookup : Bytes → Option Errno) : List Bytes → Option Bytes
  | [] => none
  | g :: gs => if lookup g = some .enoent then some g else guess lookup gs

/-- map.go:1136-1174 `nextKey`. -/
def nextKey (next : Option Bytes → Except Errno Bytes) (lookup : Bytes → Option Errno) (keySize : Nat) (rand : Bytes) (key : Option Bytes) : Except Err Bytes :=
  match next key with
  | .ok b => .ok b
  | .error e =>
    if key = none ∧ e = .efault then
      match guess lookup (guesses keySize rand) with
      | none => .error .sys
      | some g =>
        match next (some g) with
        | .ok b => .ok b
        | .error e => .error (if e = .enoent then .notExist else .sys)
    else .error (if e = .enoent then .notExist else .sys)

end Ebpf.Batch
