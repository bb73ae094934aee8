import Verif.Model.Sysenc
/-! # Specification for C92: the kernel's side of single-element map operations

Linux: kernel/bpf/syscall.c `map_lookup_elem`, `map_update_elem`, `map_delete_elem`,
`map_lookup_and_delete_elem`, `map_get_next_key`, `bpf_copy_key`. A map is a finite dictionary from
keys of exactly `key_size` bytes to values of exactly `value_size` bytes (for per-CPU maps, the
rounded-up values of all possible CPUs one after the other). -/
namespace Ebpf.MapOps

/-- Error numbers. -/
inductive Errno where
  | ENOENT | EEXIST | ENOTSUPP | E2BIG | EFAULT | EINVAL | EBADF
  | other (n : Nat)
deriving DecidableEq

/-- What a system call does: succeed, fail, or read or write memory outside of the buffers it was given. -/
inductive Ans (α : Type) where
  | ok (a : α)
  | errno (e : Errno)
  | oob
deriving DecidableEq

/-- User memory behind a pointer: `none` is the null pointer, otherwise the bytes the pointer may be
used for. -/
abbrev Ptr := Option Bytes

/-- `copy_from_user`. -/
def readUser (p : Ptr) (n : Nat) : Ans Bytes :=
  if n = 0 then .ok []
  else match p with
    | none => .errno .EFAULT
    | some b => if b.length < n then .oob else .ok (b.take n)

/-- `copy_to_user`: the new contents of the memory. -/
def writeUser (p : Ptr) (v : Bytes) : Ans Bytes :=
  if v = [] then .ok (p.getD [])
  else match p with
    | none => .errno .EFAULT
    | some b => if b.length < v.length then .oob else .ok (v ++ b.drop v.length)

/-- What a map holds. -/
abbrev Dict := List (Bytes × Bytes)

/-- The value of a key. -/
def Dict.get (d : Dict) (k : Bytes) : Option Bytes := d.lookup k

/-- Remove a key. -/
def Dict.del (d : Dict) (k : Bytes) : Dict := d.filter (fun e => e.1 ≠ k)

/-- Set a key. -/
def Dict.set (d : Dict) (k v : Bytes) : Dict := (k, v) :: d.del k

/-- An open descriptor and the object (by its id) that it refers to. -/
abbrev Fds := List (Nat × Nat)

/-- What the kernel holds: the map, and the descriptors of the process. -/
structure World where
  dict : Dict
  fds : Fds
deriving DecidableEq

/-- The map in the kernel: sizes and, for maps of maps and program arrays, that values are references:
descriptors are written, ids are read. -/
structure KMap where
  keySize : Nat
  valueSize : Nat
  refs : Bool
  /-- Before 4.4.132: no null keys in `BPF_MAP_GET_NEXT_KEY`. -/
  old : Bool
deriving DecidableEq

/-- `bpf_copy_key`: maps without keys require a null pointer. -/
def copyKey (k : KMap) (p : Ptr) : Ans Bytes :=
  if k.keySize = 0 then (if p = none then .ok [] else .errno .EINVAL) else readUser p k.keySize

/-- `BPF_MAP_LOOKUP_ELEM`. `refuse` is any other reason to fail. The result is the contents of the
value memory. -/
def kLookup (k : KMap) (refuse : Option Errno) (d : Dict) (key value : Ptr) : Ans Bytes :=
  match refuse with
  | some e => .errno e
  | none =>
    match copyKey k key with
    | .oob => .oob
    | .errno e => .errno e
    | .ok kb =>
      match d.get kb with
      | none => .errno .ENOENT
      | some v => writeUser value v

/-- The bytes a map stores for the bytes written by the user: maps of maps and program arrays take a
descriptor and store the id. -/
def stored (k : KMap) (bo : ByteOrder) (fds : Fds) (v : Bytes) : Ans Bytes :=
  if k.refs then
    match v with
    | [a, b, c, d] =>
      match fds.lookup (bo.get32 a b c d).toNat with
      | none => .errno .EBADF
      | some id => .ok (bo.put32 (BitVec.ofNat 32 id))
    | _ => .errno .EINVAL
  else .ok v

/-- `BPF_MAP_UPDATE_ELEM` with `BPF_ANY` 0, `BPF_NOEXIST` 1, `BPF_EXIST` 2, optionally with `BPF_F_LOCK` 4. -/
def kUpdate (k : KMap) (bo : ByteOrder) (refuse : Option Errno) (w : World) (key value : Ptr) (flags : Nat) : Ans World :=
  match refuse with
  | some e => .errno e
  | none =>
    match copyKey k key with
    | .oob => .oob
    | .errno e => .errno e
    | .ok kb =>
      match readUser value k.valueSize with
      | .oob => .oob
      | .errno e => .errno e
      | .ok v =>
        if 8 ≤ flags ∨ flags % 4 = 3 then .errno .EINVAL
        else if flags % 4 = 1 ∧ (w.dict.get kb).isSome then .errno .EEXIST
        else if flags % 4 = 2 ∧ (w.dict.get kb).isNone then .errno .ENOENT
        else match stored k bo w.fds v with
          | .oob => .oob
          | .errno e => .errno e
          | .ok v => .ok { w with dict := w.dict.set kb v }

/-- `BPF_MAP_DELETE_ELEM`. -/
def kDelete (k : KMap) (refuse : Option Errno) (w : World) (key : Ptr) : Ans World :=
  match refuse with
  | some e => .errno e
  | none =>
    match copyKey k key with
    | .oob => .oob
    | .errno e => .errno e
    | .ok kb => if (w.dict.get kb).isNone then .errno .ENOENT else .ok { w with dict := w.dict.del kb }

/-- `BPF_MAP_LOOKUP_AND_DELETE_ELEM`. -/
def kLookupAndDelete (k : KMap) (refuse : Option Errno) (w : World) (key value : Ptr) : Ans (World × Bytes) :=
  match refuse with
  | some e => .errno e
  | none =>
    match copyKey k key with
    | .oob => .oob
    | .errno e => .errno e
    | .ok kb =>
      match w.dict.get kb with
      | none => .errno .ENOENT
      | some v =>
        match writeUser value v with
        | .oob => .oob
        | .errno e => .errno e
        | .ok mem => .ok ({ w with dict := w.dict.del kb }, mem)

/-- The key after `k` in the order of the map; the first one if `k` is not in the map. -/
def Dict.after (d : Dict) (k : Bytes) : Option Bytes :=
  if (d.get k).isSome then (d.dropWhile (fun e => e.1 ≠ k)).tail.head?.map (·.1) else d.head?.map (·.1)

/-- `BPF_MAP_GET_NEXT_KEY`. -/
def kNextKey (k : KMap) (refuse : Option Errno) (d : Dict) (key next : Ptr) : Ans Bytes :=
  match refuse with
  | some e => .errno e
  | none =>
    if key = none ∧ k.old = false then
      match d.head? with
      | none => .errno .ENOENT
      | some e => writeUser next e.1
    else
      match copyKey k key with
      | .oob => .oob
      | .errno e => .errno e
      | .ok kb =>
        match d.after kb with
        | none => .errno .ENOENT
        | some n => writeUser next n

end Ebpf.MapOps
