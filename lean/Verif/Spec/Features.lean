import Verif.Model.Features
/-!
# Specification: what Linux answers, and what a feature probe should find

Written from the Linux sources (kernel/bpf/syscall.c: map_create, bpf_prog_load, link_create; the `map_alloc_check`s in
kernel/bpf; kernel/bpf/verifier.c: check_helper_call; kernel/trace/bpf_trace.c), not from the probes.
-/
namespace Ebpf.FeaturesSpec
open Ebpf.Features

/-- A running kernel. -/
structure Kernel where
  /-- the map types it has -/
  types : Nat → Bool
  /-- the flags a map type takes -/
  flags : Nat → Nat
  /-- the size of union bpf_attr -/
  union : Nat
  /-- the end of the last field of union bpf_attr that BPF_MAP_CREATE knows -/
  last : Nat
  page : Nat
  /-- sizeof(struct bpf_cgroup_storage_key), and whether a key of 8 bytes will do, too (from Linux 5.9 on) -/
  storageKey : Nat
  shortKey : Bool
  /-- descriptors that are open in the process -/
  opened : Nat → Bool
  /-- type IDs of vmlinux which are struct_ops -/
  structOps : Nat → Bool
  /-- the program types it has -/
  progTypes : Nat → Bool
  /-- whether it knows prog_load.expected_attach_type -/
  knowsAttach : Bool
  /-- the helpers it has at all, and those a program type may call -/
  helpers : Nat → Bool
  allowed : Nat → Nat → Bool
  uprobeMulti : Bool
  kprobeMulti : Bool
  kprobeSession : Bool

/-- Where the fields of BPF_MAP_CREATE end in union bpf_attr (include/uapi/linux/bpf.h), and what they are set to. -/
def fields (a : Attr) : List (Nat × Nat) :=
  [(4, a.mapType), (8, a.keySize), (12, a.valueSize), (16, a.maxEntries), (20, a.mapFlags), (24, a.innerMapFd), (52, a.btfFd),
   (56, a.btfKeyTypeId), (60, a.btfValueTypeId), (64, a.btfVmlinuxValueTypeId), (72, a.mapExtra)]

/-- A power of two. -/
def Pow2 (n : Nat) : Prop := ∃ k, n = 2 ^ k

/-- What the map types ask of their attributes: `map_alloc_check`, before anything is allocated. -/
def Shape (k : Kernel) (a : Attr) : Prop :=
  match a.mapType with
  -- hashes (htab_map_alloc_check)
  | 1 | 5 | 9 | 10 => 0 < a.keySize ∧ 0 < a.valueSize ∧ 0 < a.maxEntries
  -- arrays (array_map_alloc_check)
  | 2 | 6 => a.keySize = 4 ∧ 0 < a.valueSize ∧ 0 < a.maxEntries
  -- arrays of descriptors (fd_array_map_alloc_check)
  | 3 | 4 | 8 | 12 => a.keySize = 4 ∧ a.valueSize = 4 ∧ 0 < a.maxEntries
  -- hashes of descriptors (fd_htab_map_alloc_check)
  | 13 => 0 < a.keySize ∧ a.valueSize = 4 ∧ 0 < a.maxEntries
  -- stack traces (stack_map_alloc)
  | 7 => a.keySize = 4 ∧ 8 ≤ a.valueSize ∧ a.valueSize % 8 = 0 ∧ 0 < a.maxEntries
  -- tries (trie_alloc): a prefix length and at least one byte; never preallocated
  | 11 => 5 ≤ a.keySize ∧ a.keySize ≤ 260 ∧ 0 < a.valueSize ∧ 0 < a.maxEntries ∧ a.mapFlags.testBit 0 = true
  -- devices, CPUs, sockets
  | 14 | 25 | 15 | 16 => a.keySize = 4 ∧ (a.valueSize = 4 ∨ a.valueSize = 8) ∧ 0 < a.maxEntries
  | 17 => a.keySize = 4 ∧ a.valueSize = 4 ∧ 0 < a.maxEntries
  | 18 => 0 < a.keySize ∧ (a.valueSize = 4 ∨ a.valueSize = 8) ∧ 0 < a.maxEntries
  | 20 => a.keySize = 4 ∧ (a.valueSize = 4 ∨ a.valueSize = 8) ∧ 0 < a.maxEntries
  -- storage of cgroups (cgroup_storage_map_alloc)
  | 19 | 21 => (a.keySize = k.storageKey ∨ k.shortKey = true ∧ a.keySize = 8) ∧ 0 < a.valueSize ∧ a.maxEntries = 0
  -- queues, stacks, Bloom filters
  | 22 | 23 | 30 => a.keySize = 0 ∧ 0 < a.valueSize ∧ 0 < a.maxEntries
  -- local storage (bpf_local_storage_map_alloc_check)
  | 24 | 28 | 29 | 32 => a.keySize = 4 ∧ 0 < a.valueSize ∧ a.maxEntries = 0 ∧ a.mapFlags.testBit 0 = true ∧ a.btfKeyTypeId ≠ 0 ∧ a.btfValueTypeId ≠ 0
  -- struct_ops (bpf_struct_ops_map_alloc_check)
  | 26 => a.keySize = 4 ∧ a.maxEntries = 1 ∧ a.btfVmlinuxValueTypeId ≠ 0
  -- ring buffers (ringbuf_map_alloc)
  | 27 | 31 => a.keySize = 0 ∧ a.valueSize = 0 ∧ Pow2 a.maxEntries ∧ a.maxEntries % k.page = 0
  -- arenas (arena_map_alloc)
  | 33 => a.keySize = 0 ∧ a.valueSize = 0 ∧ 0 < a.maxEntries ∧ a.mapFlags.testBit 10 = true ∧ a.mapExtra % k.page = 0
  | _ => True

/-- What holds for all map types (map_create): the flags are among those of the type, type IDs of vmlinux are for struct_ops, a key
has a value. -/
def Common (k : Kernel) (a : Attr) : Prop :=
  (∀ i, a.mapFlags.testBit i = true → (k.flags a.mapType).testBit i = true) ∧
  (a.btfVmlinuxValueTypeId ≠ 0 → a.mapType = 26 ∧ a.btfKeyTypeId = 0 ∧ a.btfValueTypeId = 0) ∧
  (a.btfKeyTypeId ≠ 0 → a.btfValueTypeId ≠ 0)

/-- Errors by which a probe tells something; every other one may come at any time (no memory, no permission, …). -/
def Telling (e : Nat) : Prop := e = 22 ∨ e = 7 ∨ e = 9 ∨ e = 13 ∨ e = 95 ∨ e = 524

/-- The kernel's answers to BPF_MAP_CREATE. -/
inductive MapAnswer (k : Kernel) (a : Attr) : Except Nat Unit → Prop where
  | fault (e : Nat) (h : ¬ Telling e) : MapAnswer k a (.error e)
  /-- E2BIG: something set beyond the union -/
  | tooBig (h : ∃ f ∈ fields a, k.union < f.1 ∧ f.2 ≠ 0) : MapAnswer k a (.error 7)
  /-- EINVAL: something set that isn't known yet -/
  | tooNew (h : ∃ f ∈ fields a, k.last < f.1 ∧ f.2 ≠ 0) (hb : ∀ f ∈ fields a, k.union < f.1 → f.2 = 0) : MapAnswer k a (.error 22)
  /-- EINVAL: no such type, or not what the type asks for -/
  | invalid (hb : ∀ f ∈ fields a, k.last < f.1 → f.2 = 0) (h : ¬ (k.types a.mapType = true ∧ Shape k a ∧ Common k a)) : MapAnswer k a (.error 22)
  /-- EBADF: not the descriptor of a map, or of BTF -/
  | badInner (hb : ∀ f ∈ fields a, k.last < f.1 → f.2 = 0) (ht : k.types a.mapType = true) (hs : Shape k a) (hc : Common k a)
      (h : (a.mapType = 12 ∨ a.mapType = 13) ∧ k.opened a.innerMapFd = false) : MapAnswer k a (.error 9)
  | badBtf (hb : ∀ f ∈ fields a, k.last < f.1 → f.2 = 0) (ht : k.types a.mapType = true) (hs : Shape k a) (hc : Common k a)
      (h : a.btfValueTypeId ≠ 0 ∧ k.opened a.btfFd = false) : MapAnswer k a (.error 9)
  /-- ENOTSUPP: not a struct_ops type -/
  | notStructOps (hb : ∀ f ∈ fields a, k.last < f.1 → f.2 = 0) (ht : k.types a.mapType = true) (hs : Shape k a) (hc : Common k a)
      (h : a.mapType = 26 ∧ k.structOps a.btfVmlinuxValueTypeId = false) : MapAnswer k a (.error 524)
  | created (hb : ∀ f ∈ fields a, k.last < f.1 → f.2 = 0) (ht : k.types a.mapType = true) (hs : Shape k a) (hc : Common k a)
      (h1 : a.mapType = 12 ∨ a.mapType = 13 → k.opened a.innerMapFd = true) (h2 : a.btfValueTypeId ≠ 0 → k.opened a.btfFd = true)
      (h3 : a.mapType = 26 → k.structOps a.btfVmlinuxValueTypeId = true) : MapAnswer k a (.ok ())

/-- What bpf_prog_load_check_attach asks for, beside the fields being known. -/
def ProgShape (r : ProgReq) : Prop :=
  match r.progType with
  | 18 => r.attachType ∈ [8, 9, 10, 11, 14, 15, 19, 20, 29, 30, 31, 32, 49, 50, 51, 52, 53] ∧ r.sleepable = false
  | 25 => r.attachType ∈ [21, 22] ∧ r.sleepable = false
  | 27 => r.gpl = true
  | 30 => r.attachType = 36 ∧ r.sleepable = false
  | 31 => r.sleepable = true
  | 32 => r.attachType = 45 ∧ r.sleepable = false
  | 2 => True
  | _ => r.attachType = 0 ∧ r.sleepable = false

/-- A line of the log with this in it. -/
def Mentions (line phrase : List Char) : Prop := ∃ a b, line = a ++ phrase ++ b

/-- The line is among the last five of the log. -/
def Recent (log : List (List Char)) (line : List Char) : Prop := ∃ a b, log = a ++ line :: b ∧ b.length < 5

/-- The number of a helper as the kernel prints it, with %d. -/
def shown (n : Nat) : List Char := if n < 2 ^ 31 then (toString n).toList else '-' :: (toString (2 ^ 32 - n)).toList

/-- The lines by which the verifier refuses a helper (4.9 to today). -/
def Refusal (n : Nat) (unknown : Bool) (line : List Char) : Prop :=
  if unknown = true then ∃ name, line = "invalid func ".toList ++ name ++ '#' :: shown n
  else (∃ name, line = "program of this type cannot use helper ".toList ++ name ++ '#' :: shown n) ∨
    ∃ what, line = "unknown func ".toList ++ what

/-- The kernel's answers to BPF_PROG_LOAD for programs that do nothing but call a helper, if that, without setting up its arguments. -/
inductive LoadAnswer (k : Kernel) (r : ProgReq) : LoadRes → Prop where
  | fault (e : Nat) (h : ¬ Telling e) : LoadAnswer k r (.other e)
  | faultLog (e : Nat) (log : List (List Char)) (h : ¬ Telling e) : LoadAnswer k r (.verifier e log)
  /-- E2BIG: something set beyond the union, EINVAL: something set that isn't known yet -/
  | tooNew (e : Nat) (h : r.attachType ≠ 0 ∧ k.knowsAttach = false) (he : e = 7 ∨ e = 22) : LoadAnswer k r (.verifier e [])
  | invalid (hk : r.attachType ≠ 0 → k.knowsAttach = true) (h : ¬ (k.progTypes r.progType = true ∧ ProgShape r)) : LoadAnswer k r (.verifier 22 [])
  /-- ENOTSUPP: no struct_ops type given -/
  | noStructOps (hk : r.attachType ≠ 0 → k.knowsAttach = true) (ht : k.progTypes r.progType = true) (hs : ProgShape r) (h : r.progType = 27) :
      LoadAnswer k r (.verifier 524 [])
  | loaded (hk : r.attachType ≠ 0 → k.knowsAttach = true) (ht : k.progTypes r.progType = true) (hs : ProgShape r) (hn : r.progType ≠ 27)
      (h : ∀ n, r.helper = some n → k.helpers n = true ∧ k.allowed r.progType n = true) : LoadAnswer k r .loaded
  /-- the helper is refused -/
  | refused (hk : r.attachType ≠ 0 → k.knowsAttach = true) (ht : k.progTypes r.progType = true) (hs : ProgShape r) (hn : r.progType ≠ 27) (n : Nat)
      (h : r.helper = some n) (h2 : ¬ (k.helpers n = true ∧ k.allowed r.progType n = true)) (log : List (List Char))
      (hl : ∃ line, Recent log line ∧ Refusal n (!k.helpers n) line) : LoadAnswer k r (.verifier 22 log)
  /-- the helper is refused, and has one of the numbers by which the library marks calls that can't be resolved (prog.go:279-284) -/
  | poison (hk : r.attachType ≠ 0 → k.knowsAttach = true) (ht : k.progTypes r.progType = true) (hs : ProgShape r) (hn : r.progType ≠ 27) (n : Nat)
      (h : r.helper = some n) (h2 : ¬ (k.helpers n = true ∧ k.allowed r.progType n = true)) (log : List (List Char))
      (hp : n = 195896080 ∨ n = 2002000000) : LoadAnswer k r (.poison log)
  /-- the helper isn't refused, but what it is given is -/
  | badArgs (hk : r.attachType ≠ 0 → k.knowsAttach = true) (ht : k.progTypes r.progType = true) (hs : ProgShape r) (hn : r.progType ≠ 27) (n : Nat)
      (h : r.helper = some n) (h2 : k.helpers n = true ∧ k.allowed r.progType n = true) (e : Nat) (he : e = 13 ∨ e = 22) (log : List (List Char))
      (hl : ∀ line ∈ log, ¬ Mentions line "invalid func".toList ∧ ¬ Mentions line "program of this type cannot use helper".toList ∧
        ¬ Mentions line "unknown func".toList) : LoadAnswer k r (.verifier e log)

/-- Whether the kernel has the kind of link asked for. -/
def LinkKnown (k : Kernel) (r : LinkReq) : Prop :=
  if r.uprobe = true then r.attachType = 48 ∧ k.uprobeMulti = true
  else r.attachType = 42 ∧ k.kprobeMulti = true ∨ r.attachType = 56 ∧ k.kprobeSession = true

/-- The kernel's answers to BPF_LINK_CREATE. The path given is "/" or something else; only a regular file can be probed. -/
inductive LinkAnswer (k : Kernel) (r : LinkReq) : Except Nat Unit → Prop where
  | fault (e : Nat) (h : ¬ Telling e) : LinkAnswer k r (.error e)
  | unknown (h : ¬ LinkKnown k r ∨ r.count = 0) : LinkAnswer k r (.error 22)
  /-- EOPNOTSUPP: without fprobe -/
  | noFprobe (h : ¬ LinkKnown k r) (hu : r.uprobe = false) : LinkAnswer k r (.error 95)
  | notAFile (h : LinkKnown k r) (hc : r.count ≠ 0) (hu : r.uprobe = true) (hp : r.path = ['/']) : LinkAnswer k r (.error 9)
  | created (h : LinkKnown k r) (hc : r.count ≠ 0) (hp : r.uprobe = true → r.path ≠ ['/']) : LinkAnswer k r (.ok ())

/-- Facts about every Linux: it knows the fields and flags which its own map and program types need, hashes and arrays are always
there, a flag for maps was first introduced for them, IDs and descriptors are as they are. -/
structure Linux (k : Kernel) : Prop where
  last : 16 ≤ k.last
  order : k.last ≤ k.union
  union : 20 ≤ k.union
  page : Pow2 k.page
  page32 : k.page < 2 ^ 32
  minusOne : k.opened 0xffffffff = false
  intOne : k.structOps 1 = false
  noPrealloc : ∀ t, t = 11 ∨ t = 24 ∨ t = 28 ∨ t = 29 ∨ t = 32 → k.types t = true → 20 ≤ k.last ∧ (k.flags t).testBit 0 = true
  nested : ∀ t, t = 12 ∨ t = 13 → k.types t = true → 24 ≤ k.last
  localStorage : ∀ t, t = 24 ∨ t = 28 ∨ t = 29 ∨ t = 32 → k.types t = true → 60 ≤ k.last
  structOpsMap : k.types 26 = true → 64 ≤ k.last
  arena : k.types 33 = true → 20 ≤ k.last ∧ (k.flags 33).testBit 10 = true
  always : k.types 1 = true ∧ k.types 2 = true
  first : ∀ t i, k.types t = true → (k.flags t).testBit i = true → i = 7 ∨ i = 8 ∨ i = 10 ∨ i = 12 → (k.flags 2).testBit i = true
  firstHash : ∀ t, k.types t = true → (k.flags t).testBit 0 = true → (k.flags 1).testBit 0 = true
  attach : ∀ t, t = 18 ∨ t = 25 ∨ t = 30 ∨ t = 32 → k.progTypes t = true → k.knowsAttach = true
  helper : ∀ t n, k.allowed t n = true → k.helpers n = true
  linkAttach : k.knowsAttach = false → k.uprobeMulti = false ∧ k.kprobeMulti = false ∧ k.kprobeSession = false

/-- The system calls of a process on this kernel. New descriptors are ones that aren't open. -/
structure On (k : Kernel) (s : Sys) : Prop where
  create : ∀ a, MapAnswer k a (s.create a)
  load : ∀ r, LoadAnswer k r (s.load r)
  link : ∀ r, LinkAnswer k r (s.link r)
  pick : ∀ fds, s.pick fds ∉ fds

/-- The flag is there: some type takes it, and it can be given. -/
def HasFlag (k : Kernel) (i : Nat) : Prop := 20 ≤ k.last ∧ ∃ t, k.types t = true ∧ (k.flags t).testBit i = true

/-- A probe tells the truth, or nothing; and leaves no descriptor behind. -/
def Truthful (has : Prop) (fds : List Nat) (o : Out) : Prop :=
  (o.1 = none → has) ∧ (o.1 = some .notSupported → ¬ has) ∧ o.2 = fds

/-- A probe tells something. -/
def Conclusive (o : Out) : Prop := o.1 = none ∨ o.1 = some .notSupported

/-- Nothing is given away by chance: the errors are those by which the kernel answers. -/
def NoFaults (s : Sys) : Prop :=
  (∀ a e, s.create a = .error e → Telling e) ∧ (∀ r e, s.load r = .other e → Telling e) ∧ (∀ r e log, s.load r = .verifier e log → Telling e) ∧
  ∀ r e, s.link r = .error e → Telling e

/-- The kernel has this helper for programs of this type. -/
def HelperThere (k : Kernel) (pt n : Nat) : Prop := k.progTypes pt = true ∧ k.helpers n = true ∧ k.allowed pt n = true

end Ebpf.FeaturesSpec
