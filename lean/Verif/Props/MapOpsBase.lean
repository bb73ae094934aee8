import Verif.Model.MapOps
import Verif.Props.Sysenc
import Verif.Props.PerCPU
import Verif.Lemmas.Bits
/-! # C92: a map behaves as the dictionary it is -/
namespace Ebpf.MapOps
open Ebpf.Sysenc Ebpf.PerCPU

/-! ## Vocabulary of the statements -/

/-- Types of maps with a value for each CPU: Linux 5 (hash), 6 (array), 10 (LRU hash), 21 (cgroup
storage); Windows 4, 5, 11. -/
def perCPUTypes : List (BitVec 32) := [5, 6, 10, 21, 0x10000004, 0x10000005, 0x1000000b]
/-- Types of maps that hold maps: Linux 12, 13; Windows 6, 7. -/
def mapOfMapsTypes : List (BitVec 32) := [12, 13, 0x10000006, 0x10000007]
/-- Types of maps that hold programs: Linux 3; Windows 3. -/
def progArrayTypes : List (BitVec 32) := [3, 0x10000003]

/-- `m` is the Go side and `k` the kernel side of a map with the given type and sizes, on a machine with
`cpus` possible CPUs, where the kernel uses `round_up(value_size, 8)` bytes for each of them. -/
structure Fits (m : GoMap) (k : KMap) (cpus : Nat) (typ : BitVec 32) (ks vs : Nat) : Prop where
  goSide : m = newMapFromParts cpus typ ks vs
  keySize : k.keySize = ks
  valueSize : k.valueSize = if typ ∈ perCPUTypes then cpus * ((vs + 7) / 8 * 8) else vs
  refs : k.refs = true ↔ typ ∈ mapOfMapsTypes ∨ typ ∈ progArrayTypes
  refSize : k.refs = true → vs = 4

/-- All keys and values in the kernel have the sizes of the map. -/
def DictOk (k : KMap) (d : Dict) : Prop := ∀ e ∈ d, e.1.length = k.keySize ∧ e.2.length = k.valueSize

/-- `b` is the encoding of a Go value in exactly `n` bytes, as `encoding/binary` has it (`binAppend`:
fields in order without padding, native endian); strings and what `MarshalBinary` gives as they are. -/
inductive Encodes : Arg → Nat → Bytes → Prop where
  | bytes (b : Bytes) : Encodes (.bytes b) b.length b
  | val (t : Ty) (r : Bool) (mem : Bytes) : NoBlank t → mem.length = sizeof t → Encodes (.val t r mem) (binSize t) (binAppend t mem)
  | slice (t : Ty) (n : Nat) (mem : Bytes) : NoBlank t → mem.length = n * sizeof t →
      Encodes (.slice t n mem) (n * binSize t) (binAppend (.arr n t) mem)

/-- The Go value is no unsafe pointer, and has a memory of the size of its type, without blank fields. -/
def Sane : Arg → Prop
  | .ptr _ => False
  | .val t _ mem => NoBlank t ∧ mem.length = sizeof t
  | .slice t n mem => NoBlank t ∧ mem.length = n * sizeof t
  | _ => True

/-- The same for destinations. -/
def SaneDst : Dst → Prop
  | .ptr _ => False
  | .val t mem => NoBlank t ∧ mem.length = sizeof t
  | .slice t n mem => NoBlank t ∧ mem.length = n * sizeof t
  | .pslice t n mem => NoBlank t ∧ mem.length = n * sizeof t
  | _ => True

/-- A destination that is not for maps or programs. -/
def Plain : Dst → Prop
  | .pmap _ | .map | .pprog _ | .prog => False
  | _ => True

/-- What reading the bytes `v` makes of a destination, as `encoding/binary` has it: `none` if the sizes
do not match or the value refuses. -/
def decoded (dst : Dst) (v : Bytes) : Option Dst :=
  match dst with
  | .val t old => if v.length = binSize t then some (.val t (binDecode t old v)) else none
  | .slice t n old => if v.length = n * binSize t then some (.slice t n (binDecode (.arr n t) old v)) else none
  | .pslice t n old => if v.length = n * binSize t then some (.pslice t n (binDecode (.arr n t) old v)) else none
  | .pbytes _ => some (.pbytes v)
  | .str _ => some (.str v)
  | .unm acc _ => if acc v = true then some (.unm acc (some v)) else none
  | _ => none

/-! ## Dictionaries -/

theorem get_del (d : Dict) (k k' : Bytes) : (d.del k).get k' = if k' = k then none else d.get k' := by
  induction d with
  | nil => simp [Dict.del, Dict.get]
  | cons e d ih =>
    obtain ⟨a, b⟩ := e
    simp only [Dict.del, Dict.get] at ih ⊢
    by_cases h : a = k
    · subst h
      simp only [ne_eq, not_true_eq_false, decide_false, List.filter_cons, Bool.false_eq_true, if_false]
      simp only [ne_eq, decide_not] at ih
      simp only [decide_not]
      rw [ih, List.lookup_cons]
      by_cases h2 : k' = a
      · simp [h2]
      · have : (k' == a) = false := by simp [h2]
        rw [this, if_neg h2]
    · simp only [ne_eq, h, not_false_eq_true, decide_true, List.filter_cons, if_true, List.lookup_cons]
      by_cases h2 : k' = a
      · subst h2; simp [h]
      · have : (k' == a) = false := by simp [h2]
        rw [this]; exact ih

theorem get_set (d : Dict) (k v k' : Bytes) : (d.set k v).get k' = if k' = k then some v else d.get k' := by
  simp only [Dict.set]
  show List.lookup k' ((k, v) :: d.del k) = _
  rw [List.lookup_cons]
  by_cases h : k' = k
  · simp [h]
  · have : (k' == k) = false := by simp [h]
    rw [this]
    have := get_del d k k'
    simp only [h, if_false, Dict.get] at this ⊢
    exact this

theorem get_mem (d : Dict) (k v : Bytes) (h : d.get k = some v) : (k, v) ∈ d := by
  induction d with
  | nil => simp [Dict.get] at h
  | cons e d ih =>
    obtain ⟨a, b⟩ := e
    simp only [Dict.get, List.lookup_cons] at h ih
    by_cases h2 : k = a
    · subst h2; simp at h; subst h; exact List.mem_cons_self
    · have : (k == a) = false := by simp [h2]
      rw [this] at h; exact List.mem_cons_of_mem _ (ih h)

theorem dictOk_del (k : KMap) (d : Dict) (kb : Bytes) (h : DictOk k d) : DictOk k (d.del kb) := by
  intro e he; exact h e (List.mem_filter.mp he).1

theorem dictOk_set (k : KMap) (d : Dict) (kb v : Bytes) (h : DictOk k d) (h1 : kb.length = k.keySize) (h2 : v.length = k.valueSize) :
    DictOk k (d.set kb v) := by
  intro e he
  rcases List.mem_cons.mp he with rfl | he
  · exact ⟨h1, h2⟩
  · exact dictOk_del k d kb h e he

/-! ## Types of maps -/

theorem hasPerCPU_iff (t : BitVec 32) : MapCreate.hasPerCPU t = true ↔ t ∈ perCPUTypes := by
  simp [MapCreate.hasPerCPU, perCPUTypes, or_assoc]

theorem canStoreMap_iff (t : BitVec 32) : MapSpec.canStoreMap t = true ↔ t ∈ mapOfMapsTypes := by
  simp only [MapSpec.canStoreMap, mapOfMapsTypes, MapSpec.tArrayOfMaps, MapSpec.tHashOfMaps, MapSpec.tWindowsArrayOfMaps,
    MapSpec.tWindowsHashOfMaps, Bool.or_eq_true, beq_iff_eq, List.mem_cons, List.not_mem_nil, or_false]
  grind

theorem canStoreProgram_iff (t : BitVec 32) : canStoreProgram t = true ↔ t ∈ progArrayTypes := by
  simp [canStoreProgram, progArrayTypes]

variable {m : GoMap} {k : KMap} {cpus ks vs : Nat} {typ : BitVec 32}

theorem Fits.fields (h : Fits m k cpus typ ks vs) : m.typ = typ ∧ m.keySize = ks ∧ m.valueSize = vs ∧ m.fullValueSize = k.valueSize := by
  obtain ⟨rfl, h2, h3, -, -⟩ := h
  simp only [newMapFromParts]
  by_cases hp : typ ∈ perCPUTypes
  · have := (hasPerCPU_iff typ).mpr hp
    rw [if_neg (by simp [this])]
    refine ⟨rfl, rfl, rfl, ?_⟩
    rw [h3, if_pos hp]; simp only [align8]; rw [Nat.mul_comm]; rfl
  · have : MapCreate.hasPerCPU typ = false := by
      cases h : MapCreate.hasPerCPU typ with
      | false => rfl
      | true => exact absurd ((hasPerCPU_iff typ).mp h) hp
    rw [if_pos (by simp [this])]
    exact ⟨rfl, rfl, rfl, by rw [h3, if_neg hp]⟩

/-! ## Encoding of arguments -/

theorem marshal_eq (t : Ty) (r : Bool) (mem : Bytes) (n : Nat) (hb : NoBlank t) (hl : mem.length = sizeof t) :
    Sysenc.marshal t r mem n = if binSize t = n then some (binAppend t mem) else none := by
  have h : Sysenc.marshal t false mem n = if binSize t = n then some (binAppend t mem) else none := by
    simp [Sysenc.marshal, unsafeBackingMemory, binAppend_length t mem hl]
  cases r with
  | false => exact h
  | true => rw [marshal_zero_copy_eq_partial t mem n hb hl]; exact h

theorem sysMarshal_enc (a : Arg) (n : Nat) (b : Bytes) (h : Encodes a n b) : sysMarshal a n = some b ∧ b.length = n := by
  cases h with
  | bytes b => simp [sysMarshal]
  | val t r mem hb hl =>
    simp only [sysMarshal, marshal_eq t r mem _ hb hl, if_true]
    exact ⟨trivial, binAppend_length t mem hl⟩
  | slice t n mem hb hl =>
    have hb' : NoBlank (.arr n t) := by simpa [NoBlank] using hb
    have hl' : mem.length = sizeof (.arr n t) := by simpa [sizeof] using hl
    simp only [sysMarshal, marshal_eq (.arr n t) true mem _ hb' hl', binSize, if_true]
    exact ⟨trivial, by rw [binAppend_length _ mem hl']; simp [binSize]⟩

theorem sysMarshal_some (a : Arg) (n : Nat) (b : Bytes) (hs : Sane a) (h : sysMarshal a n = some b) : Encodes a n b := by
  cases a with
  | nil => simp [sysMarshal] at h
  | ptr _ => simp [sysMarshal] at h
  | map _ => simp [sysMarshal] at h
  | prog _ => simp [sysMarshal] at h
  | badMarshaler => simp [sysMarshal] at h
  | bytes x =>
    simp only [sysMarshal] at h
    split at h
    · next hx => cases h; subst hx; exact .bytes _
    · cases h
  | val t r mem =>
    obtain ⟨hb, hl⟩ := hs
    simp only [sysMarshal, marshal_eq t r mem _ hb hl] at h
    split at h
    · next hx => cases h; subst hx; exact .val t r mem hb hl
    · cases h
  | slice t c mem =>
    obtain ⟨hb, hl⟩ := hs
    have hb' : NoBlank (.arr c t) := by simpa [NoBlank] using hb
    have hl' : mem.length = sizeof (.arr c t) := by simpa [sizeof] using hl
    simp only [sysMarshal, marshal_eq (.arr c t) true mem _ hb' hl'] at h
    split at h
    · next hx => cases h; subst hx; exact .slice t c mem hb hl
    · cases h

theorem encodes_unique (a : Arg) (n : Nat) (b b' : Bytes) (h : Encodes a n b) (h' : Encodes a n b') : b = b' := by
  have e := (sysMarshal_enc a n b h).1
  rw [(sysMarshal_enc a n b' h').1] at e
  exact (Option.some.inj e).symm

theorem encodes_len (a : Arg) (n : Nat) (b : Bytes) (h : Encodes a n b) : b.length = n := (sysMarshal_enc a n b h).2

theorem input_enc (a : Arg) (n : Nat) (b : Bytes) (h : Encodes a n b) : marshalMapSyscallInput a n = some (newBuffer b) := by
  have h1 := (sysMarshal_enc a n b h).1
  cases h with
  | bytes b => simp [marshalMapSyscallInput, h1]
  | val t r mem hb hl => simp only [marshalMapSyscallInput]; rw [h1]; rfl
  | slice t n mem hb hl => simp only [marshalMapSyscallInput]; rw [h1]; rfl

theorem key_enc (a : Arg) (b : Bytes) (h : Encodes a m.keySize b) : marshalKey m a = .ok (newBuffer b) := by
  have h1 := input_enc a _ b h
  cases a <;> first
    | cases h
    | (simp only [marshalKey]; rw [h1])

/-- Every way in which making a key can end. -/
theorem marshalKey_cases (a : Arg) (hs : Sane a) : (∃ b, Encodes a m.keySize b ∧ marshalKey m a = .ok (newBuffer b)) ∨
    (a = .nil ∧ m.keySize = 0 ∧ marshalKey m a = .ok none) ∨
    ((¬ ∃ b, Encodes a m.keySize b) ∧ (a = .nil → m.keySize ≠ 0) ∧
      ∃ e, (e = .nilKey ∨ e = .badKey) ∧ marshalKey m a = .error e) := by
  cases hm : sysMarshal a m.keySize with
  | some b => exact .inl ⟨b, sysMarshal_some a _ b hs hm, key_enc a b (sysMarshal_some a _ b hs hm)⟩
  | none =>
    have hno : ¬ ∃ b, Encodes a m.keySize b := by
      rintro ⟨b, hb⟩; rw [(sysMarshal_enc a _ b hb).1] at hm; cases hm
    right
    cases a with
    | nil =>
      by_cases h0 : m.keySize = 0
      · exact .inl ⟨rfl, h0, by simp [marshalKey, h0]⟩
      · exact .inr ⟨hno, fun _ => h0, .nilKey, .inl rfl, by simp [marshalKey, h0]⟩
    | ptr _ => exact (hs : False).elim
    | map _ => exact .inr ⟨hno, (by intro h; cases h), .badKey, .inr rfl, by simp [marshalKey, marshalMapSyscallInput, hm]⟩
    | prog _ => exact .inr ⟨hno, (by intro h; cases h), .badKey, .inr rfl, by simp [marshalKey, marshalMapSyscallInput, hm]⟩
    | badMarshaler => exact .inr ⟨hno, (by intro h; cases h), .badKey, .inr rfl, by simp [marshalKey, marshalMapSyscallInput, hm]⟩
    | bytes _ => exact .inr ⟨hno, (by intro h; cases h), .badKey, .inr rfl, by simp [marshalKey, marshalMapSyscallInput, hm]⟩
    | val _ _ _ => exact .inr ⟨hno, (by intro h; cases h), .badKey, .inr rfl, by simp [marshalKey, marshalMapSyscallInput, hm]⟩
    | slice _ _ _ => exact .inr ⟨hno, (by intro h; cases h), .badKey, .inr rfl, by simp [marshalKey, marshalMapSyscallInput, hm]⟩

/-! ## Memory -/

theorem read_newBuffer (b : Bytes) : readUser (newBuffer b) b.length = .ok b := by
  unfold readUser newBuffer
  by_cases h : b.length = 0
  · simp only [h, if_true]; rw [List.length_eq_zero_iff.mp h]
  · simp [h]

theorem copyKey_newBuffer (b : Bytes) (h : b.length = k.keySize) : copyKey k (newBuffer b) = .ok b := by
  unfold copyKey
  by_cases h0 : k.keySize = 0
  · rw [if_pos h0]
    have : b.length = 0 := by omega
    simp only [newBuffer, this, if_true]
    rw [List.length_eq_zero_iff.mp this]
  · rw [if_neg h0, ← h, read_newBuffer]

theorem write_newBuffer (b v : Bytes) (h : b.length = v.length) : writeUser (newBuffer b) v = .ok v := by
  unfold writeUser newBuffer
  by_cases h0 : v = []
  · subst h0
    have : b.length = 0 := by simpa using h
    simp [this]
  · have : b.length ≠ 0 := by rw [h]; simpa using h0
    simp [h0, h, List.drop_of_length_le]

theorem outBuffer_len (dst : Dst) (n : Nat) (hs : SaneDst dst) : ∃ b : Bytes, outBuffer dst n = newBuffer b ∧ b.length = n := by
  unfold outBuffer
  cases hd : direct dst n with
  | none => exact ⟨zeros n, rfl, zeros_length n⟩
  | some mem =>
    refine ⟨mem, rfl, ?_⟩
    cases dst <;> simp only [direct, reduceCtorEq] at hd
    case ptr => exact (hs : False).elim
    all_goals
      have := (Option.filter_eq_some_iff.mp hd).2
      simpa using this

theorem unmarshal_dst (dst : Dst) (v : Bytes) (hs : SaneDst dst) (hp : Plain dst) (n : Nat) (hn : v.length = n) :
    bufUnmarshal (direct dst n).isSome dst v = decoded dst v := by
  subst hn
  have key : ∀ (t : Ty) (mem : Bytes), NoBlank t → mem.length = sizeof t →
      (if ((unsafeBackingMemory t true mem).filter (·.length = v.length)).isSome = true then some v else Sysenc.unmarshal t mem v)
        = if v.length = binSize t then some (binDecode t mem v) else none := by
    intro t mem hb hl
    rw [← (syscallOutput_eq_binary_partial t mem v hb hl).1]
    unfold syscallOutput
    cases hu : unsafeBackingMemory t true mem with
    | none => simp
    | some b =>
      dsimp only [Option.filter]
      by_cases h : b.length = v.length
      · simp [h]
      · simp [h]
  have lift : ∀ (c p : Prop) [Decidable c] [Decidable p] (f : Bytes → Dst) (x : Option Bytes) (y : Bytes),
      (if c then some v else x) = (if p then some y else none) →
      (if c then some (f v) else x.map f) = (if p then some (f y) else none) := by
    intro c p _ _ f x y h
    have := congrArg (Option.map f) h
    by_cases hc : c <;> by_cases hp : p <;> simp [hc, hp] at this ⊢ <;> exact this
  cases dst with
  | ptr _ => exact (hs : False).elim
  | pmap _ => exact (hp : False).elim
  | map => exact (hp : False).elim
  | pprog _ => exact (hp : False).elim
  | prog => exact (hp : False).elim
  | str b => simp [bufUnmarshal, direct, sysUnmarshal, decoded]
  | unm acc g => simp [bufUnmarshal, direct, sysUnmarshal, decoded]
  | pbytes b =>
    simp only [bufUnmarshal, direct, sysUnmarshal, decoded, written]
    exact ite_self _
  | val t mem =>
    simp only [bufUnmarshal, direct, sysUnmarshal, decoded, written]
    exact lift _ _ _ _ _ (key t mem hs.1 hs.2)
  | slice t n mem =>
    have := key (.arr n t) mem (by simpa [NoBlank] using hs.1) (by simpa [sizeof] using hs.2)
    simp only [binSize] at this
    simp only [bufUnmarshal, direct, sysUnmarshal, decoded, written]
    exact lift _ _ _ _ _ this
  | pslice t n mem =>
    have := key (.arr n t) mem (by simpa [NoBlank] using hs.1) (by simpa [sizeof] using hs.2)
    simp only [binSize] at this
    simp only [bufUnmarshal, direct, sysUnmarshal, decoded, written]
    exact lift _ _ _ _ _ this

end Ebpf.MapOps
