import Verif.Props.MapOpsBase
/-! # C92: a map behaves as the dictionary it is -/
namespace Ebpf.MapOps
open Ebpf.Sysenc Ebpf.PerCPU

variable {m : GoMap} {k : KMap} {cpus ks vs : Nat} {typ : BitVec 32}

/-- `kb` is the key that a Go value stands for in a map with keys of `n` bytes. No value stands for the
empty key of maps without keys. -/
def KeyIs (key : Arg) (n : Nat) (kb : Bytes) : Prop := Encodes key n kb ∨ (key = .nil ∧ n = 0 ∧ kb = [])

/-- The errors of the API for the errors of the kernel. -/
def meaning : Errno → Err
  | .ENOENT => .keyNotExist
  | .EEXIST => .keyExist
  | .ENOTSUPP => .notSupported
  | e => .sys e

theorem wrapMapError_eq (e : Errno) : wrapMapError e = meaning e := by
  cases e <;> simp [wrapMapError, meaning]

theorem keyIs_marshal (key : Arg) (kb : Bytes) (h : KeyIs key m.keySize kb) (hk : k.keySize = m.keySize) :
    ∃ p, marshalKey m key = .ok p ∧ copyKey k p = .ok kb := by
  rcases h with h | ⟨rfl, h0, rfl⟩
  · exact ⟨_, key_enc key kb h, copyKey_newBuffer kb (by rw [encodes_len _ _ _ h, hk])⟩
  · exact ⟨none, by simp [marshalKey, h0], by simp [copyKey, hk, h0]⟩

theorem not_key (key : Arg) (hs : Sane key) (h : ∀ kb, ¬ KeyIs key m.keySize kb) :
    ∃ e, (e = .nilKey ∨ e = .badKey) ∧ marshalKey m key = .error e := by
  rcases marshalKey_cases (m := m) key hs with ⟨b, hb, -⟩ | ⟨h1, h2, -⟩ | ⟨-, -, h3⟩
  · exact absurd (.inl hb) (h b)
  · exact absurd (.inr ⟨h1, h2, rfl⟩) (h [])
  · exact h3

/-- How a lookup of a key has to end, for a destination of the caller. -/
def lookupOutcome (refuse : Option Errno) (w : World) (kb : Bytes) (dst : Dst) : Out :=
  match refuse with
  | some e => .ret w dst (some (meaning e))
  | none =>
    match w.dict.get kb with
    | none => .ret w dst (some .keyNotExist)
    | some v =>
      match decoded dst v with
      | none => .ret w dst (some .decode)
      | some dst' => .ret w dst' none

theorem lookup_eq (hf : Fits m k cpus typ ks vs) (d : Dict) (hd : DictOk k d) (refuse : Option Errno) (key : Arg) (kb : Bytes)
    (hk : KeyIs key m.keySize kb) (b : Bytes) (hb : b.length = k.valueSize) :
    lookup m k refuse d key (newBuffer b) = .ok (match refuse with
      | some e => .error (meaning e)
      | none => match d.get kb with
        | none => .error .keyNotExist
        | some v => .ok v) := by
  obtain ⟨p, hp, hc⟩ := keyIs_marshal (k := k) key kb hk (by rw [hf.keySize, hf.fields.2.1])
  unfold lookup
  rw [hp]
  dsimp only
  unfold kLookup
  cases refuse with
  | some e =>
    dsimp only
    by_cases he : e = .ENOENT
    · subst he; rfl
    · rw [if_neg he, wrapMapError_eq]
  | none =>
    dsimp only
    rw [hc]
    dsimp only
    cases hg : d.get kb with
    | none => rfl
    | some v =>
      dsimp only
      rw [write_newBuffer b v (by rw [hb, (hd _ (get_mem d kb v hg)).2])]

theorem lookupAndDelete_eq (hf : Fits m k cpus typ ks vs) (w : World) (hd : DictOk k w.dict) (refuse : Option Errno) (key : Arg)
    (kb : Bytes) (hk : KeyIs key m.keySize kb) (b : Bytes) (hb : b.length = k.valueSize) :
    lookupAndDelete m k refuse w key (newBuffer b) = .ok (match refuse with
      | some e => .error (meaning e)
      | none => match w.dict.get kb with
        | none => .error .keyNotExist
        | some v => .ok ({ w with dict := w.dict.del kb }, v)) := by
  obtain ⟨p, hp, hc⟩ := keyIs_marshal (k := k) key kb hk (by rw [hf.keySize, hf.fields.2.1])
  unfold lookupAndDelete
  rw [hp]
  dsimp only
  unfold kLookupAndDelete
  cases refuse with
  | some e => dsimp only; rw [wrapMapError_eq]
  | none =>
    dsimp only
    rw [hc]
    dsimp only
    cases hg : w.dict.get kb with
    | none => dsimp only; rw [wrapMapError_eq]; rfl
    | some v =>
      dsimp only
      rw [write_newBuffer b v (by rw [hb, (hd _ (get_mem _ kb v hg)).2])]

theorem notPerCPU (h : typ ∉ perCPUTypes) : MapCreate.hasPerCPU typ = false := by
  cases hh : MapCreate.hasPerCPU typ with
  | false => rfl
  | true => exact absurd ((hasPerCPU_iff typ).mp hh) h

theorem unmarshalValue_plain (bo : ByteOrder) (gone : Option Errno) (newFd : Nat) (w : World) (dst : Dst) (v : Bytes) (n : Nat)
    (hs : SaneDst dst) (hp : Plain dst) (hn : v.length = n) :
    unmarshalValue m bo gone newFd w dst (direct dst n).isSome v = (match decoded dst v with
      | none => .ret w dst (some .decode)
      | some dst' => .ret w dst' none) := by
  have := unmarshal_dst dst v hs hp n hn
  cases dst <;> first
    | exact (hp : False).elim
    | (simp only [unmarshalValue]; rw [this]; cases decoded _ v <;> rfl)

/-- **C92**, `Lookup`: an ordinary destination gets exactly the value of the key, decoded; a missing
key is `ErrKeyNotExist`; and a lookup that fails changes neither the map, nor the destination, nor
the open descriptors. For every map without per-CPU values, contents, key, destination and kernel. -/
theorem lookup_dictionary (hf : Fits m k cpus typ ks vs) (hpc : typ ∉ perCPUTypes) (bo : ByteOrder) (refuse gone : Option Errno)
    (newFd : Nat) (w : World) (hd : DictOk k w.dict) (key : Arg) (kb : Bytes) (hk : KeyIs key ks kb) (dst : Dst)
    (hs : SaneDst dst) (hp : Plain dst) :
    lookupWithFlags m k bo cpus refuse gone newFd w key dst = lookupOutcome refuse w kb dst := by
  obtain ⟨f1, f2, f3, f4⟩ := hf.fields
  obtain ⟨b, hb1, hb2⟩ := outBuffer_len dst m.fullValueSize hs
  rw [← f2] at hk
  unfold lookupWithFlags
  rw [f1, notPerCPU hpc, hb1, lookup_eq hf w.dict hd refuse key kb hk b (by rw [hb2, f4])]
  unfold lookupOutcome
  cases refuse with
  | some e => rfl
  | none =>
    dsimp only
    cases hg : w.dict.get kb with
    | none => rfl
    | some v =>
      simp only [Bool.false_eq_true, if_false]
      exact unmarshalValue_plain bo gone newFd w dst v _ hs hp (by rw [(hd _ (get_mem _ kb v hg)).2, f4])

/-- **C92**, `LookupBytes`: the value of the key; nil without error exactly if the key is missing. -/
theorem lookupBytes_dictionary (hf : Fits m k cpus typ ks vs) (refuse : Option Errno) (d : Dict) (hd : DictOk k d) (key : Arg)
    (kb : Bytes) (hk : KeyIs key ks kb) (href : refuse ≠ some .ENOENT) :
    ∃ r, lookupBytes m k refuse d key = .ok r ∧
      (r = (none, none) ↔ refuse = none ∧ d.get kb = none) ∧
      (∀ v, refuse = none → d.get kb = some v → r = (some v, none)) ∧
      (∀ e, refuse = some e → r.2 = some (meaning e)) := by
  obtain ⟨f1, f2, f3, f4⟩ := hf.fields
  rw [← f2] at hk
  unfold lookupBytes
  rw [lookup_eq hf d hd refuse key kb hk (zeros m.fullValueSize) (by rw [zeros_length, f4])]
  cases refuse with
  | some e =>
    dsimp only
    have : meaning e ≠ .keyNotExist := by
      cases e <;> simp [meaning]
      exact href rfl
    rw [if_neg this]
    refine ⟨_, rfl, ?_, ?_, ?_⟩
    · simp
    · intro v h; cases h
    · intro e' h; cases h; rfl
  | none =>
    dsimp only
    cases hg : d.get kb with
    | none =>
      refine ⟨_, rfl, ?_, ?_, ?_⟩
      · simp
      · intro v _ h; cases h
      · intro e h; cases h
    | some v =>
      refine ⟨_, rfl, ?_, ?_, ?_⟩
      · simp
      · intro v' _ h; cases h; rfl
      · intro e h; cases h

/-- **C92**, `LookupAndDelete`: if it succeeds, the destination has the value and the key is gone; if the
key is missing or the kernel refuses, nothing changed. What is missing for the full claim: if the value
does not suit the destination, the error comes after the element was deleted, see
`lookupAndDelete_loses_counterexample`. -/
theorem lookupAndDelete_dictionary_partial (hf : Fits m k cpus typ ks vs) (hpc : typ ∉ perCPUTypes) (bo : ByteOrder)
    (refuse gone : Option Errno) (newFd : Nat) (w : World) (hd : DictOk k w.dict) (key : Arg) (kb : Bytes) (hk : KeyIs key ks kb)
    (dst : Dst) (hs : SaneDst dst) (hp : Plain dst) :
    lookupAndDeleteWithFlags m k bo cpus refuse gone newFd w key dst =
      (match refuse, w.dict.get kb with
      | some e, _ => .ret w dst (some (meaning e))
      | none, none => .ret w dst (some .keyNotExist)
      | none, some v =>
        match decoded dst v with
        | none => .ret { w with dict := w.dict.del kb } dst (some .decode)
        | some dst' => .ret { w with dict := w.dict.del kb } dst' none) := by
  obtain ⟨f1, f2, f3, f4⟩ := hf.fields
  obtain ⟨b, hb1, hb2⟩ := outBuffer_len dst m.fullValueSize hs
  rw [← f2] at hk
  unfold lookupAndDeleteWithFlags
  rw [f1, notPerCPU hpc, hb1, lookupAndDelete_eq hf w hd refuse key kb hk b (by rw [hb2, f4])]
  cases refuse with
  | some e => rfl
  | none =>
    dsimp only
    cases hg : w.dict.get kb with
    | none => rfl
    | some v =>
      simp only [Bool.false_eq_true, if_false]
      exact unmarshalValue_plain bo gone newFd _ dst v _ hs hp (by rw [(hd _ (get_mem _ kb v hg)).2, f4])

/-- `vb` are the bytes the kernel is given for a Go value: its encoding, or the descriptor of a map or
program. -/
inductive ValueIs (typ : BitVec 32) (bo : ByteOrder) : Arg → Nat → Bytes → Prop where
  | enc (a : Arg) (n : Nat) (b : Bytes) : Encodes a n b → ValueIs typ bo a n b
  | map (fd : Nat) : typ ∈ mapOfMapsTypes → ValueIs typ bo (.map (some fd)) 4 (bo.put32 (BitVec.ofNat 32 fd))
  | prog (fd : Nat) : typ ∈ progArrayTypes → ValueIs typ bo (.prog (some fd)) 4 (bo.put32 (BitVec.ofNat 32 fd))

theorem put32_length (bo : ByteOrder) (x : BitVec 32) : (bo.put32 x).length = 4 := by cases bo <;> rfl

theorem put32_newBuffer (bo : ByteOrder) (x : BitVec 32) : newBuffer (bo.put32 x) = some (bo.put32 x) := by
  cases bo <;> rfl

theorem marshalValue_is (hf : Fits m k cpus typ ks vs) (bo : ByteOrder) (a : Arg) (vb : Bytes) (h : ValueIs typ bo a vs vb) :
    marshalValue m bo a = .ok (newBuffer vb) ∧ vb.length = vs := by
  obtain ⟨f1, f2, f3, f4⟩ := hf.fields
  generalize hn : vs = n at h
  cases h with
  | enc _ _ _ h =>
    have h1 := input_enc a n vb h
    refine ⟨?_, encodes_len _ _ _ h⟩
    cases h <;> (simp only [marshalValue]; rw [f3, hn, h1])
  | map fd ht =>
    refine ⟨?_, put32_length _ _⟩
    simp only [marshalValue, f1, (canStoreMap_iff typ).mpr ht, marshalFd, f3, hn]
    simp [put32_newBuffer]
  | prog fd ht =>
    refine ⟨?_, put32_length _ _⟩
    simp only [marshalValue, f1, (canStoreProgram_iff typ).mpr ht, marshalFd, f3, hn]
    simp [put32_newBuffer]

/-- How an update has to end: `BPF_ANY` 0 sets, `BPF_NOEXIST` 1 only creates, `BPF_EXIST` 2 only replaces. -/
def updateOutcome (k : KMap) (bo : ByteOrder) (refuse : Option Errno) (w : World) (kb vb : Bytes) (flags : Nat) : Done :=
  match refuse with
  | some e => .ret w (some (meaning e))
  | none =>
    if 8 ≤ flags ∨ flags % 4 = 3 then .ret w (some (.sys .EINVAL))
    else if flags % 4 = 1 ∧ (w.dict.get kb).isSome = true then .ret w (some .keyExist)
    else if flags % 4 = 2 ∧ (w.dict.get kb).isNone = true then .ret w (some .keyNotExist)
    else match stored k bo w.fds vb with
      | .ok v => .ret { w with dict := w.dict.set kb v } none
      | .errno e => .ret w (some (meaning e))
      | .oob => .oob

theorem update_eq (hf : Fits m k cpus typ ks vs) (bo : ByteOrder) (refuse : Option Errno) (w : World) (key : Arg) (kb vb : Bytes)
    (hk : KeyIs key m.keySize kb) (hv : vb.length = k.valueSize) (flags : Nat) :
    update m k bo refuse w key (newBuffer vb) flags = updateOutcome k bo refuse w kb vb flags := by
  obtain ⟨p, hp, hc⟩ := keyIs_marshal (k := k) key kb hk (by rw [hf.keySize, hf.fields.2.1])
  unfold update
  rw [hp]
  dsimp only
  unfold kUpdate updateOutcome
  cases refuse with
  | some e => dsimp only; rw [wrapMapError_eq]
  | none =>
    dsimp only
    rw [hc, ← hv, read_newBuffer]
    dsimp only
    by_cases h1 : 8 ≤ flags ∨ flags % 4 = 3
    · rw [if_pos h1, if_pos h1]; rfl
    · rw [if_neg h1, if_neg h1]
      by_cases h2 : flags % 4 = 1 ∧ (w.dict.get kb).isSome = true
      · rw [if_pos h2, if_pos h2]; rfl
      · rw [if_neg h2, if_neg h2]
        by_cases h3 : flags % 4 = 2 ∧ (w.dict.get kb).isNone = true
        · rw [if_pos h3, if_pos h3]; rfl
        · rw [if_neg h3, if_neg h3]
          cases stored k bo w.fds vb with
          | ok v => rfl
          | errno e => dsimp only; rw [wrapMapError_eq]
          | oob => rfl

/-- **C92**, `Update` (and `Put`) of maps without per-CPU values: the key has exactly the new value
afterwards, under the condition of the flags; an update that fails changes nothing. -/
theorem update_dictionary (hf : Fits m k cpus typ ks vs) (hpc : typ ∉ perCPUTypes) (bo : ByteOrder) (refuse : Option Errno)
    (w : World) (key value : Arg) (kb vb : Bytes) (hk : KeyIs key ks kb) (hv : ValueIs typ bo value vs vb) (flags : Nat) :
    mapUpdate m k bo cpus refuse w key value flags = updateOutcome k bo refuse w kb vb flags := by
  obtain ⟨f1, f2, f3, f4⟩ := hf.fields
  obtain ⟨h1, h2⟩ := marshalValue_is hf bo value vb hv
  rw [← f2] at hk
  unfold mapUpdate
  rw [f1, notPerCPU hpc, h1]
  simp only [Bool.false_eq_true, if_false]
  exact update_eq hf bo refuse w key kb vb hk (by rw [h2, hf.valueSize, if_neg hpc]) flags

/-- The flags have the values of the kernel, and `Put` is an update without condition. -/
theorem update_flags : UpdateAny = 0 ∧ UpdateNoExist = 1 ∧ UpdateExist = 2 ∧ UpdateLock = 4 ∧
    ∀ (m : GoMap) k bo cpus refuse w key value, put m k bo cpus refuse w key value = mapUpdate m k bo cpus refuse w key value 0 :=
  ⟨rfl, rfl, rfl, rfl, fun _ _ _ _ _ _ _ _ => rfl⟩

/-- **C92**, `Delete`: the key is gone, and nothing else; a missing key is `ErrKeyNotExist`. -/
theorem delete_dictionary (hf : Fits m k cpus typ ks vs) (refuse : Option Errno) (w : World) (key : Arg) (kb : Bytes)
    (hk : KeyIs key ks kb) :
    delete m k refuse w key = (match refuse, w.dict.get kb with
      | some e, _ => .ret w (some (meaning e))
      | none, none => .ret w (some .keyNotExist)
      | none, some _ => .ret { w with dict := w.dict.del kb } none) := by
  rw [← hf.fields.2.1] at hk
  obtain ⟨p, hp, hc⟩ := keyIs_marshal (k := k) key kb hk (by rw [hf.keySize, hf.fields.2.1])
  unfold delete
  rw [hp]
  dsimp only
  unfold kDelete
  cases refuse with
  | some e => dsimp only; rw [wrapMapError_eq]
  | none =>
    dsimp only
    rw [hc]
    dsimp only
    cases hg : w.dict.get kb with
    | none => rfl
    | some v => rfl

end Ebpf.MapOps
