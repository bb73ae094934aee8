import Verif.Props.MapOpsDict
/-! # C92: keys that are none, nested maps, per-CPU values -/
namespace Ebpf.MapOps
open Ebpf.Sysenc Ebpf.PerCPU

variable {m : GoMap} {k : KMap} {cpus ks vs : Nat} {typ : BitVec 32}

/-- **C92**: a Go value that does not encode to the size of the keys is refused without asking the
kernel. -/
theorem not_a_key (hf : Fits m k cpus typ ks vs) (key : Arg) (hs : Sane key) (h : ∀ kb, ¬ KeyIs key ks kb) :
    ∃ e, (e = .nilKey ∨ e = .badKey) ∧
      (∀ refuse d p, lookup m k refuse d key p = .ok (.error e)) ∧
      (∀ refuse w p, lookupAndDelete m k refuse w key p = .ok (.error e)) ∧
      (∀ bo refuse w p flags, update m k bo refuse w key p flags = .ret w (some e)) ∧
      (∀ refuse w, delete m k refuse w key = .ret w (some e)) ∧
      (key ≠ .nil → ∀ refuse d r p, nextKey m k refuse d r key p = .ok (.error e)) := by
  rw [← hf.fields.2.1] at h
  obtain ⟨e, he, h1⟩ := not_key key hs h
  refine ⟨e, he, ?_, ?_, ?_, ?_, ?_⟩
  · intro refuse d p; simp only [lookup, h1]
  · intro refuse d p; simp only [lookupAndDelete, h1]
  · intro bo refuse w p flags; simp only [update, h1]
  · intro refuse w; simp only [delete, h1]
  · intro hn refuse d r p
    have : nextKeyPtr m key = .error e := by
      cases key <;> first
        | exact absurd rfl hn
        | exact h1
    simp only [nextKey, this]

/-! ## Maps of maps and program arrays -/

theorem get32_put32' (bo : ByteOrder) (x : BitVec 32) : ∃ a b c d, bo.put32 x = [a, b, c, d] ∧ bo.get32 a b c d = x := by
  cases bo
  · exact ⟨_, _, _, _, rfl, by simp only [ByteOrder.get32]; apply BitVec.eq_of_getLsbD_eq; intro i hi; simp only [BitVec.getLsbD_append, BitVec.getLsbD_extractLsb']; grind⟩
  · exact ⟨_, _, _, _, rfl, by simp only [ByteOrder.get32]; apply BitVec.eq_of_getLsbD_eq; intro i hi; simp only [BitVec.getLsbD_append, BitVec.getLsbD_extractLsb']; grind⟩

/-- The kernel stores the id of the object that a descriptor refers to. -/
theorem stored_ref (bo : ByteOrder) (fds : Fds) (fd id : Nat) (hr : k.refs = true) (hfd : fd < 2 ^ 32) (h : fds.lookup fd = some id) :
    stored k bo fds (bo.put32 (BitVec.ofNat 32 fd)) = .ok (bo.put32 (BitVec.ofNat 32 id)) := by
  obtain ⟨a, b, c, d, h1, h2⟩ := get32_put32' bo (BitVec.ofNat 32 fd)
  simp only [stored, hr, if_true, h1, h2, BitVec.toNat_ofNat, Nat.mod_eq_of_lt hfd, h]

/-- **C92**, nested maps, reading: `Lookup` into a `**Map` opens a descriptor of its own for the map that
the key refers to, closes the map that the variable held before, and leaves all other descriptors; if
it fails at any point, variable and descriptors are as before. The same for `**Program`. -/
theorem lookup_nested (hf : Fits m k cpus typ ks vs) (bo : ByteOrder) (gone refuse : Option Errno) (newFd : Nat) (w : World)
    (hd : DictOk k w.dict) (key : Arg) (kb : Bytes) (hk : KeyIs key ks kb) (cur : Option Nat) (id : Nat) (hid : id < 2 ^ 32)
    (hg : w.dict.get kb = some (bo.put32 (BitVec.ofNat 32 id))) (hfresh : newFd ∉ w.fds.map (·.1))
    (hcur : ∀ c, cur = some c → c ∈ w.fds.map (·.1)) (mk : Option Nat → Dst) (hmk : (mk = .pmap ∧ typ ∈ mapOfMapsTypes) ∨ (mk = .pprog ∧ typ ∈ progArrayTypes)) :
    (refuse = none → gone = none → ∃ fds', lookupWithFlags m k bo cpus refuse gone newFd w key (mk cur) = .ret { w with fds := fds' } (mk (some newFd)) none ∧
      fds'.lookup newFd = some id ∧
      (∀ fd, fd ≠ newFd → some fd ≠ cur → fds'.lookup fd = w.fds.lookup fd) ∧
      (∀ fd, some fd = cur → fds'.lookup fd = none)) ∧
    ((refuse ≠ none ∨ gone ≠ none) → ∃ e, lookupWithFlags m k bo cpus refuse gone newFd w key (mk cur) = .ret w (mk cur) (some e)) := by
  obtain ⟨f1, f2, f3, f4⟩ := hf.fields
  have hr : k.refs = true := hf.refs.mpr (by rcases hmk with h | h; exact .inl h.2; exact .inr h.2)
  have hpc : typ ∉ perCPUTypes := by
    rcases hmk with ⟨-, h⟩ | ⟨-, h⟩ <;> revert h <;> simp only [mapOfMapsTypes, progArrayTypes, perCPUTypes, List.mem_cons, List.not_mem_nil, or_false]
    · rintro (rfl | rfl | rfl | rfl) <;> decide
    · rintro (rfl | rfl) <;> decide
  have hsd : SaneDst (mk cur) := by rcases hmk with ⟨rfl, -⟩ | ⟨rfl, -⟩ <;> trivial
  obtain ⟨b, hb1, hb2⟩ := outBuffer_len (mk cur) m.fullValueSize hsd
  rw [← f2] at hk
  have main := lookup_eq hf w.dict hd refuse key kb hk b (by rw [hb2, f4])
  obtain ⟨x1, x2, x3, x4, hx, hxe⟩ := get32_put32' bo (BitVec.ofNat 32 id)
  rw [hg, hx] at main
  have hid' : (BitVec.ofNat 32 id).toNat = id := by rw [BitVec.toNat_ofNat, Nat.mod_eq_of_lt hid]
  have hun : ∀ dd, unmarshalValue m bo gone newFd w (mk cur) dd [x1, x2, x3, x4] = (match gone with
      | some e => .ret w (mk cur) (some (.fromID e))
      | none => .ret (closeFd { w with fds := (newFd, id) :: w.fds } cur) (mk (some newFd)) none) := by
    intro dd
    rcases hmk with ⟨rfl, ht⟩ | ⟨rfl, ht⟩
    · simp only [unmarshalValue, f1, (canStoreMap_iff typ).mpr ht, fromID, hxe, hid']
      cases gone <;> rfl
    · simp only [unmarshalValue, f1, (canStoreProgram_iff typ).mpr ht, fromID, hxe, hid']
      cases gone <;> rfl
  have heq : lookupWithFlags m k bo cpus refuse gone newFd w key (mk cur) = (match refuse with
      | some e => .ret w (mk cur) (some (meaning e))
      | none => match gone with
        | some e => .ret w (mk cur) (some (.fromID e))
        | none => .ret (closeFd { w with fds := (newFd, id) :: w.fds } cur) (mk (some newFd)) none) := by
    unfold lookupWithFlags
    rw [f1, notPerCPU hpc, hb1, main]
    cases refuse with
    | some e => rfl
    | none => simp only [Bool.false_eq_true, if_false]; rw [hun]; cases gone <;> rfl
  rw [heq]
  have filt : ∀ (l : Fds) (c x : Nat), (l.filter (fun e => decide (e.1 ≠ c))).lookup x = if x = c then none else l.lookup x := by
    intro l c x
    induction l with
    | nil => simp
    | cons e l ih =>
      obtain ⟨a, v⟩ := e
      rw [List.filter_cons]
      by_cases h : a = c
      · subst h
        rw [if_neg (by simp), ih, List.lookup_cons]
        by_cases h2 : x = a
        · simp [h2]
        · have : (x == a) = false := by simp [h2]
          rw [this, if_neg h2]
      · rw [if_pos (by simpa using h), List.lookup_cons, List.lookup_cons, ih]
        by_cases h2 : x = a
        · subst h2; simp [h]
        · have : (x == a) = false := by simp [h2]
          rw [this]
  constructor
  · rintro rfl rfl
    dsimp only
    cases cur with
    | none =>
      refine ⟨_, rfl, ?_, ?_, ?_⟩
      · simp
      · intro fd h1 h2
        have : (fd == newFd) = false := by simp [h1]
        rw [List.lookup_cons, this]
      · intro fd h; cases h
    | some c =>
      refine ⟨_, rfl, ?_, ?_, ?_⟩
      · rw [filt, if_neg (by rintro rfl; exact hfresh (hcur _ rfl))]
        simp
      · intro fd h1 h2
        rw [filt, if_neg (by intro h3; exact h2 (by rw [h3]))]
        have : (fd == newFd) = false := by simp [h1]
        rw [List.lookup_cons, this]
      · intro fd h
        cases h
        rw [filt, if_pos rfl]
  · intro h
    cases refuse with
    | some e => exact ⟨_, rfl⟩
    | none =>
      cases gone with
      | some e => exact ⟨_, rfl⟩
      | none => rcases h with h | h <;> exact absurd rfl h

/-- **C92**, nested maps, round trip: after a map was put under a key, looking the key up gives a new
handle for that same map. -/
theorem nested_roundtrip (hf : Fits m k cpus typ ks vs) (bo : ByteOrder) (newFd : Nat) (w : World)
    (hd : DictOk k w.dict) (key : Arg) (kb : Bytes) (hk : KeyIs key ks kb) (fd id : Nat) (hfd : fd < 2 ^ 32) (hid : id < 2 ^ 32)
    (hopen : w.fds.lookup fd = some id) (hfresh : newFd ∉ w.fds.map (·.1)) (cur : Option Nat) (hcur : ∀ c, cur = some c → c ∈ w.fds.map (·.1))
    (mk : Option Nat → Dst) (arg : Option Nat → Arg)
    (hmk : (mk = .pmap ∧ arg = .map ∧ typ ∈ mapOfMapsTypes) ∨ (mk = .pprog ∧ arg = .prog ∧ typ ∈ progArrayTypes)) :
    ∃ w', put m k bo cpus none w key (arg (some fd)) = .ret w' none ∧ w'.fds = w.fds ∧
      ∃ w'', lookupWithFlags m k bo cpus none none newFd w' key (mk cur) = .ret w'' (mk (some newFd)) none ∧
        w''.fds.lookup newFd = some id ∧ w''.dict = w'.dict := by
  have hr : k.refs = true := hf.refs.mpr (by rcases hmk with h | h; exact .inl h.2.2; exact .inr h.2.2)
  have h4 := hf.refSize hr
  have hpc : typ ∉ perCPUTypes := by
    rcases hmk with ⟨-, -, h⟩ | ⟨-, -, h⟩ <;> revert h <;> simp only [mapOfMapsTypes, progArrayTypes, perCPUTypes, List.mem_cons, List.not_mem_nil, or_false]
    · rintro (rfl | rfl | rfl | rfl) <;> decide
    · rintro (rfl | rfl) <;> decide
  have hv : ValueIs typ bo (arg (some fd)) vs (bo.put32 (BitVec.ofNat 32 fd)) := by
    rw [h4]
    rcases hmk with ⟨-, rfl, h⟩ | ⟨-, rfl, h⟩
    · exact .map fd h
    · exact .prog fd h
  have hu := update_dictionary hf hpc bo none w key (arg (some fd)) kb _ hk hv 0
  simp only [updateOutcome, stored_ref bo w.fds fd id hr hfd hopen] at hu
  rw [if_neg (by omega), if_neg (by omega), if_neg (by omega)] at hu
  refine ⟨_, hu, rfl, ?_⟩
  have hkl : kb.length = k.keySize := by
    rw [hf.keySize]
    rcases hk with h | ⟨-, h0, rfl⟩
    · exact encodes_len _ _ _ h
    · exact h0.symm
  have hvl : (bo.put32 (BitVec.ofNat 32 id)).length = k.valueSize := by
    rw [put32_length, hf.valueSize, if_neg hpc, h4]
  have hl := (lookup_nested hf bo none none newFd { w with dict := w.dict.set kb (bo.put32 (BitVec.ofNat 32 id)) }
    (dictOk_set k _ kb _ hd hkl hvl) key kb hk cur id hid (by rw [get_set, if_pos rfl]) hfresh hcur mk
    (by rcases hmk with h | h; exact .inl ⟨h.1, h.2.2⟩; exact .inr ⟨h.1, h.2.2⟩)).1 rfl rfl
  obtain ⟨fds', h1, h2, -, -⟩ := hl
  exact ⟨_, h1, h2, rfl⟩

/-! ## Per-CPU values -/

/-- The `i`-th element of a slice with elements of type `t`. -/
def elem (t : Ty) (mem : Bytes) (i : Nat) : Bytes := window mem (i * sizeof t) (sizeof t)

theorem perCPU_hasPerCPU (h : typ ∈ perCPUTypes) : MapCreate.hasPerCPU typ = true := (hasPerCPU_iff typ).mpr h

/-- **C92**, `Update` of per-CPU maps: the kernel gets the encoding of each element in the slot of its
CPU, and zeros for CPUs without an element. -/
theorem update_perCPU (hf : Fits m k cpus typ ks vs) (hpc : typ ∈ perCPUTypes) (bo : ByteOrder) (refuse : Option Errno) (w : World)
    (key : Arg) (kb : Bytes) (hk : KeyIs key ks kb) (flags : Nat) (t : Ty) (n : Nat) (mem : Bytes) (hn : n ≤ cpus)
    (hmem : mem.length = n * sizeof t) (hvs : binSize t = vs) :
    ∃ vb : Bytes, vb.length = cpus * ((vs + 7) / 8 * 8) ∧
      (∀ i, i < n → window vb (i * ((vs + 7) / 8 * 8)) vs = binAppend t (elem t mem i)) ∧
      (∀ i, n ≤ i → i < cpus → window vb (i * ((vs + 7) / 8 * 8)) vs = List.replicate vs 0#8) ∧
      mapUpdate m k bo cpus refuse w key (.slice t n mem) flags = updateOutcome k bo refuse w kb vb flags := by
  obtain ⟨f1, f2, f3, f4⟩ := hf.fields
  rw [← f2] at hk
  have hal : (vs + 7) / 8 * 8 = align8 vs := rfl
  rw [hal]
  have hst := le_align8 vs
  generalize hels : ((List.range n).map fun i => (mem.drop (i * sizeof t)).take (sizeof t)) = els
  have hget : ∀ i, i < n → els[i]? = some (elem t mem i) := by
    intro i hi
    rw [← hels, List.getElem?_map, List.getElem?_range hi]; rfl
  have hlen : els.length = n := by rw [← hels]; simp
  have hel : ∀ i, i < n → (elem t mem i).length = sizeof t := by
    intro i hi
    have h1 : i * sizeof t + sizeof t ≤ n * sizeof t := by
      have := Nat.mul_le_mul_right (sizeof t) (show i + 1 ≤ n from hi)
      rw [Nat.succ_mul] at this; omega
    simp only [elem, window, List.length_take, List.length_drop, hmem]; omega
  generalize hc : (⟨fun b => some (binAppend t b), fun _ => none⟩ : Codec Bytes) = c
  have henc : ∀ v ∈ els, ∃ b, c.enc v = some b ∧ b.length = vs := by
    intro v hv
    obtain ⟨i, hi, he⟩ := List.getElem_of_mem hv
    have : els[i]? = some v := by rw [List.getElem?_eq_getElem hi, he]
    rw [hget i (by omega)] at this
    cases this
    subst hc
    exact ⟨_, rfl, by rw [binAppend_length t _ (hel i (by omega)), hvs]⟩
  have hsome : ∃ vb, PerCPU.marshalPerCPUValue c cpus els vs = some vb := by
    unfold PerCPU.marshalPerCPUValue
    exact ⟨_, (appendPerCPUSlice_some c vs (align8 vs) cpus [] _ els).mpr ⟨by omega, henc, rfl⟩⟩
  obtain ⟨vb, hvb⟩ := hsome
  obtain ⟨g1, g2, g3, g4, g5⟩ := (percpu_marshal_exact c cpus vs els vb).mp hvb
  have hv : ∀ i, window vb (i * align8 vs) vs = (slotAt vb (align8 vs) i).take vs := by
    intro i
    simp only [slotAt, window, List.take_take]
    congr 1; omega
  refine ⟨vb, g3, ?_, ?_, ?_⟩
  · intro i hi
    obtain ⟨b, hb1, hb2, hb3⟩ := g4 i _ (hget i hi)
    subst hc
    cases hb1
    rw [hv, hb3, List.take_append_of_le_length (by omega), List.take_of_length_le (by omega)]
  · intro i h1 h2
    rw [hv, g5 i (by omega) h2, List.take_replicate]
    congr 1; omega
  · have hmp : marshalPerCPU cpus (.slice t n mem) m.valueSize = some (newBuffer vb) := by
      simp only [marshalPerCPU, f3, hels, hc, hvb]; rfl
    unfold mapUpdate
    rw [f1, perCPU_hasPerCPU hpc, if_pos rfl, hmp]
    exact update_eq hf bo refuse w key kb vb hk (by rw [g3, hf.valueSize, if_pos hpc]; rfl) flags

theorem lookup_perCPU_aux (w : World) (t : Ty) (hb : NoBlank t) (hvs : binSize t = vs) (v : Bytes)
    (hv : v.length = cpus * align8 vs) (dst : Dst) :
    ∃ mem : Bytes, unmarshalPerCPU cpus w dst t cpus vs v = .ret w (written dst mem) none ∧ mem.length = cpus * sizeof t ∧
      ∀ i, i < cpus → binAppend t (elem t mem i) = window v (i * align8 vs) vs := by
  have hst := le_align8 vs
  have hdec : ∀ i, i < cpus → Sysenc.unmarshal t (zeros (sizeof t)) (valueAt v (align8 vs) vs i) =
      some (binDecode t (zeros (sizeof t)) (valueAt v (align8 vs) vs i)) := by
    intro i hi
    rw [(syscallOutput_eq_binary_partial t _ _ hb (zeros_length _)).2, if_pos]
    have h1 : i * align8 vs + align8 vs ≤ cpus * align8 vs := by
      have := Nat.mul_le_mul_right (align8 vs) (show i + 1 ≤ cpus from hi)
      rw [Nat.succ_mul] at this; omega
    simp only [valueAt, window, List.length_take, List.length_drop, hv, hvs]; omega
  have hvl : ∀ i, i < cpus → (valueAt v (align8 vs) vs i).length = binSize t := by
    intro i hi
    have h1 : i * align8 vs + align8 vs ≤ cpus * align8 vs := by
      have := Nat.mul_le_mul_right (align8 vs) (show i + 1 ≤ cpus from hi)
      rw [Nat.succ_mul] at this; omega
    simp only [valueAt, window, List.length_take, List.length_drop, hv, hvs]; omega
  generalize hels : ((List.range cpus).map fun i => binDecode t (zeros (sizeof t)) (valueAt v (align8 vs) vs i)) = els
  have hlen : els.length = cpus := by rw [← hels]; simp
  have hget : ∀ i, i < cpus → els[i]? = some (binDecode t (zeros (sizeof t)) (valueAt v (align8 vs) vs i)) := by
    intro i hi
    rw [← hels, List.getElem?_map, List.getElem?_range hi]; rfl
  have hall : ∀ f ∈ els, f.length = sizeof t := by
    intro f hf
    rw [← hels] at hf
    obtain ⟨i, hi, rfl⟩ := List.mem_map.mp hf
    exact binDecode_length t _ _ (zeros_length _) (hvl i (by simpa using hi))
  have h1 := ((percpu_unmarshal_exact ⟨fun b => some b, fun b => Sysenc.unmarshal t (zeros (sizeof t)) b⟩ cpus cpus vs v hv).1 els).mpr
    ⟨rfl, hlen, fun i hi => by rw [hget i hi]; exact hdec i hi⟩
  refine ⟨els.flatten, ?_, by rw [flatten_length els (sizeof t) hall, hlen], ?_⟩
  · simp only [unmarshalPerCPU, h1]
  · intro i hi
    have hw := flatten_window els (sizeof t) i hall (by omega)
    have he : els[i]'(by omega) = binDecode t (zeros (sizeof t)) (valueAt v (align8 vs) vs i) := by
      have := hget i hi
      rw [List.getElem?_eq_getElem (by omega)] at this
      exact Option.some.inj this
    rw [elem, hw, he, binAppend_binDecode t _ _ hb (zeros_length _) (hvl i hi)]
    rfl

/-- **C92**, `Lookup` in per-CPU maps: the slice has the value of each CPU. A slice has to have the right
length; a pointer to a slice gets a new slice. What is missing for the full claim: the new slice is
also there if the lookup failed, see `perCPU_missing_clears_counterexample`. -/
theorem lookup_perCPU_partial (hf : Fits m k cpus typ ks vs) (hpc : typ ∈ perCPUTypes) (bo : ByteOrder) (gone : Option Errno) (newFd : Nat)
    (w : World) (hd : DictOk k w.dict) (key : Arg) (kb : Bytes) (hk : KeyIs key ks kb) (v : Bytes) (hg : w.dict.get kb = some v)
    (t : Ty) (hb : NoBlank t) (hvs : binSize t = vs) :
    (∀ old, ∃ mem : Bytes, lookupWithFlags m k bo cpus none gone newFd w key (.slice t cpus old) = .ret w (.slice t cpus mem) none ∧
      mem.length = cpus * sizeof t ∧ ∀ i, i < cpus → binAppend t (elem t mem i) = window v (i * ((vs + 7) / 8 * 8)) vs) ∧
    (∀ n old, ∃ mem : Bytes, lookupWithFlags m k bo cpus none gone newFd w key (.pslice t n old) = .ret w (.pslice t cpus mem) none ∧
      mem.length = cpus * sizeof t ∧ ∀ i, i < cpus → binAppend t (elem t mem i) = window v (i * ((vs + 7) / 8 * 8)) vs) ∧
    (∀ n old, n ≠ cpus → lookupWithFlags m k bo cpus none gone newFd w key (.slice t n old) = .ret w (.slice t n old) (some .decode)) := by
  obtain ⟨f1, f2, f3, f4⟩ := hf.fields
  rw [← f2] at hk
  have hal : (vs + 7) / 8 * 8 = align8 vs := rfl
  rw [hal]
  have hvl : v.length = cpus * align8 vs := by
    rw [(hd _ (get_mem _ kb v hg)).2, hf.valueSize, if_pos hpc]; rfl
  have main := lookup_eq hf w.dict hd none key kb hk (zeros m.fullValueSize) (by rw [zeros_length, f4])
  rw [hg] at main
  refine ⟨?_, ?_, ?_⟩
  · intro old
    obtain ⟨mem, h1, h2, h3⟩ := lookup_perCPU_aux (cpus := cpus) w t hb hvs v hvl (.slice t cpus old)
    refine ⟨mem, ?_, h2, h3⟩
    unfold lookupWithFlags lookupPerCPU
    rw [f1, perCPU_hasPerCPU hpc, if_pos rfl]
    simp only [ensurePerCPUSlice, main, f3, h1, written]
  · intro n old
    obtain ⟨mem, h1, h2, h3⟩ := lookup_perCPU_aux (cpus := cpus) w t hb hvs v hvl (.pslice t cpus (zeros (cpus * sizeof t)))
    refine ⟨mem, ?_, h2, h3⟩
    unfold lookupWithFlags lookupPerCPU
    rw [f1, perCPU_hasPerCPU hpc, if_pos rfl]
    simp only [ensurePerCPUSlice, main, f3, h1, written]
  · intro n old hn
    unfold lookupWithFlags lookupPerCPU
    rw [f1, perCPU_hasPerCPU hpc, if_pos rfl]
    simp only [ensurePerCPUSlice, main, f3, unmarshalPerCPU, PerCPU.unmarshalPerCPUValue, hn, ne_eq, not_false_eq_true, if_true]

/-- **C92**, `LookupAndDelete` in per-CPU maps: as `Lookup`, and the key is gone. -/
theorem lookupAndDelete_perCPU_partial (hf : Fits m k cpus typ ks vs) (hpc : typ ∈ perCPUTypes) (bo : ByteOrder) (gone : Option Errno)
    (newFd : Nat) (w : World) (hd : DictOk k w.dict) (key : Arg) (kb : Bytes) (hk : KeyIs key ks kb) (t : Ty) (hb : NoBlank t)
    (hvs : binSize t = vs) (old : Bytes) :
    (∀ v, w.dict.get kb = some v → ∃ mem : Bytes,
      lookupAndDeleteWithFlags m k bo cpus none gone newFd w key (.slice t cpus old) =
        .ret { w with dict := w.dict.del kb } (.slice t cpus mem) none ∧
      mem.length = cpus * sizeof t ∧ ∀ i, i < cpus → binAppend t (elem t mem i) = window v (i * ((vs + 7) / 8 * 8)) vs) ∧
    (w.dict.get kb = none →
      lookupAndDeleteWithFlags m k bo cpus none gone newFd w key (.slice t cpus old) = .ret w (.slice t cpus old) (some .keyNotExist)) := by
  obtain ⟨f1, f2, f3, f4⟩ := hf.fields
  rw [← f2] at hk
  have hal : (vs + 7) / 8 * 8 = align8 vs := rfl
  rw [hal]
  have main := lookupAndDelete_eq hf w hd none key kb hk (zeros m.fullValueSize) (by rw [zeros_length, f4])
  constructor
  · intro v hg
    have hvl : v.length = cpus * align8 vs := by
      rw [(hd _ (get_mem _ kb v hg)).2, hf.valueSize, if_pos hpc]; rfl
    rw [hg] at main
    obtain ⟨mem, h1, h2, h3⟩ := lookup_perCPU_aux (cpus := cpus) { w with dict := w.dict.del kb } t hb hvs v hvl (.slice t cpus old)
    refine ⟨mem, ?_, h2, h3⟩
    unfold lookupAndDeleteWithFlags lookupAndDeletePerCPU
    rw [f1, perCPU_hasPerCPU hpc, if_pos rfl]
    simp only [ensurePerCPUSlice, main, f3, h1, written]
  · intro hg
    rw [hg] at main
    unfold lookupAndDeleteWithFlags lookupAndDeletePerCPU
    rw [f1, perCPU_hasPerCPU hpc, if_pos rfl]
    simp only [ensurePerCPUSlice, main]

/-- **C92**, per-CPU round trip: what was put for each CPU is what is looked up for each CPU; CPUs without
a value have zeros. -/
theorem perCPU_roundtrip_map (hf : Fits m k cpus typ ks vs) (hpc : typ ∈ perCPUTypes) (bo : ByteOrder) (gone : Option Errno) (newFd : Nat)
    (w : World) (hd : DictOk k w.dict) (key : Arg) (kb : Bytes) (hk : KeyIs key ks kb) (t : Ty) (hb : NoBlank t) (hvs : binSize t = vs)
    (n : Nat) (mem old : Bytes) (hn : n ≤ cpus) (hmem : mem.length = n * sizeof t) :
    ∃ w', put m k bo cpus none w key (.slice t n mem) = .ret w' none ∧
      ∃ got : Bytes, lookupWithFlags m k bo cpus none gone newFd w' key (.slice t cpus old) = .ret w' (.slice t cpus got) none ∧
        (∀ i, i < n → binAppend t (elem t got i) = binAppend t (elem t mem i)) ∧
        (∀ i, n ≤ i → i < cpus → binAppend t (elem t got i) = List.replicate vs 0#8) := by
  obtain ⟨vb, h1, h2, h3, h4⟩ := update_perCPU hf hpc bo none w key kb hk 0 t n mem hn hmem hvs
  have hr : k.refs = false := by
    cases hr : k.refs with
    | false => rfl
    | true =>
      exfalso
      rcases hf.refs.mp hr with h | h <;> revert h hpc <;>
        simp only [mapOfMapsTypes, progArrayTypes, perCPUTypes, List.mem_cons, List.not_mem_nil, or_false] <;>
        rintro (rfl | rfl | rfl | rfl | rfl | rfl | rfl) <;> decide
  simp only [updateOutcome, stored, hr, Bool.false_eq_true, if_false] at h4
  rw [if_neg (by omega), if_neg (by omega), if_neg (by omega)] at h4
  refine ⟨_, h4, ?_⟩
  have hkl : kb.length = k.keySize := by
    rw [hf.keySize]
    rcases hk with h | ⟨-, h0, rfl⟩
    · exact encodes_len _ _ _ h
    · exact h0.symm
  obtain ⟨got, g1, g2, g3⟩ := (lookup_perCPU_partial hf hpc bo gone newFd { w with dict := w.dict.set kb vb }
    (dictOk_set k _ kb vb hd hkl (by rw [h1, hf.valueSize, if_pos hpc])) key kb hk vb (by rw [get_set, if_pos rfl]) t hb hvs).1 old
  refine ⟨got, g1, ?_, ?_⟩
  · intro i hi; rw [g3 i (by omega), h2 i hi]
  · intro i hi1 hi2; rw [g3 i hi2, h3 i hi1 hi2]

end Ebpf.MapOps
