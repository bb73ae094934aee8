import Verif.Spec.PerCPU
import Verif.Model.Helpers
/-! # C12, C13: per-CPU values -/
namespace Ebpf.PerCPU

variable {α : Type}

/-- The stride is the kernel's `round_up(value_size, 8)`. -/
theorem align8_spec (n : Nat) : IsRoundUp8 n (align8 n) := by
  unfold IsRoundUp8 align8; omega

theorem le_align8 (n : Nat) : n ≤ align8 n := (align8_spec n).2.1

/-- `align8` is Go's `Align[int](n, 8)` for every size a 32-bit value size can have. -/
theorem align8_eq_alignS (n : Nat) (h : n < 2 ^ 32) :
    Internal.alignS (BitVec.ofNat 64 n) 8 = some (BitVec.ofNat 64 (align8 n)) := by
  have e1 : (BitVec.ofNat 64 n + 8 - 1 : BitVec 64).toNat = n + 7 := by
    simp only [BitVec.toNat_sub, BitVec.toNat_add, BitVec.toNat_ofNat]
    have a : (8 : BitVec 64).toNat = 8 := rfl
    have b : (1 : BitVec 64).toNat = 1 := rfl
    rw [a, b]; omega
  unfold Internal.alignS
  rw [if_neg (by decide)]
  congr 1
  rw [BitVec.sdiv_eq]
  have m1 : (BitVec.ofNat 64 n + 8 - 1 : BitVec 64).msb = false := by
    rw [BitVec.msb_eq_false_iff_two_mul_lt, e1]; omega
  have m2 : (8 : BitVec 64).msb = false := rfl
  simp only [m1, m2]
  apply BitVec.eq_of_toNat_eq
  have a : (8 : BitVec 64).toNat = 8 := rfl
  rw [BitVec.toNat_mul, BitVec.udiv_eq, BitVec.toNat_udiv, e1, a, BitVec.toNat_ofNat]
  unfold align8
  omega

theorem zeros_length (n : Nat) : (zeros n).length = n := by simp [zeros]

theorem zeros_mul (n k : Nat) : zeros (n * k) = (List.replicate n (zeros k)).flatten := by
  induction n with
  | zero => simp [zeros]
  | succ n ih =>
    rw [List.replicate_succ, List.flatten_cons, ← ih]
    simp only [zeros]
    rw [List.replicate_append_replicate]
    congr 1
    rw [Nat.succ_mul]; omega

theorem sysMarshal_some (c : Codec α) (v : α) (n : Nat) (b : Bytes) :
    sysMarshal c v n = some b ↔ c.enc v = some b ∧ b.length = n := by
  unfold sysMarshal
  cases c.enc v with
  | none => simp
  | some d =>
    dsimp only
    split
    · next h => constructor
                · intro e; injection e with e; subst e; exact ⟨rfl, h⟩
                · rintro ⟨e, _⟩; exact e
    · next h => constructor
                · intro e; cases e
                · rintro ⟨e, h2⟩; injection e with e; subst e; exact absurd h2 h

/-- The slot for `v`. -/
def slotOf (c : Codec α) (sz st : Nat) (v : α) : Bytes := (c.enc v).getD [] ++ zeros (st - sz)

/-- All elements encode to exactly `sz` bytes. -/
def AllEncode (c : Codec α) (sz : Nat) (vs : List α) : Prop := ∀ v ∈ vs, ∃ b, c.enc v = some b ∧ b.length = sz

theorem appendElems_some (c : Codec α) (sz st : Nat) (buf out : Bytes) (vs : List α) :
    appendElems c sz st buf vs = some out ↔ AllEncode c sz vs ∧ out = buf ++ (vs.map (slotOf c sz st)).flatten := by
  induction vs generalizing buf with
  | nil => simp [appendElems, AllEncode, eq_comm]
  | cons v vs ih =>
    unfold appendElems
    cases hm : sysMarshal c v sz with
    | none =>
      simp only [reduceCtorEq, false_iff, not_and]
      intro ha
      obtain ⟨b, h1, h2⟩ := ha v List.mem_cons_self
      rw [(sysMarshal_some c v sz b).2 ⟨h1, h2⟩] at hm
      cases hm
    | some b =>
      obtain ⟨h1, h2⟩ := (sysMarshal_some c v sz b).1 hm
      dsimp only
      rw [ih]
      constructor
      · rintro ⟨ha, e⟩
        refine ⟨?_, ?_⟩
        · intro w hw
          rcases List.mem_cons.1 hw with rfl | hw
          · exact ⟨b, h1, h2⟩
          · exact ha w hw
        · rw [e, List.map_cons, List.flatten_cons]; simp [slotOf, h1]
      · rintro ⟨ha, e⟩
        refine ⟨fun w hw => ha w (List.mem_cons_of_mem _ hw), ?_⟩
        rw [e, List.map_cons, List.flatten_cons]; simp [slotOf, h1]

theorem slotOf_length (c : Codec α) (sz st : Nat) (hst : sz ≤ st) (v : α) (h : ∃ b, c.enc v = some b ∧ b.length = sz) :
    (slotOf c sz st v).length = st := by
  obtain ⟨b, h1, h2⟩ := h
  simp [slotOf, h1, zeros]; omega

theorem appendPerCPUSlice_some (c : Codec α) (sz st cpus : Nat) (buf out : Bytes) (vs : List α) :
    appendPerCPUSlice c buf vs cpus sz st = some out ↔ vs.length ≤ cpus ∧ AllEncode c sz vs ∧
      out = buf ++ (vs.map (slotOf c sz st) ++ List.replicate (cpus - vs.length) (zeros st)).flatten := by
  unfold appendPerCPUSlice
  split
  · next h => simp; omega
  · next h =>
    cases he : appendElems c sz st buf vs with
    | none =>
      simp only [reduceCtorEq, false_iff, not_and]
      intro _ ha
      rw [(appendElems_some c sz st buf _ vs).2 ⟨ha, rfl⟩] at he
      cases he
    | some o =>
      obtain ⟨h1, h2⟩ := (appendElems_some c sz st buf o vs).1 he
      simp only [Option.some.injEq]
      rw [h2, List.flatten_append, ← zeros_mul, List.append_assoc]
      constructor
      · rintro rfl; exact ⟨by omega, h1, rfl⟩
      · rintro ⟨_, _, e⟩; exact e.symm

/-- **C12**, storing. The buffer handed to the kernel, for every CPU count, value size and slice of
values: accepted exactly when there are at most as many values as CPUs and each encodes to the value
size; then it has one slot per CPU, slot `i` holds the `i`-th value and zero padding, and slots without
a value are zero. -/
theorem percpu_marshal_exact (c : Codec α) (cpus sz : Nat) (vs : List α) (buf : Bytes) :
    marshalPerCPUValue c cpus vs sz = some buf ↔
      vs.length ≤ cpus ∧ (∀ v ∈ vs, ∃ b, c.enc v = some b ∧ b.length = sz) ∧
      buf.length = cpus * align8 sz ∧
      (∀ (i : Nat) (v : α), vs[i]? = some v → ∃ b, c.enc v = some b ∧ IsSlot sz (align8 sz) b (slotAt buf (align8 sz) i)) ∧
      (∀ i, vs.length ≤ i → i < cpus → slotAt buf (align8 sz) i = List.replicate (align8 sz) 0) := by
  unfold marshalPerCPUValue
  rw [appendPerCPUSlice_some]
  have hst := le_align8 sz
  generalize align8 sz = st at *
  -- the reference buffer
  have hall : AllEncode c sz vs → ∀ f ∈ vs.map (slotOf c sz st) ++ List.replicate (cpus - vs.length) (zeros st), f.length = st := by
    intro ha f hf
    rcases List.mem_append.1 hf with hf | hf
    · obtain ⟨v, hv, rfl⟩ := List.mem_map.1 hf
      exact slotOf_length c sz st hst v (ha v hv)
    · rw [List.eq_of_mem_replicate hf]; exact zeros_length st
  have hlen : vs.length ≤ cpus → (vs.map (slotOf c sz st) ++ List.replicate (cpus - vs.length) (zeros st)).length = cpus := by
    intro h; simp; omega
  have hget : ∀ (i : Nat) (v : α), vs[i]? = some v →
      (vs.map (slotOf c sz st) ++ List.replicate (cpus - vs.length) (zeros st))[i]? = some (slotOf c sz st v) := by
    intro i v hv
    have hlt := (List.getElem?_eq_some_iff.1 hv).1
    rw [List.getElem?_append_left (by simpa using hlt), List.getElem?_map, hv]; rfl
  have hget2 : ∀ i, vs.length ≤ i → i < cpus →
      (vs.map (slotOf c sz st) ++ List.replicate (cpus - vs.length) (zeros st))[i]? = some (zeros st) := by
    intro i h1 h2
    rw [List.getElem?_append_right (by simpa using h1), List.length_map, List.getElem?_replicate, if_pos (by omega)]
  generalize vs.map (slotOf c sz st) ++ List.replicate (cpus - vs.length) (zeros st) = fs at *
  constructor
  · rintro ⟨h1, h2, rfl⟩
    have hf := hall h2
    have hl := hlen h1
    have hw : ∀ (i : Nat) (f : Bytes), fs[i]? = some f → slotAt fs.flatten st i = f := by
      intro i f hi
      obtain ⟨hlt, e⟩ := List.getElem?_eq_some_iff.1 hi
      unfold slotAt
      rw [flatten_window fs st i hf hlt, e]
    rw [List.nil_append]
    refine ⟨h1, h2, by rw [flatten_length fs st hf, hl], ?_, ?_⟩
    · intro i v hv
      obtain ⟨b, hb1, hb2⟩ := h2 v (List.mem_of_getElem? hv)
      refine ⟨b, hb1, hb2, ?_⟩
      rw [hw i _ (hget i v hv)]; simp [slotOf, hb1, zeros]
    · intro i hi1 hi2
      rw [hw i _ (hget2 i hi1 hi2)]; rfl
  · rintro ⟨h1, h2, h3, h4, h5⟩
    refine ⟨h1, h2, ?_⟩
    rw [List.nil_append]
    have hf := hall h2
    have hl := hlen h1
    apply eq_of_windows cpus st _ _ h3 (by rw [flatten_length fs st hf, hl])
    intro i hi
    rw [flatten_window fs st i hf (by omega)]
    by_cases hi2 : i < vs.length
    · have hv := List.getElem?_eq_getElem hi2
      obtain ⟨b, hb1, _, hb3⟩ := h4 i _ hv
      have := hget i _ hv
      rw [List.getElem?_eq_getElem (by omega)] at this
      injection this with this
      rw [this]
      show slotAt buf st i = _
      rw [hb3]; simp [slotOf, hb1, zeros]
    · have := hget2 i (by omega) hi
      rw [List.getElem?_eq_getElem (by omega)] at this
      injection this with this
      rw [this]; exact h5 i (by omega) hi

theorem unmarshalElems_ok (c : Codec α) (sz st n : Nat) (hst : sz ≤ st) (buf : Bytes) (hb : n * st ≤ buf.length) (vs : List α) :
    unmarshalElems c sz st n buf = .ok vs ↔ vs.length = n ∧ ∀ i, i < n → c.dec (valueAt buf st sz i) = vs[i]? := by
  induction n generalizing buf vs with
  | zero =>
    simp only [unmarshalElems, Res.ok.injEq, Nat.not_lt_zero, false_implies, implies_true, and_true]
    constructor
    · rintro rfl; rfl
    · intro h; exact (List.length_eq_zero_iff.1 h).symm
  | succ n ih =>
    rw [Nat.succ_mul] at hb
    unfold unmarshalElems
    rw [if_neg (by omega)]
    have h0 : valueAt buf st sz 0 = buf.take sz := by simp [valueAt, window]
    have hS : ∀ i, valueAt buf st sz (i + 1) = valueAt (buf.drop st) st sz i := by
      intro i
      simp only [valueAt, window, List.drop_drop, Nat.succ_mul]
      rw [Nat.add_comm]
    cases hd : c.dec (buf.take sz) with
    | none =>
      simp only [reduceCtorEq, false_iff, not_and]
      intro hl hall
      have := hall 0 (by omega)
      rw [h0, hd] at this
      have := this.symm
      rw [List.getElem?_eq_none_iff] at this
      omega
    | some v =>
      dsimp only
      rw [if_neg (by omega)]
      have ih' := ih (buf.drop st) (by rw [List.length_drop]; omega)
      constructor
      · intro h
        cases hu : unmarshalElems c sz st n (buf.drop st) with
        | ok ws =>
          rw [hu] at h
          injection h with h; subst h
          obtain ⟨h1, h2⟩ := (ih' ws).1 hu
          refine ⟨by simp [h1], ?_⟩
          intro i hi
          cases i with
          | zero => rw [h0, hd]; rfl
          | succ i => rw [hS, h2 i (by omega)]; rfl
        | err => rw [hu] at h; cases h
        | panic => rw [hu] at h; cases h
      · rintro ⟨h1, h2⟩
        cases vs with
        | nil => simp at h1
        | cons w ws =>
          have e0 := h2 0 (by omega)
          rw [h0, hd] at e0
          simp at e0; subst e0
          have := (ih' ws).2 ⟨by simpa using h1, fun i hi => by rw [← hS, h2 (i + 1) (by omega)]; rfl⟩
          rw [this]

theorem unmarshalElems_no_panic (c : Codec α) (sz st n : Nat) (hst : sz ≤ st) (buf : Bytes) (hb : n * st ≤ buf.length) :
    unmarshalElems c sz st n buf ≠ .panic := by
  induction n generalizing buf with
  | zero => simp [unmarshalElems]
  | succ n ih =>
    rw [Nat.succ_mul] at hb
    unfold unmarshalElems
    rw [if_neg (by omega)]
    cases c.dec (buf.take sz) with
    | none => simp
    | some v =>
      dsimp only
      rw [if_neg (by omega)]
      have := ih (buf.drop st) (by rw [List.length_drop]; omega)
      cases hu : unmarshalElems c sz st n (buf.drop st) with
      | ok ws => simp
      | err => simp
      | panic => exact absurd hu this

/-- **C12**, loading. From a buffer with one slot per CPU, exactly the decoded slot values are returned,
one per CPU; it never panics. A destination of another length is rejected. -/
theorem percpu_unmarshal_exact (c : Codec α) (cpus sliceLen sz : Nat) (buf : Bytes) (hb : buf.length = cpus * align8 sz) :
    (∀ vs, unmarshalPerCPUValue c cpus sliceLen sz buf = .ok vs ↔
      sliceLen = cpus ∧ vs.length = cpus ∧ ∀ i, i < cpus → c.dec (valueAt buf (align8 sz) sz i) = vs[i]?) ∧
    unmarshalPerCPUValue c cpus sliceLen sz buf ≠ .panic := by
  unfold unmarshalPerCPUValue
  by_cases h : sliceLen = cpus
  · simp only [h, ne_eq, not_true_eq_false, if_false, true_and]
    exact ⟨unmarshalElems_ok c sz _ cpus (le_align8 sz) buf (by omega), unmarshalElems_no_panic c sz _ cpus (le_align8 sz) buf (by omega)⟩
  · simp [h]

/-- **C12**, round trip. If the kernel returns the stored buffer, every CPU with a value gets it back
and every other CPU gets the decoding of zero bytes. -/
theorem percpu_roundtrip (c : Codec α) (cpus sz : Nat) (vs : List α) (z : α) (buf : Bytes)
    (hrt : ∀ v ∈ vs, ∀ b, c.enc v = some b → c.dec b = some v) (hz : c.dec (List.replicate sz 0) = some z)
    (h : marshalPerCPUValue c cpus vs sz = some buf) :
    unmarshalPerCPUValue c cpus cpus sz buf = .ok (vs ++ List.replicate (cpus - vs.length) z) := by
  obtain ⟨h1, h2, h3, h4, h5⟩ := (percpu_marshal_exact c cpus sz vs buf).1 h
  rw [(percpu_unmarshal_exact c cpus cpus sz buf h3).1]
  refine ⟨rfl, by simp; omega, ?_⟩
  have hst := le_align8 sz
  intro i hi
  have hv : valueAt buf (align8 sz) sz i = (slotAt buf (align8 sz) i).take sz := by
    simp only [valueAt, slotAt, window, List.take_take]
    congr 1; omega
  by_cases hi2 : i < vs.length
  · have hg := List.getElem?_eq_getElem hi2
    obtain ⟨b, hb1, hb2, hb3⟩ := h4 i _ hg
    rw [List.getElem?_append_left hi2, hg, hv, hb3, List.take_append_of_le_length (by omega),
      List.take_of_length_le (by omega)]
    exact hrt _ (List.getElem_mem hi2) b hb1
  · rw [List.getElem?_append_right (by omega), List.getElem?_replicate, if_pos (by omega), hv, h5 i (by omega) hi,
      List.take_replicate, Nat.min_eq_left hst]
    exact hz

/-! ## Batches -/

theorem AllEncode_append (c : Codec α) (sz : Nat) (a b : List α) : AllEncode c sz (a ++ b) ↔ AllEncode c sz a ∧ AllEncode c sz b := by
  unfold AllEncode
  simp only [List.mem_append]
  constructor
  · intro h; exact ⟨fun v hv => h v (Or.inl hv), fun v hv => h v (Or.inr hv)⟩
  · rintro ⟨h1, h2⟩ v (hv | hv)
    · exact h1 v hv
    · exact h2 v hv

theorem batchLoop_some (c : Codec α) (cpus sz st n : Nat) (buf out : Bytes) (vs : List α) (hl : vs.length = n * cpus) :
    batchLoop c cpus sz st n buf vs = some out ↔ AllEncode c sz vs ∧ out = buf ++ (vs.map (slotOf c sz st)).flatten := by
  induction n generalizing buf vs with
  | zero =>
    rw [Nat.zero_mul] at hl
    rw [List.length_eq_zero_iff.1 hl]
    simp [batchLoop, AllEncode, eq_comm]
  | succ n ih =>
    rw [Nat.succ_mul] at hl
    have htl : (vs.take cpus).length = cpus := by rw [List.length_take]; omega
    have hdl : (vs.drop cpus).length = n * cpus := by rw [List.length_drop]; omega
    have key : ∀ o, appendPerCPUSlice c buf (vs.take cpus) cpus sz st = some o ↔
        AllEncode c sz (vs.take cpus) ∧ o = buf ++ ((vs.take cpus).map (slotOf c sz st)).flatten := by
      intro o
      rw [appendPerCPUSlice_some, htl, Nat.sub_self, List.replicate_zero, List.append_nil]
      constructor
      · rintro ⟨_, h⟩; exact h
      · intro h; exact ⟨Nat.le_refl _, h⟩
    have hvs : vs = vs.take cpus ++ vs.drop cpus := (List.take_append_drop cpus vs).symm
    have hall : AllEncode c sz vs ↔ AllEncode c sz (vs.take cpus) ∧ AllEncode c sz (vs.drop cpus) := by
      rw [← AllEncode_append, List.take_append_drop]
    have hflat : (vs.map (slotOf c sz st)).flatten =
        ((vs.take cpus).map (slotOf c sz st)).flatten ++ ((vs.drop cpus).map (slotOf c sz st)).flatten := by
      rw [← List.flatten_append, ← List.map_append, List.take_append_drop]
    unfold batchLoop
    cases ha : appendPerCPUSlice c buf (vs.take cpus) cpus sz st with
    | none =>
      simp only [reduceCtorEq, false_iff, not_and]
      intro h
      rw [(key _).2 ⟨(hall.1 h).1, rfl⟩] at ha
      cases ha
    | some o =>
      obtain ⟨h1, h2⟩ := (key o).1 ha
      dsimp only
      rw [ih o (vs.drop cpus) hdl, hall, hflat, h2, List.append_assoc]
      constructor
      · rintro ⟨h3, h4⟩; exact ⟨⟨h1, h3⟩, h4⟩
      · rintro ⟨⟨_, h3⟩, h4⟩; exact ⟨h3, h4⟩

/-- **C13**, storing a batch. Accepted exactly when there is one value per batch element and CPU and
each encodes to the value size; value `(elem, cpu)` is in slot `elem*cpus + cpu`. -/
theorem batch_marshal_exact (c : Codec α) (cpus batchLen sz : Nat) (vs : List α) (buf : Bytes) :
    marshalBatchPerCPUValue c cpus vs batchLen sz = some buf ↔
      vs.length = batchLen * cpus ∧ (∀ v ∈ vs, ∃ b, c.enc v = some b ∧ b.length = sz) ∧
      buf.length = batchLen * cpus * align8 sz ∧
      ∀ elem cpu, elem < batchLen → cpu < cpus → ∃ v b, vs[elem * cpus + cpu]? = some v ∧ c.enc v = some b ∧
        IsSlot sz (align8 sz) b (slotAt buf (align8 sz) (elem * cpus + cpu)) := by
  unfold marshalBatchPerCPUValue
  have hst := le_align8 sz
  generalize align8 sz = st at *
  by_cases hl : vs.length = batchLen * cpus
  · simp only [hl, ne_eq, not_true_eq_false, if_false, true_and]
    rw [batchLoop_some c cpus sz st batchLen [] buf vs hl, List.nil_append]
    have hall : AllEncode c sz vs → ∀ f ∈ vs.map (slotOf c sz st), f.length = st := by
      intro ha f hf
      obtain ⟨v, hv, rfl⟩ := List.mem_map.1 hf
      exact slotOf_length c sz st hst v (ha v hv)
    have hidx : ∀ elem cpu, elem < batchLen → cpu < cpus → elem * cpus + cpu < batchLen * cpus := by
      intro elem cpu h1 h2
      have : (elem + 1) * cpus ≤ batchLen * cpus := Nat.mul_le_mul_right _ h1
      rw [Nat.succ_mul] at this; omega
    constructor
    · rintro ⟨h1, rfl⟩
      refine ⟨h1, by rw [flatten_length _ st (hall h1), List.length_map, hl], ?_⟩
      intro elem cpu he hc
      have hlt : elem * cpus + cpu < vs.length := by rw [hl]; exact hidx elem cpu he hc
      obtain ⟨b, hb1, hb2⟩ := h1 _ (List.getElem_mem hlt)
      refine ⟨_, b, List.getElem?_eq_getElem hlt, hb1, hb2, ?_⟩
      unfold slotAt
      rw [flatten_window _ st _ (hall h1) (by simpa using hlt), List.getElem_map]
      simp [slotOf, hb1, zeros]
    · rintro ⟨h1, h2, h3⟩
      refine ⟨h1, ?_⟩
      apply eq_of_windows (batchLen * cpus) st _ _ h2 (by rw [flatten_length _ st (hall h1), List.length_map, hl])
      intro i hi
      have hc : 0 < cpus := by
        rcases Nat.eq_zero_or_pos cpus with h | h
        · subst h; simp at hi
        · exact h
      obtain ⟨v, b, hv, hb1, _, hb3⟩ := h3 (i / cpus) (i % cpus) (Nat.div_lt_of_lt_mul (by rw [Nat.mul_comm]; exact hi)) (Nat.mod_lt _ hc)
      have ei : i / cpus * cpus + i % cpus = i := by rw [Nat.mul_comm]; exact Nat.div_add_mod i cpus
      rw [ei] at hv hb3
      rw [flatten_window _ st i (hall h1) (by simp; omega), List.getElem_map]
      have := (List.getElem?_eq_some_iff.1 hv).2
      rw [this]
      show slotAt buf st i = _
      rw [hb3]; simp [slotOf, hb1, zeros]
  · simp [hl]

theorem valueAt_take (buf : Bytes) (st sz cpus i : Nat) (hst : sz ≤ st) (hi : i < cpus) :
    valueAt (buf.take (cpus * st)) st sz i = valueAt buf st sz i := by
  have : (i + 1) * st ≤ cpus * st := Nat.mul_le_mul_right _ hi
  rw [Nat.succ_mul] at this
  simp only [valueAt, window, List.drop_take, List.take_take]
  congr 1; omega

theorem valueAt_drop (buf : Bytes) (st sz cpus i : Nat) :
    valueAt (buf.drop (cpus * st)) st sz i = valueAt buf st sz (cpus + i) := by
  simp only [valueAt, window, List.drop_drop, Nat.add_mul]

theorem unmarshalBatchLoop_ok (c : Codec α) (cpus sz n : Nat) (buf : Bytes) (hb : buf.length = n * (cpus * align8 sz)) :
    (∀ vs, unmarshalBatchLoop c cpus sz (cpus * align8 sz) n buf = .ok vs ↔
      vs.length = n * cpus ∧ ∀ i, i < n * cpus → c.dec (valueAt buf (align8 sz) sz i) = vs[i]?) ∧
    unmarshalBatchLoop c cpus sz (cpus * align8 sz) n buf ≠ .panic := by
  induction n generalizing buf with
  | zero =>
    simp only [unmarshalBatchLoop, Nat.zero_mul, Res.ok.injEq, Nat.not_lt_zero, false_implies, implies_true, and_true,
      ne_eq, reduceCtorEq, not_false_eq_true]
    intro vs
    constructor
    · rintro rfl; rfl
    · intro h; exact (List.length_eq_zero_iff.1 h).symm
  | succ n ih =>
    have hst := le_align8 sz
    rw [Nat.succ_mul] at hb
    have htl : (buf.take (cpus * align8 sz)).length = cpus * align8 sz := by rw [List.length_take]; omega
    obtain ⟨u1, u2⟩ := percpu_unmarshal_exact c cpus cpus sz (buf.take (cpus * align8 sz)) htl
    obtain ⟨ih1, ih2⟩ := ih (buf.drop (cpus * align8 sz)) (by rw [List.length_drop]; omega)
    have hmul : (n + 1) * cpus = cpus + n * cpus := by rw [Nat.succ_mul]; omega
    unfold unmarshalBatchLoop
    constructor
    · intro vs
      rw [hmul]
      constructor
      · intro h
        cases hu : unmarshalPerCPUValue c cpus cpus sz (buf.take (cpus * align8 sz)) with
        | err => rw [hu] at h; cases h
        | panic => rw [hu] at h; cases h
        | ok as =>
          rw [hu] at h
          dsimp only at h
          cases hu2 : unmarshalBatchLoop c cpus sz (cpus * align8 sz) n (buf.drop (cpus * align8 sz)) with
          | err => rw [hu2] at h; cases h
          | panic => rw [hu2] at h; cases h
          | ok bs =>
            rw [hu2] at h
            injection h with h; subst h
            obtain ⟨_, a1, a2⟩ := (u1 as).1 hu
            obtain ⟨b1, b2⟩ := (ih1 bs).1 hu2
            refine ⟨by rw [List.length_append]; omega, ?_⟩
            intro i hi
            by_cases hic : i < cpus
            · rw [List.getElem?_append_left (by omega), ← a2 i hic, valueAt_take buf _ sz cpus i hst hic]
            · rw [List.getElem?_append_right (by omega), a1, ← b2 (i - cpus) (by omega), valueAt_drop]
              congr 2; omega
      · rintro ⟨h1, h2⟩
        have ha := (u1 (vs.take cpus)).2 ⟨rfl, by rw [List.length_take]; omega, fun i hi => by
          rw [valueAt_take buf _ sz cpus i hst hi, h2 i (by omega), List.getElem?_take_of_lt hi]⟩
        have hbs := (ih1 (vs.drop cpus)).2 ⟨by rw [List.length_drop]; omega, fun i hi => by
          rw [valueAt_drop, h2 _ (by omega), List.getElem?_drop]⟩
        rw [ha]
        dsimp only
        rw [hbs]
        dsimp only
        rw [List.take_append_drop]
    · cases hu : unmarshalPerCPUValue c cpus cpus sz (buf.take (cpus * align8 sz)) with
      | err => simp
      | panic => exact absurd hu u2
      | ok as =>
        dsimp only
        cases hu2 : unmarshalBatchLoop c cpus sz (cpus * align8 sz) n (buf.drop (cpus * align8 sz)) with
        | err => simp
        | panic => exact absurd hu2 ih2
        | ok bs => simp

/-- **C13**, loading a batch: exactly the decoded slot values, value `(elem, cpu)` from slot
`elem*cpus + cpu`; buffers and destinations of another length are rejected; never panics. -/
theorem batch_unmarshal_exact (c : Codec α) (cpus sliceLen batchLen sz : Nat) (buf : Bytes) :
    (∀ vs, unmarshalBatchPerCPUValue c cpus sliceLen batchLen sz buf = .ok vs ↔
      sliceLen = batchLen * cpus ∧ buf.length = batchLen * (cpus * align8 sz) ∧ vs.length = batchLen * cpus ∧
      ∀ elem cpu, elem < batchLen → cpu < cpus →
        c.dec (valueAt buf (align8 sz) sz (elem * cpus + cpu)) = vs[elem * cpus + cpu]?) ∧
    unmarshalBatchPerCPUValue c cpus sliceLen batchLen sz buf ≠ .panic := by
  unfold unmarshalBatchPerCPUValue
  by_cases h1 : sliceLen = batchLen * cpus
  · by_cases h2 : buf.length = batchLen * (cpus * align8 sz)
    · simp only [h1, h2, ne_eq, not_true_eq_false, if_false, true_and]
      obtain ⟨a, b⟩ := unmarshalBatchLoop_ok c cpus sz batchLen buf h2
      refine ⟨?_, b⟩
      intro vs
      rw [a]
      apply and_congr_right
      intro _
      constructor
      · intro h elem cpu he hc
        apply h
        have : (elem + 1) * cpus ≤ batchLen * cpus := Nat.mul_le_mul_right _ he
        rw [Nat.succ_mul] at this; omega
      · intro h i hi
        have hc : 0 < cpus := by
          rcases Nat.eq_zero_or_pos cpus with h | h
          · subst h; simp at hi
          · exact h
        have := h (i / cpus) (i % cpus) (Nat.div_lt_of_lt_mul (by rw [Nat.mul_comm]; exact hi)) (Nat.mod_lt _ hc)
        rwa [show i / cpus * cpus + i % cpus = i by rw [Nat.mul_comm]; exact Nat.div_add_mod i cpus] at this
    · simp [h1, h2]
  · simp [h1]

/-- **C13**, round trip. -/
theorem batch_roundtrip (c : Codec α) (cpus batchLen sz : Nat) (vs : List α) (buf : Bytes)
    (hrt : ∀ v ∈ vs, ∀ b, c.enc v = some b → c.dec b = some v)
    (h : marshalBatchPerCPUValue c cpus vs batchLen sz = some buf) :
    unmarshalBatchPerCPUValue c cpus (batchLen * cpus) batchLen sz buf = .ok vs := by
  obtain ⟨h1, h2, h3, h4⟩ := (batch_marshal_exact c cpus batchLen sz vs buf).1 h
  rw [(batch_unmarshal_exact c cpus _ batchLen sz buf).1]
  refine ⟨rfl, by rw [h3, Nat.mul_assoc], h1, ?_⟩
  intro elem cpu he hc
  obtain ⟨v, b, hv, hb1, hb2, hb3⟩ := h4 elem cpu he hc
  have hst := le_align8 sz
  have e : valueAt buf (align8 sz) sz (elem * cpus + cpu) = (slotAt buf (align8 sz) (elem * cpus + cpu)).take sz := by
    simp only [valueAt, slotAt, window, List.take_take]
    congr 1; omega
  rw [e, hb3, List.take_append_of_le_length (by omega), List.take_of_length_le (by omega), hv]
  exact hrt v (List.mem_of_getElem? hv) b hb1

/-- Non-vacuity: 16-bit little-endian values on 3 CPUs, two values given. -/
def u16Codec : Codec (BitVec 16) :=
  ⟨fun v => some (ByteOrder.little.put16 v), fun b => match b with | [x, y] => some (ByteOrder.little.get16 x y) | _ => none⟩

example : marshalPerCPUValue u16Codec 3 [0x0102#16, 0xaabb#16] 2 =
    some [2, 1, 0, 0, 0, 0, 0, 0, 0xbb, 0xaa, 0, 0, 0, 0, 0, 0, 0, 0, 0, 0, 0, 0, 0, 0] := by decide
example : unmarshalPerCPUValue u16Codec 3 3 2
    [2, 1, 9, 9, 9, 9, 9, 9, 0xbb, 0xaa, 0, 0, 0, 0, 0, 0, 0, 0, 0, 0, 0, 0, 0, 0] = .ok [0x0102#16, 0xaabb#16, 0] := by decide
example : marshalPerCPUValue u16Codec 1 [0x0102#16, 0xaabb#16] 2 = none := by decide
example : (marshalBatchPerCPUValue u16Codec 2 [1, 2, 3, 4, 5, 6] 3 2).isSome = true := by decide

end Ebpf.PerCPU
