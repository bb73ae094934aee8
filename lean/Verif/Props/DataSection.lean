import Verif.Spec.Memory
/-! # C15: variables in data sections -/
namespace Ebpf.Memory

/-- Number of bytes a variable occupies. -/
def VarSpec.len (v : VarSpec) : Nat := match v.value with | some b => b.length | none => v.typeSize.toNat

def VarSpec.start (v : VarSpec) : Nat := v.offset.toNat

/-- The end of the variable is representable (the code computes it in 32 bits). -/
def VarSpec.NoWrap (v : VarSpec) : Prop := v.start + v.len < 2 ^ 32

/-- Disjoint byte ranges. -/
def VarSpec.Apart (v w : VarSpec) : Prop := v.start + v.len ≤ w.start ∨ w.start + w.len ≤ v.start

/-- Byte `i` belongs to a variable that has a value. -/
def VarSpec.Covers (v : VarSpec) (i : Nat) : Prop := v.value.isSome ∧ v.start ≤ i ∧ i < v.start + v.len

theorem size_toNat (v : VarSpec) (h : v.NoWrap) : v.size.toNat = v.len := by
  unfold VarSpec.NoWrap VarSpec.len VarSpec.start at h
  unfold VarSpec.size VarSpec.len
  cases hv : v.value with
  | none => rfl
  | some b =>
    rw [hv] at h
    simp only at h
    simp only [BitVec.toNat_ofNat]
    omega

theorem end_toNat (v : VarSpec) (h : v.NoWrap) : (v.offset + v.size).toNat = v.start + v.len := by
  rw [BitVec.toNat_add, size_toNat v h]
  unfold VarSpec.NoWrap VarSpec.start at *
  omega

/-- The data after writing one variable. -/
def writeVar (data : Bytes) (v : VarSpec) : Bytes :=
  data.take v.start ++ (v.value.getD []) ++ data.drop (v.start + (v.value.getD []).length)

theorem writeVar_length (data : Bytes) (v : VarSpec) (h : v.start + v.len ≤ data.length) : (writeVar data v).length = data.length := by
  have : (v.value.getD []).length ≤ v.len := by unfold VarSpec.len; cases v.value <;> simp
  unfold writeVar; simp; omega

theorem writeVar_get (data : Bytes) (v : VarSpec) (h : v.start + v.len ≤ data.length) (i : Nat) :
    (writeVar data v)[i]? = if v.start ≤ i ∧ i < v.start + (v.value.getD []).length then (v.value.getD [])[i - v.start]? else data[i]? := by
  have hl : (v.value.getD []).length ≤ v.len := by unfold VarSpec.len; cases v.value <;> simp
  unfold writeVar
  generalize v.value.getD [] = src at *
  have h1 : (data.take v.start).length = v.start := by rw [List.length_take]; omega
  by_cases hlo : i < v.start
  · rw [if_neg (by omega), List.append_assoc, List.getElem?_append_left (by omega), List.getElem?_take_of_lt hlo]
  · by_cases hhi : i < v.start + src.length
    · rw [if_pos ⟨by omega, hhi⟩, List.append_assoc, List.getElem?_append_right (by omega), h1, List.getElem?_append_left (by omega)]
    · rw [if_neg (by omega), List.getElem?_append_right (by rw [List.length_append]; omega), List.length_append, h1, List.getElem?_drop]
      congr 1; omega

theorem loop_cons (off : BitVec 32) (data : Bytes) (v : VarSpec) (vs : List VarSpec) (h : v.NoWrap) :
    updateLoop off data (v :: vs) =
      if v.start < off.toNat then (data, .overlap)
      else if v.start + v.len > data.length then (data, .exceeds)
      else updateLoop (v.offset + v.size) (writeVar data v) vs := by
  have he := end_toNat v h
  have hl : (v.value.getD []).length ≤ v.len := by unfold VarSpec.len; cases v.value <;> simp
  conv => lhs; unfold updateLoop
  simp only [BitVec.lt_def, he]
  have h1 : ¬ v.start + v.len < v.offset.toNat := by unfold VarSpec.start; omega
  rw [if_neg h1]
  have h2 : v.start + v.len - v.offset.toNat = v.len := by unfold VarSpec.start; omega
  rw [h2, Nat.min_eq_left hl, List.take_of_length_le (Nat.le_refl _)]
  rfl

/-- What a successful run of the loop means. -/
theorem loop_ok (off : BitVec 32) (data : Bytes) (vs : List VarSpec) (hw : ∀ v ∈ vs, v.NoWrap)
    (h : (updateLoop off data vs).2 = .ok) :
    (updateLoop off data vs).1.length = data.length ∧
    (∀ v ∈ vs, off.toNat ≤ v.start ∧ v.start + v.len ≤ data.length) ∧
    vs.Pairwise (fun a b => a.start + a.len ≤ b.start) ∧
    (∀ v ∈ vs, ∀ b, v.value = some b → window (updateLoop off data vs).1 v.start b.length = b) ∧
    ∀ i, (∀ v ∈ vs, ¬ v.Covers i) → (updateLoop off data vs).1[i]? = data[i]? := by
  induction vs generalizing off data with
  | nil => simp [updateLoop]
  | cons v vs ih =>
    have hv := hw v List.mem_cons_self
    rw [loop_cons off data v vs hv] at h ⊢
    split at h
    · cases h
    · next h1 =>
      rw [if_neg h1]
      split at h
      · cases h
      · next h2 =>
        rw [if_neg h2]
        obtain ⟨a1, a2, a3, a4, a5⟩ := ih _ _ (fun w hw' => hw w (List.mem_cons_of_mem _ hw')) h
        have hl : (v.value.getD []).length ≤ v.len := by unfold VarSpec.len; cases v.value <;> simp
        have hfit : v.start + v.len ≤ data.length := by omega
        have hwl := writeVar_length data v hfit
        rw [end_toNat v hv] at a2
        refine ⟨by omega, ?_, ?_, ?_, ?_⟩
        · intro w hw'
          rcases List.mem_cons.1 hw' with rfl | hw'
          · exact ⟨by omega, hfit⟩
          · have := a2 w hw'; omega
        · rw [List.pairwise_cons]
          exact ⟨fun w hw' => (a2 w hw').1, a3⟩
        · intro w hw' b hb
          rcases List.mem_cons.1 hw' with rfl | hw'
          · have hlen : w.len = b.length := by simp [VarSpec.len, hb]
            apply List.ext_getElem?
            intro i
            by_cases hi : i < b.length
            · unfold window
              rw [List.getElem?_take_of_lt hi, List.getElem?_drop, a5, writeVar_get data w hfit]
              · rw [hb, Option.getD_some, if_pos (by omega)]
                congr 1; omega
              · intro x hx hcov
                have := (a2 x hx).1
                have := hcov.2.1
                omega
            · rw [List.getElem?_eq_none, List.getElem?_eq_none (by omega)]
              rw [window_length _ _ _ (by omega)]; omega
          · exact a4 w hw' b hb
        · intro i hi
          rw [a5 i (fun w hw' => hi w (List.mem_cons_of_mem _ hw')), writeVar_get data v hfit, if_neg]
          intro hc
          apply hi v List.mem_cons_self
          cases hb : v.value with
          | none => rw [hb] at hc; simp at hc; omega
          | some b => rw [hb, Option.getD_some] at hc; exact ⟨by simp [hb], hc.1, by simp [VarSpec.len, hb]; omega⟩

theorem loop_no_panic (off : BitVec 32) (data : Bytes) (vs : List VarSpec) (hw : ∀ v ∈ vs, v.NoWrap) :
    (updateLoop off data vs).2 ≠ .panic := by
  induction vs generalizing off data with
  | nil => simp [updateLoop]
  | cons v vs ih =>
    rw [loop_cons off data v vs (hw v List.mem_cons_self)]
    split
    · simp
    · split
      · simp
      · exact ih _ _ (fun w hw' => hw w (List.mem_cons_of_mem _ hw'))

theorem loop_complete (off : BitVec 32) (data : Bytes) (vs : List VarSpec) (hw : ∀ v ∈ vs, v.NoWrap)
    (h1 : ∀ v ∈ vs, off.toNat ≤ v.start ∧ v.start + v.len ≤ data.length)
    (h2 : vs.Pairwise (fun a b => a.start + a.len ≤ b.start)) : (updateLoop off data vs).2 = .ok := by
  induction vs generalizing off data with
  | nil => rfl
  | cons v vs ih =>
    have hv := hw v List.mem_cons_self
    have hv1 := h1 v List.mem_cons_self
    rw [List.pairwise_cons] at h2
    rw [loop_cons off data v vs hv, if_neg (by omega), if_neg (by omega)]
    apply ih _ _ (fun w hw' => hw w (List.mem_cons_of_mem _ hw')) _ h2.2
    intro w hw'
    rw [end_toNat v hv, writeVar_length data v hv1.2]
    exact ⟨h2.1 w hw', (h1 w (List.mem_cons_of_mem _ hw')).2⟩

/-- **C15** (proved part: no variable end exceeds 2^32). Whatever order Go's map iteration and unstable
sort produce, if updating succeeds then: the variables are inside the section and pairwise disjoint,
every variable's bytes are at its offset, all other bytes keep the section's value, and no slice that
existed before (in particular the one in the caller's spec) is modified. It never panics. -/
theorem updateDataSection_exact_partial (h : List Bytes) (ref : Nat) (data : Bytes) (hd : h[ref]? = some data)
    (specs sorted : List VarSpec) (hs : SortedPerm specs sorted) (hw : ∀ v ∈ specs, v.NoWrap) :
    let r := updateDataSection h ref sorted
    (∀ i, i < h.length → r.1[i]? = h[i]?) ∧ r.2.2 ≠ .panic ∧
    (r.2.2 = .ok → ∃ data', r.1[r.2.1]? = some data' ∧ data'.length = data.length ∧
      (∀ v ∈ specs, v.start + v.len ≤ data.length) ∧ specs.Pairwise VarSpec.Apart ∧
      (∀ v ∈ specs, ∀ b, v.value = some b → window data' v.start b.length = b) ∧
      ∀ i, (∀ v ∈ specs, ¬ v.Covers i) → data'[i]? = data[i]?) := by
  obtain ⟨hp, hsort⟩ := hs
  have hmem : ∀ v, v ∈ sorted ↔ v ∈ specs := fun v => hp.mem_iff
  have hw' : ∀ v ∈ sorted, v.NoWrap := fun v hv => hw v ((hmem v).1 hv)
  unfold updateDataSection
  by_cases he : sorted = []
  · rw [if_pos he]
    have hspecs : specs = [] := by rw [he] at hp; exact hp.symm.eq_nil
    subst hspecs
    exact ⟨fun i _ => rfl, by simp, fun _ => ⟨data, hd, rfl, by simp, List.Pairwise.nil, by simp, fun _ _ => rfl⟩⟩
  · rw [if_neg he]
    have hget : h.getD ref [] = data := by rw [List.getD_eq_getElem?_getD, hd]; rfl
    simp only [hget]
    refine ⟨?_, loop_no_panic 0 data sorted hw', ?_⟩
    · intro i hi
      rw [List.getElem?_set_ne (by omega), List.getElem?_append_left hi]
    · intro hok
      obtain ⟨a1, a2, a3, a4, a5⟩ := loop_ok 0 data sorted hw' hok
      refine ⟨(updateLoop 0 data sorted).1, ?_, a1, ?_, ?_, ?_, ?_⟩
      · rw [if_pos hok, List.getElem?_set_self (by simp)]
      · intro v hv; exact (a2 v ((hmem v).2 hv)).2
      · have hap : sorted.Pairwise VarSpec.Apart := a3.imp fun h => Or.inl h
        exact (hp.pairwise_iff (fun h => Or.symm h)).1 hap
      · intro v hv; exact a4 v ((hmem v).2 hv)
      · intro i hi; exact a5 i (fun v hv => hi v ((hmem v).1 hv))

/-- **C15**, completeness: disjoint variables of non-zero size inside the section are accepted, in
whatever order they are processed. -/
theorem updateDataSection_accepts_partial (h : List Bytes) (ref : Nat) (data : Bytes) (hd : h[ref]? = some data)
    (specs sorted : List VarSpec) (hs : SortedPerm specs sorted) (hw : ∀ v ∈ specs, v.NoWrap)
    (hpos : ∀ v ∈ specs, 0 < v.len) (hin : ∀ v ∈ specs, v.start + v.len ≤ data.length) (hdis : specs.Pairwise VarSpec.Apart) :
    (updateDataSection h ref sorted).2.2 = .ok := by
  obtain ⟨hp, hsort⟩ := hs
  have hmem : ∀ v, v ∈ sorted ↔ v ∈ specs := fun v => hp.mem_iff
  unfold updateDataSection
  by_cases he : sorted = []
  · rw [if_pos he]
  · rw [if_neg he]
    have hget : h.getD ref [] = data := by rw [List.getD_eq_getElem?_getD, hd]; rfl
    simp only [hget]
    apply loop_complete 0 data sorted (fun v hv => hw v ((hmem v).1 hv))
    · intro v hv; exact ⟨Nat.zero_le _, hin v ((hmem v).1 hv)⟩
    · have hdis' : sorted.Pairwise VarSpec.Apart := (hp.pairwise_iff (fun h => Or.symm h)).2 hdis
      have hpos' : ∀ v ∈ sorted, 0 < v.len := fun v hv => hpos v ((hmem v).1 hv)
      clear hmem hp hget he hin hdis hpos hw hd
      induction sorted with
      | nil => exact List.Pairwise.nil
      | cons v vs ih =>
        rw [List.pairwise_cons] at hsort hdis' ⊢
        refine ⟨?_, ih hsort.2 hdis'.2 (fun w hw => hpos' w (List.mem_cons_of_mem _ hw))⟩
        intro w hw
        have h1 := hsort.1 w hw
        have h2 := hdis'.1 w hw
        have h3 := hpos' w (List.mem_cons_of_mem _ hw)
        rw [BitVec.le_def] at h1
        unfold VarSpec.Apart VarSpec.start at *
        omega

/-- A variable whose end exceeds 2^32 makes the code panic instead of returning an error. -/
theorem updateDataSection_panics_counterexample :
    (updateDataSection [[0, 0, 0, 0]] 0 [⟨0xfffffffe, some [1, 2, 3, 4], 0⟩]).2.2 = .panic := by decide

/-- With an empty variable the outcome depends on the order in which Go iterates the variables: both
orders are sorted by offset, one is accepted, the other is rejected as overlapping. -/
theorem updateDataSection_order_counterexample :
    let a : VarSpec := ⟨0, none, 0⟩
    let b : VarSpec := ⟨0, some [7], 0⟩
    SortedPerm [a, b] [a, b] ∧ SortedPerm [a, b] [b, a] ∧
    (updateDataSection [[0, 0]] 0 [a, b]).2.2 = .ok ∧ (updateDataSection [[0, 0]] 0 [b, a]).2.2 = .overlap := by
  refine ⟨⟨List.Perm.refl _, by decide⟩, ⟨List.Perm.swap _ _ _, by decide⟩, by decide, by decide⟩

/-- Non-vacuity. -/
example : updateDataSection [[9, 9, 9, 9, 9, 9]] 0 [⟨1, some [1, 2], 0⟩, ⟨3, none, 1⟩, ⟨4, some [3], 0⟩] =
    ([[9, 9, 9, 9, 9, 9], [9, 1, 2, 9, 3, 9]], 1, .ok) := by decide

end Ebpf.Memory
