import Verif.Model.VariableSpec
/-! # C119: initial values of variables -/
namespace Ebpf.VarSpec
open Ebpf.PerCPU (Codec sysMarshal zeros)
open Ebpf.Memory (VarSpec updateLoop)
variable {α : Type}

theorem copyTo_full {dst src : Bytes} (h : src.length = dst.length) : copyTo dst src = src := by
  unfold copyTo
  rw [← h, List.take_length, List.drop_eq_nil_of_le (by omega), List.append_nil]

theorem sysMarshal_some {c : Codec α} {x : α} {n : Nat} {buf : Bytes} : sysMarshal c x n = some buf ↔ c.enc x = some buf ∧ buf.length = n := by
  unfold sysMarshal
  cases h : c.enc x with
  | none => simp
  | some b =>
    by_cases hb : b.length = n
    · simp [hb]; intro h; subst h; exact hb
    · simp [hb]; intro h; subst h; exact hb

/-- **C119.** A variable whose size is known — that of its value or of its type — takes the values that have exactly so many bytes, and then has these bytes and its place. -/
theorem set_exact (c : Codec α) (bs : α → Option Nat) (v : VarSpec) (x : α) (hs : v.size ≠ 0#32) (hv : ∀ b, v.value = some b → b.length < 2 ^ 32) (buf : Bytes) :
    (c.enc x = some buf ∧ buf.length = v.size.toNat) ↔ set c bs v x = ({ v with value := some buf }, none) := by
  have hn : v.size.toNat ≠ 0 := fun h => hs (BitVec.eq_of_toNat_eq h)
  have hd : ∀ b, v.value = some b → b.length = v.size.toNat := by
    intro b hb
    simp [VarSpec.size, hb, Nat.mod_eq_of_lt (hv b hb)]
  rw [← sysMarshal_some]
  simp only [set, setSize, if_neg hn]
  cases hm : sysMarshal c x v.size.toNat with
  | none => simp
  | some b =>
    have hl := (sysMarshal_some.mp hm).2
    cases h : v.value with
    | none => dsimp only; rw [copyTo_full (by simp [zeros, hl])]; simp
    | some b' => dsimp only; rw [copyTo_full (hl.trans (hd b' h).symm)]; simp

/-- **C119.** A variable without value and type takes any value whose size is known. -/
theorem set_untyped (c : Codec α) (bs : α → Option Nat) (v : VarSpec) (x : α) (hv : v.value = none) (ht : v.typeSize = 0#32) (n : Nat) (hn : bs x = some n) (buf : Bytes)
    (he : c.enc x = some buf) (hb : buf.length = n) : set c bs v x = ({ v with value := some buf }, none) := by
  have h0 : v.size.toNat = 0 := by simp [VarSpec.size, hv, ht]
  simp only [set, setSize, if_pos h0, hn, hv, sysMarshal_some.mpr ⟨he, hb⟩]
  rw [copyTo_full (by simp [zeros, hb])]

/-- **C119.** A variable that has a value keeps it if it isn't set. -/
theorem set_failed_partial (c : Codec α) (bs : α → Option Nat) (v : VarSpec) (x : α) (b : Bytes) (hv : v.value = some b) (e : Err) (h : (set c bs v x).2 = some e) :
    (set c bs v x).1 = v := by
  cases hz : setSize bs v x with
  | none => simp only [set, hz]
  | some n =>
    cases hm : sysMarshal c x n with
    | none => simp only [set, hz, hm, hv]; cases v; cases hv; rfl
    | some buf => simp [set, hz, hm] at h

/-- **C119.** One that has no value has zeros after the attempt, so that it counts as initialized. -/
theorem set_failed_counterexample (c : Codec α) (bs : α → Option Nat) (v : VarSpec) (x : α) (hv : v.value = none) (h : (set c bs v x).2 = some .marshal) :
    ∃ n, setSize bs v x = some n ∧ (set c bs v x).1.value = some (zeros n) := by
  cases hz : setSize bs v x with
  | none => simp [set, hz] at h
  | some n =>
    cases hm : sysMarshal c x n with
    | none => exact ⟨n, rfl, by simp only [set, hz, hm, hv]⟩
    | some buf => simp [set, hz, hm] at h

/-- **C119.** A variable with a value of no bytes takes every value of known size, and loses it. -/
theorem set_empty_counterexample (c : Codec α) (bs : α → Option Nat) (v : VarSpec) (x : α) (hv : v.value = some []) (buf : Bytes) (he : c.enc x = some buf)
    (hb : bs x = some buf.length) : set c bs v x = (v, none) := by
  have h0 : v.size.toNat = 0 := by simp [VarSpec.size, hv]
  simp only [set, setSize, if_pos h0, hb, hv, sysMarshal_some.mpr ⟨he, rfl⟩]
  cases v; cases hv; simp [copyTo]

/-- **C119.** What was set is what is got. -/
theorem get_after_set (c : Codec α) (bs : α → Option Nat) (v : VarSpec) (x : α) (hs : v.size ≠ 0#32) (hv : ∀ b, v.value = some b → b.length < 2 ^ 32)
    (hc : ∀ b, c.enc x = some b → c.dec b = some x) (h : (set c bs v x).2 = none) : get c (set c bs v x).1 = .ok x := by
  have hn : v.size.toNat ≠ 0 := fun h => hs (BitVec.eq_of_toNat_eq h)
  obtain ⟨buf, hb⟩ : ∃ buf, sysMarshal c x v.size.toNat = some buf := by
    revert h
    simp only [set, setSize, if_neg hn]
    cases sysMarshal c x v.size.toNat with
    | none => intro h; cases h
    | some b => intro _; exact ⟨b, rfl⟩
  have hb := sysMarshal_some.mp hb
  rw [(set_exact c bs v x hs hv buf).mp hb]
  simp [get, hc buf hb.1]

/-- **C119.** A variable has a value to get exactly if it is initialized with bytes of the kind. -/
theorem get_exact (c : Codec α) (v : VarSpec) (x : α) : get c v = .ok x ↔ ∃ b, v.value = some b ∧ c.dec b = some x := by
  unfold get
  cases v.value with
  | none => simp
  | some b => cases h : c.dec b <;> simp [h]

/-- **C119.** Setting a variable, with success or not, changes neither its place nor its size. -/
theorem set_place (c : Codec α) (bs : α → Option Nat) (v : VarSpec) (x : α) (hs : v.size ≠ 0#32) (hv : ∀ b, v.value = some b → b.length < 2 ^ 32) :
    (set c bs v x).1.offset = v.offset ∧ (set c bs v x).1.size = v.size := by
  have hn : v.size.toNat ≠ 0 := fun h => hs (BitVec.eq_of_toNat_eq h)
  have hd : ∀ b, v.value = some b → b.length = v.size.toNat := by
    intro b hb
    simp [VarSpec.size, hb, Nat.mod_eq_of_lt (hv b hb)]
  have key : ∀ (w : VarSpec) (b : Bytes), w.value = some b → b.length = v.size.toNat → w.size = v.size := by
    intro w b hw hb
    simp [VarSpec.size, hw, hb]
  have hz : (zeros v.size.toNat).length = v.size.toNat := by simp [zeros]
  cases hm : sysMarshal c x v.size.toNat with
  | none =>
    cases h : v.value with
    | none => simp only [set, setSize, if_neg hn, hm, h]; exact ⟨trivial, key _ _ rfl hz⟩
    | some b => simp only [set, setSize, if_neg hn, hm, h]; exact ⟨trivial, key _ _ rfl (hd b h)⟩
  | some buf =>
    have hb := (sysMarshal_some.mp hm).2
    cases h : v.value with
    | none => simp only [set, setSize, if_neg hn, hm, h]; exact ⟨trivial, key _ _ rfl (by rw [copyTo_full (by rw [hz, hb]), hb])⟩
    | some b => simp only [set, setSize, if_neg hn, hm, h]; exact ⟨trivial, key _ _ rfl (by rw [copyTo_full (by rw [hd b h, hb]), hb])⟩

theorem updateLoop_outcome : ∀ (l l' : List VarSpec) (o : BitVec 32) (d d' : Bytes), l.map (fun v => (v.offset, v.size)) = l'.map (fun v => (v.offset, v.size)) →
    d.length = d'.length → (updateLoop o d l).2 = (updateLoop o d' l').2
  | [], [], _, _, _, _, _ => rfl
  | v :: l, w :: l', o, d, d', h, hd => by
    simp only [List.map_cons, List.cons.injEq, Prod.mk.injEq] at h
    obtain ⟨⟨h1, h2⟩, h3⟩ := h
    simp only [updateLoop, ← h1, ← h2, ← hd]
    by_cases a1 : v.offset < o
    · rw [if_pos a1, if_pos a1]
    · rw [if_neg a1, if_neg a1]
      by_cases a2 : (v.offset + v.size).toNat > d.length
      · rw [if_pos a2, if_pos a2]
      · rw [if_neg a2, if_neg a2]
        by_cases a3 : v.offset + v.size < v.offset
        · rw [if_pos a3, if_pos a3]
        · rw [if_neg a3, if_neg a3]
          have a4 : v.offset.toNat ≤ (v.offset + v.size).toNat := by
            have := BitVec.not_lt.mp a3
            exact BitVec.le_def.mp this
          refine updateLoop_outcome l l' _ _ _ h3 ?_
          simp only [List.length_append, List.length_take, List.length_drop]
          omega

/-- **C119.** Whether the variables of a section can be loaded doesn't depend on what they are set to: setting one of them, with success or not, changes nothing in whether they overlap or exceed
the section. -/
theorem set_loadable (c : Codec α) (bs : α → Option Nat) (v : VarSpec) (x : α) (hs : v.size ≠ 0#32) (hv : ∀ b, v.value = some b → b.length < 2 ^ 32) (l r : List VarSpec) (data : Bytes) :
    (updateLoop 0 data (l ++ (set c bs v x).1 :: r)).2 = (updateLoop 0 data (l ++ v :: r)).2 := by
  refine updateLoop_outcome _ _ _ _ _ ?_ rfl
  obtain ⟨h1, h2⟩ := set_place c bs v x hs hv
  simp [h1, h2]

/-- Bytes as they are. -/
def exC : Codec Bytes := ⟨some, some⟩
/-- A variable of four bytes with a value. -/
def exV : VarSpec := ⟨8#32, some [1, 2, 3, 4], 4#32⟩
/-- The same without a value. -/
def exU : VarSpec := ⟨8#32, none, 4#32⟩

example : set exC (fun b => some b.length) exV [9, 8, 7, 6] = (⟨8#32, some [9, 8, 7, 6], 4#32⟩, none) :=
  (set_exact exC _ exV [9, 8, 7, 6] (by decide) (by intro b h; cases h; decide) [9, 8, 7, 6]).mp ⟨rfl, rfl⟩
example : set exC (fun b => some b.length) exV [9, 8] = (exV, some .marshal) := rfl
example : set exC (fun b => some b.length) exU [9, 8] = (⟨8#32, some [0, 0, 0, 0], 4#32⟩, some .marshal) := rfl
example : get exC exU = .error .uninitialized := rfl
example : set exC (fun b => some b.length) ⟨0#32, some [], 4#32⟩ [9, 8] = (⟨0#32, some [], 4#32⟩, none) := rfl
example : (updateLoop 0 (List.replicate 16 0) [exU, (set exC (fun b => some b.length) exV [9, 8, 7, 6]).1]).2 = .overlap := by decide

end Ebpf.VarSpec
