import Verif.Model.UnsafeMemory
import Verif.Props.KeepAlive
/-!
# C100: pointers into memory shared with BPF programs
-/
namespace Ebpf.UnsafeMemory
open UnsafeMemorySpec

/-! ## Which types are accepted -/

theorem isHostLayout_iff (t : GoType) : isHostLayout t = true ↔ IsHostLayout t := by
  cases t with
  | basic k => simp [isHostLayout, IsHostLayout]
  | array n e => simp [isHostLayout, IsHostLayout]
  | struct p n fs =>
    simp only [isHostLayout, Bool.and_eq_true, beq_iff_eq]
    constructor
    · rintro ⟨rfl, rfl⟩; trivial
    · intro h; unfold IsHostLayout at h; split at h
      · rename_i e; cases e; exact ⟨rfl, rfl⟩
      · exact h.elim

theorem isAtomic_iff (p n : String) (fs : List GoType) : isAtomic p n = true ↔ IsAtomic (.struct p n fs) := by
  simp only [isAtomic, Bool.and_eq_true, beq_iff_eq, decide_eq_true_eq]
  constructor
  · rintro ⟨rfl, h⟩; simpa [IsAtomic, atomics] using h
  · intro h; unfold IsAtomic at h; split at h
    · rename_i e; cases e; exact ⟨rfl, by simpa [atomics] using h⟩
    · exact h.elim

theorem checkFields_iff (fs : List GoType) :
    checkFields fs = true ↔ ∀ f ∈ fs, isHostLayout f = true ∨ checkType f = true := by
  induction fs with
  | nil => simp [checkFields]
  | cons f fs ih => simp [checkFields, ih]

theorem okKind_iff (k : Basic) : okKind k = true ↔ k ∉ [Basic.int, .uint, .complex64, .complex128, .ref] := by
  cases k <;> simp [okKind]

/-- A type is accepted exactly if it is laid out as C does. -/
theorem checkType_iff (t : GoType) : checkType t = true ↔ HostLayout t := by
  constructor
  · intro h
    match t with
    | .basic k => exact .basic k ((okKind_iff k).mp (by simpa [checkType] using h))
    | .array n e => exact .array n e ((checkType_iff e).mp (by simpa [checkType] using h))
    | .struct p n fs =>
      simp only [checkType] at h
      split at h
      · rename_i ha; exact .atomic _ ((isAtomic_iff p n fs).mp ha)
      · simp only [Bool.and_eq_true, checkFields_iff, List.any_eq_true] at h
        obtain ⟨hf, f, hm, hl⟩ := h
        refine .struct p n fs ⟨f, hm, (isHostLayout_iff f).mp hl⟩ ?_
        intro g hg hn
        rcases hf g hg with hx | hx
        · exact absurd ((isHostLayout_iff g).mp hx) hn
        · exact (checkType_iff g).mp hx
  · intro h
    induction h with
    | basic k hk => simpa [checkType] using (okKind_iff k).mpr hk
    | array n e _ ih => simpa [checkType] using ih
    | atomic t ha =>
      cases t with
      | basic k => exact ha.elim
      | array n e => exact ha.elim
      | struct p n fs => simp [checkType, (isAtomic_iff p n fs).mpr ha]
    | struct p n fs hl _ ih =>
      obtain ⟨f, hm, hf⟩ := hl
      simp only [checkType]
      split
      · rfl
      · simp only [Bool.and_eq_true, checkFields_iff, List.any_eq_true]
        refine ⟨?_, f, hm, (isHostLayout_iff f).mpr hf⟩
        intro g hg
        by_cases hx : IsHostLayout g
        · exact .inl ((isHostLayout_iff g).mpr hx)
        · exact .inr (ih g hg hx)
termination_by sizeOf t
decreasing_by
  all_goals simp_wf
  all_goals first | omega | (have := List.sizeOf_lt_of_mem hg; omega)

/-- Accepted types hold nothing the collector follows. -/
theorem hostLayout_noPointers (t : GoType) (h : HostLayout t) (s : Std t) : NoPointers t := by
  induction h with
  | basic k hk => simp only [NoPointers]; intro e; subst e; simp at hk
  | array n e _ ih => cases s with | array _ _ hs => simp only [NoPointers]; exact ih hs
  | atomic t ha =>
    cases s with
    | basic k => exact ha.elim
    | array n e => exact ha.elim
    | struct p n fs _ hat _ =>
      unfold IsAtomic at ha; split at ha
      · rename_i e; cases e; simp only [NoPointers]; exact hat rfl ha
      · exact ha.elim
  | struct p n fs _ _ ih =>
    cases s with
    | struct _ _ _ hs _ _ =>
      simp only [NoPointers]
      intro f hf
      by_cases hx : IsHostLayout f
      · have sf := hs f hf
        unfold IsHostLayout at hx; split at hx
        · cases sf with
          | struct _ _ _ _ _ hl => rw [hl rfl rfl]; simp [NoPointers]
        · exact hx.elim
      · exact ih f hf hx (hs f hf)

/-- The sizes used when a pointer is bounds checked are those of the language. -/
theorem basic_size (h : Host) (k : Basic) (hk : HostLayout (.basic k)) : (k, sizeOf' h (.basic k)) ∈ sizes h.word := by
  cases hk with
  | basic _ hk => cases k <;> simp_all [sizeOf', basicSize, sizes]
  | atomic _ ha => cases ha

/-! ## Alignment -/

theorem align_le (n a : Nat) (h : 0 < a) : n ≤ align n a ∧ align n a < n + a ∧ align n a % a = 0 := by
  unfold align
  have hm := Nat.div_add_mod (n + a - 1) a
  have hl := Nat.mod_lt (n + a - 1) h
  rw [Nat.mul_comm]
  refine ⟨by omega, by omega, by simp⟩

theorem alignOf_eight (h : Host) (hw : h.word = 4 ∨ h.word = 8) (t : GoType) :
    alignOf h t = 1 ∨ alignOf h t = 2 ∨ alignOf h t = 4 ∨ alignOf h t = 8 := by
  match t with
  | .basic k => rcases hw with hw | hw <;> cases k <;> simp [alignOf, basicSize, hw]
  | .array n e => simpa [alignOf] using alignOf_eight h hw e
  | .struct p n fs =>
    simp only [alignOf]
    split
    · simp
    · have : ∀ (l : List GoType) (m : Nat), (∀ f ∈ l, alignOf h f = 1 ∨ alignOf h f = 2 ∨ alignOf h f = 4 ∨ alignOf h f = 8) →
          (m = 1 ∨ m = 2 ∨ m = 4 ∨ m = 8) →
          ((l.map (alignOf h)).foldl max m = 1 ∨ (l.map (alignOf h)).foldl max m = 2 ∨
            (l.map (alignOf h)).foldl max m = 4 ∨ (l.map (alignOf h)).foldl max m = 8) := by
        intro l
        induction l with
        | nil => intro m _ hm; exact hm
        | cons f l ih =>
          intro m hl hm
          simp only [List.map_cons, List.foldl_cons]
          refine ih _ (fun g hg => hl g (List.mem_cons_of_mem _ hg)) ?_
          have := hl f List.mem_cons_self
          omega
      exact this fs 1 (fun f hf => alignOf_eight h hw f) (.inl rfl)
termination_by sizeOf t
decreasing_by
  all_goals simp_wf
  all_goals first | omega | (have := List.sizeOf_lt_of_mem hf; omega)

/-! ## Mapping -/

/-- The pages of a region. -/
theorem mem_pages (ps base size q : Nat) (h0 : 0 < ps) (hb : base % ps = 0) (hs : size % ps = 0) :
    (base ≤ q * ps ∧ q * ps < base + size) ↔ (base / ps ≤ q ∧ q < base / ps + size / ps) := by
  have e1 : base = base / ps * ps := by have := Nat.div_add_mod base ps; rw [Nat.mul_comm]; omega
  have e2 : size = size / ps * ps := by have := Nat.div_add_mod size ps; rw [Nat.mul_comm]; omega
  generalize base / ps = b at *
  generalize size / ps = s at *
  subst e1 e2
  rw [← Nat.add_mul]
  constructor
  · rintro ⟨x, y⟩
    exact ⟨Nat.le_of_mul_le_mul_right x h0, Nat.lt_of_mul_lt_mul_right y⟩
  · rintro ⟨x, y⟩
    exact ⟨Nat.mul_le_mul_right ps x, Nat.mul_lt_mul_of_pos_right y h0⟩

/-- What allocate returns lies within what was allocated, and is aligned. -/
theorem allocate_ok (h : Host) (hp : 0 < h.page) (mv : Bool) (heap : Nat → Nat) (size a n base : Nat) (hs : size % h.page = 0)
    (e : allocate h mv heap size = .ok (a, n, base)) :
    a = heap n ∧ n = size + h.page ∧ 0 < size ∧ base % h.page = 0 ∧ a ≤ base ∧ base + size ≤ a + n := by
  unfold allocate at e
  split at e
  · cases e
  · split at e
    · cases e
    · rename_i hz
      cases e
      have e1 := align_le (size + h.page) h.page hp
      have e2 := align_le (heap (align (size + h.page) h.page)) h.page hp
      have en : align (size + h.page) h.page = size + h.page := by
        unfold align
        have hd := Nat.div_add_mod size h.page
        have : size + h.page + h.page - 1 = (h.page - 1) + h.page * (size / h.page + 1) := by
          rw [Nat.mul_add]; omega
        rw [this, Nat.add_mul_div_left _ _ hp, Nat.div_eq_of_lt (by omega), Nat.zero_add, Nat.mul_comm, Nat.mul_add]
        omega
      exact ⟨rfl, en, by omega, e2.2.2, e2.1, by omega⟩

/-- **A mapping is exact**: the memory of a map appears page by page in the middle of the slice made for it, writable unless the kernel forbids
that; no other page changes; the finalizer covers exactly these pages. -/
theorem newUnsafeMemory_ok (h : Host) (hp : 0 < h.page) (mv : Bool) (heap : Nat → Nat) (k : Kernel) (s s' : Space) (id size : Nat)
    (m : Mem) (f : Fin) (e : newUnsafeMemory h mv heap k s id size = (s', .ok (m, f))) :
    mv = false ∧ 0 < size ∧ size % h.page = 0 ∧ m = ⟨some f.base, size, m.ro, true⟩ ∧ f.size = size ∧ f.alloc = heap f.n ∧
      f.base % h.page = 0 ∧ f.alloc ≤ f.base ∧ f.base + size ≤ f.alloc + f.n ∧
      (m.ro = false → k.rw = none) ∧ (m.ro = true → (k.rw = some EPERM ∨ k.rw = some EACCES) ∧ k.ro = none) ∧
      ∀ q, s' q = if f.base / h.page ≤ q ∧ q < f.base / h.page + size / h.page then .map id (q - f.base / h.page) (!m.ro) else s q := by
  unfold newUnsafeMemory at e
  split at e
  · cases e
  · rename_i hsz
    have hsz : size % h.page = 0 := Decidable.not_not.mp hsz
    cases ha : allocate h mv heap size with
    | error x => rw [ha] at e; cases e
    | ok r =>
      obtain ⟨a, n, base⟩ := r
      have hmv : mv = false := by cases mv with | false => rfl | true => simp [allocate] at ha
      obtain ⟨h1, h2, h3, h4, h5, h6⟩ := allocate_ok h hp mv heap size a n base hsz ha
      rw [ha] at e
      dsimp only at e
      have hset : ∀ (s0 : Space) (w : Bool) (q : Nat), setPages h s0 base size (fun i => .map id i w) q =
          if base / h.page ≤ q ∧ q < base / h.page + size / h.page then .map id (q - base / h.page) w else s0 q := by
        intro s0 w q
        simp only [setPages, mem_pages h.page base size q hp h4 hsz]
      cases hk : k.rw with
      | none =>
        simp only [mapmap, mmapFixed, h4, hk, ne_eq, not_true_eq_false, if_false, if_true] at e
        cases e
        exact ⟨hmv, h3, hsz, rfl, rfl, h1, h4, h5, h6, fun _ => rfl, fun x => (Bool.false_ne_true x).elim, hset s true⟩
      | some x =>
        simp only [mapmap, mmapFixed, h4, hk, ne_eq, not_true_eq_false, if_false, if_true] at e
        split at e
        · rename_i hx
          cases hr : k.ro with
          | some y => simp [hr] at e
          | none =>
            simp only [hr, Bool.false_eq_true, if_false] at e
            cases e
            refine ⟨hmv, h3, hsz, rfl, rfl, h1, h4, h5, h6, fun x => (Bool.false_ne_true x.symm).elim, ?_, ?_⟩
            · intro _
              refine ⟨?_, rfl⟩
              rcases hx with rfl | rfl <;> simp
            · intro q
              rw [hset _ false q]
              by_cases hin : base / h.page ≤ q ∧ q < base / h.page + size / h.page
              · simp [hin]
              · rw [if_neg hin, if_neg hin]
                cases k.hole
                · rfl
                · simp only [if_true, setPages, mem_pages h.page base size q hp h4 hsz, if_neg hin]
        · cases e

/-- Where the kernel keeps what was mapped if it refuses a mapping, a failure has no effect. -/
theorem newUnsafeMemory_fails (h : Host) (mv : Bool) (heap : Nat → Nat) (k : Kernel) (hk : k.hole = false) (s s' : Space)
    (id size : Nat) (x : Err) (e : newUnsafeMemory h mv heap k s id size = (s', .error x)) : s' = s := by
  unfold newUnsafeMemory at e
  split at e
  · cases e; rfl
  · split at e
    · cases e; rfl
    · rename_i a n base ha
      by_cases hb : base % h.page = 0
      · cases h1 : k.rw with
        | none => simp [mapmap, mmapFixed, hb, h1] at e
        | some y =>
          simp only [mapmap, mmapFixed, hb, h1, hk, ne_eq, not_true_eq_false, if_false, if_true, Bool.false_eq_true] at e
          split at e
          · cases h2 : k.ro with
            | none => simp [h2] at e
            | some z => simp only [h2] at e; cases e; rfl
          · cases e; rfl
      · simp only [mapmap, mmapFixed, ne_eq, hb, not_false_eq_true, if_true] at e
        rw [if_neg (by decide)] at e
        cases e; rfl

/-! ## Pointers to variables -/

/-- Mapping succeeds wherever it can: for a positive number of whole pages, if the kernel maps the map writable, or if it answers EPERM or
EACCES and maps it read-only. -/
theorem newUnsafeMemory_complete (h : Host) (hp : 0 < h.page) (heap : Nat → Nat) (k : Kernel) (s : Space)
    (id size : Nat) (hs : size % h.page = 0) (hz : 0 < size)
    (hk : k.rw = none ∨ (k.rw = some 1 ∨ k.rw = some 13) ∧ k.ro = none) :
    ∃ m f, (newUnsafeMemory h false heap k s id size).2 = .ok (m, f) ∧ (m.ro = false ↔ k.rw = none) := by
  cases ha : allocate h false heap size with
  | error x =>
    have : size ≠ 0 := by omega
    simp [allocate, this] at ha
  | ok r =>
    obtain ⟨a, n, base⟩ := r
    obtain ⟨_, _, _, h4, _, _⟩ := allocate_ok h hp false heap size a n base hs ha
    unfold newUnsafeMemory
    rw [if_neg (by simpa using hs), ha]
    rcases hk with hk | ⟨hk | hk, hr⟩
    · refine ⟨⟨some base, size, false, true⟩, ⟨a, n, base, size⟩, ?_, by simp [hk]⟩
      simp only [mapmap, mmapFixed, h4, hk, ne_eq, not_true_eq_false, if_false, if_true]
    all_goals
      refine ⟨⟨some base, size, true, true⟩, ⟨a, n, base, size⟩, ?_, by simp [hk]⟩
      simp only [mapmap, mmapFixed, h4, hk, hr, EPERM, EACCES, ne_eq, not_true_eq_false, if_false, if_true, Bool.false_eq_true,
        true_or, or_true]

theorem bounds_le (m : Mem) (off size : BitVec 32) (hb : bounds m off size = true) : off.toNat + size.toNat ≤ m.len := by
  unfold bounds at hb
  split at hb
  · cases hb
  · rename_i hn
    have hb := of_decide_eq_true hb
    rw [BitVec.lt_def] at hn
    rw [BitVec.le_def] at hb
    simp only [BitVec.toNat_add, BitVec.toNat_ofNat] at hn hb
    have h1 := off.isLt
    have h2 := size.isLt
    have h3 := Nat.mod_le m.len (2 ^ 32)
    omega

theorem bounds_of_le (m : Mem) (off size : BitVec 32) (hl : m.len < 2 ^ 32) (hb : off.toNat + size.toNat ≤ m.len) :
    bounds m off size = true := by
  unfold bounds
  have h1 := off.isLt
  have h2 := size.isLt
  rw [if_neg (by rw [BitVec.lt_def]; simp only [BitVec.toNat_add]; omega)]
  refine decide_eq_true ?_
  rw [BitVec.le_def]
  simp only [BitVec.toNat_add, BitVec.toNat_ofNat]
  omega

/-- The sizes VariablePointer accepts for a type: the variable's, or any uintptr for 8 bytes. -/
def Fits (h : Host) (v : Var) (t : GoType) : Prop := v.size.toNat = sizeOf' h t ∨ (t = .basic .uintptr ∧ v.size = 8)

theorem checkVariable_none (h : Host) (v : Var) (t : GoType) :
    checkVariable h v t = none ↔ v.readOnly = false ∧ Fits h v t := by
  unfold checkVariable Fits
  cases hr : v.readOnly with
  | true => simp
  | false =>
    simp only [Bool.false_eq_true, if_false, true_and]
    split
    · by_cases h8 : v.size = 8
      · simp [h8]
      · rw [if_neg h8]
        constructor
        · intro x; exact .inl (by simpa using x)
        · rintro (x | ⟨_, x⟩)
          · simp [x]
          · exact absurd x h8
    · rename_i hne
      constructor
      · intro x; simp at x; exact .inl x
      · rintro (x | ⟨x, _⟩)
        · simp [x]
        · exact absurd x hne

theorem variablePointer_sound (h : Host) (hw : h.word = 4 ∨ h.word = 8) (v : Var) (t : GoType) (p : Nat) :
    (variablePointer h v t = .ok p → ∃ m base, v.mem = some m ∧ m.base = some base ∧ m.ro = false ∧ m.heap = true ∧ HostLayout t ∧
      0 < sizeOf' h t ∧ Fits h v t ∧ v.offset.toNat % alignOf h t = 0 ∧ v.offset.toNat + sizeOf' h t ≤ m.len ∧
      p = base + v.offset.toNat) := by
  intro e
  unfold variablePointer at e
  cases hc : checkVariable h v t with
  | some x => rw [hc] at e; cases e
  | none =>
    rw [hc] at e
    obtain ⟨_, hf⟩ := (checkVariable_none h v t).mp hc
    dsimp only at e
    cases hm : v.mem with
    | none => rw [hm] at e; cases e
    | some m =>
      rw [hm] at e
      simp only [memoryPointer] at e
      cases hk : checkUnsafeMemory h m t v.offset with
      | some x => rw [hk] at e; cases e
      | none =>
        rw [hk] at e
        cases e
        unfold checkUnsafeMemory at hk
        split at hk; · cases hk
        split at hk; · cases hk
        split at hk; · cases hk
        split at hk; · cases hk
        split at hk; · cases hk
        split at hk; · cases hk
        split at hk; · cases hk
        rename_i c1 c2 c3 c4 c5 c6 c7
        have hb := bounds_le m v.offset _ (by simpa using c7)
        have hsz : sizeOf' h t < 2 ^ 32 := by
          rcases hf with hf | ⟨rfl, _⟩
          · rw [← hf]; exact v.size.isLt
          · simp only [sizeOf', basicSize]; omega
        rw [BitVec.toNat_ofNat, Nat.mod_eq_of_lt hsz] at hb
        cases hbase : m.base with
        | none => simp [hbase] at c1
        | some base =>
          exact ⟨m, base, rfl, hbase, by simpa using c2, by simpa using c3, (checkType_iff t).mp (by simpa using c4),
            by omega, hf, by omega, hb, by simp⟩

/-- VariablePointer gives a pointer whenever it can: the memory is writable and on the heap, the type has a layout of its own and the size of the
variable, and the variable is aligned for it. -/
theorem variablePointer_complete (h : Host) (v : Var) (t : GoType) (m : Mem) (base : Nat)
    (hm : v.mem = some m) (hb : m.base = some base) (hr : m.ro = false) (hh : m.heap = true) (hl : m.len < 2 ^ 32)
    (ht : HostLayout t) (hs : 0 < sizeOf' h t) (hf : v.size.toNat = sizeOf' h t) (ha : v.offset.toNat % alignOf h t = 0)
    (hi : v.offset.toNat + sizeOf' h t ≤ m.len) : variablePointer h v t = .ok (base + v.offset.toNat) := by
  have hc : checkVariable h v t = none := (checkVariable_none h v t).mpr ⟨by simp [Var.readOnly, hm, hr], .inl hf⟩
  have hsz : sizeOf' h t < 2 ^ 32 := by rw [← hf]; exact v.size.isLt
  have hk : checkUnsafeMemory h m t v.offset = none := by
    unfold checkUnsafeMemory
    rw [if_neg (by simp [hb]), if_neg (by simp [hr]), if_neg (by simp [hh]), if_neg (by simp [(checkType_iff t).mpr ht]),
      if_neg (by omega), if_neg (by omega), if_neg]
    simp only [Bool.not_eq_true, Bool.not_eq_false']
    exact bounds_of_le m _ _ hl (by rw [BitVec.toNat_ofNat, Nat.mod_eq_of_lt hsz]; exact hi)
  simp [variablePointer, hc, hm, memoryPointer, hk, hb]

/-- **A pointer to a variable points to the variable.** If VariablePointer gives a pointer, for a variable whose memory was mapped as above, then
the collector never follows what is stored there, the pointer is aligned for its type, and the bytes behind it are, one by one, the bytes
of the variable in the memory of the map, writable. -/
theorem pointer_is_variable (h : Host) (hp : 0 < h.page) (h8 : h.page % 8 = 0) (hw : h.word = 4 ∨ h.word = 8) (mv : Bool)
    (heap : Nat → Nat) (k : Kernel) (s s' : Space) (id size : Nat) (m : Mem) (f : Fin)
    (e : newUnsafeMemory h mv heap k s id size = (s', .ok (m, f))) (v : Var) (hv : v.mem = some m) (t : GoType) (p : Nat)
    (ok : variablePointer h v t = .ok p) :
    HostLayout t ∧ (Std t → NoPointers t) ∧ p % alignOf h t = 0 ∧ p = f.base + v.offset.toNat ∧
      f.base ≤ p ∧ p + sizeOf' h t ≤ f.base + f.size ∧
      ∀ i, i < sizeOf' h t →
        s' ((p + i) / h.page) = .map id ((v.offset.toNat + i) / h.page) true ∧
        (p + i) % h.page = (v.offset.toNat + i) % h.page := by
  obtain ⟨_, hz, hsz, hm, hfs, _, hb, _, _, _, _, hs'⟩ := newUnsafeMemory_ok h hp mv heap k s s' id size m f e
  obtain ⟨m', base, hm', hbase, hro, _, ht, _, _, hal, hin, hpp⟩ := variablePointer_sound h hw v t p ok
  rw [hv] at hm'
  cases hm'
  rw [hm] at hbase hin
  cases hbase
  dsimp only at hin
  have hbd : f.base = h.page * (f.base / h.page) := by have := Nat.div_add_mod f.base h.page; omega
  have hsd : size = h.page * (size / h.page) := by have := Nat.div_add_mod size h.page; omega
  refine ⟨ht, hostLayout_noPointers t ht, ?_, hpp, by omega, by omega, ?_⟩
  · have ha8 : f.base % 8 = 0 := by
      rw [hbd]
      have : h.page = 8 * (h.page / 8) := by omega
      rw [this, Nat.mul_assoc]
      omega
    have := alignOf_eight h hw t
    rw [hpp]
    rcases this with x | x | x | x <;> rw [x] at hal ⊢ <;> omega
  · intro i hi
    have hlt : (v.offset.toNat + i) / h.page < size / h.page := by
      rw [Nat.div_lt_iff_lt_mul hp, Nat.mul_comm, ← hsd]
      omega
    have hpi : (p + i) / h.page = f.base / h.page + (v.offset.toNat + i) / h.page := by
      rw [hpp, Nat.add_assoc]
      conv => lhs; rw [hbd]
      rw [Nat.mul_add_div hp]
    refine ⟨?_, ?_⟩
    · rw [hs' ((p + i) / h.page), if_pos (by rw [hpi]; exact ⟨Nat.le_add_right _ _, Nat.add_lt_add_left hlt _⟩), hro, hpi,
        Nat.add_sub_cancel_left]
      rfl
    · rw [hpp, Nat.add_assoc]
      conv => lhs; rw [hbd]
      rw [Nat.mul_add_mod]

/-! ## Histories -/

/-- A region: its finalizer, and the map behind it. -/
structure Region where
  fin : Fin
  id : Nat
  writable : Bool
deriving DecidableEq

/-- The process: its address space, the regions whose finalizer hasn't run, and the pointers it holds into regions. -/
structure Proc where
  space : Space
  regions : List Region
  live : List (Nat × Region)

/-- The address lies in the slice a region was made in. -/
def In (p : Nat) (f : Fin) : Prop := f.alloc ≤ p ∧ p < f.alloc + f.n

/-- What happens in a process: memory is mapped, in a slice the runtime made, which overlaps no other slice in use; this may fail;
pointers are taken (to the memory, or to something in it) and dropped; the collector runs the finalizer of a slice nothing points into. -/
inductive Step (h : Host) : Proc → Proc → Prop
  | new (s : Proc) (mv heap k id size sp m f) : k.hole = false →
      newUnsafeMemory h mv heap k s.space id size = (sp, .ok (m, f)) →
      (∀ r ∈ s.regions, r.fin.alloc + r.fin.n ≤ f.alloc ∨ f.alloc + f.n ≤ r.fin.alloc) →
      Step h s ⟨sp, ⟨f, id, !m.ro⟩ :: s.regions, (f.base, ⟨f, id, !m.ro⟩) :: s.live⟩
  | fail (s : Proc) (mv heap k id size sp x) : k.hole = false →
      newUnsafeMemory h mv heap k s.space id size = (sp, .error x) → Step h s { s with space := sp }
  | point (s : Proc) (q p r) : (q, r) ∈ s.live → r.fin.base ≤ p → p < r.fin.base + r.fin.size →
      Step h s { s with live := (p, r) :: s.live }
  | drop (s : Proc) (x) : Step h s { s with live := s.live.erase x }
  | collect (s : Proc) (r) : r ∈ s.regions → (∀ x ∈ s.live, ¬ In x.1 r.fin) →
      Step h s { s with space := unmap h s.space r.fin, regions := s.regions.erase r }

/-- Processes that can be reached from one that has mapped nothing. -/
inductive Reachable (h : Host) : Proc → Prop
  | init : Reachable h ⟨fun _ => .anon, [], []⟩
  | step (s t) : Reachable h s → Step h s t → Reachable h t

/-- The page belongs to the region. -/
def Covers (h : Host) (r : Region) (q : Nat) : Prop :=
  r.fin.base / h.page ≤ q ∧ q < r.fin.base / h.page + r.fin.size / h.page

instance (h : Host) (r : Region) (q : Nat) : Decidable (Covers h r q) := by unfold Covers; infer_instance

structure Inv (h : Host) (s : Proc) : Prop where
  wf : ∀ r ∈ s.regions, r.fin.base % h.page = 0 ∧ r.fin.size % h.page = 0 ∧ 0 < r.fin.size ∧ r.fin.alloc ≤ r.fin.base ∧
    r.fin.base + r.fin.size ≤ r.fin.alloc + r.fin.n
  disj : s.regions.Pairwise fun a b => a.fin.alloc + a.fin.n ≤ b.fin.alloc ∨ b.fin.alloc + b.fin.n ≤ a.fin.alloc
  mapped : ∀ r ∈ s.regions, ∀ q, Covers h r q → s.space q = .map r.id (q - r.fin.base / h.page) r.writable
  rest : ∀ q, (∀ r ∈ s.regions, ¬ Covers h r q) → s.space q = .anon
  live : ∀ x ∈ s.live, x.2 ∈ s.regions ∧ x.2.fin.base ≤ x.1 ∧ x.1 < x.2.fin.base + x.2.fin.size

theorem covers_addr (h : Host) (hp : 0 < h.page) (r : Region) (q : Nat) (hb : r.fin.base % h.page = 0) (hs : r.fin.size % h.page = 0) :
    Covers h r q ↔ r.fin.base ≤ q * h.page ∧ q * h.page < r.fin.base + r.fin.size :=
  (mem_pages h.page _ _ q hp hb hs).symm

theorem covers_disj (h : Host) (hp : 0 < h.page) (a b : Region) (q : Nat)
    (ha : a.fin.base % h.page = 0 ∧ a.fin.size % h.page = 0 ∧ 0 < a.fin.size ∧ a.fin.alloc ≤ a.fin.base ∧
      a.fin.base + a.fin.size ≤ a.fin.alloc + a.fin.n)
    (hb : b.fin.base % h.page = 0 ∧ b.fin.size % h.page = 0 ∧ 0 < b.fin.size ∧ b.fin.alloc ≤ b.fin.base ∧
      b.fin.base + b.fin.size ≤ b.fin.alloc + b.fin.n)
    (d : a.fin.alloc + a.fin.n ≤ b.fin.alloc ∨ b.fin.alloc + b.fin.n ≤ a.fin.alloc) (ca : Covers h a q) : ¬ Covers h b q := by
  rw [covers_addr h hp a q ha.1 ha.2.1] at ca
  rw [covers_addr h hp b q hb.1 hb.2.1]
  omega

theorem inv_step (h : Host) (hp : 0 < h.page) (s t : Proc) (i : Inv h s) (st : Step h s t) : Inv h t := by
  cases st with
  | new mv heap k id size sp m f hk e hd =>
    obtain ⟨_, hz, hsz, hm, hfs, _, hb, ha1, ha2, _, _, hs'⟩ := newUnsafeMemory_ok h hp mv heap k s.space sp id size m f e
    have wr : ∀ r ∈ (⟨f, id, !m.ro⟩ : Region) :: s.regions, r.fin.base % h.page = 0 ∧ r.fin.size % h.page = 0 ∧ 0 < r.fin.size ∧
        r.fin.alloc ≤ r.fin.base ∧ r.fin.base + r.fin.size ≤ r.fin.alloc + r.fin.n := by
      intro r hr
      rcases List.mem_cons.mp hr with rfl | hr
      · exact ⟨hb, by rw [hfs]; exact hsz, by rw [hfs]; exact hz, ha1, by rw [hfs]; exact ha2⟩
      · exact i.wf r hr
    have hc : ∀ q, Covers h ⟨f, id, !m.ro⟩ q ↔ (f.base / h.page ≤ q ∧ q < f.base / h.page + size / h.page) := by
      intro q; simp only [Covers, hfs]
    refine ⟨wr, ?_, ?_, ?_, ?_⟩
    · refine List.pairwise_cons.mpr ⟨?_, i.disj⟩
      intro r hr
      exact (hd r hr).symm
    · intro r hr q hq
      rcases List.mem_cons.mp hr with rfl | hr
      · show sp q = _
        rw [hs' q, if_pos ((hc q).mp hq)]
      · show sp q = _
        rw [hs' q, if_neg]
        · exact i.mapped r hr q hq
        · rw [← hc q]
          exact covers_disj h hp r _ q (i.wf r hr) (wr _ List.mem_cons_self) (hd r hr) hq
    · intro q hq
      show sp q = _
      rw [hs' q, if_neg (by rw [← hc q]; exact hq _ List.mem_cons_self)]
      exact i.rest q fun r hr => hq r (List.mem_cons_of_mem _ hr)
    · intro x hx
      rcases List.mem_cons.mp hx with rfl | hx
      · refine ⟨List.mem_cons_self, Nat.le_refl _, ?_⟩
        show f.base < f.base + f.size
        omega
      · exact ⟨List.mem_cons_of_mem _ (i.live x hx).1, (i.live x hx).2⟩
  | fail mv heap k id size sp x hk e =>
    have := newUnsafeMemory_fails h mv heap k hk s.space sp id size x e
    subst this
    exact i
  | point q p r hq h1 h2 =>
    refine ⟨i.wf, i.disj, i.mapped, i.rest, ?_⟩
    intro x hx
    rcases List.mem_cons.mp hx with rfl | hx
    · exact ⟨(i.live _ hq).1, h1, h2⟩
    · exact i.live x hx
  | drop x =>
    exact ⟨i.wf, i.disj, i.mapped, i.rest, fun y hy => i.live y (List.mem_of_mem_erase hy)⟩
  | collect r hr hn =>
    have hw := i.wf r hr
    have hu : ∀ q, unmap h s.space r.fin q = if Covers h r q then .anon else s.space q := by
      intro q
      unfold unmap setPages
      by_cases hc : Covers h r q
      · rw [if_pos hc, if_pos ((covers_addr h hp r q hw.1 hw.2.1).mp hc)]
      · rw [if_neg hc, if_neg (fun x => hc ((covers_addr h hp r q hw.1 hw.2.1).mpr x))]
    have hsub : ∀ a ∈ s.regions.erase r, a ∈ s.regions := fun a ha => List.mem_of_mem_erase ha
    have hne : ∀ a ∈ s.regions.erase r, r.fin.alloc + r.fin.n ≤ a.fin.alloc ∨ a.fin.alloc + a.fin.n ≤ r.fin.alloc := by
      intro a ha
      have hpw : (r :: s.regions.erase r).Pairwise
          fun a b : Region => a.fin.alloc + a.fin.n ≤ b.fin.alloc ∨ b.fin.alloc + b.fin.n ≤ a.fin.alloc :=
        (List.Perm.pairwise_iff (fun {_ _} h => h.symm) (List.perm_cons_erase hr)).mp i.disj
      exact (List.pairwise_cons.mp hpw).1 a ha
    refine ⟨fun a ha => i.wf a (hsub a ha), List.Pairwise.sublist List.erase_sublist i.disj, ?_, ?_, ?_⟩
    · intro a ha q hq
      show unmap h s.space r.fin q = _
      rw [hu q, if_neg (covers_disj h hp a r q (i.wf a (hsub a ha)) hw (hne a ha).symm hq)]
      exact i.mapped a (hsub a ha) q hq
    · intro q hq
      show unmap h s.space r.fin q = _
      rw [hu q]
      by_cases hc : Covers h r q
      · rw [if_pos hc]
      · rw [if_neg hc]
        refine i.rest q ?_
        intro a ha
        by_cases har : a = r
        · rw [har]; exact hc
        · exact hq a ((List.mem_erase_of_ne har).mpr ha)
    · intro x hx
      obtain ⟨l1, l2, l3⟩ := i.live x hx
      refine ⟨?_, l2, l3⟩
      refine (List.mem_erase_of_ne ?_).mpr l1
      intro e
      refine hn x hx ?_
      have := i.wf x.2 l1
      rw [← e]
      exact ⟨by omega, by omega⟩

theorem reachable_inv (h : Host) (hp : 0 < h.page) (s : Proc) (r : Reachable h s) : Inv h s := by
  induction r with
  | init => exact ⟨by simp, List.Pairwise.nil, by simp, by simp, by simp⟩
  | step s t _ st ih => exact inv_step h hp s t ih st

/-- **Pointers stay good, and the heap stays whole** (on kernels where a refused mapping has no effect; see `refused_mapping_tears_heap`).
In every history of mapping maps, taking pointers to variables, dropping them and collecting: whoever holds a pointer
into the memory of a map finds that page of that map there; and every other page of the process, all of the Go heap included, is what it
was. -/
theorem memory_safe_partial (h : Host) (hp : 0 < h.page) (s : Proc) (r : Reachable h s) :
    (∀ p g, (p, g) ∈ s.live → g ∈ s.regions ∧
      s.space (p / h.page) = .map g.id ((p - g.fin.base) / h.page) g.writable) ∧
    (∀ q, (∀ g ∈ s.regions, ∀ a, g.fin.base ≤ a → a < g.fin.base + g.fin.size → a / h.page ≠ q) → s.space q = .anon) := by
  have i := reachable_inv h hp s r
  refine ⟨?_, ?_⟩
  · intro p g hg
    obtain ⟨l1, l2, l3⟩ := i.live _ hg
    dsimp only at l1 l2 l3
    obtain ⟨w1, w2, w3, _, _⟩ := i.wf g l1
    have hbd : g.fin.base = h.page * (g.fin.base / h.page) := by have := Nat.div_add_mod g.fin.base h.page; omega
    have hsd : g.fin.size = h.page * (g.fin.size / h.page) := by have := Nat.div_add_mod g.fin.size h.page; omega
    have hpd : p / h.page = g.fin.base / h.page + (p - g.fin.base) / h.page := by
      have : p = h.page * (g.fin.base / h.page) + (p - g.fin.base) := by omega
      conv => lhs; rw [this]
      rw [Nat.mul_add_div hp]
    have hlt : (p - g.fin.base) / h.page < g.fin.size / h.page := by
      rw [Nat.div_lt_iff_lt_mul hp, Nat.mul_comm, ← hsd]; omega
    refine ⟨l1, ?_⟩
    rw [i.mapped g l1 (p / h.page) (by rw [hpd]; exact ⟨Nat.le_add_right _ _, Nat.add_lt_add_left hlt _⟩), hpd,
      Nat.add_sub_cancel_left]
  · intro q hq
    refine i.rest q ?_
    intro g hg hc
    obtain ⟨w1, w2, w3, _, _⟩ := i.wf g hg
    have := (covers_addr h hp g q w1 w2).mp hc
    exact hq g hg (q * h.page) this.1 this.2 (Nat.mul_div_cancel q hp)

/-- **A refused mapping tears the heap.** Linux removes what is mapped before it asks the map whether it may be mapped. If the map
refuses for another reason than being read-only (it has special fields; there is no memory), newUnsafeMemory returns the error, no finalizer
repairs the pages, and the slice goes back to the runtime with nothing mapped behind it. -/
theorem refused_mapping_tears_heap (h : Host) (hp : 0 < h.page) (heap : Nat → Nat) (k : Kernel) (hk : k.hole = true) (e : Nat)
    (hr : k.rw = some e) (he : e ≠ EPERM ∧ e ≠ EACCES) (s : Space) (id size : Nat) (hs : size % h.page = 0) (hz : 0 < size) :
    ∃ s' a, newUnsafeMemory h false heap k s id size = (s', .error (.mmap e)) ∧
      a = heap (size + h.page) ∧ ∃ q, a ≤ q * h.page ∧ q * h.page + h.page ≤ a + (size + h.page) ∧ s' q = .hole := by
  cases ha : allocate h false heap size with
  | error x =>
    have : size ≠ 0 := by omega
    simp [allocate, this] at ha
  | ok r =>
    obtain ⟨a, n, base⟩ := r
    obtain ⟨h1, h2, _, h4, h5, h6⟩ := allocate_ok h hp false heap size a n base hs ha
    refine ⟨setPages h s base size (fun _ => .hole), a, ?_, by rw [h1, h2], base / h.page, ?_⟩
    · unfold newUnsafeMemory
      rw [if_neg (by simpa using hs), ha]
      simp only [mapmap, mmapFixed, h4, hr, hk, ne_eq, not_true_eq_false, if_false, if_true]
      rw [if_neg (by simpa using he)]
    · have hbd : base / h.page * h.page = base := by
        have := Nat.div_add_mod base h.page; rw [Nat.mul_comm]; omega
      have hge : h.page ≤ size := by
        have := Nat.div_add_mod size h.page
        have hq : 0 < size / h.page := by
          rcases Nat.eq_zero_or_pos (size / h.page) with x | x
          · rw [x] at this; omega
          · exact x
        have := Nat.mul_le_mul_left h.page hq
        omega
      refine ⟨by omega, by omega, ?_⟩
      simp only [setPages, hbd]
      rw [if_pos ⟨Nat.le_refl _, by omega⟩]

/-- **On a 32-bit big-endian host a *uintptr to a 64-bit variable reads zero**: the exception for uintptr lets it point to the four bytes that
are the upper half there, so the value of the variable, if it fits a uintptr, is never seen. -/
theorem uintptr_upper_half (ps : Nat) (m : Mem) (base : Nat) (hb : m.base = some base) (hr : m.ro = false) (hh : m.heap = true)
    (hl : m.len < 2 ^ 32) (off : BitVec 32) (ha : off.toNat % 4 = 0) (hi : off.toNat + 8 ≤ m.len) (x : Nat) (hx : x < 2 ^ 32)
    (bytes : List Nat) (be : bytes = [x / 256 ^ 7 % 256, x / 256 ^ 6 % 256, x / 256 ^ 5 % 256, x / 256 ^ 4 % 256,
      x / 256 ^ 3 % 256, x / 256 ^ 2 % 256, x / 256 % 256, x % 256]) :
    variablePointer ⟨ps, 4⟩ ⟨off, 8, some m⟩ (.basic .uintptr) = .ok (base + off.toNat) ∧
      bytes.take (sizeOf' ⟨ps, 4⟩ (.basic .uintptr)) = [0, 0, 0, 0] := by
  refine ⟨?_, ?_⟩
  · have hk : checkUnsafeMemory ⟨ps, 4⟩ m (.basic .uintptr) off = none := by
      unfold checkUnsafeMemory
      rw [if_neg (by simp [hb]), if_neg (by simp [hr]), if_neg (by simp [hh]), if_neg (by simp [checkType, okKind]),
        if_neg (by simp [sizeOf', basicSize]), if_neg (by simp [alignOf, basicSize, ha]), if_neg]
      simp only [Bool.not_eq_true, Bool.not_eq_false']
      exact bounds_of_le m _ _ hl (by simp [sizeOf', basicSize]; omega)
    simp [variablePointer, checkVariable, Var.readOnly, hr, memoryPointer, hk, hb]
  · subst be
    simp only [sizeOf', basicSize, List.take_succ_cons, List.take_zero]
    have h1 : x / 256 ^ 7 = 0 := Nat.div_eq_of_lt (by omega)
    have h2 : x / 256 ^ 6 = 0 := Nat.div_eq_of_lt (by omega)
    have h3 : x / 256 ^ 5 = 0 := Nat.div_eq_of_lt (by omega)
    have h4 : x / 256 ^ 4 = 0 := Nat.div_eq_of_lt (by omega)
    rw [h1, h2, h3, h4]

/-! ## Access without pointers -/

/-- All references. -/
def allRefs : List Ref := [.var, .mem]

theorem mem_allRefs (r : Ref) : r ∈ allRefs := by cases r <;> decide

/-- A process in which all mappings exist. -/
def exampleWorld : KeepAlive.World Ref := ⟨fun | .var => 0 | .mem => 1, fun | .var => 10 | .mem => 11⟩

theorem example_starts (b : KeepAlive.Body Ref) : KeepAlive.Starts exampleWorld b
    ⟨b, fun n => if n = 0 then some 10 else some 11, fun _ => False⟩ where
  body := rfl
  opened d := by cases d <;> rfl
  fresh _ h := h
  inj d e h := by cases d <;> cases e <;> simp_all [exampleWorld]

theorem never_wrong (held : Ref → Bool) (b : KeepAlive.Body Ref)
    (h : ∀ d, KeepAlive.exposedB points held allRefs b d = false) : KeepAlive.NeverWrong points held b := by
  intro d w f hh
  refine KeepAlive.hands_right (fun hx => ?_) hh
  rw [KeepAlive.exposedAt_iff mem_allRefs, h d] at hx
  cases hx

/-- Reading and writing a Variable never touches memory that has been unmapped, even if this is the last use of the variable. -/
theorem variable_access_safe :
    KeepAlive.NeverWrong points (fun _ => false) varGet ∧ KeepAlive.NeverWrong points (fun _ => false) varSet := by
  refine ⟨never_wrong _ _ ?_, never_wrong _ _ ?_⟩ <;> intro d <;> cases d <;> decide

/-- Nor does reading and writing a Memory, as long as the caller uses it later. -/
theorem memory_access_safe_partial :
    KeepAlive.NeverWrong points (fun r => r == .mem) readAt ∧ KeepAlive.NeverWrong points (fun r => r == .mem) writeAt := by
  refine ⟨never_wrong _ _ ?_, never_wrong _ _ ?_⟩ <;> intro d <;> cases d <;> decide

/-- **If it is the last use, the collector may unmap the memory under ReadAt and WriteAt**: anything, or nothing, may be mapped there when the
bytes are copied. -/
theorem memory_access_unmapped (f : Option Nat) :
    (∃ w, KeepAlive.Hands points (fun _ => false) readAt .mem w f) ∧ ∃ w, KeepAlive.Hands points (fun _ => false) writeAt .mem w f :=
  ⟨⟨exampleWorld, KeepAlive.hands_any ((KeepAlive.exposedAt_iff mem_allRefs _ _).mpr (by decide)) f _ (example_starts _)⟩,
   ⟨exampleWorld, KeepAlive.hands_any ((KeepAlive.exposedAt_iff mem_allRefs _ _).mpr (by decide)) f _ (example_starts _)⟩⟩

/-! ## Examples -/

/-- A struct { _ structs.HostLayout; A uint32; B [3]uint16; C atomic.Uint64 }. -/
def exampleType : GoType :=
  .struct "main" "T" [.struct "structs" "HostLayout" [], .basic .uint32, .array 3 (.basic .uint16),
    .struct "sync/atomic" "Uint64" [.struct "sync/atomic" "noCopy" [], .struct "sync/atomic" "align64" [], .basic .uint64]]

theorem example_layout : checkType exampleType = true ∧ sizeOf' ⟨4096, 8⟩ exampleType = 24 ∧ alignOf ⟨4096, 8⟩ exampleType = 8 := by
  refine ⟨by decide +kernel, ?_, ?_⟩ <;> simp [exampleType, sizeOf', fieldsEnd, alignOf, basicSize, align]

example : checkType (.struct "main" "T" [.struct "main" "HostLayout" [], .basic .uint32]) = false ∧
    checkType (.struct "main" "T" [.struct "structs" "HostLayout" [], .basic .ref]) = false ∧
    checkType (.struct "sync/atomic" "Value" [.basic .ref]) = false := by decide +kernel

/-- Mapping two pages, and a pointer to a variable in the second. -/
example : ∃ s m f, newUnsafeMemory ⟨4096, 8⟩ false (fun _ => 0xc000001230) ⟨none, none, true⟩ (fun _ => .anon) 7 8192 = (s, .ok (m, f)) ∧
    f = ⟨0xc000001230, 12288, 0xc000002000, 8192⟩ ∧
    variablePointer ⟨4096, 8⟩ ⟨4104, 24, some m⟩ exampleType = .ok (0xc000002000 + 4104) := by
  refine ⟨_, _, _, rfl, rfl, ?_⟩
  obtain ⟨h1, h2, h3⟩ := example_layout
  exact variablePointer_complete _ _ _ _ _ rfl rfl rfl rfl (by decide) ((checkType_iff _).mp h1) (by rw [h2]; decide) (by rw [h2]; rfl)
    (by rw [h3]; rfl) (by rw [h2]; decide)

end Ebpf.UnsafeMemory
