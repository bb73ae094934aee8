import Verif.Spec.KernelBtf
/-!
# Proofs about where BTF comes from (C107)
-/
namespace Ebpf.KernelBtf

open Spec

/-! ## Last elements -/

theorem last_cons_skip {α : Type} {p : α → Prop} {x y : α} {l : List α} (h : ¬ p x) : Last (x :: l) p y ↔ Last l p y := by
  constructor
  · rintro ⟨a, b, h1, h2, h3⟩
    cases a with
    | nil => obtain ⟨rfl, _⟩ := List.cons.inj h1; exact absurd h2 h
    | cons z a => exact ⟨a, b, (List.cons.inj h1).2, h2, h3⟩
  · rintro ⟨a, b, h1, h2, h3⟩
    exact ⟨x :: a, b, by rw [h1]; rfl, h2, h3⟩

theorem last_cons_hit {α : Type} {p : α → Prop} {x y : α} {l : List α} (h : p x) : Last (x :: l) p y ↔ Last l p y ∨ (y = x ∧ ∀ z ∈ l, ¬ p z) := by
  constructor
  · rintro ⟨a, b, h1, h2, h3⟩
    cases a with
    | nil => obtain ⟨rfl, rfl⟩ := List.cons.inj h1; exact Or.inr ⟨rfl, h3⟩
    | cons z a => exact Or.inl ⟨a, b, (List.cons.inj h1).2, h2, h3⟩
  · rintro (⟨a, b, h1, h2, h3⟩ | ⟨rfl, h1⟩)
    · exact ⟨x :: a, b, by rw [h1]; rfl, h2, h3⟩
    · exact ⟨[], l, rfl, h, h1⟩

theorem not_last {α : Type} {p : α → Prop} {l : List α} (h : ∀ z ∈ l, ¬ p z) {y : α} : ¬ Last l p y := by
  rintro ⟨a, b, h1, h2, _⟩
  exact h y (by rw [h1]; simp) h2

theorem last_or_none {α : Type} (p : α → Prop) (l : List α) : (∃ y, Last l p y) ∨ ∀ z ∈ l, ¬ p z := by
  induction l with
  | nil => exact Or.inr (by intro z hz; cases hz)
  | cons x l ih =>
    by_cases h : p x
    · rcases ih with ⟨y, hy⟩ | hn
      · exact Or.inl ⟨y, (last_cons_hit h).mpr (Or.inl hy)⟩
      · exact Or.inl ⟨x, (last_cons_hit h).mpr (Or.inr ⟨rfl, hn⟩)⟩
    · rcases ih with ⟨y, hy⟩ | hn
      · exact Or.inl ⟨y, (last_cons_skip h).mpr hy⟩
      · refine Or.inr ?_
        intro z hz
        rcases List.mem_cons.mp hz with rfl | hz
        · exact h
        · exact hn z hz

theorem last_unique {α : Type} {p : α → Prop} {l : List α} {x y : α} (hx : Last l p x) (hy : Last l p y) : x = y := by
  induction l with
  | nil => obtain ⟨a, b, h, _⟩ := hx; cases a <;> cases h
  | cons z l ih =>
    by_cases h : p z
    · rcases (last_cons_hit h).mp hx with h1 | ⟨rfl, h1⟩
      · rcases (last_cons_hit h).mp hy with h2 | ⟨rfl, h2⟩
        · exact ih h1 h2
        · exact absurd h1 (not_last h2)
      · rcases (last_cons_hit h).mp hy with h2 | ⟨rfl, h2⟩
        · exact absurd h2 (not_last h1)
        · rfl
    · exact ih ((last_cons_skip h).mp hx) ((last_cons_skip h).mp hy)

/-! ## Symbols -/

theorem setWidth_small {v : BitVec 64} (h : v.toNat < 2 ^ 32) : (v.setWidth 32).toNat = v.toNat := by
  rw [BitVec.toNat_setWidth]; omega

/-- The map has the last symbols of the list, and what there was before otherwise. -/
def Adds (e : Elf) (l : List Sym) (m m' : Name → Name → Option (BitVec 32)) : Prop :=
  ∀ sec n v, m' sec n = some v ↔ (∃ s, Last l (At e sec n) s ∧ v.toNat = s.value.toNat) ∨ ((∀ s ∈ l, ¬ At e sec n s) ∧ m sec n = some v)

theorem adds_skip {e : Elf} {x : Sym} {l : List Sym} {m m' : Name → Name → Option (BitVec 32)} (h : ¬ Counts x) : Adds e (x :: l) m m' ↔ Adds e l m m' := by
  have hx : ∀ sec n, ¬ At e sec n x := fun sec n hc => h hc.1
  unfold Adds
  constructor
  · intro h1 sec n v
    rw [h1, List.forall_mem_cons]
    simp [last_cons_skip (hx sec n), hx]
  · intro h1 sec n v
    rw [h1, List.forall_mem_cons]
    simp [last_cons_skip (hx sec n), hx]

theorem adds_hit {e : Elf} {x : Sym} {l : List Sym} {m m' : Name → Name → Option (BitVec 32)} (h : Counts x) {y : Sec} (hy : e.sections[x.sec.toNat]? = some y) :
    Adds e (x :: l) m m' ↔ Adds e l (setOffset m y.name x.name (x.value.setWidth 32)) m' := by
  have key : ∀ sec n v, ((∃ s, Last (x :: l) (At e sec n) s ∧ v.toNat = s.value.toNat) ∨ ((∀ s ∈ x :: l, ¬ At e sec n s) ∧ m sec n = some v)) ↔
      ((∃ s, Last l (At e sec n) s ∧ v.toNat = s.value.toNat) ∨ ((∀ s ∈ l, ¬ At e sec n s) ∧ setOffset m y.name x.name (x.value.setWidth 32) sec n = some v)) := by
    intro sec n v
    unfold setOffset
    by_cases hk : sec = y.name ∧ n = x.name
    · have hA : At e sec n x := ⟨h, hk.2.symm, y, hy, hk.1.symm⟩
      rw [if_pos hk]
      constructor
      · rintro (⟨s, h1, h2⟩ | ⟨h1, _⟩)
        · rcases (last_cons_hit hA).mp h1 with h3 | ⟨rfl, h3⟩
          · exact Or.inl ⟨s, h3, h2⟩
          · refine Or.inr ⟨h3, ?_⟩
            rw [BitVec.eq_of_toNat_eq (x := s.value.setWidth 32) (y := v) (by rw [setWidth_small h.2, h2])]
        · exact absurd hA (h1 x List.mem_cons_self)
      · rintro (⟨s, h1, h2⟩ | ⟨h1, h2⟩)
        · exact Or.inl ⟨s, (last_cons_hit hA).mpr (Or.inl h1), h2⟩
        · refine Or.inl ⟨x, (last_cons_hit hA).mpr (Or.inr ⟨rfl, h1⟩), ?_⟩
          rw [← Option.some.inj h2, setWidth_small h.2]
    · have hA : ¬ At e sec n x := by
        rintro ⟨_, h2, z, h3, h4⟩
        rw [hy] at h3
        cases h3
        exact hk ⟨h4.symm, h2.symm⟩
      rw [if_neg hk]
      simp only [last_cons_skip hA, List.forall_mem_cons]
      simp [hA]
  unfold Adds
  exact ⟨fun h1 sec n v => (h1 sec n v).trans (key sec n v), fun h1 sec n v => (h1 sec n v).trans (key sec n v).symm⟩

theorem adds_unique {e : Elf} {l : List Sym} {m m1 m2 : Name → Name → Option (BitVec 32)} (h1 : Adds e l m m1) (h2 : Adds e l m m2) : m1 = m2 := by
  funext sec n
  cases h : m1 sec n with
  | some v => exact ((h2 sec n v).mpr ((h1 sec n v).mp h)).symm
  | none =>
    cases h' : m2 sec n with
    | none => rfl
    | some v => rw [(h1 sec n v).mpr ((h2 sec n v).mp h')] at h; cases h

theorem addSymbols_iff {e : Elf} {l : List Sym} {m m' : Name → Name → Option (BitVec 32)} :
    addSymbols e.sections l m = .ok m' ↔ (∀ y ∈ l, Counts y → y.sec.toNat < e.sections.length) ∧ Adds e l m m' := by
  induction l generalizing m with
  | nil =>
    rw [addSymbols]
    have hself : Adds e [] m m := fun sec n v =>
      ⟨fun h => Or.inr ⟨(by intro s hs; cases hs), h⟩, fun h => by
        rcases h with ⟨s, ⟨a, b, h, _⟩, _⟩ | h
        · cases a <;> cases h
        · exact h.2⟩
    constructor
    · intro h; cases h
      exact ⟨(by intro y hy; cases hy), hself⟩
    · rintro ⟨_, h⟩
      rw [adds_unique h hself]
  | cons x l ih =>
    rw [addSymbols, List.forall_mem_cons]
    have hb := x.sec.isLt
    by_cases hc : Counts x
    · obtain ⟨c1, c2⟩ := hc
      unfold addSymbol
      rw [if_neg (by omega), if_neg (by omega)]
      cases hs : e.sections[x.sec.toNat]? with
      | none =>
        simp only
        have := List.getElem?_eq_none_iff.mp hs
        constructor
        · intro h; cases h
        · rintro ⟨⟨h, _⟩, _⟩
          have := h ⟨c1, c2⟩
          omega
      | some y =>
        simp only
        rw [ih, adds_hit ⟨c1, c2⟩ hs]
        have hlt : x.sec.toNat < e.sections.length := by
          obtain ⟨h, _⟩ := List.getElem?_eq_some_iff.mp hs
          exact h
        simp [hlt]
    · rw [adds_skip hc]
      have hg : addSymbol e.sections x m = .ok m := by
        unfold addSymbol
        by_cases h1 : 0xff00 ≤ x.sec.toNat ∧ x.sec.toNat ≤ 0xffff
        · rw [if_pos h1]
        · rw [if_neg h1, if_pos]
          have : ¬ (x.sec.toNat < 0xff00 ∧ x.value.toNat < 2 ^ 32) := hc
          omega
      rw [hg]
      simp only
      rw [ih]
      simp [hc]

theorem adds_none {e : Elf} {l : List Sym} {m : Name → Name → Option (BitVec 32)} : Adds e l (fun _ _ => none) m ↔ OffsetsOf e l m := by
  unfold Adds OffsetsOf
  simp

/-! ## Sections -/

/-- The sizes of the last sections of the list, or else those of before. -/
def Sizes (l : List Sec) (m m' : Name → Option (BitVec 32)) : Prop :=
  ∀ n v, m' n = some v ↔ (∃ s, Last l (fun s => s.name = n ∧ Sized s) s ∧ v.toNat = s.size.toNat) ∨ ((∀ s ∈ l, ¬ (s.name = n ∧ Sized s)) ∧ m n = some v)

theorem sizes_skip {x : Sec} {l : List Sec} {m m' : Name → Option (BitVec 32)} (h : ¬ Sized x) : Sizes (x :: l) m m' ↔ Sizes l m m' := by
  have hx : ∀ n, ¬ (x.name = n ∧ Sized x) := fun n hc => h hc.2
  unfold Sizes
  constructor
  · intro h1 n v
    rw [h1, List.forall_mem_cons]
    simp [last_cons_skip (p := fun s => s.name = n ∧ Sized s) (hx n), h]
  · intro h1 n v
    rw [h1, List.forall_mem_cons]
    simp [last_cons_skip (p := fun s => s.name = n ∧ Sized s) (hx n), h]

theorem sizes_hit {x : Sec} {l : List Sec} {m m' : Name → Option (BitVec 32)} (h : Sized x) (hs : x.size.toNat < 2 ^ 32) :
    Sizes (x :: l) m m' ↔ Sizes l (setSize m x.name (x.size.setWidth 32)) m' := by
  have key : ∀ n v, ((∃ s, Last (x :: l) (fun s => s.name = n ∧ Sized s) s ∧ v.toNat = s.size.toNat) ∨ ((∀ s ∈ x :: l, ¬ (s.name = n ∧ Sized s)) ∧ m n = some v)) ↔
      ((∃ s, Last l (fun s => s.name = n ∧ Sized s) s ∧ v.toNat = s.size.toNat) ∨
        ((∀ s ∈ l, ¬ (s.name = n ∧ Sized s)) ∧ setSize m x.name (x.size.setWidth 32) n = some v)) := by
    intro n v
    unfold setSize
    by_cases hk : n = x.name
    · have hA : x.name = n ∧ Sized x := ⟨hk.symm, h⟩
      rw [if_pos hk]
      constructor
      · rintro (⟨s, h1, h2⟩ | ⟨h1, _⟩)
        · rcases (last_cons_hit (p := fun s => s.name = n ∧ Sized s) hA).mp h1 with h3 | ⟨rfl, h3⟩
          · exact Or.inl ⟨s, h3, h2⟩
          · refine Or.inr ⟨h3, ?_⟩
            rw [BitVec.eq_of_toNat_eq (x := s.size.setWidth 32) (y := v) (by rw [setWidth_small hs, h2])]
        · exact absurd hA (h1 x List.mem_cons_self)
      · rintro (⟨s, h1, h2⟩ | ⟨h1, h2⟩)
        · exact Or.inl ⟨s, (last_cons_hit (p := fun s => s.name = n ∧ Sized s) hA).mpr (Or.inl h1), h2⟩
        · refine Or.inl ⟨x, (last_cons_hit (p := fun s => s.name = n ∧ Sized s) hA).mpr (Or.inr ⟨rfl, h1⟩), ?_⟩
          rw [← Option.some.inj h2, setWidth_small hs]
    · have hA : ¬ (x.name = n ∧ Sized x) := fun hc => hk hc.1.symm
      rw [if_neg hk]
      simp only [last_cons_skip (p := fun s => s.name = n ∧ Sized s) hA, List.forall_mem_cons]
      simp [show ¬ x.name = n from fun hc => hk hc.symm]
  unfold Sizes
  exact ⟨fun h1 n v => (h1 n v).trans (key n v), fun h1 n v => (h1 n v).trans (key n v).symm⟩

theorem sizes_unique {l : List Sec} {m m1 m2 : Name → Option (BitVec 32)} (h1 : Sizes l m m1) (h2 : Sizes l m m2) : m1 = m2 := by
  funext n
  cases h : m1 n with
  | some v => exact ((h2 n v).mpr ((h1 n v).mp h)).symm
  | none =>
    cases h' : m2 n with
    | none => rfl
    | some v => rw [(h1 n v).mpr ((h2 n v).mp h')] at h; cases h

/-- The last section with BTF, or else what there was before. -/
def BtfOr (l : List Sec) (d b : Option Sec) : Prop :=
  (∃ s, Last l (fun x => x.name = ".BTF".toList) s ∧ b = some s) ∨ ((∀ x ∈ l, x.name ≠ ".BTF".toList) ∧ b = d)

theorem scan_iff {l : List Sec} {d b : Option Sec} {m m' : Name → Option (BitVec 32)} :
    scanSections l d m = .ok (b, m') ↔ (∀ x ∈ l, Sized x → x.size.toNat < 2 ^ 32) ∧ BtfOr l d b ∧ Sizes l m m' := by
  induction l generalizing d m with
  | nil =>
    rw [scanSections]
    have hself : Sizes [] m m := fun n v =>
      ⟨fun h => Or.inr ⟨(by intro s hs; cases hs), h⟩, fun h => by
        rcases h with ⟨s, ⟨a, b, h, _⟩, _⟩ | h
        · cases a <;> cases h
        · exact h.2⟩
    constructor
    · intro h; cases h
      exact ⟨(by intro y hy; cases hy), Or.inr ⟨(by intro y hy; cases hy), rfl⟩, hself⟩
    · rintro ⟨_, h1, h2⟩
      rcases h1 with ⟨s, ⟨a, b, h, _⟩, _⟩ | ⟨_, rfl⟩
      · cases a <;> cases h
      · rw [sizes_unique h2 hself]
  | cons x l ih =>
    rw [scanSections, List.forall_mem_cons]
    by_cases hn : x.name = ".BTF".toList
    · have hz : ¬ Sized x := fun h => h.1 hn
      rw [if_pos hn, ih, sizes_skip hz]
      have : BtfOr (x :: l) d b ↔ BtfOr l (some x) b := by
        unfold BtfOr
        constructor
        · rintro (⟨s, h1, h2⟩ | ⟨h1, h2⟩)
          · rcases (last_cons_hit (p := fun x : Sec => x.name = ".BTF".toList) hn).mp h1 with h3 | ⟨rfl, h3⟩
            · exact Or.inl ⟨s, h3, h2⟩
            · exact Or.inr ⟨h3, h2⟩
          · exact absurd hn (h1 x List.mem_cons_self)
        · rintro (⟨s, h1, h2⟩ | ⟨h1, h2⟩)
          · exact Or.inl ⟨s, (last_cons_hit (p := fun x : Sec => x.name = ".BTF".toList) hn).mpr (Or.inl h1), h2⟩
          · exact Or.inl ⟨x, (last_cons_hit (p := fun x : Sec => x.name = ".BTF".toList) hn).mpr (Or.inr ⟨rfl, h1⟩), h2⟩
      rw [this]
      simp [hz]
    · have hb : BtfOr (x :: l) d b ↔ BtfOr l d b := by
        unfold BtfOr
        rw [List.forall_mem_cons]
        simp only [last_cons_skip (p := fun x : Sec => x.name = ".BTF".toList) hn, ne_eq, hn, not_false_eq_true, true_and]
      rw [if_neg hn, hb]
      by_cases hz : Sized x
      · rw [if_neg (fun hc => by rcases hz.2 with h | h; exact hc.1 h; exact hc.2 h)]
        by_cases hs : x.size.toNat < 2 ^ 32
        · rw [if_neg (by omega), ih, sizes_hit hz hs]
          simp [hs]
        · rw [if_pos (by omega)]
          constructor
          · intro h; cases h
          · rintro ⟨⟨h, _⟩, _⟩
            exact absurd (h hz) hs
      · rw [if_pos (by
          constructor
          · exact fun h => hz ⟨hn, Or.inl h⟩
          · exact fun h => hz ⟨hn, Or.inr h⟩), ih, sizes_skip hz]
        simp [hz]

theorem sizes_none {e : Elf} {m : Name → Option (BitVec 32)} : Sizes e.sections (fun _ => none) m ↔ SizesOf e m := by
  unfold Sizes SizesOf
  simp

theorem scan_error {l : List Sec} {d : Option Sec} {m : Name → Option (BitVec 32)} {err : Err} (h : scanSections l d m = .error err) : err = .sectionSize := by
  induction l generalizing d m with
  | nil => cases h
  | cons x l ih =>
    rw [scanSections] at h
    split at h
    · exact ih h
    · split at h
      · exact ih h
      · split at h
        · cases h; rfl
        · exact ih h

theorem scan_total (l : List Sec) (d : Option Sec) (m : Name → Option (BitVec 32)) (h : ∀ x ∈ l, Sized x → x.size.toNat < 2 ^ 32) : ∃ b m', scanSections l d m = .ok (b, m') := by
  cases hs : scanSections l d m with
  | ok r => exact ⟨r.1, r.2, rfl⟩
  | error err =>
    exfalso
    induction l generalizing d m with
    | nil => cases hs
    | cons x l ih =>
      rw [List.forall_mem_cons] at h
      rw [scanSections] at hs
      split at hs
      · exact ih _ _ h.2 hs
      · rename_i hn
        split at hs
        · exact ih _ _ h.2 hs
        · rename_i hz
          split at hs
          · rename_i hb
            have : Sized x := by
              refine ⟨hn, ?_⟩
              cases ht : x.typ
              · exact Or.inl rfl
              · exact Or.inr rfl
              · exact absurd ⟨by rw [ht]; decide, by rw [ht]; decide⟩ hz
            have := h.1 this
            omega
          · exact ih _ _ h.2 hs

/-! ## The claims: files -/

/-- BTF is loaded from an ELF exactly if the sizes of its sections fit, it has a section with BTF of its byte order that can be read, and a symbol table whose
symbols are in sections it has; it is that of the last section of the name, with the sizes of sections and the offsets of symbols. -/
theorem elf_exact (env : Env) (e : Elf) (s : Spec) : loadSpecFromELF env e = .ok s ↔ ElfSpec env e s := by
  unfold loadSpecFromELF ElfSpec
  constructor
  · intro h
    split at h
    · cases h
    · cases h
    · rename_i btf sizes hs
      obtain ⟨h1, h2, h3⟩ := scan_iff.mp hs
      split at h
      · cases h
      · rename_i offsets ho
        split at h
        · cases h
        · rename_i raw hr
          split at h
          · cases h
          · rename_i big hb
            split at h
            · cases h
            · rename_i hbig
              cases h
              have hbig' : big = e.big := by
                cases big <;> cases he : e.big <;> simp_all
              refine ⟨h1, ?_, by rw [hb, hbig'], rfl, ?_⟩
              · rcases h2 with ⟨x, hx, he⟩ | ⟨_, h2⟩
                · cases he; exact ⟨_, hx, hr⟩
                · cases h2
              · unfold symbolOffsets at ho
                cases hl : e.symbols with
                | none => rw [hl] at ho; cases ho
                | some l =>
                  rw [hl] at ho
                  obtain ⟨g1, g2⟩ := addSymbols_iff.mp ho
                  exact ⟨l, ⟨sizes, offsets⟩, rfl, g1, rfl, sizes_none.mp h3, adds_none.mp g2⟩
  · rintro ⟨h1, ⟨b, hb, hr⟩, hd, hbase, l, d, hl, hc, helf, hs, ho⟩
    have e1 : scanSections e.sections none (fun _ => none) = .ok (some b, d.sizes) := scan_iff.mpr ⟨h1, Or.inl ⟨b, hb, rfl⟩, sizes_none.mpr hs⟩
    have e2 : symbolOffsets e = .ok d.offsets := by
      unfold symbolOffsets
      rw [hl]
      exact addSymbols_iff.mpr ⟨hc, adds_none.mpr ho⟩
    simp only [e1, e2, hr, hd]
    rw [if_neg (by simp)]
    obtain ⟨raw, base, elf⟩ := s
    simp only at hbase helf
    rw [hbase, helf]

/-- The error for an ELF without BTF is that it wasn't found, and this is its only cause. -/
theorem not_found_iff (env : Env) (e : Elf) : loadSpecFromELF env e = .error .notFound ↔
    (∀ x ∈ e.sections, x.name ≠ ".BTF".toList) ∧ ∀ x ∈ e.sections, Sized x → x.size.toNat < 2 ^ 32 := by
  unfold loadSpecFromELF
  constructor
  · intro h
    split at h
    · rename_i err he
      have := scan_error he
      rw [this] at h
      cases h
    · rename_i m hs
      obtain ⟨h1, h2, h3⟩ := scan_iff.mp hs
      rcases h2 with ⟨x, _, he⟩ | ⟨h2, _⟩
      · cases he
      · exact ⟨h2, h1⟩
    · split at h
      · rename_i err he
        cases h
        unfold symbolOffsets at he
        split at he
        · cases he
        · rename_i l _
          exfalso
          have key : ∀ (l : List Sym) m, addSymbols e.sections l m ≠ .error .notFound := by
            intro l
            induction l with
            | nil => intro m h; cases h
            | cons x l ih =>
              intro m h
              rw [addSymbols] at h
              split at h
              · rename_i e' he'
                cases h
                unfold addSymbol at he'
                split at he'
                · cases he'
                · split at he'
                  · cases he'
                  · split at he' <;> cases he'
              · exact ih _ h
          exact key l _ he
      · split at h
        · cases h
        · split at h
          · cases h
          · split at h <;> cases h
  · rintro ⟨h1, h2⟩
    obtain ⟨b, m, hs⟩ := scan_total e.sections none (fun _ => none) h2
    obtain ⟨_, h3, _⟩ := scan_iff.mp hs
    rcases h3 with ⟨x, ⟨a, c, hx, hn, _⟩, _⟩ | ⟨_, rfl⟩
    · exact absurd hn (h1 x (by rw [hx]; simp))
    · rw [hs]

theorem raw_ok {env : Env} {raw : Bytes} {base : Option Bytes} {s : Spec} : loadRawSpec env raw base = .ok s ↔ s = ⟨raw, base, none⟩ ∧ ∃ o, env.decode raw base = some o := by
  unfold loadRawSpec
  cases h : env.decode raw base with
  | none => simp
  | some o => simp [eq_comm]

/-- What is loaded from a file. -/
theorem file_exact (env : Env) (f : File) (s : Spec) : loadSpecFromReader env f = .ok s ↔ FileSpec env f s := by
  unfold loadSpecFromReader FileSpec
  cases he : env.elf f.content with
  | some e =>
    simp only
    rw [elf_exact]
    constructor
    · intro h; exact Or.inl ⟨e, rfl, h⟩
    · rintro (⟨e', h1, h2⟩ | ⟨h1, _⟩)
      · cases h1; exact h2
      · cases h1
  | none =>
    simp only
    constructor
    · intro h
      split at h
      · rename_i hr
        obtain ⟨rfl, h2⟩ := raw_ok.mp h
        exact Or.inr ⟨trivial, hr, rfl, rfl, rfl, h2⟩
      · cases h
    · rintro (⟨e', h1, _⟩ | ⟨_, hr, h1, h2, h3, h4⟩)
      · cases h1
      · rw [if_pos hr]
        obtain ⟨raw, base, elf⟩ := s
        simp only at h1 h2 h3
        subst h1 h2 h3
        exact raw_ok.mpr ⟨rfl, h4⟩

/-! ## The claims: the kernel -/

theorem vmlinux_own : vmlinux = Own := by
  unfold vmlinux Own
  decide

theorem locations_places (r : Name) : locations r = Places r := by
  unfold locations Places
  have e1 : "/usr/lib/debug/boot".toList ++ "/vmlinux-".toList = "/usr/lib/debug/boot/vmlinux-".toList := by decide
  have e2 : "/usr/lib/debug/lib".toList ++ "/modules/".toList = "/usr/lib/debug/lib/modules/".toList := by decide
  rw [e1, e2]

/-- If the kernel has BTF of its own, this is what is loaded, whether or not it can be mapped. -/
theorem kernel_own (env : Env) (f : File) (h : env.fopen Own = .ok f) (s : Spec) : (loadKernelSpec env).1 = .ok s ↔
    f.statOk = true ∧ (f.mmapOk = true ∨ f.readOk = true) ∧ s = ⟨f.content, none, none⟩ ∧ ∃ o, env.decode f.content none = some o := by
  unfold loadKernelSpec
  rw [vmlinux_own, h]
  simp only
  unfold loadSys
  cases hs : f.statOk with
  | false => simp
  | true =>
    simp only [Bool.not_true, Bool.false_eq_true, if_false, true_and]
    cases hm : f.mmapOk with
    | false =>
      simp only [Bool.not_false, if_true, Bool.false_eq_true, false_or]
      unfold loadSplitSpecFromReader
      cases hr : f.readOk with
      | false => simp
      | true => simp only [if_true, raw_ok, true_and]
    | true =>
      simp only [Bool.not_true, Bool.false_eq_true, if_false, true_or, true_and]
      rw [← raw_ok]
      cases loadRawSpec env f.content none <;> rfl

theorem firstOf_ok {env : Env} {l : List Name} {p : Name} {f : File} : firstOf env l = .ok (p, f) ↔ First env l p ∧ env.fopen p = .ok f := by
  unfold First
  induction l with
  | nil =>
    rw [firstOf]
    constructor
    · intro h; cases h
    · rintro ⟨⟨a, b, h, _⟩, _⟩; cases a <;> cases h
  | cons q l ih =>
    rw [firstOf]
    constructor
    · intro h
      split at h
      · rename_i hq
        obtain ⟨⟨a, b, h1, h2, h3⟩, h4⟩ := ih.mp h
        refine ⟨⟨q :: a, b, by rw [h1]; rfl, ?_, h3⟩, h4⟩
        intro x hx
        rcases List.mem_cons.mp hx with rfl | hx
        · exact hq
        · exact h2 x hx
      · cases h
      · rename_i f' hq
        cases h
        exact ⟨⟨[], l, rfl, (by intro x hx; cases hx), by rw [hq]; intro hc; cases hc⟩, hq⟩
    · rintro ⟨⟨a, b, h1, h2, h3⟩, h4⟩
      cases a with
      | nil =>
        obtain ⟨rfl, rfl⟩ := List.cons.inj h1
        rw [h4]
      | cons x a =>
        obtain ⟨rfl, h1'⟩ := List.cons.inj h1
        rw [h2 q List.mem_cons_self]
        exact ih.mpr ⟨⟨a, b, h1', fun y hy => h2 y (List.mem_cons_of_mem _ hy), h3⟩, h4⟩

theorem firstOf_none {env : Env} {l : List Name} : firstOf env l = .error .notSupported ↔ ∀ p ∈ l, env.fopen p = .error .notExist := by
  induction l with
  | nil => simp [firstOf]
  | cons q l ih =>
    rw [firstOf, List.forall_mem_cons]
    cases hq : env.fopen q with
    | ok f => simp
    | error e =>
      cases e with
      | notExist => simp [ih]
      | other => simp

/-- Otherwise it is that of the first vmlinux that exists. -/
theorem kernel_found (env : Env) (e : OpenErr) (h : env.fopen Own = .error e) (s : Spec) : (loadKernelSpec env).1 = .ok s ↔
    ∃ r p f, env.release = some r ∧ First env (Places r) p ∧ env.fopen p = .ok f ∧ FileSpec env f s := by
  unfold loadKernelSpec
  rw [vmlinux_own, h]
  simp only
  unfold findVMLinux
  cases hr : env.release with
  | none => simp
  | some r =>
    simp only
    rw [locations_places]
    constructor
    · intro h
      split at h
      · cases h
      · rename_i p f hf
        obtain ⟨h1, h2⟩ := firstOf_ok.mp hf
        exact ⟨r, p, f, rfl, h1, h2, (file_exact env f s).mp h⟩
    · rintro ⟨r', p, f, h1, h2, h3, h4⟩
      cases h1
      rw [firstOf_ok.mpr ⟨h2, h3⟩]
      exact (file_exact env f s).mpr h4

theorem reader_supported (env : Env) (f : File) : loadSpecFromReader env f ≠ .error .notSupported := by
  unfold loadSpecFromReader
  split
  · split
    · unfold loadRawSpec
      split <;> (intro h; cases h)
    · intro h; cases h
  · rename_i e _
    intro h
    unfold loadSpecFromELF at h
    split at h
    · rename_i err he
      rw [scan_error he] at h
      cases h
    · cases h
    · split at h
      · rename_i err he
        cases h
        unfold symbolOffsets at he
        split at he
        · cases he
        · rename_i l _
          have key : ∀ (l : List Sym) m, addSymbols e.sections l m ≠ .error .notSupported := by
            intro l
            induction l with
            | nil => intro m h; cases h
            | cons x l ih =>
              intro m h
              rw [addSymbols] at h
              split at h
              · rename_i e' he'
                cases h
                unfold addSymbol at he'
                split at he'
                · cases he'
                · split at he'
                  · cases he'
                  · split at he' <;> cases he'
              · exact ih _ h
          exact key l _ he
      · split at h
        · cases h
        · split at h
          · cases h
          · split at h <;> cases h

theorem sys_supported (env : Env) (f : File) : (loadSys env f).1 ≠ .error .notSupported := by
  have hraw : ∀ raw base, loadRawSpec env raw base ≠ .error .notSupported := by
    intro raw base
    unfold loadRawSpec
    split <;> (intro h; cases h)
  unfold loadSys
  split
  · intro h; cases h
  · split
    · unfold loadSplitSpecFromReader
      split
      · exact hraw _ _
      · intro h; cases h
    · split
      · rename_i e he
        intro h
        cases h
        exact hraw _ _ he
      · intro h; cases h

/-- BTF is not supported, says the error, exactly if the kernel has none of its own and no vmlinux exists.

Partial: it is documented to be the error whenever BTF is not enabled; see `disabled_not_found`. -/
theorem kernel_not_supported_partial (env : Env) : (loadKernelSpec env).1 = .error .notSupported ↔
    (∃ e, env.fopen Own = .error e) ∧ ∃ r, env.release = some r ∧ ∀ p ∈ Places r, env.fopen p = .error .notExist := by
  unfold loadKernelSpec
  rw [vmlinux_own]
  cases ho : env.fopen Own with
  | ok f =>
    simp only
    constructor
    · intro h; exact absurd h (sys_supported env f)
    · rintro ⟨⟨e, h⟩, _⟩; cases h
  | error e =>
    simp only
    unfold findVMLinux
    cases hr : env.release with
    | none => simp
    | some r =>
      simp only
      rw [locations_places]
      constructor
      · intro h
        refine ⟨⟨e, rfl⟩, r, rfl, ?_⟩
        split at h
        · rename_i err he
          cases h
          exact firstOf_none.mp he
        · exact absurd h (reader_supported env _)
      · rintro ⟨_, r', h1, h2⟩
        cases h1
        rw [firstOf_none.mpr h2]

/-- **Counterexample.** It is documented that the error is ErrNotSupported if BTF isn't enabled. On such a kernel, with its vmlinux in /boot, it isn't. -/
theorem disabled_not_found : ∃ env : Env, env.fopen Own = .error .notExist ∧ (∀ raw base, env.decode raw base = none) ∧ (loadKernelSpec env).1 = .error .notFound := by
  refine ⟨⟨fun p => if p = "/boot/vmlinux-6".toList then .ok ⟨true, true, true, []⟩ else .error .notExist, some "6".toList,
    fun _ => some ⟨false, [⟨".text".toList, .progbits, 16#64, some []⟩], some []⟩, fun _ _ => none⟩, ?_, fun _ _ => rfl, ?_⟩
  · unfold Own
    rfl
  · rfl

/-- A vmlinux that may not be read hides the others. -/
theorem unreadable_hides (env : Env) (e : OpenErr) (h : env.fopen Own = .error e) (r : Name) (hr : env.release = some r) (p : Name) (hp : First env (Places r) p)
    (hx : env.fopen p = .error .other) : (loadKernelSpec env).1 = .error (.opening .other) := by
  unfold loadKernelSpec
  rw [vmlinux_own, h]
  simp only
  unfold findVMLinux
  rw [hr]
  simp only
  rw [locations_places]
  obtain ⟨a, b, h1, h2, h3⟩ := hp
  rw [h1]
  clear h1
  induction a with
  | nil => rw [List.nil_append, firstOf, hx]
  | cons q a ih =>
    rw [List.cons_append, firstOf, h2 q List.mem_cons_self]
    exact ih (fun y hy => h2 y (List.mem_cons_of_mem _ hy))

/-! ## The claims: descriptors and mappings -/

theorem tidy_one (p : Name) : Tidy [.opened p, .closed p] := .file p [] [] .nil .nil

theorem tidy_append {t u : List Ev} (h : Tidy t) (h' : Tidy u) : Tidy (t ++ u) := by
  induction h with
  | nil => exact h'
  | file p a b _ _ _ ih =>
    have : (Ev.opened p :: a ++ .closed p :: b) ++ u = .opened p :: a ++ .closed p :: (b ++ u) := by simp
    rw [this]
    exact .file p a (b ++ u) (by assumption) ih
  | freed a _ ih => exact .freed (a ++ u) ih
  | kept a _ ih => exact .kept (a ++ u) ih

/-- Files are closed, and a mapping is undone unless a spec needs it. -/
theorem kernel_tidy (env : Env) : Tidy (loadKernelSpec env).2 ∧ (Ev.owned ∈ (loadKernelSpec env).2 → ∃ s, (loadKernelSpec env).1 = .ok s) := by
  unfold loadKernelSpec
  cases ho : env.fopen vmlinux with
  | ok f =>
    simp only
    unfold loadSys
    split
    · exact ⟨.file _ [] [] .nil .nil, by simp⟩
    · split
      · exact ⟨.file _ [] [] .nil .nil, by simp⟩
      · split
        · exact ⟨.file _ [.mapped, .unmapped] [] (.freed [] .nil) .nil, by simp⟩
        · rename_i s hs
          exact ⟨.file _ [.mapped, .owned] [] (.kept [] .nil) .nil, fun _ => ⟨s, rfl⟩⟩
  | error e =>
    simp only
    split
    · exact ⟨.nil, by simp⟩
    · exact ⟨tidy_one _, by simp⟩

theorem module_tidy_base (env : Env) (n : Name) (b : Bytes) : Tidy (loadKernelModuleSpec env n b).2 := by
  unfold loadKernelModuleSpec
  split
  · exact .nil
  · split
    · exact .nil
    · exact tidy_one _

theorem module_tidy (env : Env) (n : Name) : Tidy (loadModule env n).2 := by
  unfold loadModule
  split
  · rename_i e t h
    have := (kernel_tidy env).1
    rw [h] at this
    exact this
  · rename_i b t h
    have := (kernel_tidy env).1
    rw [h] at this
    exact tidy_append this (module_tidy_base _ _ _)

/-! ## The claims: modules -/

/-- The directory of the modules' BTF. -/
theorem modulePath_eq (n : Name) : modulePath n = "/sys/kernel/btf".toList ++ (if n = [] then [] else '/' :: n) := by
  unfold modulePath
  have : "/sys/kernel".toList ++ "/btf".toList = "/sys/kernel/btf".toList := by decide
  rw [this]

theorem bad_name {n : Name} : (hasDir n || hasExt n) = true ↔ '/' ∈ n ∨ '.' ∈ n := by
  unfold hasDir hasExt
  simp

/-- BTF of a module is that of the file of its name, based on the kernel's. -/
theorem module_exact (env : Env) (n : Name) (s : Spec) : (loadModule env n).1 = .ok s ↔
    '/' ∉ n ∧ '.' ∉ n ∧ ∃ k f o, (loadKernelSpec env).1 = .ok k ∧ env.fopen ("/sys/kernel/btf".toList ++ (if n = [] then [] else '/' :: n)) = .ok f ∧
      f.readOk = true ∧ env.decode f.content (some k.raw) = some o ∧ s = ⟨f.content, some k.raw, none⟩ := by
  unfold loadModule
  rw [← modulePath_eq]
  cases hk : loadKernelSpec env with
  | mk r t =>
    cases r with
    | error e => simp
    | ok k =>
      simp only
      unfold loadKernelModuleSpec
      by_cases hb : (hasDir n || hasExt n) = true
      · rw [if_pos hb]
        have hb' := bad_name.mp hb
        constructor
        · intro h; cases h
        · rintro ⟨h1, h2, _⟩
          rcases hb' with h | h
          · exact absurd h h1
          · exact absurd h h2
      · rw [if_neg hb]
        have hb' : '/' ∉ n ∧ '.' ∉ n := by
          constructor
          · exact fun h => hb (bad_name.mpr (Or.inl h))
          · exact fun h => hb (bad_name.mpr (Or.inr h))
        cases hf : env.fopen (modulePath n) with
        | error e => simp
        | ok f =>
          simp only
          unfold loadSplitSpecFromReader
          constructor
          · intro h
            split at h
            · rename_i hr
              obtain ⟨h1, o, h2⟩ := raw_ok.mp h
              exact ⟨hb'.1, hb'.2, k, f, o, rfl, rfl, hr, h2, h1⟩
            · cases h
          · rintro ⟨_, _, k', f', o, h1, h2, h3, h4, h5⟩
            cases h1
            cases h2
            rw [if_pos h3]
            exact raw_ok.mpr ⟨h5, o, h4⟩

/-- Whatever the name, no file outside the directory is opened. -/
theorem module_inside (env : Env) (n : Name) (b : Bytes) (p : Name) (h : Ev.opened p ∈ (loadKernelModuleSpec env n b).2) :
    p = "/sys/kernel/btf".toList ∨ ∃ m, p = "/sys/kernel/btf/".toList ++ m ∧ m ≠ [] ∧ '/' ∉ m ∧ m ≠ ['.'] ∧ m ≠ ['.', '.'] := by
  unfold loadKernelModuleSpec at h
  split at h
  · cases h
  · rename_i hb
    split at h
    · cases h
    · simp only [List.mem_cons, Ev.opened.injEq, reduceCtorEq, List.not_mem_nil, or_false] at h
      rw [h, modulePath_eq]
      by_cases hn : n = []
      · rw [if_pos hn, List.append_nil]
        exact Or.inl rfl
      · rw [if_neg hn]
        refine Or.inr ⟨n, ?_, hn, fun h => hb (bad_name.mpr (Or.inl h)), ?_, ?_⟩
        · have : "/sys/kernel/btf/".toList = "/sys/kernel/btf".toList ++ ['/'] := by decide
          rw [this, List.append_assoc]
          rfl
        · rintro rfl; exact hb (by decide)
        · rintro rfl; exact hb (by decide)

theorem sortedNames_of_pairwise {l : List Name} (h : l.Pairwise (fun a b => nameLe a b = true)) : SortedNames l := by
  induction l with
  | nil => exact trivial
  | cons a l ih =>
    obtain ⟨h1, h2⟩ := List.pairwise_cons.mp h
    exact ⟨fun b hb => of_decide_eq_true (h1 b hb), ih h2⟩

theorem listed_spec (l : List Name) : SortedNames (listed l) ∧ (listed l).Perm (l.filter (fun s => s ≠ "vmlinux".toList)) := by
  refine ⟨sortedNames_of_pairwise ?_, List.mergeSort_perm _ _⟩
  refine List.pairwise_mergeSort ?_ ?_ _
  · intro a b c h1 h2
    exact decide_eq_true (List.le_trans (of_decide_eq_true h1) (of_decide_eq_true h2))
  · intro a b
    unfold nameLe
    rcases List.le_total a b with h | h
    · simp [h]
    · simp [h]

theorem calls_cached (l : List Name) (ds : List (Except Err (List Name))) : calls (some l) ds = ds.map (fun _ => .ok l) := by
  induction ds with
  | nil => rfl
  | cons d ds ih => rw [calls, List.map_cons]; exact congrArg _ ih

/-- The list of modules is that of the first time the directory could be read, sorted, without the kernel itself; it is never read again. Errors aren't
remembered. -/
theorem modules_history (errs : List Err) (l : List Name) (rest : List (Except Err (List Name))) : ∃ m, SortedNames m ∧
    m.Perm (l.filter (fun s => s ≠ "vmlinux".toList)) ∧
    calls none (errs.map .error ++ .ok l :: rest) = errs.map .error ++ .ok m :: rest.map (fun _ => .ok m) := by
  refine ⟨listed l, (listed_spec l).1, (listed_spec l).2, ?_⟩
  induction errs with
  | nil =>
    rw [List.map_nil, List.nil_append, List.nil_append, calls]
    exact congrArg _ (calls_cached _ _)
  | cons e errs ih =>
    rw [List.map_cons, List.cons_append, List.cons_append, calls]
    exact congrArg _ ih

theorem modules_errors (errs : List Err) : calls none (errs.map .error) = errs.map .error := by
  induction errs with
  | nil => rfl
  | cons e errs ih => rw [List.map_cons, calls]; exact congrArg _ ih

/-! ## An environment -/

/-- A kernel with BTF and a module. -/
def example1 : Env where
  fopen p := if p = Own then .ok ⟨true, false, true, [1#8]⟩ else if p = "/sys/kernel/btf/nf".toList then .ok ⟨true, true, true, [2#8]⟩ else .error .notExist
  release := some "6".toList
  elf _ := none
  decode _ _ := some false

example : (loadModule example1 "nf".toList).1 = .ok ⟨[2#8], some [1#8], none⟩ := by rfl

example : (loadModule example1 "../boot/x".toList).1 = .error .name := by rfl

/-- A kernel without, whose vmlinux has. -/
def example2 : Env where
  fopen p := if p = "/lib/modules/6/build/vmlinux".toList then .ok ⟨true, true, true, [1#8]⟩ else .error .notExist
  release := some "6".toList
  elf _ := some ⟨false, [⟨[], .other, 0#64, none⟩, ⟨".BTF".toList, .progbits, 1#64, some [7#8]⟩, ⟨".data".toList, .nobits, 32#64, none⟩],
    some [⟨"x".toList, 2#16, 8#64⟩, ⟨"abs".toList, 0xfff1#16, 8#64⟩, ⟨"far".toList, 2#16, 0xffffffff81000000#64⟩]⟩
  decode _ _ := some false

example : ∃ s, (loadKernelSpec example2).1 = .ok s ∧ s.raw = [7#8] ∧ (s.elf.map fun d => (d.sizes ".data".toList, d.offsets ".data".toList "x".toList, d.offsets ".data".toList "far".toList)) =
    some (some 32#32, some 8#32, none) := ⟨_, rfl, rfl, by decide⟩

example : First example2 (Places "6".toList) "/lib/modules/6/build/vmlinux".toList :=
  ⟨["/boot/vmlinux-6".toList, "/lib/modules/6/vmlinux-6".toList], Places "6".toList |>.drop 3, rfl, (by
    intro q hq
    rcases List.mem_cons.mp hq with rfl | hq
    · rfl
    · rcases List.mem_cons.mp hq with rfl | hq
      · rfl
      · cases hq), (by intro h; cases h)⟩

end Ebpf.KernelBtf
